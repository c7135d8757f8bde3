import Mathlib.Tactic.FieldSimp
import Mathlib.Tactic.Linarith
import Mathlib.Tactic.Positivity
import Mathlib.Analysis.Real.Pi.Bounds
import Verif.Model.EndPlate
import Verif.Props.Bolt
import Verif.Spec.EndPlate

/-!
Properties C97-C109: column web components, T-stubs, bolt rows, groups of bolt rows and end-plate joints.
-/
namespace Metku.Bolts

open Real EndPlateSpec

set_option linter.unusedSectionVars false

/-! ### C97: column web in tension and compression -/

theorem coeff_tension_mono {k l l' : ℝ} (hk : 0 ≤ k) (hl : 0 ≤ l) (h : l < l') : l / √(1 + k * l ^ 2) < l' / √(1 + k * l' ^ 2) := by
  have p : 0 < 1 + k * l ^ 2 := by positivity
  have p' : 0 < 1 + k * l' ^ 2 := by positivity
  rw [div_lt_div_iff₀ (Real.sqrt_pos.2 p) (Real.sqrt_pos.2 p')]
  have hl' : 0 < l' := lt_of_le_of_lt hl h
  apply lt_of_pow_lt_pow_left₀ 2 (by positivity)
  rw [mul_pow, mul_pow, Real.sq_sqrt p.le, Real.sq_sqrt p'.le]
  nlinarith [mul_pos (sub_pos.2 h) (by linarith : 0 < l + l')]

/-- Normal form of the web in tension for transformation parameters from 0 to 1. -/
theorem tension_form (c : Sec) {β : ℝ} (h0 : 0 ≤ β) (h1 : β ≤ 1) : ∃ q : ℝ, 0 ≤ q ∧ q ≤ 1 ∧ (β = 1 → q = 1) ∧ ∀ l, 
    colWebTension c l β = (q * (l / √(1 + 13 / 10 * (c.tw / c.Av) ^ 2 * l ^ 2)) + (1 - q) * l) * c.tw * c.fy := by
  have e : ∀ l : ℝ, 13 / 10 * (l * c.tw / c.Av) ^ 2 = 13 / 10 * (c.tw / c.Av) ^ 2 * l ^ 2 := fun l => by ring
  by_cases h : β ≤ 1 / 2
  · refine ⟨0, le_refl _, zero_le_one, fun h' => by linarith, fun l => ?_⟩
    simp only [colWebTension, coeffW, gammaM0, h0, h, and_self, if_true]
    ring
  · refine ⟨1 - 2 * (1 - β), by linarith, by linarith, fun h' => by rw [h']; ring, fun l => ?_⟩
    rcases eq_or_lt_of_le h1 with rfl | h2
    · simp only [colWebTension, coeffW, gammaM0, e]
      norm_num
      left
      left
      rw [inv_mul_eq_div]
    · simp only [colWebTension, coeffW, gammaM0, e, h, h2, not_le.1 h, and_false, and_true, if_false, if_true]
      ring

/-- **C97 (part), tension.** For transformation parameters from 0 to 1 the column web in tension never carries more than its effective width at yield, carries more the longer the effective length and not more the larger the
transformation parameter; at parameter 1 it never reaches the fraction `1/√1.3` of the shear area at yield, however long the effective length. -/
theorem C97_tension_partial {c : Sec} (ht : 0 < c.tw) (hf : 0 < c.fy) (hA : 0 < c.Av) :
    (∀ β l, 0 ≤ β → β ≤ 1 ∨ β = 2 → 0 < l → 0 < colWebTension c l β ∧ colWebTension c l β ≤ l * c.tw * c.fy) ∧
      (∀ β l l', 0 ≤ β → β ≤ 1 → 0 ≤ l → l < l' → colWebTension c l β < colWebTension c l' β) ∧
      (∀ β β' l, 0 ≤ β → β ≤ β' → β' ≤ 1 → 0 ≤ l → colWebTension c l β' ≤ colWebTension c l β) ∧
      ∀ l, 0 ≤ l → colWebTension c l 1 < c.Av * c.fy / √1.3 := by
  refine ⟨fun β l h0 h hl => ?_, fun β l l' h0 h1 hl hll => ?_, fun β β' l h0 h h1 hl => ?_, fun l hl => ?_⟩
  · obtain ⟨_, p, q⟩ := (C96_partial l c.tw c.Av).1 β h0 h
    have hb : 0 < l * c.tw * c.fy := by positivity
    have e : colWebTension c l β = coeffW β l c.tw c.Av * (l * c.tw * c.fy) := by simp only [colWebTension, gammaM0]; ring
    rw [e]
    exact ⟨by positivity, by nlinarith⟩
  · obtain ⟨q, q0, q1, _, e⟩ := tension_form c h0 h1
    rw [e, e]
    have hm := coeff_tension_mono (k := 13 / 10 * (c.tw / c.Av) ^ 2) (by positivity) hl hll
    have : q * (l / √(1 + 13 / 10 * (c.tw / c.Av) ^ 2 * l ^ 2)) + (1 - q) * l < q * (l' / √(1 + 13 / 10 * (c.tw / c.Av) ^ 2 * l' ^ 2)) + (1 - q) * l' := by
      rcases eq_or_lt_of_le q0 with h' | h'
      · rw [← h']; linarith
      · nlinarith [mul_lt_mul_of_pos_left hm h', mul_nonneg (sub_nonneg.2 q1) (sub_nonneg.2 hll.le)]
    nlinarith [mul_pos ht hf]
  · have := (C96_partial l c.tw c.Av).2.1 β β' h0 h h1
    have e : ∀ β, colWebTension c l β = coeffW β l c.tw c.Av * (l * c.tw * c.fy) := fun β => by simp only [colWebTension, gammaM0]; ring
    rw [e, e]
    exact mul_le_mul_of_nonneg_right this (by positivity)
  · obtain ⟨q, _, _, q1, e⟩ := tension_form c (zero_le_one) (le_refl (1 : ℝ))
    rw [e, q1 rfl]
    have p : 0 < 1 + 13 / 10 * (c.tw / c.Av) ^ 2 * l ^ 2 := by positivity
    have key : l * c.tw * √1.3 < c.Av * √(1 + 13 / 10 * (c.tw / c.Av) ^ 2 * l ^ 2) := by
      apply lt_of_pow_lt_pow_left₀ 2 (by positivity)
      rw [mul_pow, mul_pow c.Av, Real.sq_sqrt p.le, Real.sq_sqrt (by norm_num)]
      have : c.Av ^ 2 * (1 + 13 / 10 * (c.tw / c.Av) ^ 2 * l ^ 2) = c.Av ^ 2 + 13 / 10 * (l * c.tw) ^ 2 := by field_simp
      rw [this]
      nlinarith [mul_pos hA hA]
    rw [lt_div_iff₀ (Real.sqrt_pos.2 (by norm_num))]
    have : (1 * (l / √(1 + 13 / 10 * (c.tw / c.Av) ^ 2 * l ^ 2)) + (1 - 1) * l) * c.tw * c.fy * √1.3 = l * c.tw * √1.3 / √(1 + 13 / 10 * (c.tw / c.Av) ^ 2 * l ^ 2) * c.fy := by ring
    rw [this]
    apply mul_lt_mul_of_pos_right _ hf
    rw [div_lt_iff₀ (Real.sqrt_pos.2 p)]
    exact key

/-- **C97 (part), compression.** The column web in compression carries at most its effective width at yield, is positive for compressive stresses below 1.7 times yield, and does not grow with the stress in the column and,
from 0 to 1, with the transformation parameter. -/
theorem C97_compression_partial {c b : Sec} {tp ebottom ap : ℝ} (ht : 0 < c.tw) (hf : 0 < c.fy) (hb : 0 < beffComp c b tp ebottom ap) :
    (∀ β σ, 0 ≤ β → β ≤ 1 ∨ β = 2 → σ < 1.7 * c.fy →
        0 < colWebComp c b tp ebottom ap β σ ∧ colWebComp c b tp ebottom ap β σ ≤ beffComp c b tp ebottom ap * c.tw * c.fy) ∧
      (∀ β σ σ', 0 ≤ β → β ≤ 1 ∨ β = 2 → σ ≤ σ' → σ' < 1.7 * c.fy → colWebComp c b tp ebottom ap β σ' ≤ colWebComp c b tp ebottom ap β σ) ∧
      ∀ β β' σ, 0 ≤ β → β ≤ β' → β' ≤ 1 → σ < 1.7 * c.fy → colWebComp c b tp ebottom ap β' σ ≤ colWebComp c b tp ebottom ap β σ := by
  have hρ : 0 < webRho (932 / 1000 * √(beffComp c b tp ebottom ap * c.hw * c.fy / (c.E * c.tw ^ 2))) := by
    unfold webRho
    split_ifs with h
    · norm_num
    · have : 0 < 932 / 1000 * √(beffComp c b tp ebottom ap * c.hw * c.fy / (c.E * c.tw ^ 2)) - 2 / 10 := by linarith [not_le.1 h]
      have h2 : 0 < 932 / 1000 * √(beffComp c b tp ebottom ap * c.hw * c.fy / (c.E * c.tw ^ 2)) := by linarith
      positivity
  generalize hB : beffComp c b tp ebottom ap = B at hb hρ ⊢
  generalize hR : webRho (932 / 1000 * √(B * c.hw * c.fy / (c.E * c.tw ^ 2))) = ρ at hρ
  have e : ∀ β σ, 0 ≤ coeffW β B c.tw c.Av → 0 ≤ webKwc σ c.fy →
      colWebComp c b tp ebottom ap β σ = coeffW β B c.tw c.Av * webKwc σ c.fy * (B * c.tw * c.fy * min 1 ρ) := fun β σ h1 h2 => by
    simp only [colWebComp, gammaM0, gammaM1, div_one, hB, hR]
    rw [mul_min_of_nonneg _ _ (by positivity : 0 ≤ B * c.tw * c.fy), mul_min_of_nonneg _ _ (mul_nonneg h1 h2)]
    congr 1 <;> ring
  have hk : ∀ σ, σ < 1.7 * c.fy → 0 < webKwc σ c.fy ∧ webKwc σ c.fy ≤ 1 := fun σ h => by
    unfold webKwc
    split_ifs with h'
    · exact ⟨one_pos, le_refl _⟩
    · have h1 : σ / c.fy < 17 / 10 := by rw [div_lt_iff₀ hf]; norm_num at h; linarith
      have h2 : 7 / 10 ≤ σ / c.fy := by rw [le_div_iff₀ hf]; linarith [not_le.1 h']
      exact ⟨by linarith, by linarith⟩
  have hkm : ∀ σ σ', σ ≤ σ' → webKwc σ' c.fy ≤ webKwc σ c.fy := fun σ σ' h => by
    unfold webKwc
    split_ifs with h1 h2 h2
    · exact le_refl _
    · linarith
    · have : 7 / 10 ≤ σ' / c.fy := by rw [le_div_iff₀ hf]; linarith [not_le.1 h1]
      linarith
    · have : σ / c.fy ≤ σ' / c.fy := by gcongr
      linarith
  have hm : 0 < min 1 ρ := lt_min one_pos hρ
  have hm1 : min 1 ρ ≤ 1 := min_le_left _ _
  have hF : 0 < B * c.tw * c.fy := by positivity
  refine ⟨fun β σ h0 h hσ => ?_, fun β σ σ' h0 h hσ hσ' => ?_, fun β β' σ h0 h h1 hσ => ?_⟩
  · obtain ⟨_, p, q⟩ := (C96_partial B c.tw c.Av).1 β h0 h
    obtain ⟨k0, k1⟩ := hk σ hσ
    rw [e β σ p.le k0.le]
    refine ⟨by positivity, ?_⟩
    calc coeffW β B c.tw c.Av * webKwc σ c.fy * (B * c.tw * c.fy * min 1 ρ) ≤ 1 * 1 * (B * c.tw * c.fy * 1) := by gcongr
      _ = _ := by ring
  · obtain ⟨_, p, q⟩ := (C96_partial B c.tw c.Av).1 β h0 h
    have k' := (hk σ' hσ').1
    have k := (hk σ (lt_of_le_of_lt hσ hσ')).1
    rw [e β σ p.le k.le, e β σ' p.le k'.le]
    have := hkm σ σ' hσ
    gcongr
  · obtain ⟨_, p, _⟩ := (C96_partial B c.tw c.Av).1 β h0 (Or.inl (h.trans h1))
    obtain ⟨_, p', _⟩ := (C96_partial B c.tw c.Av).1 β' (h0.trans h) (Or.inl h1)
    have k := (hk σ hσ).1
    rw [e β σ p.le k.le, e β' σ p'.le k.le]
    have := (C96_partial B c.tw c.Av).2.1 β β' h0 h h1
    gcongr

/-- **C97 (part), rule.** For transformation parameters from 0 to 1 and for 2 the column web in compression is that of 6.2.6.2 of EN 1993-1-8 with the effective width (6.11), the buckling factor (6.13) and the factor (6.14). -/
theorem C97_rule_partial {c b : Sec} {tp ebottom ap β σ : ℝ} (ht : 0 < c.tw) (hf : 0 < c.fy) (hb : 0 < beffComp c b tp ebottom ap) (h0 : 0 ≤ β) (h : β ≤ 1 ∨ β = 2) (hσ : σ < 1.7 * c.fy) :
    let B := compressionWidth b.tf ap c.tf c.r tp (tp + ebottom - √2 * ap)
    colWebComp c b tp ebottom ap β σ = BoltSpec.omega β (B * c.tw / c.Av) * stressFactor σ c.fy * min 1 (webBuckling (0.932 * √(B * c.hw * c.fy / (c.E * c.tw ^ 2)))) * B * c.tw * c.fy := by
  intro B
  have hB : beffComp c b tp ebottom ap = B := by
    simp only [beffComp, B, compressionWidth]
  rw [hB] at hb
  obtain ⟨e, p, _⟩ := (C96_partial B c.tw c.Av).1 β h0 h
  have hk : webKwc σ c.fy = stressFactor σ c.fy := by
    simp only [webKwc, stressFactor]
    norm_num
  have hk0 : 0 < stressFactor σ c.fy := by
    unfold stressFactor
    split_ifs
    · norm_num
    · have : σ / c.fy < 1.7 := by rw [div_lt_iff₀ hf]; exact hσ
      linarith
  have hr : webRho (932 / 1000 * √(B * c.hw * c.fy / (c.E * c.tw ^ 2))) = webBuckling (0.932 * √(B * c.hw * c.fy / (c.E * c.tw ^ 2))) := by
    simp only [webRho, webBuckling]
    norm_num
  rw [e] at p
  simp only [colWebComp, gammaM0, gammaM1, div_one, hB, hr, hk, e]
  generalize BoltSpec.omega β (B * c.tw / c.Av) = w at *
  generalize stressFactor σ c.fy = k at *
  generalize webBuckling _ = ρ
  have h1 : w * k * min 1 ρ * B * c.tw * c.fy = w * k * B * c.tw * c.fy * min 1 ρ := by ring
  rw [h1, mul_min_of_nonneg _ _ (by positivity)]
  congr 1 <;> ring

/-- The hypotheses of C97 are met by a web 8 mm thick of steel S355. -/
example : ∃ c : Sec, 0 < c.tw ∧ 0 < c.fy ∧ 0 < c.Av ∧ 0 < beffComp c c 15 40 5 ∧ (300 : ℝ) < 1.7 * c.fy :=
  ⟨{ h := 300, b := 150, tf := 10, tw := 8, r := 15, hw := 250, Av := 2500, fy := 355, fu := 490, E := 210000 }, by norm_num, by norm_num, by norm_num, by
    have : √2 < 2 := by
      rw [Real.sqrt_lt' (by norm_num)]; norm_num
    have h0 := Real.sqrt_nonneg (2 : ℝ)
    simp only [beffComp]
    rw [min_eq_left (by linarith)]
    linarith, by norm_num⟩

/-- **C97 (violation).** For transformation parameters between 1.5 and 2 the column web in tension is given more than its effective width at yield. -/
theorem C97_violation {c : Sec} {l β : ℝ} (ht : 0 < c.tw) (hf : 0 < c.fy) (hA : 0 < c.Av) (hl : 0 < l) (h1 : 3 / 2 < β) (h2 : β < 2) : l * c.tw * c.fy < colWebTension c l β := by
  have h := (C96_violation (beff := l) (twc := c.tw) (Avc := c.Av) (by positivity)).2.1 β h1 h2
  have e : colWebTension c l β = coeffW β l c.tw c.Av * (l * c.tw * c.fy) := by simp only [colWebTension, gammaM0]; ring
  rw [e]
  have : 0 < l * c.tw * c.fy := by positivity
  nlinarith

example : ∃ (c : Sec) (l β : ℝ), 0 < c.tw ∧ 0 < c.fy ∧ 0 < c.Av ∧ 0 < l ∧ 3 / 2 < β ∧ β < 2 :=
  ⟨{ h := 300, b := 150, tf := 10, tw := 8, r := 15, hw := 250, Av := 2500, fy := 355, fu := 490, E := 210000 }, 200, 7 / 4, by norm_num, by norm_num, by norm_num, by norm_num, by norm_num, by norm_num⟩

/-! ### C98: T-stubs and bolt rows -/

theorem FT_le_iff (s : TStub) (F : ℝ) : F ≤ s.FT ↔ F ≤ s.F1 ∧ F ≤ s.F2 ∧ F ≤ s.F3 := by
  unfold TStub.FT TStub.mode
  split_ifs with h1 h2
  · exact ⟨fun h => ⟨h, h.trans h1.1, h.trans h1.2⟩, fun h => h.1⟩
  · show F ≤ s.F2 ↔ _
    refine ⟨fun h => ⟨?_, h, h.trans h2⟩, fun h => h.2.1⟩
    by_contra hc
    exact h1 ⟨by linarith, by linarith⟩
  · show F ≤ s.F3 ↔ _
    refine ⟨fun h => ⟨?_, by linarith [not_le.1 h2], h⟩, fun h => h.2.2⟩
    by_contra hc
    exact h1 ⟨by linarith [not_le.1 h2], by linarith⟩

theorem carries_iff {m n Ft M F : ℝ} (hm : 0 < m) (hn : 0 < n) (hF : 0 ≤ F) : Carries m n Ft M F ↔ F * m ≤ 4 * M ∧ F * (m + n) ≤ 2 * M + n * Ft ∧ F ≤ Ft := by
  constructor
  · rintro ⟨Q, h0, h1, h2, h3⟩
    refine ⟨by linarith, ?_, by linarith⟩
    nlinarith [mul_le_mul_of_nonneg_left h1 hn.le]
  · rintro ⟨h1, h2, h3⟩
    have hM : 0 ≤ M := by nlinarith
    refine ⟨max 0 ((F / 2 * m - M) / n), le_max_left _ _, ?_, ?_, ?_⟩
    · rcases max_cases 0 ((F / 2 * m - M) / n) with h | h <;> rw [h.1]
      · linarith
      · have : (F / 2 * m - M) / n ≤ Ft / 2 - F / 2 := by rw [div_le_iff₀ hn]; linarith
        linarith
    · rcases max_cases 0 ((F / 2 * m - M) / n) with h | h <;> rw [h.1]
      · linarith
      · rw [div_mul_cancel₀ _ hn.ne']; linarith
    · have : (F / 2 * m - M) / n ≤ max 0 ((F / 2 * m - M) / n) := le_max_right _ _
      rw [div_le_iff₀ hn] at this
      linarith

/-- **C98, T-stub.** A force is within the tension resistance of a T-stub exactly if plastic limit analysis finds it safe: the circular pattern carries it, and for the non-circular pattern there is a prying force with which
neither the bolts nor the flange, at the bolts and at the web, are loaded beyond their strength. -/
theorem C98 {s : TStub} (hm : 0 < s.m) (hn : 0 < s.n) (hy : 0 < s.fy) (ht : 0 < s.tf) {F : ℝ} (hF : 0 ≤ F) : F ≤ s.FT ↔ StubSafe s.cp s.nc s.tf s.fy s.m s.n s.Ft F := by
  have hmn : 0 < s.m + s.n := by linarith
  have hq : 0 < s.tf ^ 2 * s.fy := by positivity
  rw [FT_le_iff, StubSafe, carries_iff hm hn hF, CarriesCircular]
  simp only [TStub.F1, TStub.F2, TStub.F3, TStub.mpl1, TStub.mpl2, TStub.leff1, TStub.leff2, gammaM0, plastic]
  rw [le_div_iff₀ hm, le_div_iff₀ hmn]
  have e : ∀ l : ℝ, 4 * (25 / 100 * l * s.tf ^ 2 * s.fy / 1) = l * (s.tf ^ 2 * s.fy) := fun l => by ring
  have e' : ∀ l : ℝ, 4 * (l * s.tf ^ 2 / 4 * s.fy) = l * (s.tf ^ 2 * s.fy) := fun l => by ring
  have e2 : 2 * (25 / 100 * s.nc * s.tf ^ 2 * s.fy / 1) = 2 * (s.nc * s.tf ^ 2 / 4 * s.fy) := by ring
  have hmin : F * s.m ≤ min s.cp s.nc * (s.tf ^ 2 * s.fy) ↔ F * s.m ≤ s.cp * (s.tf ^ 2 * s.fy) ∧ F * s.m ≤ s.nc * (s.tf ^ 2 * s.fy) := by
    rw [min_mul_of_nonneg _ _ hq.le, le_min_iff]
  rw [e, e', e', e2, hmin]
  tauto

/-- A T-stub of an M20 row: mode 2 governs. -/
example : ∃ s : TStub, 0 < s.m ∧ 0 < s.n ∧ 0 < s.fy ∧ 0 < s.tf ∧ s.mode = 1 := by
  refine ⟨{ cp := 250, nc := 210, tf := 15, fy := 355, m := 40, n := 40, Ft := 282240 }, by norm_num, by norm_num, by norm_num, by norm_num, ?_⟩
  unfold TStub.mode
  rw [if_neg, if_pos]
  all_goals
    simp only [TStub.F1, TStub.F2, TStub.F3, TStub.mpl1, TStub.mpl2, TStub.leff1, TStub.leff2, gammaM0]
    norm_num

theorem colE_eq (j : Joint) : j.colE = (j.col.b - j.w) / 2 := by
  unfold Joint.colE Joint.w
  split_ifs <;> ring

theorem eminFlange_eq (j : Joint) : j.eminFlange = min ((j.col.b - j.w) / 2) j.ebolts := by
  unfold Joint.eminFlange Joint.w
  split_ifs with h
  · rw [min_eq_right (by linarith)]
  · rw [min_eq_left (by linarith)]
    ring

theorem colM_eq (j : Joint) : j.colM = (j.w - j.col.tw) / 2 - 0.8 * j.col.r := by
  unfold Joint.colM
  norm_num
  ring

theorem plateM_eq (j : Joint) {r : Row} (h : r.plate ≠ .outside) : j.plateM r = (j.w - j.beam.tw) / 2 - 0.8 * √2 * j.weldW := by
  simp only [Joint.plateM, h, if_false]
  norm_num
  ring

/-- Rows the column flange tables cover without stiffeners. -/
def Row.Free (r : Row) : Prop := r.flange = .inner ∨ r.flange = .endRow ∨ r.flange = .otherInner ∨ r.flange = .otherEnd

theorem flangeStub_free {j : Joint} {r : Row} (hr : r.Free) : j.flangeStub r = .ok
    { cp := 2 * π * j.colM
      nc := 4 * j.colM + 125 / 100 * j.colE
      tf := j.col.tf
      fy := j.col.fy
      m := j.colM
      n := min j.eminFlange (125 / 100 * j.colM)
      Ft := 2 * r.bolt.tension (9 / 10) } := by
  unfold Joint.flangeStub Joint.flangeCp Joint.flangeNc
  rcases hr with h | h | h | h <;> simp [h, bind, Except.bind, pure, Except.pure]

theorem newAlpha_eq (e m m2 : ℝ) : newAlpha e m m2 = alpha e m m2 := by
  unfold newAlpha alpha
  norm_num
  congr 2 <;> ring

theorem plateStub_below {j : Joint} {r : Row} (hr : r.plate = .firstBelow ∨ r.plate = .otherInner ∨ r.plate = .otherEnd) : j.plateStub r = .ok
    { cp := 2 * π * j.plateM r
      nc := lengthBelow (r.plate = .firstBelow) j.ebolts (j.plateM2 r) (j.plateM r)
      tf := j.tp
      fy := j.fyp
      m := j.plateM r
      n := min j.ebolts (125 / 100 * j.plateM r)
      Ft := 2 * r.bolt.tension (9 / 10) } := by
  unfold Joint.plateStub Joint.plateCp Joint.plateNc Joint.eminPlate lengthBelow
  rcases hr with h | h | h <;> simp [h, newAlpha_eq, bind, Except.bind, pure, Except.pure] <;> norm_num

/-- **C98, rows below the tension flange.** In a joint without stiffeners a force is within the tension resistance of a bolt row below the tension flange exactly if the column flange, the end plate, the column web and the beam
web all carry it. -/
theorem C98_row {j : Joint} {r : Row} (htop : j.top = none) (hr : r.Free) (hp : r.plate = .firstBelow ∨ r.plate = .otherInner ∨ r.plate = .otherEnd) (hcf : 0 < j.col.tf) (hcy : 0 < j.col.fy) (htp : 0 < j.tp) (hpy : 0 < j.fyp)
    (hm : 0 < j.colM) (he : 0 < j.eminFlange) (hb : 0 < j.ebolts) (hmp : 0 < j.plateM r) :
    ∃ T f p, j.rowTension r = .ok T ∧ j.flangeStub r = .ok f ∧ j.plateStub r = .ok p ∧ ∀ F, 0 ≤ F → (F ≤ T ↔
      FlangeSafe j.w j.col.b j.col.tf j.col.tw j.col.r j.col.fy j.ebolts (2 * r.bolt.tension 0.9) F ∧
        PlateSafe j.w j.beam.tw j.weldW j.ebolts j.tp j.fyp (2 * r.bolt.tension 0.9) (lengthBelow (r.plate = .firstBelow) j.ebolts (j.beam.h / 2 - j.beam.tf - 0.8 * √2 * j.weldF - r.z)) F ∧
        F ≤ colWebTension j.col f.govLeff j.β ∧ F ≤ p.govLeff * j.beam.tw * j.beam.fy) := by
  have ho : r.plate ≠ .outside := by rcases hp with h | h | h <;> rw [h] <;> decide
  have hf := flangeStub_free (j := j) hr
  have hpl := plateStub_below (j := j) hp
  generalize hfs : TStub.mk _ _ _ _ _ _ _ = f at hf
  generalize hps : TStub.mk _ _ _ _ _ _ _ = p at hpl
  refine ⟨min (min (min f.FT p.FT) (colWebTension j.col f.govLeff j.β)) (beamWebTension j.beam p.govLeff), f, p, ?_, hf, hpl, fun F hF => ?_⟩
  · simp only [Joint.rowTension, htop, hf, hpl, ho, ne_eq, not_true, if_false, bind, Except.bind, pure, Except.pure]
  · have hm2 : j.beam.h / 2 - j.beam.tf - 0.8 * √2 * j.weldF - r.z = j.plateM2 r := by
      unfold Joint.plateM2
      norm_num
      ring
    have h1 := C98 (s := f) (by rw [← hfs]; exact hm) (by rw [← hfs]; exact lt_min he (by positivity)) (by rw [← hfs]; exact hcy) (by rw [← hfs]; exact hcf) hF
    have h2 := C98 (s := p) (by rw [← hps]; exact hmp) (by rw [← hps]; exact lt_min hb (by positivity)) (by rw [← hps]; exact hpy) (by rw [← hps]; exact htp) hF
    have h9 : (0.9 : ℝ) = 9 / 10 := by norm_num
    have h125 : (1.25 : ℝ) = 125 / 100 := by norm_num
    have hA : FlangeSafe j.w j.col.b j.col.tf j.col.tw j.col.r j.col.fy j.ebolts (2 * r.bolt.tension 0.9) F ↔ StubSafe f.cp f.nc f.tf f.fy f.m f.n f.Ft F := by
      rw [← hfs, FlangeSafe, ← colE_eq, ← colM_eq, h9, h125, colE_eq, ← eminFlange_eq]
    have hB : PlateSafe j.w j.beam.tw j.weldW j.ebolts j.tp j.fyp (2 * r.bolt.tension 0.9) (lengthBelow (r.plate = .firstBelow) j.ebolts (j.plateM2 r)) F ↔ StubSafe p.cp p.nc p.tf p.fy p.m p.n p.Ft F := by
      rw [← hps, PlateSafe, ← plateM_eq j ho, h9, h125]
    have hC : beamWebTension j.beam p.govLeff = p.govLeff * j.beam.tw * j.beam.fy := by simp only [beamWebTension, gammaM0, div_one]
    rw [le_min_iff, le_min_iff, le_min_iff, h1, h2, hm2, hA, hB, hC]
    tauto

theorem least3 (a b c : ℝ) : IsLeast {a, b, c} (min (min a b) c) := by
  constructor
  · rcases min_choice (min a b) c with h | h <;> rw [h]
    · rcases min_choice a b with h' | h' <;> rw [h'] <;> simp
    · simp
  · rintro x (rfl | rfl | rfl) <;> simp

theorem least4 (a b c d : ℝ) : IsLeast {a, b, c, d} (min (min (min a b) c) d) := by
  constructor
  · rcases min_choice (min (min a b) c) d with h | h <;> rw [h]
    · rcases (least3 a b c).1 with h' | h' | h' <;> rw [h'] <;> simp
    · simp
  · rintro x (rfl | rfl | rfl | rfl) <;> simp

theorem plateStub_outside {j : Joint} {r : Row} (hr : r.plate = .outside) : j.plateStub r = .ok
    { cp := min (min (2 * π * j.mx r) (π * j.mx r + j.w)) (π * j.mx r + 2 * j.ebolts)
      nc := min (min (min (4 * j.mx r + 125 / 100 * j.ex r) (j.ebolts + 2 * j.mx r + 625 / 1000 * j.ex r)) (1 / 2 * j.bp)) (1 / 2 * j.w + 2 * j.mx r + 625 / 1000 * j.ex r)
      tf := j.tp
      fy := j.fyp
      m := j.mx r
      n := min (j.ex r) (125 / 100 * j.mx r)
      Ft := 2 * r.bolt.tension (9 / 10) } := by
  unfold Joint.plateStub Joint.plateCp Joint.plateNc Joint.eminPlate Joint.plateM
  simp [hr, bind, Except.bind, pure, Except.pure]

/-- **C98, rows outside the tension flange.** A force up to 10^8 N is within the tension resistance of a bolt row outside the tension flange exactly if the column flange, the extension of the end plate and the column web carry it. -/
theorem C98_extension {j : Joint} {r : Row} (htop : j.top = none) (hr : r.Free) (hp : r.plate = .outside) (hcf : 0 < j.col.tf) (hcy : 0 < j.col.fy) (htp : 0 < j.tp) (hpy : 0 < j.fyp)
    (hm : 0 < j.colM) (he : 0 < j.eminFlange) (hx : 0 < j.mx r) (hex : 0 < j.ex r) :
    ∃ T f, j.rowTension r = .ok T ∧ j.flangeStub r = .ok f ∧ ∀ F, 0 ≤ F → F ≤ 10 ^ 8 → (F ≤ T ↔
      FlangeSafe j.w j.col.b j.col.tf j.col.tw j.col.r j.col.fy j.ebolts (2 * r.bolt.tension 0.9) F ∧
        ExtensionSafe j.w j.ebolts j.bp (r.z - j.beam.h / 2 - 0.8 * √2 * j.weldF) (j.beam.h / 2 + j.etop - r.z) j.tp j.fyp (2 * r.bolt.tension 0.9) F ∧
        F ≤ colWebTension j.col f.govLeff j.β) := by
  have hf := flangeStub_free (j := j) hr
  have hpl := plateStub_outside (j := j) hp
  generalize hfs : TStub.mk _ _ _ _ _ _ _ = f at hf
  generalize hps : TStub.mk _ _ _ _ _ _ _ = p at hpl
  refine ⟨min (min (min f.FT p.FT) (colWebTension j.col f.govLeff j.β)) (10 ^ 8), f, ?_, hf, fun F hF h8 => ?_⟩
  · simp only [Joint.rowTension, htop, hf, hpl, hp, ne_eq, not_true, if_false, if_true, bind, Except.bind, pure, Except.pure]
  · have hmx : r.z - j.beam.h / 2 - 0.8 * √2 * j.weldF = j.mx r := by
      unfold Joint.mx
      norm_num
      ring
    have hexx : j.beam.h / 2 + j.etop - r.z = j.ex r := by
      unfold Joint.ex
      ring
    have h1 := C98 (s := f) (by rw [← hfs]; exact hm) (by rw [← hfs]; exact lt_min he (by positivity)) (by rw [← hfs]; exact hcy) (by rw [← hfs]; exact hcf) hF
    have h2 := C98 (s := p) (by rw [← hps]; exact hx) (by rw [← hps]; exact lt_min hex (by positivity)) (by rw [← hps]; exact hpy) (by rw [← hps]; exact htp) hF
    have h9 : (0.9 : ℝ) = 9 / 10 := by norm_num
    have h125 : (1.25 : ℝ) = 125 / 100 := by norm_num
    have h625 : (0.625 : ℝ) = 625 / 1000 := by norm_num
    have h5 : (0.5 : ℝ) = 1 / 2 := by norm_num
    have hA : FlangeSafe j.w j.col.b j.col.tf j.col.tw j.col.r j.col.fy j.ebolts (2 * r.bolt.tension 0.9) F ↔ StubSafe f.cp f.nc f.tf f.fy f.m f.n f.Ft F := by
      rw [← hfs, FlangeSafe, ← colE_eq, ← colM_eq, h9, h125, colE_eq, ← eminFlange_eq]
    have hB : ExtensionSafe j.w j.ebolts j.bp (j.mx r) (j.ex r) j.tp j.fyp (2 * r.bolt.tension 0.9) F ↔ StubSafe p.cp p.nc p.tf p.fy p.m p.n p.Ft F := by
      rw [← hps, ExtensionSafe, h9, h125, h625, h5]
      constructor
      · rintro ⟨cp, nc, hc, hn, h⟩
        rw [hc.unique (least3 _ _ _), hn.unique (least4 _ _ _ _)] at h
        exact h
      · intro h
        exact ⟨_, _, least3 _ _ _, least4 _ _ _ _, h⟩
    rw [le_min_iff, le_min_iff, le_min_iff, h1, h2, hmx, hexx, hA, hB]
    tauto

/-- A joint of a beam 400 mm high with two rows, used in the examples: bolts M20 8.8, flanges and plate 20 mm, full-penetration welds. -/
noncomputable def boltM20 : Bolt :=
  { d := 20
    minLength := 60
    length := 65
    thread := .part
    d0 := 22
    A := π * 20 ^ 2 / 4
    dims := ⟨245, 25 / 2, 30, 18, 659 / 20, 3, 37⟩
    fyb := 640
    fub := 800
    cls := .c88 }

/-- Column and beam of the examples. -/
noncomputable def secX : Sec := { h := 200, b := 192, tf := 10, tw := 12, r := 0, hw := 180, Av := 4000, fy := 235, fu := 360, E := 210000 }

/-- Rows of the examples, at heights 150, 70 and -30 above the beam axis. -/
noncomputable def rowX (z : ℝ) : Row := { bolt := boltM20, z := z, shear := false, flange := .inner, plate := .otherInner }

/-- Joint of the examples. -/
noncomputable def jointX (rows : List Row) (groups : List Group) : Joint :=
  { col := secX
    beam := { secX with h := 400, tf := 20 }
    bp := 192
    tp := 20
    fyp := 235
    etop := 80
    ebottom := 20
    ebolts := 40
    weldF := 0
    weldW := 0
    β := 1 / 2
    σ := 100
    MRd := 300000000
    rows := rows
    groups := groups
    top := none
    bottom := none }

example : ∃ (j : Joint) (r : Row), j.top = none ∧ r.Free ∧ r.plate = .otherInner ∧ 0 < j.col.tf ∧ 0 < j.col.fy ∧ 0 < j.tp ∧ 0 < j.fyp ∧ 0 < j.colM ∧ 0 < j.eminFlange ∧ 0 < j.ebolts ∧ 0 < j.plateM r := by
  have hp : (jointX [] []).plateM (rowX 150) = 50 := by
    rw [plateM_eq _ (by simp [rowX])]
    norm_num [jointX, secX, Joint.w]
  refine ⟨jointX [] [], rowX 150, rfl, Or.inl rfl, rfl, ?_, ?_, ?_, ?_, ?_, ?_, ?_, by rw [hp]; norm_num⟩ <;> norm_num [jointX, secX, rowX, Joint.colM, Joint.eminFlange, Joint.w]

example : ∃ (j : Joint) (r : Row), j.top = none ∧ r.Free ∧ r.plate = .outside ∧ 0 < j.col.tf ∧ 0 < j.col.fy ∧ 0 < j.tp ∧ 0 < j.fyp ∧ 0 < j.colM ∧ 0 < j.eminFlange ∧ 0 < j.mx r ∧ 0 < j.ex r := by
  refine ⟨jointX [] [], { rowX 240 with plate := .outside, flange := .endRow }, rfl, Or.inr (Or.inl rfl), rfl, ?_, ?_, ?_, ?_, ?_, ?_, ?_, ?_⟩ <;>
    norm_num [jointX, secX, rowX, Joint.colM, Joint.eminFlange, Joint.mx, Joint.ex, Joint.w]

/-! ### C99: effective lengths of groups -/

theorem groupP_getElem : ∀ (zs : List ℝ) (t : ℕ) (a b : ℝ), zs[t]? = some a → zs[t + 1]? = some b → (groupP zs)[t]? = some (a - b)
  | x :: y :: l, 0, a, b, ha, hb => by
    simp only [List.getElem?_cons_zero, Option.some.injEq, Nat.zero_add, List.getElem?_cons_succ] at ha hb
    simp [groupP, ha, hb]
  | x :: y :: l, t + 1, a, b, ha, hb => by
    simp only [List.getElem?_cons_succ] at ha hb
    rw [groupP, List.getElem?_cons_succ]
    exact groupP_getElem (y :: l) t a b (by simpa using ha) (by simpa using hb)
  | [x], 0, a, b, ha, hb => by simp at hb
  | [x], t + 1, a, b, ha, hb => by simp at ha
  | [], t, a, b, ha, hb => by simp at ha

theorem pyGet_nat {l : List ℝ} {t : ℕ} {x : ℝ} (h : l[t]? = some x) : pyGet l (t : ℤ) = .ok x := by
  have h1 : ¬ ((t : ℤ) < 0) := by omega
  simp only [pyGet, h1, if_false, Int.toNat_natCast, h]

theorem pyGet_pred {l : List ℝ} {t : ℕ} {x : ℝ} (ht : 0 < t) (h : l[t - 1]? = some x) : pyGet l ((t : ℤ) - 1) = .ok x := by
  have : ((t : ℤ) - 1) = ((t - 1 : ℕ) : ℤ) := by omega
  rw [this]
  exact pyGet_nat h

/-- Distances of a group, as a function of the heights of its rows. -/
theorem spacing {zs : List ℝ} {t : ℕ} (h : t + 1 < zs.length) : (groupP zs)[t]? = some (zs.getD t 0 - zs.getD (t + 1) 0) := by
  have h1 : t < zs.length := by omega
  apply groupP_getElem
  · simp [h1, List.getD_eq_getElem?_getD]
  · simp [h, List.getD_eq_getElem?_getD]

/-- Sum of the summands of inner rows followed by an end row, for any way to form inner and end summands from the half sums of distances. -/
theorem sum_tail {α : Type} {zs : List ℝ} (f : ℕ → α → Except PyErr ℝ) (inn fin : α) (s c : ℝ)
    (hinn : ∀ i, 0 < i → i + 1 < zs.length → f i inn = .ok (s * ((zs.getD (i - 1) 0 - zs.getD i 0) + (zs.getD i 0 - zs.getD (i + 1) 0))))
    (hfin : ∀ i, 0 < i → i < zs.length → f i fin = .ok (c + s * (zs.getD (i - 1) 0 - zs.getD i 0))) :
    ∀ k i, 0 < i → i + k + 1 = zs.length →
      sumRows f i (List.replicate k inn ++ [fin]) = .ok (c + s * (zs.getD (i - 1) 0 + zs.getD i 0 - 2 * zs.getD (i + k) 0))
  | 0, i, hi, hl => by
    simp only [List.replicate_zero, List.nil_append, sumRows, hfin i hi (by omega), bind, Except.bind, pure, Except.pure, Nat.add_zero]
    refine congrArg Except.ok ?_
    ring
  | k + 1, i, hi, hl => by
    have ih := sum_tail f inn fin s c hinn hfin k (i + 1) (by omega) (by omega)
    simp only [List.replicate_succ, List.cons_append, sumRows, hinn i hi (by omega), ih, bind, Except.bind, pure, Except.pure, Nat.add_sub_cancel]
    have : i + 1 + k = i + (k + 1) := by omega
    rw [this]
    refine congrArg Except.ok ?_
    ring

theorem rowP_inner {zs : List ℝ} {i : ℕ} (hi : 0 < i) (h : i + 1 < zs.length) :
    rowP (groupP zs) i false = .ok (1 / 2 * ((zs.getD (i - 1) 0 - zs.getD i 0) + (zs.getD i 0 - zs.getD (i + 1) 0))) := by
  have h1 := spacing (zs := zs) (t := i - 1) (by omega)
  have h2 := spacing (zs := zs) (t := i) h
  have e : i - 1 + 1 = i := by omega
  rw [e] at h1
  simp [rowP, pyGet_pred hi h1, pyGet_nat h2, bind, Except.bind, pure, Except.pure]

theorem rowP_last {zs : List ℝ} {i : ℕ} (hi : 0 < i) (h : i < zs.length) : rowP (groupP zs) i true = .ok (zs.getD (i - 1) 0 - zs.getD i 0) := by
  have h1 := spacing (zs := zs) (t := i - 1) (by omega)
  have e : i - 1 + 1 = i := by omega
  rw [e] at h1
  simp [rowP, hi.ne', pyGet_pred hi h1]

theorem rowP_first {zs : List ℝ} (h : 1 < zs.length) : rowP (groupP zs) 0 true = .ok (zs.getD 0 0 - zs.getD 1 0) := by
  have h1 := pyGet_nat (spacing (zs := zs) (t := 0) h)
  simpa [rowP] using h1

/-- **C99, column flange.** For a group of two or more rows between its first and last one, away from stiffeners, the effective lengths on the column flange are those of one row lengthened by the distance of the outer rows
(twice that distance for the circular pattern), whatever the spacings between the rows. -/
theorem C99_flange (j : Joint) {rows : List Row} {k : ℕ} (hk : rows.length = k + 2) :
    ∃ s, j.flangeStubGroup rows (.endRow :: (List.replicate k .inner ++ [.endRow])) = .ok s ∧
      s.nc = (4 * s.m + 1.25 * ((j.col.b - j.w) / 2)) + ((rows.map (·.z)).getD 0 0 - (rows.map (·.z)).getD (k + 1) 0) ∧
      s.cp = 2 * π * s.m + 2 * ((rows.map (·.z)).getD 0 0 - (rows.map (·.z)).getD (k + 1) 0) ∧
      s.Ft = (rows.map (fun r => 2 * r.bolt.tension 0.9)).sum ∧ s.m = (j.w - j.col.tw) / 2 - 0.8 * j.col.r ∧ s.tf = j.col.tf ∧ s.fy = j.col.fy ∧
      s.n = min (min ((j.col.b - j.w) / 2) j.ebolts) (1.25 * s.m) := by
  generalize hz : rows.map (·.z) = zs
  have hl : zs.length = k + 2 := by rw [← hz, List.length_map, hk]
  have t1 := sum_tail (zs := zs) (j.flangeNcGroup (groupP zs)) .inner .endRow (1 / 2) (2 * j.colM + 625 / 1000 * j.colE)
    (fun i hi h => by simp only [Joint.flangeNcGroup, rowP_inner hi h])
    (fun i hi h => by simp only [Joint.flangeNcGroup, rowP_last hi h, bind, Except.bind, pure, Except.pure]) k 1 one_pos (by omega)
  have t2 := sum_tail (zs := zs) (j.flangeCpGroup (groupP zs)) .inner .endRow 1 (π * j.colM)
    (fun i hi h => by
      simp only [Joint.flangeCpGroup, rowP_inner hi h, bind, Except.bind, pure, Except.pure]
      refine congrArg Except.ok ?_
      ring)
    (fun i hi h => by
      simp only [Joint.flangeCpGroup, rowP_last hi h, bind, Except.bind, pure, Except.pure]
      refine congrArg Except.ok ?_
      ring) k 1 one_pos (by omega)
  refine ⟨_, by
    simp only [Joint.flangeStubGroup, hz, sumRows, Nat.zero_add, t1, t2, Joint.flangeNcGroup, Joint.flangeCpGroup, rowP_first (zs := zs) (by omega), bind, Except.bind, pure, Except.pure]
    rfl, ?_, ?_, ?_, ?_, rfl, rfl, ?_⟩
  · simp only [colE_eq, Nat.sub_self, Nat.add_comm 1 k]
    norm_num
    ring
  · simp only [Nat.sub_self, Nat.add_comm 1 k]
    ring
  · simp only [groupFt]
    norm_num
  · exact colM_eq j
  · simp only [eminFlange_eq]
    norm_num

theorem sum_zip {α β : Type} (f : ℕ → α × β → Except PyErr ℝ) (a' : α) : ∀ (i : ℕ) (l : List α) (p : List β), l.length = p.length →
    (∀ a ∈ l, ∀ q ∈ p, ∀ i, f i (a, q) = f i (a', q)) → sumRows f i (l.zip p) = sumRows (fun i q => f i (a', q)) i p
  | _, [], [], _, _ => rfl
  | i, a :: l, q :: p, hl, h => by
    have ih := sum_zip f a' (i + 1) l p (by simpa using hl) (fun b hb r hr => h b (List.mem_cons_of_mem _ hb) r (List.mem_cons_of_mem _ hr))
    simp only [List.zip_cons_cons, sumRows, ih, h a List.mem_cons_self q List.mem_cons_self i]
  | _, [], _ :: _, hl, _ => by simp at hl
  | _, _ :: _, [], hl, _ => by simp at hl

/-- **C99, end plate.** For a group of two or more rows below the tension flange the effective lengths on the end plate are those of one row lengthened by the distance of the outer rows (twice that distance for the circular
pattern), with the factor of the row next to the flange if the group begins there. -/
theorem C99_plate (j : Joint) {r0 : Row} {rows : List Row} {k : ℕ} (hk : rows.length = k + 1) (h0 : r0.plate ≠ .outside) (hp : ∀ r ∈ rows, r.plate ≠ .outside) (first : PlatePos) (hf : first = .firstBelow ∨ first = .otherEnd) :
    ∃ s, j.plateStubGroup r0 (r0 :: rows) (first :: (List.replicate k .otherInner ++ [.otherEnd])) = .ok s ∧
      s.nc = lengthBelow (first = .firstBelow) j.ebolts (j.beam.h / 2 - j.beam.tf - 0.8 * √2 * j.weldF - r0.z) s.m + (r0.z - ((r0 :: rows).map (·.z)).getD (k + 1) 0) ∧
      s.cp = 2 * π * s.m + 2 * (r0.z - ((r0 :: rows).map (·.z)).getD (k + 1) 0) ∧
      s.Ft = ((r0 :: rows).map (fun r => 2 * r.bolt.tension 0.9)).sum ∧ s.m = (j.w - j.beam.tw) / 2 - 0.8 * √2 * j.weldW ∧ s.tf = j.tp ∧ s.fy = j.fyp ∧ s.n = min j.ebolts (1.25 * s.m) := by
  have hM : ∀ r ∈ rows, j.plateM r = j.plateM r0 := fun r hr => by rw [plateM_eq j h0, plateM_eq j (hp r hr)]
  generalize hz : (r0 :: rows).map (·.z) = zs
  have hl : zs.length = k + 2 := by rw [← hz, List.length_map, List.length_cons, hk]
  have hz0 : zs.getD 0 0 = r0.z := by rw [← hz]; rfl
  have hmem : ∀ q ∈ List.replicate k PlatePos.otherInner ++ [PlatePos.otherEnd], q = .otherInner ∨ q = .otherEnd := fun q hq => by
    rcases List.mem_append.1 hq with h | h
    · exact Or.inl (List.eq_of_mem_replicate h)
    · exact Or.inr (by simpa using h)
  have z1 := sum_zip (fun i (a : Row × PlatePos) => j.plateNcGroup (groupP zs) i a.1 a.2) r0 1 rows (List.replicate k .otherInner ++ [.otherEnd]) (by simp [hk])
    (fun r hr q hq i => by rcases hmem q hq with rfl | rfl <;> simp only [Joint.plateNcGroup, hM r hr])
  have z2 := sum_zip (fun i (a : Row × PlatePos) => j.plateCpGroup (groupP zs) i a.1 a.2) r0 1 rows (List.replicate k .otherInner ++ [.otherEnd]) (by simp [hk])
    (fun r hr q hq i => by rcases hmem q hq with rfl | rfl <;> simp only [Joint.plateCpGroup, hM r hr])
  have t1 := sum_tail (zs := zs) (fun i q => j.plateNcGroup (groupP zs) i r0 q) .otherInner .otherEnd (1 / 2) (2 * j.plateM r0 + 625 / 1000 * j.ebolts)
    (fun i hi h => by simp only [Joint.plateNcGroup, rowP_inner hi h])
    (fun i hi h => by simp only [Joint.plateNcGroup, rowP_last hi h, bind, Except.bind, pure, Except.pure]) k 1 one_pos (by omega)
  have t2 := sum_tail (zs := zs) (fun i q => j.plateCpGroup (groupP zs) i r0 q) .otherInner .otherEnd 1 (π * j.plateM r0)
    (fun i hi h => by
      simp only [Joint.plateCpGroup, rowP_inner hi h, bind, Except.bind, pure, Except.pure]
      refine congrArg Except.ok ?_
      ring)
    (fun i hi h => by
      simp only [Joint.plateCpGroup, rowP_last hi h, bind, Except.bind, pure, Except.pure]
      refine congrArg Except.ok ?_
      ring) k 1 one_pos (by omega)
  have hfst : pyGet (groupP zs) 0 = .ok (zs.getD 0 0 - zs.getD 1 0) := by simpa using pyGet_nat (spacing (zs := zs) (t := 0) (by omega))
  have hm2 : j.beam.h / 2 - j.beam.tf - 0.8 * √2 * j.weldF - r0.z = j.plateM2 r0 := by
    unfold Joint.plateM2
    norm_num
    ring
  have hn : ∀ x : ℝ, min (j.eminPlate r0) x = min j.ebolts x := fun x => by simp only [Joint.eminPlate, h0, if_false]
  rcases hf with rfl | rfl
  · have a1 : j.plateNcGroup (groupP zs) 0 r0 .firstBelow = .ok (1 / 2 * (zs.getD 0 0 - zs.getD 1 0) + newAlpha j.ebolts (j.plateM r0) (j.plateM2 r0) * j.plateM r0 - (2 * j.plateM r0 + 625 / 1000 * j.ebolts)) := by
      simp only [Joint.plateNcGroup, Int.natCast_zero, hfst, bind, Except.bind, pure, Except.pure]
    have a2 : j.plateCpGroup (groupP zs) 0 r0 .firstBelow = .ok (π * j.plateM r0 + (zs.getD 0 0 - zs.getD 1 0)) := by
      simp only [Joint.plateCpGroup, Int.natCast_zero, hfst, bind, Except.bind, pure, Except.pure]
    refine ⟨_, by
      simp only [Joint.plateStubGroup, hz, List.zip_cons_cons, sumRows, Nat.zero_add, z1, z2, t1, t2, a1, a2, bind, Except.bind, pure, Except.pure]
      rfl, ?_, ?_, ?_, ?_, rfl, rfl, ?_⟩
    · simp only [lengthBelow, if_true, hm2, ← newAlpha_eq, Nat.sub_self, Nat.add_comm 1 k, hz0]
      ring
    · simp only [Nat.sub_self, Nat.add_comm 1 k, hz0]
      ring
    · simp only [groupFt]
      norm_num
    · exact plateM_eq j h0
    · rw [hn]
      norm_num
  · have a1 : j.plateNcGroup (groupP zs) 0 r0 .otherEnd = .ok (2 * j.plateM r0 + 625 / 1000 * j.ebolts + 1 / 2 * (zs.getD 0 0 - zs.getD 1 0)) := by
      simp only [Joint.plateNcGroup, rowP_first (zs := zs) (by omega), bind, Except.bind, pure, Except.pure]
    have a2 : j.plateCpGroup (groupP zs) 0 r0 .otherEnd = .ok (π * j.plateM r0 + (zs.getD 0 0 - zs.getD 1 0)) := by
      simp only [Joint.plateCpGroup, rowP_first (zs := zs) (by omega), bind, Except.bind, pure, Except.pure]
    refine ⟨_, by
      simp only [Joint.plateStubGroup, hz, List.zip_cons_cons, sumRows, Nat.zero_add, z1, z2, t1, t2, a1, a2, bind, Except.bind, pure, Except.pure]
      rfl, ?_, ?_, ?_, ?_, rfl, rfl, ?_⟩
    · simp only [lengthBelow, reduceCtorEq, if_false, Nat.sub_self, Nat.add_comm 1 k, hz0]
      norm_num
      ring
    · simp only [Nat.sub_self, Nat.add_comm 1 k, hz0]
      ring
    · simp only [groupFt]
      norm_num
    · exact plateM_eq j h0
    · rw [hn]
      norm_num

/-- Groups of three rows meet the hypotheses of C99. -/
example : ∃ (r0 : Row) (rows : List Row), rows.length = 1 + 1 ∧ r0.plate ≠ .outside ∧ ∀ r ∈ rows, r.plate ≠ .outside :=
  ⟨rowX 150, [rowX 70, rowX (-30)], rfl, by simp [rowX], by simp [rowX]⟩


/-- **C98, groups.** A force is within the tension resistance of a group of rows away from stiffeners exactly if it is within those of the T-stubs of the column flange and of the end plate and of the webs of column and beam; a
group that begins outside the tension flange has no end plate and beam web component. -/
theorem C98_group {j : Joint} {g : Group} {r0 : Row} {l : List Row} {f0 : GroupPos} {t : List GroupPos} {s : TStub} (hr : j.groupRows g = .ok (r0 :: l)) (hf : g.flange = f0 :: t) (h0 : f0 = .endRow ∨ f0 = .inner)
    (hs : j.flangeStubGroup (r0 :: l) g.flange = .ok s) :
    (g.plate = none → ∃ c, j.groupTension g = .ok (some c) ∧ ∀ F, F ≤ c ↔ F ≤ s.FT ∧ F ≤ colWebTension j.col s.govLeff j.β) ∧
      ∀ pos p, g.plate = some pos → j.plateStubGroup r0 (r0 :: l) pos = .ok p →
        ∃ c, j.groupTension g = .ok (some c) ∧ ∀ F, F ≤ c ↔ F ≤ s.FT ∧ F ≤ colWebTension j.col s.govLeff j.β ∧ F ≤ p.FT ∧ F ≤ p.govLeff * j.beam.tw * j.beam.fy := by
  have hc : ¬ (f0 = .endAdjacent ∨ (f0 = .adjacent ∧ g.plate = none)) := by rcases h0 with rfl | rfl <;> simp
  rw [hf] at hs
  refine ⟨fun hp => ?_, fun pos p hp hps => ?_⟩
  · rw [hp] at hc
    simp only [and_true] at hc
    refine ⟨min s.FT (colWebTension j.col s.govLeff j.β), ?_, fun F => le_min_iff⟩
    simp only [Joint.groupTension, hr, hf, hp, hs, hc, and_true, if_false, bind, Except.bind, pure, Except.pure, minOpt]
  · rw [hp] at hc
    refine ⟨min (min s.FT (colWebTension j.col s.govLeff j.β)) (min p.FT (beamWebTension j.beam p.govLeff)), ?_, fun F => ?_⟩
    · simp only [Joint.groupTension, hr, hf, hp, hs, hps, hc, if_false, bind, Except.bind, pure, Except.pure, minOpt]
    · simp only [le_min_iff, beamWebTension, gammaM0, div_one]
      tauto

/-! ### C100: distribution of forces -/

theorem cap_le (cap : Option ℝ) : ∀ (l : List ℕ) (tot : ℝ) (F : ℕ → ℝ) (k : ℕ), capLoop cap l tot F k ≤ F k
  | [], _, _, _ => le_refl _
  | i :: l, tot, F, k => by
    rw [capLoop]
    refine (cap_le cap l _ _ k).trans ?_
    by_cases h : k = i
    · subst h
      rw [Function.update_self]
      cases cap
      · exact le_refl _
      · exact min_le_left _ _
    · rw [Function.update_of_ne h]

theorem cap_notMem (cap : Option ℝ) : ∀ (l : List ℕ) (tot : ℝ) (F : ℕ → ℝ) (k : ℕ), k ∉ l → capLoop cap l tot F k = F k
  | [], _, _, _, _ => rfl
  | i :: l, tot, F, k, h => by
    rw [capLoop, cap_notMem cap l _ _ k (fun h' => h (List.mem_cons_of_mem _ h')), Function.update_of_ne (fun h' => h (by rw [h']; exact List.mem_cons_self))]

theorem cap_head (c : ℝ) {i : ℕ} {l : List ℕ} (h : i ∉ l) (tot : ℝ) (F : ℕ → ℝ) : capLoop (some c) (i :: l) tot F i = min (F i) (c - tot) := by
  rw [capLoop, cap_notMem _ _ _ _ _ h, Function.update_self, capped]

theorem cap_congr (cap : Option ℝ) : ∀ (l : List ℕ) (tot : ℝ) (F G : ℕ → ℝ), (∀ i ∈ l, F i = G i) → ∀ k ∈ l, capLoop cap l tot F k = capLoop cap l tot G k
  | [], _, _, _, _, _, hk => by simp at hk
  | i :: l, tot, F, G, h, k, hk => by
    simp only [capLoop]
    have hi := h i List.mem_cons_self
    rw [hi]
    by_cases hkl : k ∈ l
    · refine cap_congr cap l _ _ _ (fun a ha => ?_) k hkl
      by_cases hai : a = i
      · subst hai
        simp
      · rw [Function.update_of_ne hai, Function.update_of_ne hai]
        exact h a (List.mem_cons_of_mem _ ha)
    · have : k = i := by
        rcases List.mem_cons.1 hk with h' | h'
        · exact h'
        · exact absurd h' hkl
      subst this
      rw [cap_notMem _ _ _ _ _ hkl, cap_notMem _ _ _ _ _ hkl, Function.update_self, Function.update_self]

theorem cap_sum (c : ℝ) : ∀ (l : List ℕ) (tot : ℝ) (F : ℕ → ℝ), l.Nodup → l ≠ [] → (l.map (capLoop (some c) l tot F)).sum + tot ≤ c
  | [], _, _, _, h => absurd rfl h
  | [i], tot, F, _, _ => by
    simp only [List.map_cons, List.map_nil, List.sum_cons, List.sum_nil, cap_head c List.not_mem_nil, add_zero]
    linarith [min_le_right (F i) (c - tot)]
  | i :: i' :: l, tot, F, hn, _ => by
    have hn' := List.nodup_cons.1 hn
    have ih := cap_sum c (i' :: l) (tot + min (F i) (c - tot)) (Function.update F i (min (F i) (c - tot))) hn'.2 (by simp)
    rw [List.map_cons, List.sum_cons, cap_head c hn'.1]
    have e : capLoop (some c) (i :: i' :: l) tot F = capLoop (some c) (i' :: l) (tot + min (F i) (c - tot)) (Function.update F i (min (F i) (c - tot))) := by rw [capLoop, capped]
    rw [e]
    linarith

theorem cap_nonneg {c : Option ℝ} : ∀ (l : List ℕ) (tot : ℝ) (F : ℕ → ℝ), (∀ i ∈ l, 0 ≤ F i) → (∀ x, c = some x → tot ≤ x) → ∀ k ∈ l, 0 ≤ capLoop c l tot F k
  | [], _, _, _, _, _, hk => by simp at hk
  | i :: l, tot, F, hF, hc, k, hk => by
    rw [capLoop]
    cases c with
    | none =>
      simp only [capped]
      have hu : ∀ a, Function.update F i (F i) a = F a := fun a => by rw [Function.update_eq_self]
      by_cases hkl : k ∈ l
      · exact cap_nonneg l _ _ (fun a ha => by rw [hu]; exact hF a (List.mem_cons_of_mem _ ha)) (by simp) k hkl
      · rw [cap_notMem _ _ _ _ _ hkl, hu]
        exact hF k hk
    | some x =>
      simp only [capped]
      have hx := hc x rfl
      have hv : 0 ≤ min (F i) (x - tot) := le_min (hF i List.mem_cons_self) (by linarith)
      by_cases hkl : k ∈ l
      · refine cap_nonneg l _ _ (fun a ha => ?_) (fun y hy => ?_) k hkl
        · by_cases hai : a = i
          · subst hai
            rw [Function.update_self]
            exact hv
          · rw [Function.update_of_ne hai]
            exact hF a (List.mem_cons_of_mem _ ha)
        · obtain rfl := Option.some.inj hy
          linarith [min_le_right (F i) (x - tot)]
      · rw [cap_notMem _ _ _ _ _ hkl]
        by_cases hki : k = i
        · subst hki
          rw [Function.update_self]
          exact hv
        · rw [Function.update_of_ne hki]
          exact hF k hk

theorem sum_le_of_le {l : List ℕ} {F G : ℕ → ℝ} (h : ∀ i, F i ≤ G i) : (l.map F).sum ≤ (l.map G).sum := List.sum_le_sum fun i _ => h i

theorem group_rows_ne {j : Joint} {g : Group} {c : Option ℝ} (h : j.groupTension g = .ok c) : g.rows ≠ [] := by
  intro h0
  simp [Joint.groupTension, Joint.groupRows, h0, bind, Except.bind, pure, Except.pure] at h

theorem groupLoop_spec {j : Joint} : ∀ {gs : List Group} {F F' : ℕ → ℝ}, j.groupLoop gs F = .ok F' →
    (∀ i, F' i ≤ F i) ∧ (∀ g ∈ gs, ∃ c, j.groupTension g = .ok c) ∧ (∀ g ∈ gs, g.rows.Nodup → ∀ c, j.groupTension g = .ok (some c) → (g.rows.map F').sum ≤ c) ∧ (∀ i, (∀ g ∈ gs, i ∉ g.rows) → F' i = F i) ∧
      ((∀ g ∈ gs, ∀ c, j.groupTension g = .ok (some c) → 0 ≤ c) → (∀ i, 0 ≤ F i ∨ ∀ g ∈ gs, i ∉ g.rows) → ∀ i, 0 ≤ F i → 0 ≤ F' i)
  | [], F, F', h => by
    obtain rfl := Except.ok.inj h
    exact ⟨fun _ => le_refl _, by simp, by simp, by simp, fun _ _ i h => h⟩
  | g :: gs, F, F', h => by
    simp only [Joint.groupLoop, bind, Except.bind] at h
    cases hg : j.groupTension g with
    | error e => rw [hg] at h; cases h
    | ok cap =>
      rw [hg] at h
      obtain ⟨h1, h2, h3, h4, h5⟩ := groupLoop_spec h
      refine ⟨fun i => (h1 i).trans (cap_le _ _ _ _ _), ?_, ?_, ?_, ?_⟩
      · intro g' hg'
        rcases List.mem_cons.1 hg' with rfl | h'
        · exact ⟨cap, hg⟩
        · exact h2 g' h'
      · intro g' hg' hn c hc
        rcases List.mem_cons.1 hg' with rfl | h'
        · rw [hg] at hc
          obtain rfl := Except.ok.inj hc
          have := cap_sum c g'.rows 0 F hn (group_rows_ne hg)
          rw [add_zero] at this
          exact (sum_le_of_le h1).trans this
        · exact h3 g' h' hn c hc
      · intro i hi
        rw [h4 i (fun g' hg' => hi g' (List.mem_cons_of_mem _ hg')), cap_notMem _ _ _ _ _ (hi g List.mem_cons_self)]
      · intro hc hF i hi
        have key : ∀ k, 0 ≤ F k → 0 ≤ capLoop cap g.rows 0 F k := fun k hk => by
          by_cases hkg : k ∈ g.rows
          · refine cap_nonneg g.rows 0 F (fun a ha => ?_) (fun x hx => ?_) k hkg
            · rcases hF a with h' | h'
              · exact h'
              · exact absurd ha (h' g List.mem_cons_self)
            · subst hx
              exact hc g List.mem_cons_self x hg
          · rw [cap_notMem _ _ _ _ _ hkg]
            exact hk
        refine h5 (fun g' hg' => hc g' (List.mem_cons_of_mem _ hg')) (fun k => ?_) i (key i hi)
        rcases hF k with h' | h'
        · exact Or.inl (key k h')
        · exact Or.inr fun g' hg' => h' g' (List.mem_cons_of_mem _ hg')

theorem rowForces_spec {j : Joint} : ∀ {rows : List Row} {F0 l : List ℝ}, j.rowForces rows F0 = .ok l →
    l.length = rows.length ∧ ∀ i r, rows[i]? = some r → (r.shear = false → ∃ T, j.rowTension r = .ok T ∧ l[i]? = some T) ∧ (r.shear = true → l[i]? = some (F0.getD i (-1)))
  | [], F0, l, h => by
    obtain rfl := Except.ok.inj h
    simp
  | r :: rows, F0, l, h => by
    simp only [Joint.rowForces, bind, Except.bind, pure, Except.pure] at h
    cases hx : j.rowForce r (F0.headD (-1)) with
    | error e => rw [hx] at h; cases h
    | ok x =>
      rw [hx] at h
      dsimp only at h
      cases hy : j.rowForces rows F0.tail with
      | error e => rw [hy] at h; cases h
      | ok y =>
        rw [hy] at h
        obtain rfl := Except.ok.inj h
        obtain ⟨h1, h2⟩ := rowForces_spec hy
        refine ⟨by simp [h1], fun i r' hr' => ?_⟩
        cases i with
        | zero =>
          simp only [List.getElem?_cons_zero, Option.some.injEq] at hr'
          subst hr'
          constructor
          · intro hs
            simp only [Joint.rowForce, hs, Bool.false_eq_true, if_false] at hx
            exact ⟨x, hx, rfl⟩
          · intro hs
            simp only [Joint.rowForce, hs, if_true] at hx
            obtain rfl := Except.ok.inj hx
            cases F0 <;> rfl
        | succ i =>
          simp only [List.getElem?_cons_succ] at hr' ⊢
          obtain ⟨ha, hb⟩ := h2 i r' hr'
          refine ⟨ha, fun hs => ?_⟩
          rw [hb hs]
          cases F0 <;> simp

theorem mem_tensionRows {j : Joint} {i : ℕ} : i ∈ j.tensionRows ↔ ∃ r, j.rows[i]? = some r ∧ r.shear = false := by
  simp only [Joint.tensionRows, List.mem_filter, List.mem_range]
  constructor
  · rintro ⟨h1, h2⟩
    have : j.rows[i]? = some j.rows[i] := List.getElem?_eq_getElem h1
    rw [this] at h2
    exact ⟨_, this, by simpa using h2⟩
  · rintro ⟨r, h1, h2⟩
    refine ⟨(List.getElem?_eq_some_iff.1 h1).1, ?_⟩
    rw [h1]
    simp [h2]

theorem tensionRows_nodup (j : Joint) : j.tensionRows.Nodup := List.Nodup.filter _ List.nodup_range

/-- The steps of `bending_resistance` that returns. -/
theorem bending_spec {j : Joint} {F0 : List ℝ} {F : ℕ → ℝ} {M : ℝ} (h : j.bending F0 = .ok (F, M)) :
    ∃ fc l F1, j.fcom = .ok fc ∧ j.rowForces j.rows F0 = .ok l ∧ j.groupLoop j.groups (fun i => l.getD i 0) = .ok F1 ∧ F = capLoop (some fc) j.tensionRows 0 F1 ∧ M = j.moment F := by
  simp only [Joint.bending, bind, Except.bind, pure, Except.pure] at h
  cases h1 : j.fcom with
  | error e => rw [h1] at h; cases h
  | ok fc =>
    rw [h1] at h
    dsimp only at h
    cases h2 : j.rowForces j.rows F0 with
    | error e => rw [h2] at h; cases h
    | ok l =>
      rw [h2] at h
      dsimp only at h
      cases h3 : j.groupLoop j.groups (fun i => l.getD i 0) with
      | error e => rw [h3] at h; cases h
      | ok F1 =>
        rw [h3] at h
        have := Except.ok.inj h
        rw [Prod.mk.injEq] at this
        exact ⟨fc, l, F1, rfl, rfl, h3, this.1.symm, by rw [← this.2, this.1]⟩

/-- **C100.** Whenever the moment resistance of an end-plate joint is returned, the forces left in the bolt rows are an admissible plastic distribution: each tension row carries at most its own resistance, the rows of each group
together at most the resistance of the group, and all tension rows together at most what the compression side and the web panel carry; with resistances that are not negative and groups made of tension rows no force is negative. -/
theorem C100 {j : Joint} {F0 : List ℝ} {F : ℕ → ℝ} {M : ℝ} (h : j.bending F0 = .ok (F, M)) :
    (∀ i r, j.rows[i]? = some r → r.shear = false → ∃ T, j.rowTension r = .ok T ∧ F i ≤ T) ∧
      (∀ g ∈ j.groups, g.rows.Nodup → ∀ c, j.groupTension g = .ok (some c) → (g.rows.map F).sum ≤ c) ∧
      (∃ fc, j.fcom = .ok fc ∧ (j.tensionRows ≠ [] → (j.tensionRows.map F).sum ≤ fc)) ∧
      ((∀ r ∈ j.rows, ∀ T, j.rowTension r = .ok T → 0 ≤ T) → (∀ g ∈ j.groups, ∀ c, j.groupTension g = .ok (some c) → 0 ≤ c) → (∀ fc, j.fcom = .ok fc → 0 ≤ fc) → (∀ g ∈ j.groups, ∀ i ∈ g.rows, i ∈ j.tensionRows) →
        ∀ i ∈ j.tensionRows, 0 ≤ F i) := by
  obtain ⟨fc, l, F1, h1, h2, h3, rfl, _⟩ := bending_spec h
  obtain ⟨hl, hrow⟩ := rowForces_spec h2
  obtain ⟨g1, g2, g3, g4, g5⟩ := groupLoop_spec h3
  refine ⟨fun i r hr hs => ?_, fun g hg hn c hc => ?_, ⟨fc, h1, fun hne => ?_⟩, fun hT hG hC hin i hi => ?_⟩
  · obtain ⟨T, hT, hlT⟩ := (hrow i r hr).1 hs
    refine ⟨T, hT, (cap_le _ _ _ _ _).trans ((g1 i).trans ?_)⟩
    simp [List.getD_eq_getElem?_getD, hlT]
  · exact (sum_le_of_le (fun i => cap_le _ _ _ _ _)).trans (g3 g hg hn c hc)
  · have := cap_sum fc j.tensionRows 0 F1 (tensionRows_nodup j) hne
    rwa [add_zero] at this
  · have h0 : ∀ k ∈ j.tensionRows, 0 ≤ l.getD k 0 := fun k hk => by
      obtain ⟨r, hr, hs⟩ := mem_tensionRows.1 hk
      obtain ⟨T, hT', hlT⟩ := (hrow k r hr).1 hs
      simp only [List.getD_eq_getElem?_getD, hlT, Option.getD_some]
      exact hT r (List.mem_of_getElem? hr) T hT'
    have h1' : ∀ k ∈ j.tensionRows, 0 ≤ F1 k := fun k hk => by
      refine g5 hG (fun a => ?_) k (h0 k hk)
      by_cases ha : a ∈ j.tensionRows
      · exact Or.inl (h0 a ha)
      · exact Or.inr fun g hg hag => ha (hin g hg a hag)
    exact cap_nonneg _ _ _ h1' (fun x hx => by
      obtain rfl := Option.some.inj hx
      exact hC _ h1) i hi

/-- **C100, compression side.** The forces of the tension rows together are at most what the column web in compression and the compressed flange of the beam carry, and they do not overload the web panel in shear; a stiffener at the
compressed flange does not occur, see C103. -/
theorem C100_compression {j : Joint} {F0 : List ℝ} {F : ℕ → ℝ} {M : ℝ} (h : j.bending F0 = .ok (F, M)) (hβ : 0 < j.β) (hb : j.beam.tf < j.beam.h) (hne : j.tensionRows ≠ []) :
    (j.tensionRows.map F).sum * j.β ≤ 0.9 * j.col.fy * j.col.Av / √3 ∧ (j.tensionRows.map F).sum ≤ colWebComp j.col j.beam j.tp j.ebottom j.weldF j.β j.σ ∧ (j.tensionRows.map F).sum * (j.beam.h - j.beam.tf) ≤ j.MRd := by
  obtain ⟨-, -, ⟨fc, hfc, hs⟩, -⟩ := C100 h
  have hs := hs hne
  unfold Joint.fcom Joint.fcWeb at hfc
  cases hbot : j.bottom with
  | some b => simp [hbot, bind, Except.bind] at hfc
  | none =>
    simp only [hbot, if_neg hβ.ne', bind, Except.bind, pure, Except.pure] at hfc
    obtain rfl := Except.ok.inj hfc
    have h1 := hs.trans ((min_le_left _ _).trans (min_le_left _ _))
    have h2 := hs.trans ((min_le_left _ _).trans (min_le_right _ _))
    have h3 := hs.trans (min_le_right _ _)
    rw [le_div_iff₀ hβ] at h1
    unfold beamWebCompression at h3
    rw [le_div_iff₀ (by linarith)] at h3
    refine ⟨h1.trans_eq ?_, h2, h3⟩
    unfold Joint.vwp
    rw [hbot]
    cases j.top <;> simp [colWebShear, gammaM0] <;> norm_num

/-! ### C101: the distribution gives the largest moment -/

/-- Filling rows in order of falling lever arms: no distribution within the row resistances gives more, up to the lever arm `H` times the force by which it exceeds the capacity left. -/
theorem greedy (h : ℕ → ℝ) (c : ℝ) : ∀ (l : List ℕ) (tot : ℝ) (F G : ℕ → ℝ) (H : ℝ), l.Nodup → l.Pairwise (fun a b => h b ≤ h a) → (∀ i ∈ l, 0 ≤ h i ∧ h i ≤ H) → (∀ i ∈ l, 0 ≤ G i ∧ G i ≤ F i) → tot ≤ c →
    (l.map (fun i => G i * h i)).sum ≤ (l.map (fun i => capLoop (some c) l tot F i * h i)).sum + H * max 0 ((l.map G).sum - (c - tot))
  | [], tot, F, G, H, _, _, _, _, hc => by
    simp only [List.map_nil, List.sum_nil, zero_add, zero_sub]
    rw [max_eq_left (by linarith), mul_zero]
  | i :: l, tot, F, G, H, hn, hp, hh, hG, hc => by
    have hn' := List.nodup_cons.1 hn
    have hp' := List.pairwise_cons.1 hp
    have hi := hh i List.mem_cons_self
    have hGi := hG i List.mem_cons_self
    have e : ∀ k, capLoop (some c) (i :: l) tot F k = capLoop (some c) l (tot + min (F i) (c - tot)) (Function.update F i (min (F i) (c - tot))) k := fun k => by rw [capLoop, capped]
    have ih := greedy h c l (tot + min (F i) (c - tot)) (Function.update F i (min (F i) (c - tot))) G (h i) hn'.2 hp'.2
      (fun k hk => ⟨(hh k (List.mem_cons_of_mem _ hk)).1, hp'.1 k hk⟩)
      (fun k hk => by
        have hki : k ≠ i := fun h' => hn'.1 (h' ▸ hk)
        rw [Function.update_of_ne hki]
        exact hG k (List.mem_cons_of_mem _ hk))
      (by linarith [min_le_right (F i) (c - tot)])
    rw [List.map_cons, List.map_cons, List.map_cons, List.sum_cons, List.sum_cons, List.sum_cons, cap_head c hn'.1]
    simp only [e]
    have hS : 0 ≤ (l.map G).sum := List.sum_nonneg (by
      intro x hx
      obtain ⟨k, hk, rfl⟩ := List.mem_map.1 hx
      exact (hG k (List.mem_cons_of_mem _ hk)).1)
    generalize (l.map G).sum = S at *
    generalize (l.map fun k => capLoop (some c) l (tot + min (F i) (c - tot)) (Function.update F i (min (F i) (c - tot))) k * h k).sum = V at *
    generalize (l.map fun k => G k * h k).sum = W at *
    rcases le_total (F i) (c - tot) with hm | hm
    · rw [min_eq_left hm] at ih ⊢
      rcases max_cases 0 (S - (c - (tot + F i))) with h1 | h1
      · rw [h1.1] at ih
        have : G i * h i ≤ F i * h i := mul_le_mul_of_nonneg_right hGi.2 hi.1
        have h2 : 0 ≤ H * max 0 (G i + S - (c - tot)) := mul_nonneg (hi.1.trans hi.2) (le_max_left _ _)
        linarith
      · rw [h1.1] at ih
        have h2 : h i * (G i + S - (c - tot)) ≤ H * max 0 (G i + S - (c - tot)) := by
          refine (mul_le_mul_of_nonneg_left (le_max_right 0 _) hi.1).trans (mul_le_mul_of_nonneg_right hi.2 (le_max_left _ _))
        linarith
    · rw [min_eq_right hm] at ih ⊢
      have e0 : S - (c - (tot + (c - tot))) = S := by ring
      rw [e0, max_eq_right hS] at ih
      have h2 : h i * (G i + S - (c - tot)) ≤ H * max 0 (G i + S - (c - tot)) := by
        refine (mul_le_mul_of_nonneg_left (le_max_right 0 _) hi.1).trans (mul_le_mul_of_nonneg_right hi.2 (le_max_left _ _))
      linarith

theorem moment_eq_range (j : Joint) (F : ℕ → ℝ) : j.moment F = ((List.range j.rows.length).map (fun i => F i * ((j.rows[i]?).map j.arm).getD 0)).sum := by
  unfold Joint.moment
  congr 1
  apply List.ext_getElem
  · simp
  · intro n h1 h2
    simp only [List.length_mapIdx] at h1
    simp [h1]

theorem tensionRows_all {j : Joint} (h : ∀ r ∈ j.rows, r.shear = false) : j.tensionRows = List.range j.rows.length := by
  unfold Joint.tensionRows
  rw [List.filter_eq_self]
  intro i hi
  rw [List.mem_range] at hi
  rw [List.getElem?_eq_getElem hi]
  simp [h _ (List.getElem_mem hi)]

/-- **C101 (part).** If there are no groups and no shear rows and the rows are listed from the top downwards above the centre of compression, the moment resistance is the largest moment of all distributions of row forces within the row
resistances that the compression side can balance. -/
theorem C101_partial {j : Joint} {F0 : List ℝ} {F : ℕ → ℝ} {M fc : ℝ} (h : j.bending F0 = .ok (F, M)) (hg : j.groups = []) (hs : ∀ r ∈ j.rows, r.shear = false) (hz : j.rows.Pairwise (fun a b => b.z ≤ a.z))
    (hc : ∀ r ∈ j.rows, j.zc ≤ r.z) (hfc : j.fcom = .ok fc) (hfc0 : 0 ≤ fc) {G : ℕ → ℝ} (hG0 : ∀ i, 0 ≤ G i) (hGT : ∀ i r T, j.rows[i]? = some r → j.rowTension r = .ok T → G i ≤ T)
    (hGc : ((List.range j.rows.length).map G).sum ≤ fc) : j.moment G ≤ M := by
  obtain ⟨fc', l, F1, h1, h2, h3, rfl, rfl⟩ := bending_spec h
  rw [hfc] at h1
  obtain rfl := Except.ok.inj h1
  obtain ⟨hl, hrow⟩ := rowForces_spec h2
  rw [hg, Joint.groupLoop] at h3
  obtain rfl := Except.ok.inj h3
  rw [moment_eq_range, moment_eq_range, tensionRows_all hs]
  have hb : ∀ i ∈ List.range j.rows.length, ∃ r, j.rows[i]? = some r ∧ r ∈ j.rows := fun i hi => by
    rw [List.mem_range] at hi
    exact ⟨j.rows[i], List.getElem?_eq_getElem hi, List.getElem_mem hi⟩
  have hb0 : ∀ i ∈ List.range j.rows.length, 0 ≤ ((j.rows[i]?).map j.arm).getD 0 := fun i hi => by
    obtain ⟨r, hr, hm⟩ := hb i hi
    simp only [hr, Option.map_some, Option.getD_some, Joint.arm]
    linarith [hc r hm]
  have hpw : (List.range j.rows.length).Pairwise (fun a b => ((j.rows[b]?).map j.arm).getD 0 ≤ ((j.rows[a]?).map j.arm).getD 0) := by
    rw [List.pairwise_iff_getElem]
    intro a b ha hb' hab
    simp only [List.length_range] at ha hb'
    simp only [List.getElem_range, List.getElem?_eq_getElem ha, List.getElem?_eq_getElem hb', Option.map_some, Option.getD_some, Joint.arm]
    have := (List.pairwise_iff_getElem.1 hz) a b ha hb' hab
    linarith
  obtain ⟨H, hH⟩ : ∃ H, ∀ i ∈ List.range j.rows.length, ((j.rows[i]?).map j.arm).getD 0 ≤ H := by
    refine ⟨((List.range j.rows.length).map (fun i => ((j.rows[i]?).map j.arm).getD 0)).sum, fun i hi => ?_⟩
    apply List.single_le_sum
    · intro x hx
      obtain ⟨k, hk, rfl⟩ := List.mem_map.1 hx
      exact hb0 k hk
    · exact List.mem_map.2 ⟨i, hi, rfl⟩
  have := greedy (fun i => ((j.rows[i]?).map j.arm).getD 0) fc (List.range j.rows.length) 0 (fun i => l.getD i 0) G H List.nodup_range hpw (fun i hi => ⟨hb0 i hi, hH i hi⟩)
    (fun i hi => by
      obtain ⟨r, hr, hm⟩ := hb i hi
      obtain ⟨T, hT, hlT⟩ := (hrow i r hr).1 (hs r hm)
      refine ⟨hG0 i, ?_⟩
      simp only [List.getD_eq_getElem?_getD, hlT, Option.getD_some]
      exact hGT i r T hr hT) hfc0
  rw [max_eq_left (by linarith), mul_zero, add_zero] at this
  exact this

/-! ### C102: shear rows -/

/-- Part of the moment due to the rows of one kind: forces times distances from the axis of the compressed flange of the beam. -/
noncomputable def momentOf (j : Joint) (F : ℕ → ℝ) (kind : Bool) : ℝ := (j.rows.mapIdx (fun i r => if r.shear = kind then F i * (r.z + (j.beam.h - j.beam.tf) / 2) else 0)).sum

theorem mapIdx_split (j : Joint) (F : ℕ → ℝ) : ∀ (rows : List Row) (g : ℕ → ℝ), (rows.mapIdx (fun i r => g i * j.arm r)).sum =
    (rows.mapIdx (fun i r => if r.shear = false then g i * (r.z + (j.beam.h - j.beam.tf) / 2) else 0)).sum + (rows.mapIdx (fun i r => if r.shear = true then g i * (r.z + (j.beam.h - j.beam.tf) / 2) else 0)).sum
  | [], _ => by simp
  | r :: l, g => by
    rw [List.mapIdx_cons, List.mapIdx_cons, List.mapIdx_cons, List.sum_cons, List.sum_cons, List.sum_cons, mapIdx_split j F l (fun i => g (i + 1))]
    cases r.shear <;> simp [Joint.arm, Joint.zc] <;> ring

theorem moment_split (j : Joint) (F : ℕ → ℝ) : j.moment F = momentOf j F false + momentOf j F true := mapIdx_split j F j.rows F

/-- **C102 (part).** Without shear rows the moment resistance is the sum of the forces of the rows in tension times their distances from the centre of compression, the axis of the compressed flange of the beam. -/
theorem C102_partial {j : Joint} {F0 : List ℝ} {F : ℕ → ℝ} {M : ℝ} (h : j.bending F0 = .ok (F, M)) (hs : ∀ r ∈ j.rows, r.shear = false) : M = momentOf j F false := by
  obtain ⟨_, _, _, _, _, _, _, rfl⟩ := bending_spec h
  rw [moment_split, add_eq_left, momentOf, List.sum_eq_zero]
  intro x hx
  obtain ⟨i, hi, rfl⟩ := List.mem_mapIdx.1 hx
  rw [hs _ (List.getElem_mem hi), if_neg (by decide)]

theorem shear_force {j : Joint} {F : ℕ → ℝ} {M : ℝ} (h : j.bending j.initial = .ok (F, M)) (hin : ∀ g ∈ j.groups, ∀ i ∈ g.rows, i ∈ j.tensionRows) :
    ∀ i r, j.rows[i]? = some r → r.shear = true → F i = -1 := by
  intro i r hr hs
  obtain ⟨fc, l, F1, h1, h2, h3, rfl, _⟩ := bending_spec h
  obtain ⟨hl, hrow⟩ := rowForces_spec h2
  obtain ⟨g1, g2, g3, g4, g5⟩ := groupLoop_spec h3
  have hni : i ∉ j.tensionRows := fun hi => by
    obtain ⟨r', hr', hs'⟩ := mem_tensionRows.1 hi
    rw [hr] at hr'
    obtain rfl := Option.some.inj hr'
    rw [hs] at hs'
    cases hs'
  rw [cap_notMem _ _ _ _ _ hni, g4 i (fun g hg hi => hni (hin g hg i hi))]
  have := (hrow i r hr).2 hs
  simp only [List.getD_eq_getElem?_getD, this, Option.getD_some, Joint.initial]
  have hlt : i < j.rows.length := (List.getElem?_eq_some_iff.1 hr).1
  simp [hlt]

/-- **C102 (violation).** Shear rows take part in the moment: when a new joint is evaluated each of them counts with a force of -1 N, so that the moment resistance is less than that of the rows in tension whenever
there is a shear row above the centre of compression, and more than it when all shear rows are below. -/
theorem C102_violation {j : Joint} {F : ℕ → ℝ} {M : ℝ} (h : j.bending j.initial = .ok (F, M)) (hin : ∀ g ∈ j.groups, ∀ i ∈ g.rows, i ∈ j.tensionRows) :
    M = momentOf j F false - (j.rows.map (fun r => if r.shear then r.z + (j.beam.h - j.beam.tf) / 2 else 0)).sum := by
  have hf := shear_force h hin
  obtain ⟨_, _, _, _, _, _, _, rfl⟩ := bending_spec h
  rw [moment_split, sub_eq_add_neg, List.sum_neg, List.map_map]
  congr 1
  unfold momentOf
  congr 1
  apply List.ext_getElem
  · simp
  · intro n h1 h2
    simp only [List.length_mapIdx] at h1
    have := hf n j.rows[n] (List.getElem?_eq_getElem h1)
    simp only [List.getElem_mapIdx, List.getElem_map, Function.comp_apply]
    split_ifs with hb
    · rw [this hb]
      ring
    · simp

/-! ### C103: stiffeners -/

/-- **C103 (violation).** The moment resistance of a joint with a stiffener at the compressed flange of the beam, or with a stiffener at the tension flange and at least one row in tension, is never returned. -/
theorem C103_violation (j : Joint) (F0 : List ℝ) :
    (j.bottom ≠ none → j.bending F0 = .error .attributeError) ∧
      (j.top ≠ none → j.bottom = none → j.β ≠ 0 → (∃ r ∈ j.rows, r.shear = false) → j.bending F0 = .error .attributeError) := by
  constructor
  · intro h
    cases hb : j.bottom with
    | none => exact absurd hb h
    | some b => simp [Joint.bending, Joint.fcom, Joint.fcWeb, hb, bind, Except.bind]
  · intro ht hb hβ hr
    have key : ∀ (rows : List Row) (F : List ℝ), (∃ r ∈ rows, r.shear = false) → j.rowForces rows F = .error .attributeError := by
      intro rows
      induction rows with
      | nil =>
        rintro F ⟨r, hr, _⟩
        cases hr
      | cons r rows ih =>
        intro F hex
        cases hs : r.shear with
        | false => simp [Joint.rowForces, Joint.rowForce, hs, Joint.rowTension, ht, bind, Except.bind]
        | true =>
          obtain ⟨r', hr', hs'⟩ := hex
          rcases List.mem_cons.1 hr' with rfl | hm
          · rw [hs] at hs'
            cases hs'
          · simp [Joint.rowForces, Joint.rowForce, hs, ih F.tail ⟨r', hm, hs'⟩, bind, Except.bind]
    simp [Joint.bending, Joint.fcom, Joint.fcWeb, hb, hβ, key j.rows F0 hr, bind, Except.bind, pure, Except.pure]

/-- **C103 (part).** Without stiffeners the moment resistance of a joint without groups is returned whenever the rows are at positions of the tables. -/
theorem C103_partial {j : Joint} (F0 : List ℝ) (ht : j.top = none) (hb : j.bottom = none) (hβ : j.β ≠ 0) (hg : j.groups = [])
    (hr : ∀ r ∈ j.rows, r.Free ∧ (r.plate = .outside ∨ r.plate = .firstBelow ∨ r.plate = .otherInner ∨ r.plate = .otherEnd)) : ∃ F M, j.bending F0 = .ok (F, M) := by
  have hrow : ∀ r, r.Free → (r.plate = .outside ∨ r.plate = .firstBelow ∨ r.plate = .otherInner ∨ r.plate = .otherEnd) → ∃ T, j.rowTension r = .ok T := fun r h1 h2 => by
    rcases h2 with h2 | h2
    · exact ⟨_, by
        simp only [Joint.rowTension, ht, flangeStub_free h1, plateStub_outside h2, ne_eq, not_true, if_false, bind, Except.bind, pure, Except.pure]
        rfl⟩
    · exact ⟨_, by
        simp only [Joint.rowTension, ht, flangeStub_free h1, plateStub_below h2, ne_eq, not_true, if_false, bind, Except.bind, pure, Except.pure]
        rfl⟩
  have key : ∀ (rows : List Row) (F : List ℝ), (∀ r ∈ rows, r.Free ∧ (r.plate = .outside ∨ r.plate = .firstBelow ∨ r.plate = .otherInner ∨ r.plate = .otherEnd)) → ∃ l, j.rowForces rows F = .ok l := by
    intro rows
    induction rows with
    | nil => exact fun F _ => ⟨[], rfl⟩
    | cons r rows ih =>
      intro F h
      obtain ⟨l, hl⟩ := ih F.tail fun r' hr' => h r' (List.mem_cons_of_mem _ hr')
      obtain ⟨T, hT⟩ := hrow r (h r List.mem_cons_self).1 (h r List.mem_cons_self).2
      cases hs : r.shear with
      | false => exact ⟨T :: l, by simp [Joint.rowForces, Joint.rowForce, hs, hT, hl, bind, Except.bind, pure, Except.pure]⟩
      | true => exact ⟨F.headD (-1) :: l, by simp [Joint.rowForces, Joint.rowForce, hs, hl, bind, Except.bind, pure, Except.pure]⟩
  obtain ⟨l, hl⟩ := key j.rows F0 hr
  exact ⟨_, _, by
    simp only [Joint.bending, Joint.fcom, Joint.fcWeb, hb, hβ, hg, hl, Joint.groupLoop, if_false, bind, Except.bind, pure, Except.pure]
    rfl⟩

/-! ### C104: effective lengths kept by a T-stub -/

/-- **C104 (part).** A new T-stub, and one whose resistance has just been evaluated, return the effective length of the governing mode: of the shorter pattern in mode 1, of the non-circular one otherwise. -/
theorem C104_partial (s : TStub) (c : Cache) :
    (s.evalLeff Cache.new).1 = (if s.F1 ≤ s.F2 ∧ s.F1 ≤ s.F3 then min s.cp s.nc else s.nc) ∧ (s.evalLeff (s.evalFT c).2).1 = (if s.F1 ≤ s.F2 ∧ s.F1 ≤ s.F3 then min s.cp s.nc else s.nc) := by
  have h : ∀ x y : ℝ, (if s.mode = 0 then x else y) = if s.F1 ≤ s.F2 ∧ s.F1 ≤ s.F3 then x else y := fun x y => by
    unfold TStub.mode
    split_ifs <;> first | rfl | simp_all
  constructor <;> simp [TStub.evalLeff, TStub.evalFT, Cache.new, TStub.leff1, TStub.leff2, h]

/-- **C104 (violation).** After the resistance has been evaluated once, the effective length returned stays that of the old dimensions, whatever dimensions, strengths or bolts are set since. -/
theorem C104_violation (s s' : TStub) (c : Cache) : (s'.evalLeff (s.evalFT c).2).1 = (s.evalLeff Cache.new).1 := by
  simp [TStub.evalLeff, TStub.evalFT, Cache.new]

example : ∃ s s' : TStub, (s'.evalLeff Cache.new).1 ≠ (s'.evalLeff (s.evalFT Cache.new).2).1 := by
  refine ⟨{ cp := 250, nc := 210, tf := 15, fy := 355, m := 40, n := 40, Ft := 282240 }, { cp := 350, nc := 310, tf := 15, fy := 355, m := 40, n := 40, Ft := 282240 }, ?_⟩
  rw [C104_violation, (C104_partial _ Cache.new).1, (C104_partial _ Cache.new).1]
  simp only [TStub.F1, TStub.F2, TStub.F3, TStub.mpl1, TStub.mpl2, TStub.leff1, TStub.leff2, gammaM0]
  norm_num

/-! ### C105: stiffness -/

theorem sum_pos_of {l : List Spring} {f : Spring → ℝ} (hl : l ≠ []) (h : ∀ s ∈ l, 0 < f s) : 0 < (l.map f).sum := by
  apply List.sum_pos
  · intro x hx
    obtain ⟨s, hs, rfl⟩ := List.mem_map.1 hx
    exact h s hs
  · simpa using hl

/-- **C105 (part).** With at least two rows in tension the initial stiffness is that of one equivalent tension spring in series with the springs of the column web in shear and in compression: the equivalent spring, at the arm `z`, has
for every rotation `θ` the same force and the same moment as all rows in tension together; and the moment of the joint is the stiffness times the rotation whenever the extension of the three springs under the force `M / z` is the
rotation times `z`. Without a stiffener the web in compression has the stiffness `k2`, with one it is rigid. -/
theorem C105_partial {E β S : ℝ} {c : Sec} {k2 : Option ℝ} {l : List Spring} (h : sjIni E c β k2 l = .ok S) (hE : 0 < E) (hβ : 0 < β) (hA : 0 < c.Av) (hk2 : ∀ k, k2 = some k → 0 < k)
    (hp : ∀ s ∈ l, s.shear = false → 0 < s.k ∧ 0 < s.h) :
    ∃ z k : ℝ, 0 < z ∧ 0 < k ∧ (∀ θ, k * (z * θ) = ((l.filter (fun s => !s.shear)).map (fun s => s.k * (s.h * θ))).sum) ∧
      (∀ θ, k * (z * θ) * z = ((l.filter (fun s => !s.shear)).map (fun s => s.k * (s.h * θ) * s.h)).sum) ∧
      ∀ M φ, M / z / (E * (0.38 * c.Av / (β * z))) + (k2.map (fun k' => M / z / (E * k'))).getD 0 + M / z / (E * k) = φ * z → M = S * φ := by
  set t := l.filter (fun s => !s.shear) with ht
  have hpt : ∀ s ∈ t, 0 < s.k ∧ 0 < s.h := fun s hs => by
    rw [ht, List.mem_filter] at hs
    exact hp s hs.1 (by simpa using hs.2)
  have hne : t ≠ [] := by
    intro h0
    simp [sjIni, ← ht, h0] at h
  have h1 : 0 < (t.map (fun s => s.k * s.h)).sum := sum_pos_of hne fun s hs => mul_pos (hpt s hs).1 (hpt s hs).2
  have h2 : 0 < (t.map (fun s => s.k * s.h ^ 2)).sum := sum_pos_of hne fun s hs => mul_pos (hpt s hs).1 (pow_pos (hpt s hs).2 2)
  have hz : 0 < zeq l := div_pos h2 h1
  have hk : 0 < keq l := div_pos h1 hz
  have e1 : ∀ θ, (t.map (fun s => s.k * (s.h * θ))).sum = (t.map (fun s => s.k * s.h)).sum * θ := fun θ => by
    rw [← List.sum_map_mul_right]
    congr 2
    funext s
    ring
  have e2 : ∀ θ, (t.map (fun s => s.k * (s.h * θ) * s.h)).sum = (t.map (fun s => s.k * s.h ^ 2)).sum * θ := fun θ => by
    rw [← List.sum_map_mul_right]
    congr 2
    funext s
    ring
  have ek : keq l * zeq l = (t.map (fun s => s.k * s.h)).sum := div_mul_cancel₀ _ hz.ne'
  have ez : (t.map (fun s => s.k * s.h)).sum * zeq l = (t.map (fun s => s.k * s.h ^ 2)).sum := mul_div_cancel₀ _ h1.ne'
  refine ⟨zeq l, keq l, hz, hk, fun θ => ?_, fun θ => ?_, fun M φ hM => ?_⟩
  · rw [e1, ← ek]
    ring
  · rw [e2, ← ez, ← ek]
    ring
  · have hS : S = E * zeq l ^ 2 / (1 / (1 / (1 / colWebShearK c β (zeq l) + flexibility k2)) + 1 / keq l) := by
      unfold sjIni at h
      split at h
      · cases h
      · cases h
      · exact (Except.ok.inj h).symm
    have ek1 : colWebShearK c β (zeq l) = 0.38 * c.Av / (β * zeq l) := by
      unfold colWebShearK
      field_simp
      norm_num
    have hk1 : 0 < 0.38 * c.Av / (β * zeq l) := by positivity
    rw [ek1] at hS
    generalize 0.38 * c.Av / (β * zeq l) = k1 at *
    generalize zeq l = z at *
    generalize keq l = k at *
    rw [hS]
    cases k2 with
    | none =>
      simp only [flexibility, Option.map_none, Option.getD_none] at hM ⊢
      have hd : 0 < 1 / (1 / (1 / k1 + 0)) + 1 / k := by positivity
      rw [div_mul_eq_mul_div, eq_div_iff hd.ne']
      have : E * z ^ 2 * φ = E * z * (φ * z) := by ring
      rw [this, ← hM]
      field_simp
      ring
    | some k' =>
      have hk' := hk2 k' rfl
      simp only [flexibility, Option.map_some, Option.getD_some] at hM ⊢
      have hd : 0 < 1 / (1 / (1 / k1 + 1 / k')) + 1 / k := by positivity
      rw [div_mul_eq_mul_div, eq_div_iff hd.ne']
      have : E * z ^ 2 * φ = E * z * (φ * z) := by ring
      rw [this, ← hM]
      field_simp

example : ∃ S, sjIni 210000 secX 1 (some 8) [⟨3, 400, false⟩, ⟨2, 300, false⟩, ⟨2, 50, true⟩] = .ok S := ⟨_, rfl⟩

/-- **C105 (row).** A bolt row is a series of springs: its deformation under any force is the sum of those of web, flange, plate and bolts. -/
theorem C105_row {E k3 k4 k5 k10 : ℝ} (hE : 0 < E) (h3 : 0 < k3) (h4 : 0 < k4) (h5 : 0 < k5) (h10 : 0 < k10) (F : ℝ) : F / (E * keff k3 k4 k5 k10) = F / (E * k3) + F / (E * k4) + F / (E * k5) + F / (E * k10) := by
  have : 0 < 1 / k3 + 1 / k4 + 1 / k5 + 1 / k10 := by positivity
  unfold keff
  field_simp

/-- **C105 (violation).** Of a joint with a single row in tension the stiffness is not returned, and the equivalent stiffness that the joint reports by itself counts shear rows too: it is larger than that of the rows in tension as soon as
there is a shear row above the centre of compression. -/
theorem C105_violation :
    (∀ (E β : ℝ) (c : Sec) (k2 : Option ℝ) (a b : List Spring) (s : Spring), (∀ x ∈ a ++ b, x.shear = true) → s.shear = false → sjIni E c β k2 (a ++ s :: b) = .error .unboundLocal) ∧
      ∀ (l : List Spring) (x : Spring), (∃ s ∈ l, s.shear = false) → (∀ s ∈ x :: l, 0 < s.k ∧ 0 < s.h) → x.shear = true → keq (x :: l) < keqAll (x :: l) := by
  constructor
  · intro E β c k2 a b s hab hs
    have ha : a.filter (fun s => !s.shear) = [] := by
      rw [List.filter_eq_nil_iff]
      intro x hx
      simp [hab x (List.mem_append_left _ hx)]
    have hb : b.filter (fun s => !s.shear) = [] := by
      rw [List.filter_eq_nil_iff]
      intro x hx
      simp [hab x (List.mem_append_right _ hx)]
    simp [sjIni, List.filter_append, ha, hb, hs]
  · rintro l x ⟨s, hs, hss⟩ hp hx
    set t := (x :: l).filter (fun s => !s.shear) with ht
    have hne : t ≠ [] := by
      intro h0
      have : s ∈ t := List.mem_filter.2 ⟨List.mem_cons_of_mem _ hs, by simp [hss]⟩
      rw [h0] at this
      cases this
    have hpt : ∀ s ∈ t, 0 < s.k ∧ 0 < s.h := fun s hs => hp s (List.mem_filter.1 hs).1
    have h1 : 0 < (t.map (fun s => s.k * s.h)).sum := sum_pos_of hne fun s hs => mul_pos (hpt s hs).1 (hpt s hs).2
    have h2 : 0 < (t.map (fun s => s.k * s.h ^ 2)).sum := sum_pos_of hne fun s hs => mul_pos (hpt s hs).1 (pow_pos (hpt s hs).2 2)
    have hz : 0 < zeq (x :: l) := div_pos h2 h1
    have key : ∀ l : List Spring, (∀ s ∈ l, 0 < s.k ∧ 0 < s.h) → ((l.filter (fun s => !s.shear)).map (fun s => s.k * s.h)).sum ≤ (l.map (fun s => s.k * s.h)).sum := by
      intro l
      induction l with
      | nil => simp
      | cons a l ih =>
        intro h
        have := ih fun s hs => h s (List.mem_cons_of_mem _ hs)
        have ha := mul_pos (h a List.mem_cons_self).1 (h a List.mem_cons_self).2
        cases hsh : a.shear <;> simp [hsh] <;> linarith
    unfold keq keqAll
    apply div_lt_div_of_pos_right _ hz
    have hf : (x :: l).filter (fun s => !s.shear) = l.filter (fun s => !s.shear) := by simp [hx]
    rw [hf, List.map_cons, List.sum_cons]
    have := key l fun s hs => hp s (List.mem_cons_of_mem _ hs)
    have hx' := mul_pos (hp x List.mem_cons_self).1 (hp x List.mem_cons_self).2
    linarith

/-! ### C106: shear -/

/-- **C106 (part).** Every row contributes the force of its two bolts: a bolt without tension its shear resistance, a bolt in tension 28.6 % of it, which satisfies the interaction of shear and tension as long as the tension is at most
99.96 % of its resistance. -/
theorem C106_partial {r : Row} {F V : ℝ} (h : rowShear r F = .ok V) (hA : 0 < r.bolt.dims.As) (hf : 0 < r.bolt.fub) :
    ∃ v, (0 < F ∨ |F| < 1 / 1000 ∨ r.shear = true → r.bolt.shear true = .ok v) ∧
      (0 < F → ∀ T, 0 ≤ T → T ≤ 0.9996 * r.bolt.tension (9 / 10) → BoltSpec.ShearTension (V / 2) v T (r.bolt.tension (9 / 10))) ∧ (F ≤ 0 → |F| < 1 / 1000 ∨ r.shear = true → V = 2 * v) ∧
      (F ≤ 0 → ¬(|F| < 1 / 1000 ∨ r.shear = true) → V = 0) := by
  have hT : 0 < r.bolt.tension (9 / 10) := by
    unfold Bolt.tension gammaM2
    positivity
  have hv0 : ∀ v, r.bolt.shear true = .ok v → 0 < v := by
    intro v hv
    unfold Bolt.shear gammaM2 at hv
    rw [if_pos rfl] at hv
    split at hv
    all_goals first | cases hv; done | (obtain rfl := Except.ok.inj hv; positivity)
  unfold rowShear at h
  by_cases hF : 0 < F
  · rw [if_pos hF] at h
    cases hv : r.bolt.shear true with
    | error e =>
      rw [hv] at h
      simp [bind, Except.bind] at h
    | ok v =>
      rw [hv] at h
      simp only [bind, Except.bind, pure, Except.pure] at h
      obtain rfl := Except.ok.inj h
      have hvp := hv0 v hv
      refine ⟨v, fun _ => rfl, fun _ T hT0 hT1 => ⟨?_, ?_, ?_⟩, fun h' => absurd hF (not_lt.2 h'), fun h' => absurd hF (not_lt.2 h')⟩
      · norm_num
        linarith
      · nlinarith
      · have e1 : 2 * (286 / 1000) * v / 2 / v = 0.286 := by
          field_simp
          norm_num
        have e2 : T / (1.4 * r.bolt.tension (9 / 10)) ≤ 0.714 := by
          rw [div_le_iff₀ (by positivity)]
          nlinarith
        rw [e1]
        linarith
  · rw [if_neg hF] at h
    by_cases hs : |F| < 1 / 1000 ∨ r.shear = true
    · rw [if_pos hs] at h
      cases hv : r.bolt.shear true with
      | error e =>
        rw [hv] at h
        simp [bind, Except.bind] at h
      | ok v =>
        rw [hv] at h
        simp only [bind, Except.bind, pure, Except.pure] at h
        obtain rfl := Except.ok.inj h
        exact ⟨v, fun _ => rfl, fun h' => absurd h' hF, fun _ _ => rfl, fun _ h' => absurd hs h'⟩
    · rw [if_neg hs] at h
      obtain rfl := Except.ok.inj h
      exact ⟨0, fun h' => absurd (h'.elim (fun h' => absurd h' hF) fun h' => h') hs, fun h' => absurd h' hF, fun _ h' => absurd h' hs, fun _ _ => rfl⟩

/-- **C106 (sum, part).** The shear resistance of the joint is the sum of the contributions of its rows. -/
theorem C106_sum_partial {j : Joint} {F : ℕ → ℝ} {V : ℝ} (h : j.shear F = .ok V) : ∃ v : List ℝ, v.length = j.rows.length ∧ (∀ i r, j.rows[i]? = some r → ∃ x, v[i]? = some x ∧ rowShear r (F i) = .ok x) ∧ V = v.sum := by
  have key : ∀ (rows : List Row) (k : ℕ) (V : ℝ), sumRows (fun i r => rowShear r (F i)) k rows = .ok V →
      ∃ v : List ℝ, v.length = rows.length ∧ (∀ i r, rows[i]? = some r → ∃ x, v[i]? = some x ∧ rowShear r (F (k + i)) = .ok x) ∧ V = v.sum := by
    intro rows
    induction rows with
    | nil =>
      intro k V h
      obtain rfl := Except.ok.inj h
      exact ⟨[], rfl, fun i r h => by simp at h, rfl⟩
    | cons r l ih =>
      intro k V h
      simp only [sumRows, bind, Except.bind, pure, Except.pure] at h
      cases h1 : rowShear r (F k) with
      | error e => simp [h1] at h
      | ok x =>
        cases h2 : sumRows (fun i r => rowShear r (F i)) (k + 1) l with
        | error e => simp [h1, h2] at h
        | ok y =>
          simp only [h1, h2] at h
          obtain rfl := Except.ok.inj h
          obtain ⟨v, g1, g2, g3⟩ := ih (k + 1) y h2
          refine ⟨x :: v, by simp [g1], ?_, by simp [g3]⟩
          intro i r' hr
          cases i with
          | zero =>
            simp only [List.getElem?_cons_zero, Option.some.injEq] at hr
            subst hr
            exact ⟨x, rfl, h1⟩
          | succ i =>
            simp only [List.getElem?_cons_succ] at hr
            obtain ⟨x', e1, e2⟩ := g2 i r' hr
            exact ⟨x', e1, by rw [← e2]; congr 2; omega⟩
  obtain ⟨v, h1, h2, h3⟩ := key j.rows 0 V h
  exact ⟨v, h1, fun i r hr => by simpa using h2 i r hr, h3⟩

/-- **C106 (violation).** A bolt that carries its whole tension resistance is not safe under its share of the shear resistance; the thickness of the end plate has no influence, so that the share of each bolt in tension exceeds the bearing
resistance of every plate that is thin enough; and as long as the moment resistance has not been asked for, rows other than shear rows do not contribute. -/
theorem C106_violation :
    (∀ (r : Row) (F V v : ℝ), 0 < F → 0 < r.bolt.dims.As → 0 < r.bolt.fub → r.bolt.shear true = .ok v → rowShear r F = .ok V → ¬BoltSpec.ShearTension (V / 2) v (r.bolt.tension (9 / 10)) (r.bolt.tension (9 / 10))) ∧
      (∀ (j : Joint) (F : ℕ → ℝ) (t : ℝ), ({ j with tp := t } : Joint).shear F = j.shear F) ∧
      (∀ (r : Row) (F V fu d0 e1 e2 p1 p2 : ℝ) (ep el : Bool), 0 < F → 0 < V → 0 < fu → 0 < r.bolt.fub → 0 < r.bolt.d → 0 < d0 → BoltSpec.Spacing d0 e1 e2 p1 p2 → rowShear r F = .ok V →
        ∃ t, 0 < t ∧ ∀ B, BoltSpec.Bearing ep el r.bolt.fub fu r.bolt.d d0 t e1 e2 p1 p2 B → B < V / 2) ∧
      ∀ r : Row, r.shear = false → rowShear r (-1) = .ok 0 := by
  refine ⟨fun r F V v hF hA hf hv h => ?_, fun _ _ _ => rfl, fun r F V fu d0 e1 e2 p1 p2 ep el hF hV hfu hfub hd hd0 hsp h => ?_, fun r hr => ?_⟩
  · rintro ⟨_, _, h3⟩
    have hT : 0 < r.bolt.tension (9 / 10) := by
      unfold Bolt.tension gammaM2
      positivity
    have hvp : 0 < v := by
      unfold Bolt.shear gammaM2 at hv
      rw [if_pos rfl] at hv
      split at hv
      all_goals first | cases hv; done | (obtain rfl := Except.ok.inj hv; positivity)
    unfold rowShear at h
    rw [if_pos hF, hv] at h
    simp only [bind, Except.bind, pure, Except.pure] at h
    obtain rfl := Except.ok.inj h
    have e1 : 2 * (286 / 1000) * v / 2 / v = 0.286 := by
      field_simp
      norm_num
    have e2 : r.bolt.tension (9 / 10) / (1.4 * r.bolt.tension (9 / 10)) = 1 / 1.4 := by
      field_simp
    rw [e1, e2] at h3
    norm_num at h3
  · have hdr : (0 : ℝ) < r.bolt.d := by exact_mod_cast hd
    refine ⟨V / 2 / (4 * fu * r.bolt.d), by positivity, ?_⟩
    rintro B ⟨k1, a, rfl, hk, ha⟩
    have hk1 : k1 ≤ 2.5 := by
      cases ep
      · exact hk.2 (by simp)
      · exact hk.2 (by simp)
    have ha1 : a ≤ 1 := ha.2 (by simp)
    have ha0 : 0 ≤ a := by
      obtain ⟨h1, -, h3, -⟩ := hsp
      rcases ha.1 with h' | h' | h'
      · rw [h']
        split_ifs
        · have : 0 ≤ e1 := by nlinarith
          positivity
        · rw [sub_nonneg, le_div_iff₀ (by positivity)]
          norm_num at h3
          linarith
      · rw [h']
        positivity
      · rw [h']
        norm_num
    have e : k1 * a * fu * r.bolt.d * (V / 2 / (4 * fu * r.bolt.d)) / 1.25 = k1 * a * (V / 10) := by
      field_simp
      norm_num
      ring
    rw [e]
    have : k1 * a ≤ 2.5 := by nlinarith
    norm_num at this
    nlinarith
  · norm_num [rowShear, hr, pure, Except.pure]

/-! ### C107: web panel with stiffeners -/

/-- **C107 (part).** With stiffeners at both flanges of the beam the shear resistance of the column web panel is increased by the contribution of a frame of column flanges and stiffeners, if the stiffeners are not stronger than the flanges
and at least 1 mm apart. -/
theorem C107_partial {j : Joint} {s : ℝ × ℝ} (ht : j.top = some s) (hb : j.bottom = some s) (hd : 1 ≤ j.beam.h - j.beam.tf) (h0 : 0 ≤ EndPlateSpec.plastic j.col.b s.1 s.2)
    (hs : EndPlateSpec.plastic j.col.b s.1 s.2 ≤ EndPlateSpec.plastic j.col.b j.col.tf j.col.fy) :
    j.vwp = 0.9 * j.col.fy * j.col.Av / √3 + addedShear (EndPlateSpec.plastic j.col.b j.col.tf j.col.fy) (EndPlateSpec.plastic j.col.b s.1 s.2) (j.beam.h - j.beam.tf) := by
  have e1 : j.mplFlange = EndPlateSpec.plastic j.col.b j.col.tf j.col.fy := by
    unfold Joint.mplFlange EndPlateSpec.plastic gammaM0
    ring
  have e2 : j.mplStiffener s = EndPlateSpec.plastic j.col.b s.1 s.2 := by
    unfold Joint.mplStiffener EndPlateSpec.plastic gammaM0
    ring
  unfold Joint.vwp
  rw [ht, hb]
  simp only [e1, e2]
  have e3 : colWebShear j.col = 0.9 * j.col.fy * j.col.Av / √3 := by
    unfold colWebShear gammaM0
    norm_num
  rw [e3]
  generalize EndPlateSpec.plastic j.col.b j.col.tf j.col.fy = A at *
  generalize EndPlateSpec.plastic j.col.b s.1 s.2 = B at *
  generalize j.beam.h - j.beam.tf = d at *
  have hd0 : 0 < d := by linarith
  unfold addedShear
  congr 1
  rw [min_eq_right, min_eq_right]
  · congr 1
    ring
  · exact div_le_div_of_nonneg_right (by linarith) hd0.le
  · rw [div_le_iff₀ hd0]
    nlinarith

/-- **C107 (violation).** If the stiffeners are stronger than the column flanges and more than 1 mm apart, the resistance returned is too large. -/
theorem C107_violation {j : Joint} {s : ℝ × ℝ} (ht : j.top = some s) (hb : j.bottom = some s) (hd : 1 < j.beam.h - j.beam.tf) (h0 : 0 < EndPlateSpec.plastic j.col.b j.col.tf j.col.fy)
    (hs : EndPlateSpec.plastic j.col.b j.col.tf j.col.fy < EndPlateSpec.plastic j.col.b s.1 s.2) :
    0.9 * j.col.fy * j.col.Av / √3 + addedShear (EndPlateSpec.plastic j.col.b j.col.tf j.col.fy) (EndPlateSpec.plastic j.col.b s.1 s.2) (j.beam.h - j.beam.tf) < j.vwp := by
  have e1 : j.mplFlange = EndPlateSpec.plastic j.col.b j.col.tf j.col.fy := by
    unfold Joint.mplFlange EndPlateSpec.plastic gammaM0
    ring
  have e2 : j.mplStiffener s = EndPlateSpec.plastic j.col.b s.1 s.2 := by
    unfold Joint.mplStiffener EndPlateSpec.plastic gammaM0
    ring
  unfold Joint.vwp
  rw [ht, hb]
  simp only [e1, e2]
  have e3 : colWebShear j.col = 0.9 * j.col.fy * j.col.Av / √3 := by
    unfold colWebShear gammaM0
    norm_num
  rw [e3]
  generalize EndPlateSpec.plastic j.col.b j.col.tf j.col.fy = A at *
  generalize EndPlateSpec.plastic j.col.b s.1 s.2 = B at *
  generalize j.beam.h - j.beam.tf = d at *
  have hd0 : 0 < d := by linarith
  unfold addedShear
  gcongr
  refine lt_of_le_of_lt (min_le_left _ _) (lt_min ?_ ?_)
  · rw [div_lt_iff₀ hd0]
    nlinarith
  · exact div_lt_div_of_pos_right (by linarith) hd0

example : ∃ (j : Joint) (s : ℝ × ℝ), j.top = some s ∧ j.bottom = some s ∧ 1 < j.beam.h - j.beam.tf ∧ 0 < EndPlateSpec.plastic j.col.b j.col.tf j.col.fy ∧
    EndPlateSpec.plastic j.col.b j.col.tf j.col.fy < EndPlateSpec.plastic j.col.b s.1 s.2 := by
  refine ⟨{ jointX [] [] with top := some (15, 235), bottom := some (15, 235) }, (15, 235), rfl, rfl, ?_, ?_, ?_⟩ <;> norm_num [jointX, secX, EndPlateSpec.plastic]

example : ∃ (j : Joint) (s : ℝ × ℝ), j.top = some s ∧ j.bottom = some s ∧ 1 < j.beam.h - j.beam.tf ∧ 0 ≤ EndPlateSpec.plastic j.col.b s.1 s.2 ∧
    EndPlateSpec.plastic j.col.b s.1 s.2 ≤ EndPlateSpec.plastic j.col.b j.col.tf j.col.fy := by
  refine ⟨{ jointX [] [] with top := some (8, 235), bottom := some (8, 235) }, (8, 235), rfl, rfl, ?_, ?_, ?_⟩ <;> norm_num [jointX, secX, EndPlateSpec.plastic]

/-! ### C109: rows of the constructor -/

/-- **C109 (part).** With as many positions and row types as heights every height gets its row. -/
theorem C109_partial (bolt : Bolt) {ys : List ℝ} {pos : List (RowPos × RowPos)} {types : List Bool} (h1 : pos.length = ys.length) (h2 : types.length = ys.length) :
    (mkRows bolt ys pos types).map (·.z) = ys ∧ (mkRows bolt ys pos types).map (fun r => (r.flange, r.plate)) = pos ∧ (mkRows bolt ys pos types).map (·.shear) = types ∧ ∀ r ∈ mkRows bolt ys pos types, r.bolt = bolt := by
  have hz : (ys.zip pos).length = ys.length := by simp [h1]
  refine ⟨?_, ?_, ?_, ?_⟩
  · have : (mkRows bolt ys pos types).map (·.z) = (((ys.zip pos).zip types).map Prod.fst).map Prod.fst := by
      simp [mkRows]
    rw [this, List.map_fst_zip (by omega), List.map_fst_zip (by omega)]
  · have : (mkRows bolt ys pos types).map (fun r => (r.flange, r.plate)) = (((ys.zip pos).zip types).map Prod.fst).map Prod.snd := by
      simp [mkRows]
    rw [this, List.map_fst_zip (by omega), List.map_snd_zip (by omega)]
  · have : (mkRows bolt ys pos types).map (·.shear) = ((ys.zip pos).zip types).map Prod.snd := by
      simp [mkRows]
    rw [this, List.map_snd_zip (by omega)]
  · intro r hr
    obtain ⟨a, _, rfl⟩ := List.mem_map.1 hr
    rfl

/-- **C109 (violation).** With the row types left at their default, the empty list, no row is made, whatever heights and positions are given; the moment resistance of such a joint is 0 without an error. -/
theorem C109_violation (bolt : Bolt) (ys : List ℝ) (pos : List (RowPos × RowPos)) {j : Joint} {fc : ℝ} (hr : j.rows = mkRows bolt ys pos []) (hg : j.groups = []) (hfc : j.fcom = .ok fc) :
    j.rows = [] ∧ ∃ F, j.bending j.initial = .ok (F, 0) := by
  have h0 : j.rows = [] := by simp [hr, mkRows]
  refine ⟨h0, capLoop (some fc) j.tensionRows 0 (fun i => ([] : List ℝ).getD i 0), ?_⟩
  simp only [Joint.bending, hfc, hg, h0, Joint.rowForces, Joint.groupLoop, bind, Except.bind, pure, Except.pure, Joint.moment, List.mapIdx_nil, List.sum_nil]

/-! ### C108: order of the groups -/

theorem stub_mode1 {s : TStub} (h2 : s.F1 ≤ s.F2) (h3 : s.F1 ≤ s.F3) : s.FT = s.F1 ∧ s.govLeff = min s.cp s.nc := by
  have : s.mode = 0 := by
    unfold TStub.mode
    rw [if_pos ⟨h2, h3⟩]
  constructor
  · unfold TStub.FT
    simp only [this]
  · unfold TStub.govLeff
    rw [if_pos this]
    rfl

theorem coeffW_half (b t A : ℝ) : coeffW (1 / 2) b t A = 1 := by
  unfold coeffW
  norm_num

theorem tensionX (z : ℝ) : (rowX z).bolt.tension (9 / 10) = 141120 := by
  norm_num [rowX, boltM20, Bolt.tension, gammaM2]

theorem colMX (rows : List Row) (groups : List Group) : (jointX rows groups).colM = 50 := by norm_num [jointX, secX, Joint.colM, Joint.w]

theorem plateMX (rows : List Row) (groups : List Group) (z : ℝ) : (jointX rows groups).plateM (rowX z) = 50 := by
  unfold Joint.plateM
  rw [if_neg (by simp [rowX])]
  norm_num [jointX, secX, Joint.w]

theorem rowTensionX (rows : List Row) (groups : List Group) (z : ℝ) : (jointX rows groups).rowTension (rowX z) = .ok 117500 := by
  have hπ := pi_gt_three
  have hf : (jointX rows groups).flangeStub (rowX z) = .ok { cp := 2 * π * 50, nc := 250, tf := 10, fy := 235, m := 50, n := 40, Ft := 282240 } := by
    have e1 : (jointX rows groups).flangeCp (rowX z) = .ok (2 * π * 50) := by
      show Except.ok (2 * π * (jointX rows groups).colM) = _
      rw [colMX]
    have e2 : (jointX rows groups).flangeNc (rowX z) = .ok 250 := by
      show Except.ok (4 * (jointX rows groups).colM + 125 / 100 * (jointX rows groups).colE) = _
      rw [colMX]
      norm_num [jointX, secX, Joint.colE]
    unfold Joint.flangeStub
    rw [e1, e2]
    simp only [bind, Except.bind, pure, Except.pure, colMX, tensionX]
    norm_num [jointX, secX, Joint.eminFlange]
  have hp : (jointX rows groups).plateStub (rowX z) = .ok { cp := 2 * π * 50, nc := 250, tf := 20, fy := 235, m := 50, n := 40, Ft := 282240 } := by
    have e1 : (jointX rows groups).plateCp (rowX z) = .ok (2 * π * 50) := by
      show Except.ok (2 * π * (jointX rows groups).plateM (rowX z)) = _
      rw [plateMX]
    have e2 : (jointX rows groups).plateNc (rowX z) = .ok 250 := by
      show Except.ok (4 * (jointX rows groups).plateM (rowX z) + 125 / 100 * (jointX rows groups).ebolts) = _
      rw [plateMX]
      norm_num [jointX]
    unfold Joint.plateStub
    rw [e1, e2]
    simp only [bind, Except.bind, pure, Except.pure, plateMX, tensionX]
    have e3 : (jointX rows groups).eminPlate (rowX z) = 40 := by
      unfold Joint.eminPlate
      rw [if_neg (by simp [rowX])]
      rfl
    rw [e3]
    norm_num [jointX]
  have hmin : min (2 * π * 50) 250 = 250 := min_eq_right (by linarith)
  obtain ⟨f1, f2⟩ := stub_mode1 (s := { cp := 2 * π * 50, nc := 250, tf := 10, fy := 235, m := 50, n := 40, Ft := 282240 })
    (by
      simp only [TStub.F1, TStub.F2, TStub.F3, TStub.mpl1, TStub.mpl2, TStub.leff1, TStub.leff2, gammaM0, hmin]
      norm_num)
    (by
      simp only [TStub.F1, TStub.F3, TStub.mpl1, TStub.leff1, gammaM0, hmin]
      norm_num)
  have g1 : (TStub.mk (2 * π * 50) 250 20 235 50 40 282240).mode = 1 := by
    simp only [TStub.mode, TStub.F1, TStub.F2, TStub.F3, TStub.mpl1, TStub.mpl2, TStub.leff1, TStub.leff2, gammaM0, hmin]
    norm_num
  have g2 : (TStub.mk (2 * π * 50) 250 20 235 50 40 282240).FT = (2 * (25 / 100 * 250 * 20 ^ 2 * 235) + 40 * 282240) / 90 := by
    unfold TStub.FT
    rw [g1]
    simp only [TStub.F2, TStub.F3, TStub.mpl2, TStub.leff2, gammaM0]
    norm_num
  have g3 : (TStub.mk (2 * π * 50) 250 20 235 50 40 282240).govLeff = 250 := by
    unfold TStub.govLeff
    rw [g1]
    rfl
  unfold Joint.rowTension
  rw [hf, hp]
  simp only [bind, Except.bind, pure, Except.pure, f1, f2, g2, g3, hmin]
  rw [if_neg (by simp [jointX])]
  refine congrArg Except.ok ?_
  have hβ : (jointX rows groups).β = 1 / 2 := rfl
  simp only [colWebTension, hβ, coeffW_half, TStub.F1, TStub.mpl1, TStub.leff1, hmin, gammaM0]
  rw [if_neg (by simp [rowX])]
  norm_num [jointX, secX, beamWebTension, gammaM0]

/-- Groups of the example: two neighbouring rows, with their positions on the column flange. -/
def groupX (a b : ℕ) : Group := { rows := [a, b], flange := [.endRow, .endRow], plate := none }

theorem groupTensionX {rows : List Row} {groups : List Group} {a b : ℕ} {za zb : ℝ} (ha : rows[a]? = some (rowX za)) (hb : rows[b]? = some (rowX zb)) (h0 : 0 < za - zb) (h1 : za - zb ≤ 100) :
    (jointX rows groups).groupTension (groupX a b) = .ok (some (470 * (250 + (za - zb)))) := by
  have hπ := pi_gt_three
  have hr : (jointX rows groups).groupRows (groupX a b) = .ok [rowX za, rowX zb] := by
    have ha' : (jointX rows groups).rows[a]? = some (rowX za) := ha
    have hb' : (jointX rows groups).rows[b]? = some (rowX zb) := hb
    simp [Joint.groupRows, groupX, ha', hb', bind, Except.bind, pure, Except.pure]
  set q := za - zb with hq
  have hp : groupP ([rowX za, rowX zb].map (·.z)) = [q] := by simp [groupP, rowX, hq]
  have p0 : rowP [q] 0 true = .ok q := by simp [rowP, pyGet]
  have p1 : rowP [q] 1 true = .ok q := by simp [rowP, pyGet]
  have hcE : (jointX rows groups).colE = 40 := by norm_num [jointX, secX, Joint.colE]
  have hs : (jointX rows groups).flangeStubGroup [rowX za, rowX zb] [.endRow, .endRow] = .ok { cp := 2 * (π * 50 + q), nc := 250 + q, tf := 10, fy := 235, m := 50, n := 40, Ft := 564480 } := by
    unfold Joint.flangeStubGroup
    simp only [hp, sumRows, Joint.flangeNcGroup, Joint.flangeCpGroup, p0, p1, zero_add, bind, Except.bind, pure, Except.pure, colMX, hcE]
    refine congrArg Except.ok ?_
    congr 1
    · ring
    · ring
    · norm_num [jointX, secX, Joint.eminFlange]
    · simp only [groupFt, List.map_cons, List.map_nil, List.sum_cons, List.sum_nil, tensionX]
      norm_num
  have hmin : min (2 * (π * 50 + q)) (250 + q) = 250 + q := min_eq_right (by linarith)
  obtain ⟨f1, f2⟩ := stub_mode1 (s := { cp := 2 * (π * 50 + q), nc := 250 + q, tf := 10, fy := 235, m := 50, n := 40, Ft := 564480 })
    (by
      simp only [TStub.F1, TStub.F2, TStub.F3, TStub.mpl1, TStub.mpl2, TStub.leff1, TStub.leff2, gammaM0, hmin]
      norm_num
      rw [le_div_iff₀ (by norm_num)]
      linarith)
    (by
      simp only [TStub.F1, TStub.F3, TStub.mpl1, TStub.leff1, gammaM0, hmin]
      norm_num
      linarith)
  unfold Joint.groupTension
  rw [hr]
  have hβ : (jointX rows groups).β = 1 / 2 := rfl
  have hff : (groupX a b).flange = [.endRow, .endRow] := rfl
  have hpl : (groupX a b).plate = none := rfl
  simp only [bind, Except.bind, pure, Except.pure, hff, hpl, hs, f1, f2, reduceCtorEq, false_and, or_false, if_false, minOpt]
  refine congrArg (fun x => Except.ok (some x)) ?_
  simp only [colWebTension, hβ, coeffW_half, TStub.F1, TStub.mpl1, TStub.leff1, hmin, gammaM0]
  norm_num [jointX, secX]
  rw [min_eq_left (by linarith)]
  ring

theorem fcomX (rows : List Row) (groups : List Group) : ∃ fc, (jointX rows groups).fcom = .ok fc ∧ 300000 ≤ fc := by
  refine ⟨_, by
    simp only [Joint.fcom, Joint.fcWeb, bind, Except.bind, pure, Except.pure]
    show (if (1 / 2 : ℝ) = 0 then _ else _) = _
    rw [if_neg (by norm_num)], ?_⟩
  refine le_min (le_min ?_ ?_) ?_
  · have h3 : √3 ≤ 2 := by
      rw [show (2 : ℝ) = √4 by rw [show (4 : ℝ) = 2 ^ 2 by norm_num, Real.sqrt_sq (by norm_num)]]
      exact Real.sqrt_le_sqrt (by norm_num)
    have h0 : 0 < √3 := Real.sqrt_pos.2 (by norm_num)
    simp only [Joint.vwp, jointX, colWebShear, secX, gammaM0]
    rw [le_div_iff₀ (by norm_num), add_zero, div_one, le_div_iff₀ h0]
    nlinarith
  · have hb : beffComp (jointX rows groups).col (jointX rows groups).beam (jointX rows groups).tp (jointX rows groups).ebottom (jointX rows groups).weldF = 110 := by
      norm_num [beffComp, jointX, secX]
    have hβ : (jointX rows groups).β = 1 / 2 := rfl
    have hl : 932 / 1000 * √(110 * secX.hw * secX.fy / (secX.E * secX.tw ^ 2)) ≤ 72 / 100 := by
      have : √(110 * secX.hw * secX.fy / (secX.E * secX.tw ^ 2)) ≤ 1 / 2 := by
        rw [Real.sqrt_le_iff]
        norm_num [secX]
      linarith
    have hc : (jointX rows groups).col = secX := rfl
    have hk : webKwc (jointX rows groups).σ secX.fy = 1 := by
      unfold webKwc
      rw [if_pos]
      norm_num [jointX, secX]
    unfold colWebComp
    rw [hc] at hb ⊢
    simp only [hb, hβ, coeffW_half, hk, webRho, if_pos hl, gammaM0, gammaM1]
    norm_num [secX]
  · norm_num [beamWebCompression, jointX, secX]

theorem rowForcesX (rows : List Row) (groups : List Group) : ∀ (zs : List ℝ) (F0 : List ℝ), (jointX rows groups).rowForces (zs.map rowX) F0 = .ok (zs.map fun _ => 117500)
  | [], _ => rfl
  | z :: zs, F0 => by
    simp only [List.map_cons, Joint.rowForces, Joint.rowForce]
    rw [rowForcesX rows groups zs, rowTensionX]
    rfl

/-- Rows of the example. -/
noncomputable def rowsX : List Row := [rowX 150, rowX 70, rowX (-30)]

theorem tensionRowsX (groups : List Group) : (jointX rowsX groups).tensionRows = [0, 1, 2] := by
  rw [tensionRows_all]
  · rfl
  · intro r hr
    simp only [jointX, rowsX, List.mem_cons, List.not_mem_nil, or_false] at hr
    rcases hr with rfl | rfl | rfl <;> rfl

theorem g01 (groups : List Group) : (jointX rowsX groups).groupTension (groupX 0 1) = .ok (some 155100) := by
  rw [groupTensionX (za := 150) (zb := 70) rfl rfl (by norm_num) (by norm_num)]
  norm_num

theorem g12 (groups : List Group) : (jointX rowsX groups).groupTension (groupX 1 2) = .ok (some 164500) := by
  rw [groupTensionX (za := 70) (zb := -30) rfl rfl (by norm_num) (by norm_num)]
  norm_num

theorem cap_run {fc a b c : ℝ} (h : a + b + c ≤ fc) (ha : a ≤ fc) (hb : a + b ≤ fc) :
    capLoop (some fc) [0, 1, 2] 0 (fun i => if i = 0 then a else if i = 1 then b else if i = 2 then c else 0) = fun i => if i = 0 then a else if i = 1 then b else if i = 2 then c else 0 := by
  have e1 : min a (fc - 0) = a := min_eq_left (by linarith)
  have e2 : min b (fc - (0 + a)) = b := min_eq_left (by linarith)
  have e3 : min c (fc - (0 + a + b)) = c := min_eq_left (by linarith)
  have u1 : Function.update (fun i => if i = 0 then a else if i = 1 then b else if i = 2 then c else 0) 0 a = fun i => if i = 0 then a else if i = 1 then b else if i = 2 then c else 0 := by
    rw [Function.update_eq_self_iff]
    simp
  have u2 : Function.update (fun i => if i = 0 then a else if i = 1 then b else if i = 2 then c else 0) 1 b = fun i => if i = 0 then a else if i = 1 then b else if i = 2 then c else 0 := by
    rw [Function.update_eq_self_iff]
    simp
  have u3 : Function.update (fun i => if i = 0 then a else if i = 1 then b else if i = 2 then c else 0) 2 c = fun i => if i = 0 then a else if i = 1 then b else if i = 2 then c else 0 := by
    rw [Function.update_eq_self_iff]
    simp
  simp only [capLoop, capped, if_true, e1, u1, one_ne_zero, if_false, e2, u2, OfNat.ofNat_ne_zero, OfNat.ofNat_ne_one, e3, u3]

theorem bendingX (groups : List Group) {a b c : ℝ} (h : (jointX rowsX groups).groupLoop groups (fun i => [117500, 117500, 117500].getD i 0) = .ok (fun i => if i = 0 then a else if i = 1 then b else if i = 2 then c else 0))
    (hb : 0 ≤ b) (hc : 0 ≤ c) (habc : a + b + c ≤ 300000) :
    (jointX rowsX groups).bending (jointX rowsX groups).initial = .ok (fun i => if i = 0 then a else if i = 1 then b else if i = 2 then c else 0, 340 * a + 260 * b + 160 * c) := by
  obtain ⟨fc, h1, h2⟩ := fcomX rowsX groups
  have hr : (jointX rowsX groups).rowForces (jointX rowsX groups).rows (jointX rowsX groups).initial = .ok [117500, 117500, 117500] := rowForcesX _ _ [150, 70, -30] _
  have hg : (jointX rowsX groups).groups = groups := rfl
  unfold Joint.bending
  rw [h1, hr, tensionRowsX, hg]
  simp only [h, bind, Except.bind, pure, Except.pure]
  rw [cap_run (by linarith) (by linarith) (by linarith)]
  refine congrArg Except.ok (Prod.ext rfl ?_)
  norm_num [Joint.moment, jointX, rowsX, rowX, Joint.arm, Joint.zc, secX]
  ring

theorem bendingA : (jointX rowsX [groupX 0 1, groupX 1 2]).bending (jointX rowsX [groupX 0 1, groupX 1 2]).initial = .ok (fun i => if i = 0 then 117500 else if i = 1 then 37600 else if i = 2 then 117500 else 0, 68526000) := by
  rw [bendingX _ (a := 117500) (b := 37600) (c := 117500) _ (by norm_num) (by norm_num) (by norm_num)]
  · norm_num
  · simp only [Joint.groupLoop, g01, g12, bind, Except.bind]
    refine congrArg Except.ok ?_
    funext i
    rcases i with _ | _ | _ | i <;> norm_num [groupX, capLoop, capped, Function.update]

theorem bendingB : (jointX rowsX [groupX 1 2, groupX 0 1]).bending (jointX rowsX [groupX 1 2, groupX 0 1]).initial = .ok (fun i => if i = 0 then 117500 else if i = 1 then 37600 else if i = 2 then 47000 else 0, 57246000) := by
  rw [bendingX _ (a := 117500) (b := 37600) (c := 47000) _ (by norm_num) (by norm_num) (by norm_num)]
  · norm_num
  · simp only [Joint.groupLoop, g01, g12, bind, Except.bind]
    refine congrArg Except.ok ?_
    funext i
    rcases i with _ | _ | _ | i <;> norm_num [groupX, capLoop, capped, Function.update]

/-- **C108 (violation).** The moment resistance depends on the order in which the groups are listed: there is a joint whose resistance is more than 19 % higher with its two groups in one order than in the other. -/
theorem C108_violation : ∃ (j : Joint) (g g' : Group) (F F' : ℕ → ℝ) (M M' : ℝ), ({ j with groups := [g, g'] } : Joint).bending j.initial = .ok (F, M) ∧ ({ j with groups := [g', g] } : Joint).bending j.initial = .ok (F', M') ∧
    0 < M' ∧ 1.19 * M' < M :=
  ⟨jointX rowsX [], groupX 0 1, groupX 1 2, _, _, _, _, bendingA, bendingB, by norm_num, by norm_num⟩

theorem groupLoop_congr_group (j : Joint) (gs : List Group) (l : List Group) (F : ℕ → ℝ) : ({ j with groups := gs } : Joint).groupLoop l F = j.groupLoop l F := by
  induction l generalizing F with
  | nil => rfl
  | cons g l ih =>
    simp only [Joint.groupLoop]
    have : ({ j with groups := gs } : Joint).groupTension g = j.groupTension g := rfl
    rw [this]
    simp only [ih]

theorem cap_comm {a b : Option ℝ} {l l' : List ℕ} (h : l.Disjoint l') (F : ℕ → ℝ) : capLoop a l 0 (capLoop b l' 0 F) = capLoop b l' 0 (capLoop a l 0 F) := by
  funext k
  by_cases hk : k ∈ l
  · have hk' : k ∉ l' := h hk
    rw [cap_notMem b l' _ _ k hk']
    exact cap_congr a l 0 _ _ (fun i hi => cap_notMem b l' _ _ i (h hi)) k hk
  · rw [cap_notMem a l _ _ k hk]
    by_cases hk' : k ∈ l'
    · exact (cap_congr b l' 0 _ _ (fun i hi => cap_notMem a l _ _ i (fun hi' => h hi' hi)) k hk').symm
    · rw [cap_notMem _ _ _ _ _ hk', cap_notMem _ _ _ _ _ hk', cap_notMem _ _ _ _ _ hk]

theorem groupLoop_perm {j : Joint} {l l' : List Group} (hp : l.Perm l') : l.Pairwise (fun a b => a.rows.Disjoint b.rows) → ∀ {F F' : ℕ → ℝ}, j.groupLoop l F = .ok F' → j.groupLoop l' F = .ok F' := by
  induction hp with
  | nil => exact fun _ _ _ h => h
  | cons g _ ih =>
    intro hd F F' h
    simp only [Joint.groupLoop, bind, Except.bind] at h ⊢
    cases hc : j.groupTension g with
    | error e => simp [hc] at h
    | ok c =>
      simp only [hc] at h ⊢
      exact ih (List.pairwise_cons.1 hd).2 h
  | swap g g' l =>
    intro hd F F' h
    have hdis := (List.pairwise_cons.1 hd).1 g List.mem_cons_self
    simp only [Joint.groupLoop, bind, Except.bind] at h ⊢
    cases hc : j.groupTension g' with
    | error e => simp [hc] at h
    | ok c =>
      simp only [hc] at h ⊢
      cases hc' : j.groupTension g with
      | error e => simp [hc'] at h
      | ok c' =>
        simp only [hc'] at h ⊢
        rw [cap_comm hdis]
        exact h
  | trans h1 _ ih1 ih2 =>
    intro hd F F' h
    refine ih2 ?_ (ih1 hd h)
    exact (h1.pairwise_iff fun {a b} hab => hab.symm).1 hd

/-- **C108 (part).** For groups without common rows the order does not matter: forces and moment are the same for every permutation of the groups. -/
theorem C108_partial {j : Joint} {gs : List Group} {F0 : List ℝ} {F : ℕ → ℝ} {M : ℝ} (h : j.bending F0 = .ok (F, M)) (hd : j.groups.Pairwise (fun a b => a.rows.Disjoint b.rows)) (hp : j.groups.Perm gs) :
    ({ j with groups := gs } : Joint).bending F0 = .ok (F, M) := by
  have hro : ∀ (rows : List Row) (F0 : List ℝ), ({ j with groups := gs } : Joint).rowForces rows F0 = j.rowForces rows F0 := by
    intro rows
    induction rows with
    | nil => exact fun _ => rfl
    | cons r l ih =>
      intro F0
      simp only [Joint.rowForces, ih]
      rfl
  obtain ⟨fc, l, F1, h1, h2, h3, rfl, rfl⟩ := bending_spec h
  have h1' : ({ j with groups := gs } : Joint).fcom = .ok fc := h1
  have h2' : ({ j with groups := gs } : Joint).rowForces ({ j with groups := gs } : Joint).rows F0 = .ok l := by
    rw [hro]
    exact h2
  have h3' : ({ j with groups := gs } : Joint).groupLoop ({ j with groups := gs } : Joint).groups (fun i => l.getD i 0) = .ok F1 := by
    rw [groupLoop_congr_group]
    exact groupLoop_perm hp hd h3
  unfold Joint.bending
  rw [h1', h2']
  simp only [h3', bind, Except.bind, pure, Except.pure]
  rfl

/-! The joint above meets the hypotheses of the theorems on the distribution of forces. -/

example : ∃ (j : Joint) (F : ℕ → ℝ) (M : ℝ), j.bending j.initial = .ok (F, M) ∧ j.groups ≠ [] ∧ 0 < M ∧ 0 < j.β ∧ j.beam.tf < j.beam.h ∧ j.tensionRows ≠ [] :=
  ⟨_, _, _, bendingA, by simp [jointX], by norm_num, by norm_num [jointX], by norm_num [jointX], by simp [tensionRowsX]⟩

theorem bendingC {fc : ℝ} (h1 : (jointX rowsX []).fcom = .ok fc) : ∃ F M, (jointX rowsX []).bending (jointX rowsX []).initial = .ok (F, M) := by
  have hr : (jointX rowsX []).rowForces (jointX rowsX []).rows (jointX rowsX []).initial = .ok [117500, 117500, 117500] := rowForcesX _ _ [150, 70, -30] _
  have hg : (jointX rowsX []).groups = [] := rfl
  unfold Joint.bending
  rw [h1, hr, tensionRowsX, hg]
  exact ⟨_, _, rfl⟩

example : ∃ (j : Joint) (F : ℕ → ℝ) (M fc : ℝ) (G : ℕ → ℝ), j.bending j.initial = .ok (F, M) ∧ j.groups = [] ∧ (∀ r ∈ j.rows, r.shear = false) ∧ j.rows.Pairwise (fun a b => b.z ≤ a.z) ∧ (∀ r ∈ j.rows, j.zc ≤ r.z) ∧
    j.fcom = .ok fc ∧ 0 ≤ fc ∧ (∀ i, 0 ≤ G i) ∧ (∀ i r T, j.rows[i]? = some r → j.rowTension r = .ok T → G i ≤ T) ∧ ((List.range j.rows.length).map G).sum ≤ fc ∧ 0 < j.moment G := by
  obtain ⟨fc, h1, h2⟩ := fcomX rowsX []
  obtain ⟨F, M, h⟩ := bendingC h1
  refine ⟨jointX rowsX [], F, M, fc, fun _ => 90000, h, rfl, ?_, ?_, ?_, h1, le_trans (by norm_num) h2, fun _ => by norm_num, ?_, ?_, ?_⟩
  · intro r hr
    simp only [jointX, rowsX, List.mem_cons, List.not_mem_nil, or_false] at hr
    rcases hr with rfl | rfl | rfl <;> rfl
  · norm_num [jointX, rowsX, rowX]
  · intro r hr
    simp only [jointX, rowsX, List.mem_cons, List.not_mem_nil, or_false] at hr
    rcases hr with rfl | rfl | rfl <;> norm_num [Joint.zc, jointX, rowX, secX]
  · intro i r T hr hT
    have hm : r ∈ rowsX := List.mem_of_getElem? hr
    have : ∃ z, r = rowX z := by
      simp only [rowsX, List.mem_cons, List.not_mem_nil, or_false] at hm
      rcases hm with rfl | rfl | rfl <;> exact ⟨_, rfl⟩
    obtain ⟨z, rfl⟩ := this
    rw [rowTensionX] at hT
    obtain rfl := Except.ok.inj hT
    norm_num
  · refine le_trans ?_ h2
    norm_num [jointX, rowsX, List.range_succ]
  · norm_num [Joint.moment, jointX, rowsX, rowX, Joint.arm, Joint.zc, secX]

example : ∃ (j : Joint) (F : ℕ → ℝ) (M : ℝ) (gs : List Group), j.bending j.initial = .ok (F, M) ∧ j.groups.Pairwise (fun a b => a.rows.Disjoint b.rows) ∧ j.groups.Perm gs ∧ j.groups ≠ [] := by
  have hg : (jointX rowsX [groupX 0 1]).groupLoop [groupX 0 1] (fun i => [117500, 117500, 117500].getD i 0) = .ok (fun i => if i = 0 then 117500 else if i = 1 then 37600 else if i = 2 then 117500 else 0) := by
    simp only [Joint.groupLoop, g01, bind, Except.bind]
    refine congrArg Except.ok ?_
    funext i
    rcases i with _ | _ | _ | i <;> norm_num [groupX, capLoop, capped, Function.update]
    omega
  exact ⟨_, _, _, _, bendingX _ hg (by norm_num) (by norm_num) (by norm_num), by simp [jointX], List.Perm.refl _, by simp [jointX]⟩

example : ∃ (bolt : Bolt) (ys : List ℝ) (pos : List (RowPos × RowPos)) (j : Joint) (fc : ℝ), j.rows = mkRows bolt ys pos [] ∧ ys.length = 3 ∧ pos.length = 3 ∧ j.groups = [] ∧ j.fcom = .ok fc := by
  obtain ⟨fc, h, _⟩ := fcomX [] []
  exact ⟨boltM20, [150, 70, -30], List.replicate 3 (.inner, .otherInner), jointX [] [], fc, by simp [jointX, mkRows], rfl, rfl, rfl, h⟩

example : ∃ (j : Joint) (F : ℕ → ℝ) (M : ℝ), j.bending j.initial = .ok (F, M) ∧ (∀ g ∈ j.groups, ∀ i ∈ g.rows, i ∈ j.tensionRows) ∧ ∃ r ∈ j.rows, r.shear = true := by
  obtain ⟨F, M, h⟩ := C103_partial (j := jointX [rowX 150, { rowX (-30) with shear := true }] []) (jointX [rowX 150, { rowX (-30) with shear := true }] []).initial rfl rfl (by norm_num [jointX]) rfl (by
    intro r hr
    simp only [jointX, List.mem_cons, List.not_mem_nil, or_false] at hr
    rcases hr with rfl | rfl
    · exact ⟨Or.inl rfl, Or.inr (Or.inr (Or.inl rfl))⟩
    · exact ⟨Or.inl rfl, Or.inr (Or.inr (Or.inl rfl))⟩)
  exact ⟨_, F, M, h, by simp [jointX], _, List.mem_cons_of_mem _ List.mem_cons_self, rfl⟩

end Metku.Bolts
