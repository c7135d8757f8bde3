import Verif.Props.Ec3Plate

/-!
Properties C63 (shear buckling) and C64 (resistance to transverse forces): EN 1993-1-5.
-/
namespace Metku.Plate

open Set

/-! ### C63 -/

/-- The factor for a non-rigid end post is the smaller of `eta` and `0.83/λ`. -/
theorem nonrigid_eq {l eta : ℝ} (hl : 0 < l) (he : 0 < eta) : shearReduction l eta "non-rigid" = .ok (min eta (83 / 100 / l)) := by
  unfold shearReduction
  have key : l < 83 / 100 / eta ↔ eta < 83 / 100 / l := by
    rw [lt_div_iff₀ he, lt_div_iff₀ hl, mul_comm]
  split_ifs with a b
  · rw [min_eq_left (key.1 a).le]
  · rw [min_eq_right (not_lt.1 fun h => a (key.2 h))]
  · rw [min_eq_right (not_lt.1 fun h => a (key.2 h))]
  · exact absurd rfl ‹¬"non-rigid" = "non-rigid"›
  · exact absurd rfl ‹¬"non-rigid" = "non-rigid"›

theorem rigid_eq {l eta : ℝ} (hl : 0 < l) (he : 1 ≤ eta) :
    shearReduction l eta "rigid" = .ok (if l < 108 / 100 then min eta (83 / 100 / l) else 137 / 100 / (7 / 10 + l)) := by
  unfold shearReduction
  have he0 : 0 < eta := by linarith
  have key : l < 83 / 100 / eta ↔ eta < 83 / 100 / l := by
    rw [lt_div_iff₀ he0, lt_div_iff₀ hl, mul_comm]
  have hlim : 83 / 100 / eta < 108 / 100 := by
    rw [div_lt_iff₀ he0]
    linarith
  have hs : "rigid" ≠ "non-rigid" := by decide
  by_cases a : l < 83 / 100 / eta
  · rw [if_pos a, if_pos (a.trans hlim), min_eq_left (key.1 a).le]
  · rw [if_neg a]
    have hmin : min eta (83 / 100 / l) = 83 / 100 / l := min_eq_right (not_lt.1 fun h => a (key.2 h))
    by_cases b : l < 108 / 100
    · rw [if_pos b, if_pos b, hmin]
    · rw [if_neg b, if_neg b, if_neg hs, if_pos rfl]

/-- **C63, reduction factor (part).** For `η ≥ 1` and every slenderness: with a non-rigid end post the factor is the smaller of `η` and `0.83/λ`, so positive, at most `η` and non-increasing; with a rigid end
    post it is the same below 1.08 and `1.37/(0.7 + λ)` from there on, lies in `(0, η]`, is at least the one of a non-rigid end post, and when the slenderness grows it rises by at most
    0.0012. Another end post raises `ValueError` exactly when the slenderness is 1.08 or more.
    Missing: that the factor of a rigid end post never rises, see `C63_violation`. -/
theorem C63_partial {eta : ℝ} (he : 1 ≤ eta) : ∃ fn fr : ℝ → ℝ,
    (∀ l, 0 < l → shearReduction l eta "non-rigid" = .ok (fn l) ∧ shearReduction l eta "rigid" = .ok (fr l)) ∧
    (∀ l, 0 < l → 0 < fn l ∧ fn l ≤ fr l ∧ fr l ≤ eta ∧ fn l * l ≤ 0.83 ∧ (fn l = eta ∨ fn l * l = 0.83) ∧
      (l < 1.08 → fr l = fn l) ∧ (1.08 ≤ l → fr l * (0.7 + l) = 1.37)) ∧
    (∀ l l', 0 < l → l ≤ l' → fn l' ≤ fn l ∧ fr l' ≤ fr l + 0.0012) ∧
    ∀ s, s ≠ "rigid" → s ≠ "non-rigid" → ∀ l, 0 < l → (shearReduction l eta s = .error .valueError ↔ 1.08 ≤ l) := by
  have he0 : 0 < eta := by linarith
  have d : (1.08 : ℝ) = 108 / 100 := by norm_num
  have d2 : (0.83 : ℝ) = 83 / 100 := by norm_num
  rw [d, d2]
  have hpos : ∀ {l : ℝ}, 0 < l → 0 < min eta (83 / 100 / l) := fun hl => lt_min he0 (by positivity)
  have hanti : ∀ {l l' : ℝ}, 0 < l → l ≤ l' → min eta (83 / 100 / l') ≤ min eta (83 / 100 / l) := fun hl h =>
    min_le_min_left _ (div_le_div_of_nonneg_left (by norm_num) hl h)
  have hgap : ∀ {l : ℝ}, 108 / 100 ≤ l → 83 / 100 / l ≤ 137 / 100 / (7 / 10 + l) := by
    intro l h
    rw [div_le_div_iff₀ (by linarith) (by linarith)]
    linarith
  have hone : ∀ {l : ℝ}, 108 / 100 ≤ l → 137 / 100 / (7 / 10 + l) ≤ 137 / 178 := by
    intro l h
    rw [div_le_div_iff₀ (by linarith) (by norm_num)]
    linarith
  refine ⟨fun l => min eta (83 / 100 / l), fun l => if l < 108 / 100 then min eta (83 / 100 / l) else 137 / 100 / (7 / 10 + l),
    fun l hl => ⟨nonrigid_eq hl he0, rigid_eq hl he⟩, ?_, ?_, ?_⟩
  · intro l hl
    refine ⟨hpos hl, ?_, ?_, ?_, ?_, ?_, ?_⟩
    · show min eta (83 / 100 / l) ≤ if l < 108 / 100 then _ else _
      split_ifs with a
      · exact le_rfl
      · exact (min_le_right _ _).trans (hgap (not_lt.1 a))
    · show (if l < 108 / 100 then _ else _) ≤ eta
      split_ifs with a
      · exact min_le_left _ _
      · have := hone (not_lt.1 a)
        linarith
    · calc min eta (83 / 100 / l) * l ≤ 83 / 100 / l * l := mul_le_mul_of_nonneg_right (min_le_right _ _) hl.le
        _ = 83 / 100 := by field_simp
    · rcases min_choice eta (83 / 100 / l) with h | h
      · left; exact h
      · right
        show min eta (83 / 100 / l) * l = _
        rw [h]
        field_simp
    · intro h
      exact if_pos h
    · intro h
      show (if l < 108 / 100 then _ else _) * _ = _
      rw [if_neg (not_lt.2 h)]
      have : 7 / 10 + l ≠ 0 := by linarith
      have e : (0.7 : ℝ) = 7 / 10 := by norm_num
      rw [e, div_mul_cancel₀ _ this]
      norm_num
  · intro l l' hl h
    refine ⟨hanti hl h, ?_⟩
    have e : (0.0012 : ℝ) = 12 / 10000 := by norm_num
    rw [e]
    show (if l' < 108 / 100 then _ else _) ≤ (if l < 108 / 100 then _ else _) + _
    split_ifs with a b b
    · have := hanti hl h
      linarith
    · linarith
    · have h1 := hone (not_lt.1 a)
      have h2 : (83 / 108 : ℝ) ≤ min eta (83 / 100 / l) := by
        apply le_min (by linarith)
        rw [div_le_div_iff₀ (by norm_num) hl]
        linarith
      linarith
    · have := div_le_div_of_nonneg_left (a := 137 / 100) (by norm_num) (by linarith : 0 < 7 / 10 + l) (by linarith : 7 / 10 + l ≤ 7 / 10 + l')
      linarith
  · intro s h1 h2 l hl
    unfold shearReduction
    have hlim : 83 / 100 / eta < 108 / 100 := by
      rw [div_lt_iff₀ he0]
      linarith
    by_cases a : l < 83 / 100 / eta
    · rw [if_pos a]
      simp only [reduceCtorEq, false_iff, not_le]
      linarith
    · rw [if_neg a]
      by_cases b : l < 108 / 100
      · rw [if_pos b]
        simp only [reduceCtorEq, false_iff, not_le]
        exact b
      · rw [if_neg b, if_neg h2, if_neg h1]
        simp only [true_iff]
        exact not_lt.1 b

/-- Steel S355 (`η = 1.2`), slenderness 1.5: the two end posts. -/
example : ∃ x y, shearReduction 1.5 (shearEta 355) "non-rigid" = .ok x ∧ shearReduction 1.5 (shearEta 355) "rigid" = .ok y ∧ x ≤ y := by
  obtain ⟨fn, fr, h1, h2, _⟩ := C63_partial (eta := shearEta 355) (by norm_num [shearEta])
  exact ⟨_, _, (h1 1.5 (by norm_num)).1, (h1 1.5 (by norm_num)).2, (h2 1.5 (by norm_num)).2.1⟩

/-- **C63 is violated**: with a rigid end post the factor jumps up at slenderness 1.08 (a defect of the table): from just below it rises by more than 0.001. -/
theorem C63_violation {eta : ℝ} (he : 1 ≤ eta) : ∃ l l' x x', 0 < l ∧ l < l' ∧ shearReduction l eta "rigid" = .ok x ∧
    shearReduction l' eta "rigid" = .ok x' ∧ x + 0.001 < x' := by
  refine ⟨10799 / 10000, 108 / 100, _, _, by norm_num, by norm_num, rigid_eq (by norm_num) he, rigid_eq (by norm_num) he, ?_⟩
  rw [if_pos (by norm_num), if_neg (by norm_num)]
  have := min_le_right eta (83 / 100 / (10799 / 10000))
  refine lt_of_le_of_lt (add_le_add_left this _) ?_
  norm_num

/-- **C63, critical stress.** For positive dimensions the shear buckling coefficient is the larger of `5.34 + 4 (hw/a)²` and `4 + 5.34 (hw/a)²`: larger than 5.34, 9.34 for a square panel,
    and a larger distance of the stiffeners never gives a larger coefficient. -/
theorem C63_coefficient {hw a : ℝ} (hh : 0 < hw) (ha : 0 < a) :
    shearCoefficient hw a = max (5.34 + 4 * (hw / a) ^ 2) (4 + 5.34 * (hw / a) ^ 2) ∧ 5.34 < shearCoefficient hw a ∧ shearCoefficient hw hw = 9.34 ∧
    ∀ a', a ≤ a' → shearCoefficient hw a' ≤ shearCoefficient hw a := by
  have d : (5.34 : ℝ) = 534 / 100 := by norm_num
  have main : ∀ a : ℝ, 0 < a → shearCoefficient hw a = max (534 / 100 + 4 * (hw / a) ^ 2) (4 + 534 / 100 * (hw / a) ^ 2) := by
    intro a ha
    unfold shearCoefficient
    have e : ∀ z : ℝ, z / (a / hw) ^ 2 = z * (hw / a) ^ 2 := by
      intro z
      field_simp
    simp only [e]
    split_ifs with h
    · symm
      apply max_eq_left
      have h1 : hw ≤ a := by rwa [ge_iff_le, le_div_iff₀ hh, one_mul] at h
      have h2 : hw / a ≤ 1 := by rwa [div_le_one ha]
      have h3 : (hw / a) ^ 2 ≤ 1 := pow_le_one₀ (by positivity) h2
      linarith
    · symm
      apply max_eq_right
      have h1 : a < hw := by
        rw [ge_iff_le, not_le, div_lt_one hh] at h
        exact h
      have h2 : 1 ≤ hw / a := by rw [le_div_iff₀ ha]; linarith
      have h3 : 1 ≤ (hw / a) ^ 2 := one_le_pow₀ h2
      linarith
  rw [d]
  refine ⟨main a ha, ?_, ?_, fun a' h => ?_⟩
  · rw [main a ha]
    apply lt_max_of_lt_left
    have : 0 < (hw / a) ^ 2 := by positivity
    linarith
  · rw [main hw hh, div_self hh.ne']
    norm_num
  · rw [main a ha, main a' (ha.trans_le h)]
    have h1 : (hw / a') ^ 2 ≤ (hw / a) ^ 2 :=
      pow_le_pow_left₀ (by have := ha.trans_le h; positivity) (div_le_div_of_nonneg_left hh.le ha h) 2
    apply max_le_max <;> linarith

/-- **C63, resistance of the web.** For every web with non-rigid end posts: the critical stress is `kτ · 190000 (t/hw)²`, the slenderness satisfies `λ² τcr = 0.76² fyw`, the resistance is `χ fyw hw t/√3`;
    it is positive, at most `η` times the plastic shear force
    `fyw hw t/√3`, and stiffeners at a larger distance never raise it. -/
theorem C63_web {fyw hw t eta a : ℝ} (hf : 0 < fyw) (hh : 0 < hw) (ht : 0 < t) (he : 1 ≤ eta) (ha : 0 < a) :
    ∃ V : ℝ → ℝ, (∀ a, 0 < a → ∃ chi, shearReduction (shearSlenderness fyw (tauCrit hw a t hw)) eta "non-rigid" = .ok chi ∧ V a = shearWeb chi fyw hw t ∧
        V a * √3 = chi * (fyw * hw * t)) ∧
      tauCrit hw a t hw = max (5.34 + 4 * (hw / a) ^ 2) (4 + 5.34 * (hw / a) ^ 2) * (190000 * (t / hw) ^ 2) ∧
      shearSlenderness fyw (tauCrit hw a t hw) ^ 2 * tauCrit hw a t hw = 0.76 ^ 2 * fyw ∧
      0 < V a ∧ V a * √3 ≤ eta * (fyw * hw * t) ∧ ∀ a', a ≤ a' → V a' ≤ V a := by
  have he0 : 0 < eta := by linarith
  have h3 : 0 < √(3 : ℝ) := Real.sqrt_pos.2 (by norm_num)
  have hs : 0 < sigmaE t hw := by unfold sigmaE; positivity
  have htau : ∀ a, 0 < a → 0 < tauCrit hw a t hw := by
    intro a ha
    have := (C63_coefficient hh ha).2.1
    exact mul_pos (by norm_num at this ⊢; linarith) hs
  have hsl : ∀ a, 0 < a → 0 < shearSlenderness fyw (tauCrit hw a t hw) := by
    intro a ha
    have := htau a ha
    unfold shearSlenderness
    have : 0 < √(fyw / tauCrit hw a t hw) := Real.sqrt_pos.2 (by positivity)
    positivity
  refine ⟨fun a => shearWeb (min eta (83 / 100 / shearSlenderness fyw (tauCrit hw a t hw))) fyw hw t,
    fun a ha => ⟨_, nonrigid_eq (hsl a ha) he0, rfl, ?_⟩, ?_, ?_, ?_, ?_, ?_⟩
  · simp only [shearWeb, gammaM1, mul_one]
    rw [div_mul_cancel₀ _ h3.ne']
    ring
  · rw [tauCrit, (C63_coefficient hh ha).1, sigmaE]
  · have := htau a ha
    unfold shearSlenderness
    rw [mul_pow, Real.sq_sqrt (by positivity)]
    field_simp
    norm_num
  · have := hsl a ha
    have hm : 0 < min eta (83 / 100 / shearSlenderness fyw (tauCrit hw a t hw)) := lt_min he0 (by positivity)
    simp only [shearWeb, gammaM1]
    positivity
  · simp only [shearWeb, gammaM1, mul_one]
    rw [div_mul_cancel₀ _ h3.ne']
    have := min_le_left eta (83 / 100 / shearSlenderness fyw (tauCrit hw a t hw))
    have hp : 0 < fyw * hw * t := by positivity
    calc _ = min eta (83 / 100 / shearSlenderness fyw (tauCrit hw a t hw)) * (fyw * hw * t) := by ring
      _ ≤ _ := mul_le_mul_of_nonneg_right this hp.le
  · intro a' h
    have ha' := ha.trans_le h
    have hc : tauCrit hw a' t hw ≤ tauCrit hw a t hw := mul_le_mul_of_nonneg_right ((C63_coefficient hh ha).2.2.2 a' h) hs.le
    have hl : shearSlenderness fyw (tauCrit hw a t hw) ≤ shearSlenderness fyw (tauCrit hw a' t hw) := by
      unfold shearSlenderness
      apply mul_le_mul_of_nonneg_left _ (by norm_num)
      exact Real.sqrt_le_sqrt (div_le_div_of_nonneg_left hf.le (htau a' ha') hc)
    have hm := min_le_min_left eta (div_le_div_of_nonneg_left (a := 83 / 100) (by norm_num) (hsl a ha) hl)
    simp only [shearWeb, gammaM1, mul_one]
    apply div_le_div_of_nonneg_right _ h3.le
    apply mul_le_mul_of_nonneg_right _ ht.le
    apply mul_le_mul_of_nonneg_right _ hh.le
    exact mul_le_mul_of_nonneg_right hm hf.le

/-- **C63, flanges.** As long as the moment does not exceed the moment resistance of the flanges (`|rM| ≤ 1`) their contribution is nonnegative, zero when they are used up, and does not increase with the
    moment; beyond, it is negative. -/
theorem C63_flanges {bf tf fyf a hw t fyw rM : ℝ} (h1 : 0 < bf) (h2 : 0 < tf) (h3 : 0 < fyf) (h4 : 0 < a) (h5 : 0 < hw) (h6 : 0 < t) (h7 : 0 < fyw) :
    (|rM| < 1 → 0 < shearFlanges bf tf fyf a hw t fyw rM) ∧ (|rM| = 1 → shearFlanges bf tf fyf a hw t fyw rM = 0) ∧
    (1 < |rM| → shearFlanges bf tf fyf a hw t fyw rM < 0) ∧
    (∀ rM', |rM| ≤ |rM'| → shearFlanges bf tf fyf a hw t fyw rM' ≤ shearFlanges bf tf fyf a hw t fyw rM) ∧
    shearFlanges bf tf fyf a hw t fyw rM * (a * (0.25 + 1.6 * (bf * tf ^ 2 * fyf) / (t * hw ^ 2 * fyw))) = bf * tf ^ 2 * fyf * (1 - rM ^ 2) := by
  obtain ⟨c, hc⟩ : ∃ c, c = a * (25 / 100 + 16 / 10 * bf * tf ^ 2 * fyf / t / hw ^ 2 / fyw) := ⟨_, rfl⟩
  have hc0 : 0 < c := by rw [hc]; positivity
  have e : ∀ r, shearFlanges bf tf fyf a hw t fyw r = bf * tf ^ 2 * fyf / c * (1 - r ^ 2) := by
    intro r
    simp only [shearFlanges, gammaM1, div_one, ← hc]
  have hp : 0 < bf * tf ^ 2 * fyf / c := by positivity
  have sq : rM ^ 2 = |rM| ^ 2 := (sq_abs rM).symm
  refine ⟨?_, ?_, ?_, ?_, ?_⟩
  · intro h
    rw [e, sq]
    have : |rM| ^ 2 < 1 := by
      have := abs_nonneg rM
      nlinarith
    exact mul_pos hp (by linarith)
  · intro h
    rw [e, sq, h]
    ring
  · intro h
    rw [e, sq]
    have : 1 < |rM| ^ 2 := by nlinarith
    exact mul_neg_of_pos_of_neg hp (by linarith)
  · intro r h
    rw [e, e, sq, ← sq_abs r]
    have : |rM| ^ 2 ≤ |r| ^ 2 := pow_le_pow_left₀ (abs_nonneg _) h 2
    exact mul_le_mul_of_nonneg_left (by linarith) hp.le
  · rw [e]
    have : a * (0.25 + 1.6 * (bf * tf ^ 2 * fyf) / (t * hw ^ 2 * fyw)) = c := by
      rw [hc]
      have e1 : (0.25 : ℝ) = 25 / 100 := by norm_num
      have e2 : (1.6 : ℝ) = 16 / 10 := by norm_num
      rw [e1, e2, div_div, div_div]
      ring
    rw [this]
    field_simp

/-- **C63, eta.** `η` is 1.2 up to S460 and 1 above, so the hypothesis `1 ≤ η` of the theorems above holds for every steel. -/
theorem C63_eta (fy : ℝ) : 1 ≤ shearEta fy ∧ (fy ≤ 460 → shearEta fy = 1.2) ∧ (460 < fy → shearEta fy = 1) := by
  refine ⟨?_, fun h => ?_, fun h => if_neg (not_le.2 h)⟩
  · unfold shearEta
    split_ifs <;> norm_num
  · rw [shearEta, if_pos h]
    norm_num

/-- **C35, slenderness.** The plate slenderness belongs to the critical stress `kσ σE`: for every plate, `λp² kσ σE` differs from the yield strength by at most 0.25 %, where
    `ε² = 235/fy`. It is exactly `(b/t)/(28.4 ε √kσ)`. -/
theorem C35_slenderness {b t e k fy : ℝ} (hb : 0 < b) (ht : 0 < t) (he : 0 < e) (hk : 0 < k) (hf : e ^ 2 * fy = 235) :
    0 < lambdaP b t e k ∧ lambdaP b t e k * (28.4 * e * √k) = b / t ∧ |lambdaP b t e k ^ 2 * (k * sigmaE t b) - fy| ≤ 0.0025 * fy := by
  have hs : 0 < √k := Real.sqrt_pos.2 hk
  have d : (28.4 : ℝ) = 284 / 10 := by norm_num
  have e1 : lambdaP b t e k = b / t / (284 / 10 * e * √k) := by
    unfold lambdaP
    rw [div_div, div_div]
    ring_nf
  have hfy : fy = 235 / e ^ 2 := by
    field_simp
    linarith
  refine ⟨by rw [e1]; positivity, by rw [e1, d, div_mul_cancel₀ _ (by positivity)], ?_⟩
  have e2 : lambdaP b t e k ^ 2 * (k * sigmaE t b) = 190000 / (284 / 10) ^ 2 / e ^ 2 := by
    rw [e1, div_pow, mul_pow, mul_pow, Real.sq_sqrt hk.le]
    unfold sigmaE
    field_simp
  rw [e2, hfy, abs_le]
  have hp : 0 < 1 / e ^ 2 := by positivity
  have w1 : (190000 : ℝ) / (284 / 10) ^ 2 / e ^ 2 = 190000 / (284 / 10) ^ 2 * (1 / e ^ 2) := by ring
  have w2 : (235 : ℝ) / e ^ 2 = 235 * (1 / e ^ 2) := by ring
  rw [w1, w2]
  constructor <;> nlinarith

/-- A 500 by 10 plate of S235. -/
example : |lambdaP 500 10 1 4 ^ 2 * (4 * sigmaE 10 500) - 235| ≤ 0.0025 * 235 :=
  (C35_slenderness (b := 500) (t := 10) (e := 1) (k := 4) (fy := 235) (by norm_num) (by norm_num) (by norm_num) (by norm_num) (by norm_num)).2.2

/-! ### C64 -/

/-- Specification: `v` is the smaller of `x` and `y`. -/
def IsMin (x y v : ℝ) : Prop := v ≤ x ∧ v ≤ y ∧ (v = x ∨ v = y)

theorem isMin_min (x y : ℝ) : IsMin x y (min x y) := ⟨min_le_left _ _, min_le_right _ _, min_choice _ _⟩

/-- Specification: effective loaded length for the load types (a), (b): Eq. (6.10), limited to the distance of the stiffeners; for the type (c): the smaller of Eqs. (6.11) and (6.12) with `le` of (6.13). -/
def LoadedLength (lt : LType) (k fyw hw tw tf ss c a m1 m2 ly : ℝ) : Prop :=
  (lt ≠ .c → IsMin (ss + 2 * tf * (1 + √(m1 + m2))) a ly) ∧
  (lt = .c → ∃ le, IsMin (k * 210000 * tw ^ 2 / (2 * fyw * hw)) (ss + c) le ∧
    IsMin (le + tf * √(m1 / 2 + (le / tf) ^ 2 + m2)) (le + tf * √(m1 + m2)) ly)

/-- Specification: buckling coefficients of Figure 6.1 (`ss` limited to `hw`). -/
def ForceCoefficient (lt : LType) (hw a ss c k : ℝ) : Prop :=
  (lt = .a → k = 6 + 2 * (hw / a) ^ 2) ∧ (lt = .b → k = 3.5 + 2 * (hw / a) ^ 2) ∧ (lt = .c → IsMin (2 + 6 * ((ss + c) / hw)) 6 k)

theorem kF_spec (lt : LType) (hw a ss c : ℝ) : ForceCoefficient lt hw a ss c (kF lt hw a ss c) := by
  refine ⟨?_, ?_, ?_⟩
  · rintro rfl; rfl
  · rintro rfl; simp only [kF]; norm_num
  · rintro rfl
    simp only [kF]
    rw [← mul_div_assoc]
    exact isMin_min _ _

theorem kF_pos {lt : LType} {hw a ss c : ℝ} (hh : 0 < hw) (hs : 0 ≤ ss) (hc : 0 ≤ c) : 0 < kF lt hw a ss c := by
  cases lt <;> simp only [kF]
  · positivity
  · positivity
  · exact lt_min (by positivity) (by norm_num)

theorem loadedLength_spec (lt : LType) (k fyw hw tw tf ss c a m1 m2 : ℝ) :
    LoadedLength lt k fyw hw tw tf ss c a m1 m2 (loadedLength lt k fyw hw tw tf ss c a m1 m2) := by
  constructor
  · intro h
    cases lt
    · exact isMin_min _ _
    · exact isMin_min _ _
    · exact absurd rfl h
  · rintro rfl
    refine ⟨min (1 / 2 * k * youngE * tw ^ 2 / fyw / hw) (ss + c), ?_, ?_⟩
    · have : 1 / 2 * k * youngE * tw ^ 2 / fyw / hw = k * 210000 * tw ^ 2 / (2 * fyw * hw) := by
        unfold youngE
        rw [div_div, mul_assoc 2 fyw hw, ← div_div _ 2 (fyw * hw)]
        ring
      rw [this]
      exact isMin_min _ _
    · simp only [loadedLength]
      have : ∀ x : ℝ, m1 / 2 + x ^ 2 + m2 = 1 / 2 * m1 + x ^ 2 + m2 := fun x => by ring
      rw [this]
      exact isMin_min _ _

theorem loadedLength_pos {lt : LType} {k fyw hw tw tf ss c a m1 m2 : ℝ} (hk : 0 < k) (hf : 0 < fyw) (hh : 0 < hw) (ht : 0 < tw) (htf : 0 < tf) (hs : 0 ≤ ss) (hc : 0 ≤ c)
    (ha : 0 < a) (hm1 : 0 < m1) (hm2 : 0 ≤ m2) : 0 < loadedLength lt k fyw hw tw tf ss c a m1 m2 := by
  have hq : 0 < √(m1 + m2) := Real.sqrt_pos.2 (by linarith)
  cases lt <;> simp only [loadedLength]
  · exact lt_min (by positivity) ha
  · exact lt_min (by positivity) ha
  · have hle : 0 ≤ min (1 / 2 * k * youngE * tw ^ 2 / fyw / hw) (ss + c) := le_min (by unfold youngE; positivity) (by positivity)
    generalize min (1 / 2 * k * youngE * tw ^ 2 / fyw / hw) (ss + c) = le at hle ⊢
    have hq2 : 0 < √(1 / 2 * m1 + (le / tf) ^ 2 + m2) := Real.sqrt_pos.2 (by positivity)
    exact lt_min (by positivity) (by positivity)

theorem loadedLength_mono {lt : LType} {k fyw hw tw tf ss c a m1 m2 : ℝ} (htf : 0 ≤ tf) (hm2 : 0 ≤ m2) :
    loadedLength lt k fyw hw tw tf ss c a m1 0 ≤ loadedLength lt k fyw hw tw tf ss c a m1 m2 := by
  have hq : √(m1 + 0) ≤ √(m1 + m2) := Real.sqrt_le_sqrt (by linarith)
  have h1 := mul_le_mul_of_nonneg_left hq htf
  cases lt <;> simp only [loadedLength]
  · apply min_le_min_right
    nlinarith
  · apply min_le_min_right
    nlinarith
  · generalize min (1 / 2 * k * youngE * tw ^ 2 / fyw / hw) (ss + c) = le
    have hq2 : √(1 / 2 * m1 + (le / tf) ^ 2 + 0) ≤ √(1 / 2 * m1 + (le / tf) ^ 2 + m2) := Real.sqrt_le_sqrt (by linarith)
    have h2 := mul_le_mul_of_nonneg_left hq2 htf
    apply min_le_min <;> linarith

/-- **C64.** For every load type and positive data (bearing length and end distance may be zero; distance 0 of the stiffeners means 1000 times the web height) the resistance to a transverse
    force satisfies clause 6 consistently: with the coefficient of Figure 6.1, `Fcr = 0.9 kF E tw³/hw`, the loaded length `ly` for the final `m2`, and `λ² Fcr = ly tw fyw`, the
    second dimensionless parameter `m2` is `0.02 (hw/tf)²` exactly when the final slenderness exceeds 1/2, else 0, and the resistance is `ly tw fyw` times the smaller of `0.5/λ` and 1. It is
    positive. -/
theorem C64 {fyw hw tw fyf bf tf ss a c : ℝ} (lt : LType) (h1 : 0 < fyw) (h2 : 0 < hw) (h3 : 0 < tw) (h4 : 0 < fyf) (h5 : 0 < bf) (h6 : 0 < tf) (h7 : 0 ≤ ss) (h8 : 0 ≤ a)
    (h9 : 0 ≤ c) :
    ∃ F m2 ly l k a', (transverseForce fyw hw tw fyf bf tf ss a lt c).2.2.2 = F ∧ (a ≠ 0 → a' = a) ∧ (a = 0 → a' = 1000 * hw) ∧
      ForceCoefficient lt hw a' (min ss hw) c k ∧ LoadedLength lt k fyw hw tw tf (min ss hw) c a' (fyf * bf / (fyw * tw)) m2 ly ∧
      0 < l ∧ l ^ 2 * (0.9 * k * 210000 * tw ^ 3 / hw) = ly * tw * fyw ∧
      (1 / 2 < l → m2 = 0.02 * (hw / tf) ^ 2 ∧ F * l = 0.5 * (ly * tw * fyw)) ∧ (l ≤ 1 / 2 → m2 = 0 ∧ F = ly * tw * fyw) ∧ 0 < F := by
  obtain ⟨a', ha'⟩ : ∃ a', a' = if a = 0 then 1000 * hw else a := ⟨_, rfl⟩
  have ha0 : 0 < a' := by
    rw [ha']
    split_ifs with h
    · positivity
    · exact lt_of_le_of_ne h8 (Ne.symm h)
  obtain ⟨s, hs⟩ : ∃ s, s = min ss hw := ⟨_, rfl⟩
  have hs0 : 0 ≤ s := by rw [hs]; exact le_min h7 h2.le
  obtain ⟨k, hk⟩ : ∃ k, k = kF lt hw a' s c := ⟨_, rfl⟩
  have hk0 : 0 < k := by rw [hk]; exact kF_pos h2 hs0 h9
  obtain ⟨m1, hm1⟩ : ∃ m1, m1 = fyf * bf / fyw / tw := ⟨_, rfl⟩
  have hm10 : 0 < m1 := by rw [hm1]; positivity
  obtain ⟨Fcr, hF⟩ : ∃ Fcr, Fcr = 9 / 10 * k * youngE * tw ^ 3 / hw := ⟨_, rfl⟩
  have hF0 : 0 < Fcr := by rw [hF]; unfold youngE; positivity
  have eF : 0.9 * k * 210000 * tw ^ 3 / hw = Fcr := by
    rw [hF, youngE]
    norm_num
  have em1 : fyf * bf / (fyw * tw) = m1 := by rw [hm1, div_div]
  rw [← hs]
  obtain ⟨L, hL⟩ : ∃ L : ℝ → ℝ, L = fun m2 => loadedLength lt k fyw hw tw tf s c a' m1 m2 := ⟨_, rfl⟩
  have hLpos : ∀ m2, 0 ≤ m2 → 0 < L m2 := fun m2 hm => by
    rw [hL]; exact loadedLength_pos hk0 h1 h2 h3 h6 hs0 h9 ha0 hm10 hm
  have hlam : ∀ m2, 0 ≤ m2 → 0 < √(L m2 * tw * fyw / Fcr) ∧ √(L m2 * tw * fyw / Fcr) ^ 2 * Fcr = L m2 * tw * fyw := by
    intro m2 hm
    have := hLpos m2 hm
    refine ⟨Real.sqrt_pos.2 (by positivity), ?_⟩
    rw [Real.sq_sqrt (by positivity)]
    field_simp
  have hspec : ∀ m2, LoadedLength lt k fyw hw tw tf s c a' m1 m2 (L m2) := fun m2 => by
    rw [hL]; exact loadedLength_spec _ _ _ _ _ _ _ _ _ _ _
  have hkspec : ForceCoefficient lt hw a' s c k := by rw [hk]; exact kF_spec _ _ _ _ _
  have ea1 : a ≠ 0 → a' = a := fun h => by rw [ha', if_neg h]
  have ea2 : a = 0 → a' = 1000 * hw := fun h => by rw [ha', if_pos h]
  have e2 : (0.02 : ℝ) * (hw / tf) ^ 2 = 2 / 100 * (hw / tf) ^ 2 := by norm_num
  have e5 : (0.5 : ℝ) = 1 / 2 := by norm_num
  have hm20 : (0 : ℝ) ≤ 2 / 100 * (hw / tf) ^ 2 := by positivity
  by_cases hl : √(L 0 * tw * fyw / Fcr) > 1 / 2
  · have hFv : (transverseForce fyw hw tw fyf bf tf ss a lt c).2.2.2 =
        fyw * (min (1 / 2 / √(L (2 / 100 * (hw / tf) ^ 2) * tw * fyw / Fcr)) 1 * L (2 / 100 * (hw / tf) ^ 2)) * tw := by
      simp only [transverseForce, gammaM1, div_one, ← ha', ← hs, ← hk, ← hm1, ← hF]
      rw [hL] at hl
      simp only [hL, if_pos hl]
    obtain ⟨p, q⟩ := hlam _ hm20
    have hLm : L 0 ≤ L (2 / 100 * (hw / tf) ^ 2) := by rw [hL]; exact loadedLength_mono h6.le hm20
    have hgt : 1 / 2 < √(L (2 / 100 * (hw / tf) ^ 2) * tw * fyw / Fcr) := by
      refine lt_of_lt_of_le hl (Real.sqrt_le_sqrt ?_)
      apply div_le_div_of_nonneg_right _ hF0.le
      apply mul_le_mul_of_nonneg_right _ h1.le
      exact mul_le_mul_of_nonneg_right hLm h3.le
    have hmin : min (1 / 2 / √(L (2 / 100 * (hw / tf) ^ 2) * tw * fyw / Fcr)) 1 = 1 / 2 / √(L (2 / 100 * (hw / tf) ^ 2) * tw * fyw / Fcr) := by
      apply min_eq_left
      rw [div_le_one p]
      exact hgt.le
    rw [hmin] at hFv
    have hLp := hLpos _ hm20
    refine ⟨_, 2 / 100 * (hw / tf) ^ 2, L (2 / 100 * (hw / tf) ^ 2), _, k, a', rfl, ea1, ea2, hkspec, em1 ▸ hspec _, p, ?_, fun _ => ⟨e2.symm, ?_⟩, fun h => absurd h (not_le.2 hgt), ?_⟩
    · rw [eF]; exact q
    · rw [hFv, e5]
      generalize √(L (2 / 100 * (hw / tf) ^ 2) * tw * fyw / Fcr) = r at p ⊢
      generalize L (2 / 100 * (hw / tf) ^ 2) = v
      field_simp
    · rw [hFv]
      positivity
  · obtain ⟨p, q⟩ := hlam 0 le_rfl
    have hFv : (transverseForce fyw hw tw fyf bf tf ss a lt c).2.2.2 = fyw * (min (1 / 2 / √(L 0 * tw * fyw / Fcr)) 1 * L 0) * tw := by
      simp only [transverseForce, gammaM1, div_one, ← ha', ← hs, ← hk, ← hm1, ← hF]
      rw [hL] at hl
      simp only [hL, if_neg hl]
    have hmin : min (1 / 2 / √(L 0 * tw * fyw / Fcr)) 1 = 1 := by
      apply min_eq_right
      rw [le_div_iff₀ p, one_mul]
      exact not_lt.1 hl
    rw [hmin, one_mul] at hFv
    have hLp := hLpos 0 le_rfl
    refine ⟨_, 0, L 0, _, k, a', rfl, ea1, ea2, hkspec, em1 ▸ hspec _, p, ?_, fun h => absurd h hl, fun _ => ⟨rfl, ?_⟩, ?_⟩
    · rw [eF]; exact q
    · rw [hFv]; ring
    · rw [hFv]; positivity

/-- A plate girder without stiffeners under a wheel load. -/
example : 0 < (transverseForce 355 1000 8 355 300 20 200 0 .a 0).2.2.2 := by
  obtain ⟨F, _, _, _, _, _, h, hr⟩ := C64 (fyw := 355) (hw := 1000) (tw := 8) (fyf := 355) (bf := 300) (tf := 20) (ss := 200) (a := 0) (c := 0) .a
    (by norm_num) (by norm_num) (by norm_num) (by norm_num) (by norm_num) (by norm_num) (by norm_num) (by norm_num) (by norm_num)
  rw [h]
  exact hr.2.2.2.2.2.2.2.2

end Metku.Plate
