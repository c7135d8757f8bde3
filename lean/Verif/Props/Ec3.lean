import Mathlib.Tactic.Linarith
import Mathlib.Tactic.NormNum
import Mathlib.Tactic.FieldSimp
import Mathlib.Tactic.Ring
import Mathlib.Tactic.Positivity
import Verif.Model.Ec3

/-!
Properties C29-C33, C52: rules of EN 1993-1-1.
-/
namespace Metku.Ec3

/-! ### Classification of cross-section parts -/

/-- Specification of a classification with limits `l1, l2, l3` for the ratio `r`: the class is 1 up to the first limit, at most 2 up
    to the second, at most 3 up to the third, otherwise 4. -/
def Ladder (l1 l2 l3 r : ℝ) (C : Nat) : Prop :=
  1 ≤ C ∧ C ≤ 4 ∧ (C ≤ 1 ↔ r ≤ l1) ∧ (C ≤ 2 ↔ r ≤ l2) ∧ (C ≤ 3 ↔ r ≤ l3)

theorem ladder_of {l1 l2 l3 r : ℝ} (h12 : l1 ≤ l2) (h23 : l2 ≤ l3) :
    Ladder l1 l2 l3 r (if r ≤ l1 then 1 else if r ≤ l2 then 2 else if r ≤ l3 then 3 else 4) := by
  unfold Ladder
  by_cases h1 : r ≤ l1
  · simp [h1, h1.trans h12, (h1.trans h12).trans h23]
  · by_cases h2 : r ≤ l2
    · simp [h1, h2, h2.trans h23]
    · by_cases h3 : r ≤ l3
      · simp [h1, h2, h3]
      · simp [h1, h2, h3]

theorem Ladder.mono {l1 l2 l3 r l1' l2' l3' r' : ℝ} {C C' : Nat} (h : Ladder l1 l2 l3 r C) (h' : Ladder l1' l2' l3' r' C')
    (hr : r ≤ r') (m1 : l1' ≤ l1) (m2 : l2' ≤ l2) (m3 : l3' ≤ l3) : C ≤ C' := by
  obtain ⟨a, b, c1, c2, c3⟩ := h
  obtain ⟨a', b', c1', c2', c3'⟩ := h'
  have e1 : C' ≤ 1 → C ≤ 1 := fun h => c1.2 ((hr.trans (c1'.1 h)).trans m1)
  have e2 : C' ≤ 2 → C ≤ 2 := fun h => c2.2 ((hr.trans (c2'.1 h)).trans m2)
  have e3 : C' ≤ 3 → C ≤ 3 := fun h => c3.2 ((hr.trans (c3'.1 h)).trans m3)
  omega

theorem fixEps_le {e : ℝ} (h : e ≤ 1) : fixEps e = e := if_neg (not_lt.2 h)

theorem bending_ladder {e : ℝ} (r : ℝ) (h : 0 ≤ e) : Ladder (72 * e) (83 * e) (124 * e) r (internalBending r e) :=
  ladder_of (by linarith) (by linarith)

theorem compression_ladder {e : ℝ} (r : ℝ) (h : 0 ≤ e) (h1 : e ≤ 1) :
    Ladder (33 * e) (38 * e) (42 * e) r (internalCompression r e) := by
  unfold internalCompression
  rw [fixEps_le h1]
  exact ladder_of (by linarith) (by linarith)

theorem outstand_ladder {e : ℝ} (r : ℝ) (h : 0 ≤ e) (h1 : e ≤ 1) :
    Ladder (9 * e) (10 * e) (14 * e) r (outstandCompression r e) := by
  unfold outstandCompression
  rw [fixEps_le h1]
  exact ladder_of (by linarith) (by linarith)

theorem chs_ladder (r e : ℝ) : Ladder (50 * e ^ 2) (70 * e ^ 2) (90 * e ^ 2) r (chsClass r e) :=
  ladder_of (by nlinarith [sq_nonneg e]) (by nlinarith [sq_nonneg e])

/-- Limits of Table 5.2 for a part in bending and compression with plastic neutral axis position `a` (no limit for `a = 0`) and
    stress ratio `p`. -/
def Within12 (k kb r e a : ℝ) : Prop := a = 0 ∨ (1 / 2 < a ∧ r ≤ k * e / (13 * a - 1)) ∨ (a ≤ 1 / 2 ∧ r ≤ kb * e / a)

/-- Elastic limit of Table 5.2. -/
def Within3 (r e p : ℝ) : Prop :=
  (-1 < p ∧ r ≤ 42 * e / (67 / 100 + 33 / 100 * p)) ∨ (p ≤ -1 ∧ r ≤ 62 * e * (1 - p) * √(-p))

theorem compBend_spec {r e a p : ℝ} (h0 : 0 ≤ e) (h1 : e ≤ 1) (ha : 0 ≤ a) :
    1 ≤ internalCompBend r e a p ∧ internalCompBend r e a p ≤ 4 ∧
    (internalCompBend r e a p ≤ 1 ↔ Within12 396 36 r e a) ∧
    (internalCompBend r e a p ≤ 2 ↔ Within12 456 (415 / 10) r e a) ∧
    (internalCompBend r e a p ≤ 3 ↔ Within12 456 (415 / 10) r e a ∨ Within3 r e p) := by
  have k12 : (1 ≤ compBend12 r e a ∧ compBend12 r e a ≤ 4 ∧ compBend12 r e a ≠ 3) ∧ (compBend12 r e a ≤ 1 ↔ Within12 396 36 r e a) ∧
      (compBend12 r e a ≤ 2 ↔ Within12 456 (415 / 10) r e a) := by
    unfold compBend12 Within12
    by_cases ha0 : a = 0
    · simp [ha0]
    · have hap : 0 < a := lt_of_le_of_ne ha (Ne.symm ha0)
      by_cases hh : a > 1 / 2
      · have hd : 0 < 13 * a - 1 := by linarith
        have hl : 396 * e / (13 * a - 1) ≤ 456 * e / (13 * a - 1) := by
          apply div_le_div_of_nonneg_right _ hd.le; linarith
        have hn : ¬ a ≤ 1 / 2 := not_le.2 hh
        simp only [ha0, if_false, hh, if_true, hn, true_and, false_and, or_false, false_or]
        by_cases c1 : r ≤ 396 * e / (13 * a - 1)
        · simp [c1, c1.trans hl]
        · by_cases c2 : r ≤ 456 * e / (13 * a - 1)
          · simp [c1, c2]
          · simp [c1, c2]
      · have hl : 36 * e / a ≤ 415 / 10 * e / a := by
          apply div_le_div_of_nonneg_right _ hap.le; linarith
        have hn : a ≤ 1 / 2 := not_lt.1 hh
        simp only [ha0, if_false, hh, hn, true_and, false_and, false_or]
        by_cases c1 : r ≤ 36 * e / a
        · simp [c1, c1.trans hl]
        · by_cases c2 : r ≤ 415 / 10 * e / a
          · simp [c1, c2]
          · simp [c1, c2]
  have k1imp : Within12 396 36 r e a → Within12 456 (415 / 10) r e a := by
    intro h
    exact k12.2.2.1 (le_trans (k12.2.1.2 h) (by norm_num))
  obtain ⟨⟨p1, p4, p3⟩, q1, q2⟩ := k12
  unfold internalCompBend
  rw [fixEps_le h1]
  simp only
  rw [← q1, ← q2]
  generalize compBend12 r e a = C at *
  by_cases hC : C > 2
  · have hC4 : C = 4 := by omega
    subst hC4
    simp only [gt_iff_lt, hC, if_true]
    unfold Within3
    by_cases hp : p > -1
    · have hp' : ¬ p ≤ -1 := not_le.2 hp
      have hp'' : -1 < p := hp
      by_cases c3 : r ≤ 42 * e / (67 / 100 + 33 / 100 * p)
      · simp [hp'', hp', c3]
      · simp [hp'', hp', c3]
    · have hp' : p ≤ -1 := not_lt.1 hp
      have hp'' : ¬ -1 < p := hp
      by_cases c3 : r ≤ 62 * e * (1 - p) * √(-p)
      · simp [hp'', hp', c3]
      · simp [hp'', hp', c3]
  · simp only [gt_iff_lt, hC, if_false]
    refine ⟨p1, p4, by simp, by simp, ?_⟩
    constructor
    · intro _; exact Or.inl (by omega)
    · intro _; omega

/-- C29: for every rule of the table the class is between 1 and 4; a larger ratio or a smaller epsilon never gives a better class, and in
    combined bending and compression neither does a larger compressed part or a more uniform stress. -/
theorem C29 {r r' e e' : ℝ} (hr : r ≤ r') (he0 : 0 < e') (he : e' ≤ e) (he1 : e ≤ 1) :
    (1 ≤ internalBending r e ∧ internalBending r e ≤ 4 ∧ internalBending r e ≤ internalBending r' e') ∧
    (1 ≤ internalCompression r e ∧ internalCompression r e ≤ 4 ∧ internalCompression r e ≤ internalCompression r' e') ∧
    (1 ≤ outstandCompression r e ∧ outstandCompression r e ≤ 4 ∧ outstandCompression r e ≤ outstandCompression r' e') ∧
    (1 ≤ chsClass r e ∧ chsClass r e ≤ 4 ∧ chsClass r e ≤ chsClass r' e') ∧
    (∀ a a' p p' : ℝ, 0 ≤ a → a ≤ a' → p ≤ p' →
      1 ≤ internalCompBend r e a p ∧ internalCompBend r e a p ≤ 4 ∧ internalCompBend r e a p ≤ internalCompBend r' e' a' p') := by
  have he0' : 0 ≤ e := (he0.trans_le he).le
  have h1 := bending_ladder r he0'
  have h2 := compression_ladder r he0' he1
  have h3 := outstand_ladder r he0' he1
  have h4 := chs_ladder r e
  have hsq : e' ^ 2 ≤ e ^ 2 := pow_le_pow_left₀ he0.le he 2
  refine ⟨⟨h1.1, h1.2.1, h1.mono (bending_ladder r' he0.le) hr (by linarith) (by linarith) (by linarith)⟩,
    ⟨h2.1, h2.2.1, h2.mono (compression_ladder r' he0.le (he.trans he1)) hr (by linarith) (by linarith) (by linarith)⟩,
    ⟨h3.1, h3.2.1, h3.mono (outstand_ladder r' he0.le (he.trans he1)) hr (by linarith) (by linarith) (by linarith)⟩,
    ⟨h4.1, h4.2.1, h4.mono (chs_ladder r' e') hr (by linarith) (by linarith) (by linarith)⟩, ?_⟩
  intro a a' p p' ha haa hpp
  obtain ⟨b1, b4, k1, k2, k3⟩ := compBend_spec (r := r) (p := p) he0' he1 ha
  obtain ⟨b1', b4', k1', k2', k3'⟩ := compBend_spec (r := r') (p := p') he0.le (he.trans he1) (ha.trans haa)
  refine ⟨b1, b4, ?_⟩
  have mono12 : ∀ k kb : ℝ, 0 < k → 0 < kb → k ≤ 11 * kb → Within12 k kb r' e' a' → Within12 k kb r e a := by
    intro k kb hk hkb hkk h
    unfold Within12 at *
    by_cases ha0 : a = 0
    · exact Or.inl ha0
    have hap : 0 < a := lt_of_le_of_ne ha (Ne.symm ha0)
    have hap' : 0 < a' := hap.trans_le haa
    rcases h with h | ⟨h, hr'⟩ | ⟨h, hr'⟩
    · exact absurd h hap'.ne'
    · have hd' : 0 < 13 * a' - 1 := by linarith
      by_cases hh : 1 / 2 < a
      · refine Or.inr (Or.inl ⟨hh, hr.trans (hr'.trans ?_)⟩)
        have hd : 0 < 13 * a - 1 := by linarith
        rw [div_le_div_iff₀ hd' hd]
        have : k * e' * (13 * a - 1) ≤ k * e' * (13 * a' - 1) := by
          apply mul_le_mul_of_nonneg_left (by linarith) (by positivity)
        have h2 : k * e' * (13 * a' - 1) ≤ k * e * (13 * a' - 1) := by
          apply mul_le_mul_of_nonneg_right _ hd'.le
          apply mul_le_mul_of_nonneg_left he hk.le
        linarith
      · refine Or.inr (Or.inr ⟨not_lt.1 hh, hr.trans (hr'.trans ?_)⟩)
        rw [div_le_div_iff₀ hd' hap]
        -- k e' a ≤ kb e (13 a' - 1)
        have e1 : k * e' * a ≤ k * e * (1 / 2) := by
          have : k * e' ≤ k * e := mul_le_mul_of_nonneg_left he hk.le
          have h0 : 0 ≤ k * e := by positivity
          calc k * e' * a ≤ k * e * a := mul_le_mul_of_nonneg_right this hap.le
            _ ≤ k * e * (1 / 2) := mul_le_mul_of_nonneg_left (not_lt.1 hh) h0
        have e2 : kb * e * (11 / 2) ≤ kb * e * (13 * a' - 1) := by
          apply mul_le_mul_of_nonneg_left (by linarith) (by positivity)
        nlinarith
    · refine Or.inr (Or.inr ⟨haa.trans h, hr.trans (hr'.trans ?_)⟩)
      rw [div_le_div_iff₀ hap' hap]
      have e1 : kb * e' * a ≤ kb * e * a := by
        apply mul_le_mul_of_nonneg_right _ hap.le
        exact mul_le_mul_of_nonneg_left he hkb.le
      have e2 : kb * e * a ≤ kb * e * a' := mul_le_mul_of_nonneg_left haa (by positivity)
      linarith
  have mono3 : Within3 r' e' p' → Within3 r e p := by
    intro h
    unfold Within3 at *
    rcases h with ⟨hp', hr'⟩ | ⟨hp', hr'⟩
    · have hd' : 0 < 67 / 100 + 33 / 100 * p' := by linarith
      by_cases hp : -1 < p
      · refine Or.inl ⟨hp, hr.trans (hr'.trans ?_)⟩
        have hd : 0 < 67 / 100 + 33 / 100 * p := by linarith
        apply div_le_div₀ (by positivity) (by linarith) hd (by linarith)
      · have hp := not_lt.1 hp
        refine Or.inr ⟨hp, hr.trans (hr'.trans ?_)⟩
        have hs : 1 ≤ √(-p) := by rw [Real.one_le_sqrt]; linarith
        have e1 : 42 * e' / (67 / 100 + 33 / 100 * p') ≤ 124 * e := by
          rw [div_le_iff₀ hd']
          nlinarith
        have e2 : 124 * e ≤ 62 * e * (1 - p) := by nlinarith
        have e3 : 62 * e * (1 - p) * 1 ≤ 62 * e * (1 - p) * √(-p) :=
          mul_le_mul_of_nonneg_left hs (by nlinarith)
        linarith
    · refine Or.inr ⟨hpp.trans hp', hr.trans (hr'.trans ?_)⟩
      have hs : √(-p') ≤ √(-p) := Real.sqrt_le_sqrt (by linarith)
      have e1 : 62 * e' * (1 - p') ≤ 62 * e * (1 - p) := by nlinarith
      exact mul_le_mul e1 hs (Real.sqrt_nonneg _) (by nlinarith)
  have e1 : internalCompBend r' e' a' p' ≤ 1 → internalCompBend r e a p ≤ 1 := fun h => k1.2 (mono12 _ _ (by norm_num) (by norm_num) (by norm_num) (k1'.1 h))
  have e2 : internalCompBend r' e' a' p' ≤ 2 → internalCompBend r e a p ≤ 2 := fun h => k2.2 (mono12 _ _ (by norm_num) (by norm_num) (by norm_num) (k2'.1 h))
  have e3 : internalCompBend r' e' a' p' ≤ 3 → internalCompBend r e a p ≤ 3 := fun h => k3.2 ((k3'.1 h).imp (mono12 _ _ (by norm_num) (by norm_num) (by norm_num)) mono3)
  omega

/-- C30: uniform compression (`alpha = psi = 1`) gives the class of a compressed part, pure bending (`alpha = 1/2`, `psi = -1`) the
    class of a bent part. -/
theorem C30 (r e : ℝ) (h0 : 0 < e) (h1 : e ≤ 1) :
    internalCompBend r e 1 1 = internalCompression r e ∧ internalCompBend r e (1 / 2) (-1) = internalBending r e := by
  have lad : ∀ {l1 l2 l3 r : ℝ} {C C' : Nat}, Ladder l1 l2 l3 r C → Ladder l1 l2 l3 r C' → C = C' := fun h h' =>
    le_antisymm (h.mono h' le_rfl le_rfl le_rfl le_rfl) (h'.mono h le_rfl le_rfl le_rfl le_rfl)
  constructor
  · refine lad (l1 := 33 * e) (l2 := 38 * e) (l3 := 42 * e) (r := r) ?_ (compression_ladder r h0.le h1)
    obtain ⟨b1, b4, k1, k2, k3⟩ := compBend_spec (r := r) (p := 1) h0.le h1 (zero_le_one' ℝ)
    refine ⟨b1, b4, ?_, ?_, ?_⟩
    · rw [k1]; unfold Within12
      constructor
      · rintro (h | ⟨_, h⟩ | ⟨h, _⟩)
        · norm_num at h
        · norm_num at h; linarith
        · norm_num at h
      · intro h; refine Or.inr (Or.inl ⟨by norm_num, ?_⟩); norm_num; linarith
    · rw [k2]; unfold Within12
      constructor
      · rintro (h | ⟨_, h⟩ | ⟨h, _⟩)
        · norm_num at h
        · norm_num at h; linarith
        · norm_num at h
      · intro h; refine Or.inr (Or.inl ⟨by norm_num, ?_⟩); norm_num; linarith
    · rw [k3]; unfold Within12 Within3
      constructor
      · rintro ((h | ⟨_, h⟩ | ⟨h, _⟩) | ⟨_, h⟩ | ⟨h, _⟩)
        · norm_num at h
        · norm_num at h; linarith
        · norm_num at h
        · norm_num at h; linarith
        · norm_num at h
      · intro h; refine Or.inr (Or.inl ⟨by norm_num, ?_⟩); norm_num; linarith
  · refine lad (l1 := 72 * e) (l2 := 83 * e) (l3 := 124 * e) (r := r) ?_ (bending_ladder r h0.le)
    obtain ⟨b1, b4, k1, k2, k3⟩ := compBend_spec (r := r) (p := -1) (a := 1 / 2) h0.le h1 (by norm_num)
    refine ⟨b1, b4, ?_, ?_, ?_⟩
    · rw [k1]; unfold Within12
      constructor
      · rintro (h | ⟨h, _⟩ | ⟨_, h⟩)
        · norm_num at h
        · norm_num at h
        · norm_num at h; linarith
      · intro h; refine Or.inr (Or.inr ⟨by norm_num, ?_⟩); norm_num; linarith
    · rw [k2]; unfold Within12
      constructor
      · rintro (h | ⟨h, _⟩ | ⟨_, h⟩)
        · norm_num at h
        · norm_num at h
        · norm_num at h; linarith
      · intro h; refine Or.inr (Or.inr ⟨by norm_num, ?_⟩); norm_num; linarith
    · rw [k3]; unfold Within12 Within3
      constructor
      · rintro ((h | ⟨h, _⟩ | ⟨_, h⟩) | ⟨h, _⟩ | ⟨_, h⟩)
        · norm_num at h
        · norm_num at h
        · norm_num at h; linarith
        · norm_num at h
        · norm_num at h; linarith
      · intro h; refine Or.inr (Or.inr ⟨by norm_num, ?_⟩); norm_num; linarith

theorem epsilon_le_one {fy : ℝ} (h : 235 ≤ fy) : 0 < epsilon fy ∧ epsilon fy ≤ 1 := by
  unfold epsilon
  have : 0 < fy := by linarith
  constructor
  · apply Real.sqrt_pos.2; positivity
  · rw [Real.sqrt_le_one, div_le_one this]; exact h

/-- C31 for yield strengths of at least 235 MPa (for smaller ones the code takes epsilon for a yield strength, see
    `C31_violation`): the class of a compressed internal or outstand part is the one of Table 5.2 with `epsilon² = 235 / fy`.
    Bent parts and circular sections are classified by the table for every positive yield strength. -/
theorem C31_partial (r fy : ℝ) :
    (235 ≤ fy →
      Ladder (33 * epsilon fy) (38 * epsilon fy) (42 * epsilon fy) r (internalCompression r (epsilon fy)) ∧
      Ladder (9 * epsilon fy) (10 * epsilon fy) (14 * epsilon fy) r (outstandCompression r (epsilon fy))) ∧
    (0 < fy →
      epsilon fy ^ 2 = 235 / fy ∧ 0 < epsilon fy ∧
      Ladder (72 * epsilon fy) (83 * epsilon fy) (124 * epsilon fy) r (internalBending r (epsilon fy)) ∧
      Ladder (50 * (235 / fy)) (70 * (235 / fy)) (90 * (235 / fy)) r (chsClass r (epsilon fy))) := by
  refine ⟨fun h => ?_, fun h => ?_⟩
  · obtain ⟨h0, h1⟩ := epsilon_le_one h
    exact ⟨compression_ladder r h0.le h1, outstand_ladder r h0.le h1⟩
  · have hsq : epsilon fy ^ 2 = 235 / fy := Real.sq_sqrt (by positivity)
    have hpos : 0 < epsilon fy := Real.sqrt_pos.2 (by positivity)
    refine ⟨hsq, hpos, bending_ladder r hpos.le, ?_⟩
    have := chs_ladder r (epsilon fy)
    rwa [hsq] at this

/-- C31 fails below 235 MPa.  For every yield strength from 200 to 235 MPa (such as S220GD of the material database) every compressed
    internal part with ratio between 46 and 450 and every outstand part with ratio between 16 and 130 is reported as class 1, although
    the limits of class 3 are below 46 and 16. -/
theorem C31_violation (fy r : ℝ) (h1 : 200 ≤ fy) (h2 : fy < 235) :
    (42 * epsilon fy < 46 ∧ (46 ≤ r → r ≤ 450 → internalCompression r (epsilon fy) = 1)) ∧
    (14 * epsilon fy < 16 ∧ (16 ≤ r → r ≤ 130 → outstandCompression r (epsilon fy) = 1)) := by
  have hfy : 0 < fy := by linarith
  have he1 : 1 < epsilon fy := by
    unfold epsilon
    rw [Real.lt_sqrt (by norm_num), one_pow, one_lt_div hfy]; exact h2
  have he2 : epsilon fy ≤ 1085 / 1000 := by
    unfold epsilon
    rw [Real.sqrt_le_left (by norm_num), div_le_iff₀ hfy]
    nlinarith
  have hfix : 147 / 10 ≤ fixEps (epsilon fy) := by
    have e : fixEps (epsilon fy) = √(235 / epsilon fy) := by
      unfold fixEps
      rw [if_pos he1]; rfl
    rw [e]
    apply Real.le_sqrt_of_sq_le
    rw [le_div_iff₀ (by linarith)]
    nlinarith
  refine ⟨⟨by linarith, fun _ hr => ?_⟩, ⟨by linarith, fun _ hr => ?_⟩⟩
  · unfold internalCompression
    simp only
    rw [if_pos (by linarith)]
  · unfold outstandCompression
    simp only
    rw [if_pos (by linarith)]

/-- The hypotheses are met: S355, ratio 40 against 45. -/
example : (40 : ℝ) ≤ 45 ∧ 0 < epsilon 355 ∧ epsilon 355 ≤ epsilon 355 ∧ epsilon 355 ≤ 1 ∧ (235 : ℝ) ≤ 355 :=
  ⟨by norm_num, (epsilon_le_one (by norm_num)).1, le_rfl, (epsilon_le_one (by norm_num)).2, by norm_num⟩

/-! ### Buckling reduction factor -/

/-- The radicand of the reduction factor. -/
theorem radicand_nonneg {l a : ℝ} (hl : 0 ≤ l) (ha : 0 ≤ a) (ha1 : a ≤ 3) : 0 ≤ buckPhi l a ^ 2 - l ^ 2 := by
  have hd : 0 ≤ buckPhi l a - l := by
    unfold buckPhi
    -- 1 + a (l - 0.2) + l² - 2 l = (1 - l)² + a (l - 0.2)
    have : 0 ≤ (1 - l) ^ 2 + a * (l - 2 / 10) := by
      by_cases h : 2 / 10 ≤ l
      · have := mul_nonneg ha (sub_nonneg.2 h); nlinarith [sq_nonneg (1 - l)]
      · push Not at h
        have : a * (2 / 10 - l) ≤ 3 * (2 / 10 - l) := mul_le_mul_of_nonneg_right ha1 (by linarith)
        nlinarith
    nlinarith
  have hs : 0 ≤ buckPhi l a + l := by linarith
  nlinarith

theorem phi_pos {l a : ℝ} (hl : 0 ≤ l) (ha : 0 ≤ a) (ha1 : a ≤ 3) : 0 < buckPhi l a := by
  unfold buckPhi
  by_cases h : 2 / 10 ≤ l
  · have := mul_nonneg ha (sub_nonneg.2 h); nlinarith [sq_nonneg l]
  · push Not at h
    have : a * (2 / 10 - l) ≤ 3 * (2 / 10 - l) := mul_le_mul_of_nonneg_right ha1 (by linarith)
    nlinarith [sq_nonneg l]

/-- A number at which `s² - 2 p s + q` is not positive is at most the larger root. -/
theorem le_root {s p q : ℝ} (h : s ^ 2 - 2 * p * s + q ≤ 0) : s ≤ p + √(p ^ 2 - q) := by
  have h1 : (s - p) ^ 2 ≤ p ^ 2 - q := by nlinarith
  have h2 := Real.le_sqrt_of_sq_le h1
  linarith

theorem root_eq {p q : ℝ} (h : 0 ≤ p ^ 2 - q) : (p + √(p ^ 2 - q)) ^ 2 - 2 * p * (p + √(p ^ 2 - q)) + q = 0 := by
  have := Real.sq_sqrt h
  nlinarith

/-- Denominator of the reduction factor. -/
noncomputable def den (l a : ℝ) : ℝ := buckPhi l a + √(buckPhi l a ^ 2 - l ^ 2)

theorem den_pos {l a : ℝ} (hl : 0 ≤ l) (ha : 0 ≤ a) (ha1 : a ≤ 3) : 0 < den l a :=
  add_pos_of_pos_of_nonneg (phi_pos hl ha ha1) (Real.sqrt_nonneg _)

theorem den_one_le {l a : ℝ} (hl : 2 / 10 ≤ l) (ha : 0 ≤ a) : 1 ≤ den l a := by
  apply le_root
  unfold buckPhi
  have := mul_nonneg ha (sub_nonneg.2 hl)
  nlinarith

theorem den_sq_le {l a : ℝ} (hl : 2 / 10 ≤ l) (ha : 0 ≤ a) : l ^ 2 ≤ den l a := by
  apply le_root
  unfold buckPhi
  have := mul_nonneg ha (sub_nonneg.2 hl)
  have h2 := mul_nonneg this (sq_nonneg l)
  nlinarith

theorem den_le_one {l a : ℝ} (hl0 : 0 ≤ l) (hl : l ≤ 2 / 10) (ha : 0 ≤ a) (ha1 : a ≤ 3) : den l a ≤ 1 := by
  have h0 := radicand_nonneg hl0 ha ha1
  have hr := root_eq (p := buckPhi l a) (q := l ^ 2) h0
  have hs : √(buckPhi l a ^ 2 - l ^ 2) ≤ 1 - buckPhi l a := by
    rw [Real.sqrt_le_left]
    · unfold buckPhi
      have := mul_nonneg ha (sub_nonneg.2 hl)
      nlinarith
    · unfold buckPhi
      have := mul_nonneg ha (sub_nonneg.2 hl)
      nlinarith
  unfold den
  linarith

theorem den_mono {l l' a a' : ℝ} (hl : 2 / 10 ≤ l) (hll : l ≤ l') (ha : 0 ≤ a) (haa : a ≤ a') (ha1 : a' ≤ 3) :
    den l a ≤ den l' a' := by
  have h0 := radicand_nonneg (by linarith) ha (haa.trans ha1) (l := l)
  have hr := root_eq (p := buckPhi l a) (q := l ^ 2) h0
  have hd1 := den_one_le hl ha
  apply le_root
  have hr' : den l a ^ 2 - 2 * buckPhi l a * den l a + l ^ 2 = 0 := hr
  have key : den l a ^ 2 - 2 * buckPhi l' a' * den l a + l' ^ 2
      = -((a' * (l' - 2 / 10) - a * (l - 2 / 10)) * den l a) - (l' ^ 2 - l ^ 2) * (den l a - 1) := by
    have e : den l a ^ 2 = 2 * buckPhi l a * den l a - l ^ 2 := by linarith
    rw [e]; unfold buckPhi; ring
  rw [key]
  have e1 : 0 ≤ a' * (l' - 2 / 10) - a * (l - 2 / 10) := by
    have h1 : a * (l - 2 / 10) ≤ a' * (l - 2 / 10) := mul_le_mul_of_nonneg_right haa (by linarith)
    have h2 : a' * (l - 2 / 10) ≤ a' * (l' - 2 / 10) := mul_le_mul_of_nonneg_left (by linarith) (ha.trans haa)
    linarith
  have e2 := mul_nonneg e1 (by linarith : 0 ≤ den l a)
  have e3 : 0 ≤ (l' ^ 2 - l ^ 2) * (den l a - 1) := mul_nonneg (by nlinarith) (by linarith)
  linarith

theorem reduction_eq (l a : ℝ) : bucklingReduction l a = min (1 / den l a) 1 := rfl

/-- C32: for every slenderness and every imperfection factor up to 3 (the curves have 0.13 to 0.76) the square root and the division of
    the reduction factor are defined; the factor lies in `(0, 1]`, is 1 up to slenderness 0.2, never exceeds the Euler value
    and increases neither with the slenderness nor, from 0.2 on, with the imperfection factor. -/
theorem C32 {l a : ℝ} (hl : 0 ≤ l) (ha : 0 ≤ a) (ha1 : a ≤ 3) :
    (0 ≤ buckPhi l a ^ 2 - l ^ 2 ∧ buckPhi l a + √(buckPhi l a ^ 2 - l ^ 2) ≠ 0) ∧
    (0 < bucklingReduction l a ∧ bucklingReduction l a ≤ 1) ∧
    (l ≤ 2 / 10 → bucklingReduction l a = 1) ∧
    bucklingReduction l a * l ^ 2 ≤ 1 ∧
    (∀ l', l ≤ l' → bucklingReduction l' a ≤ bucklingReduction l a) ∧
    (∀ a', a ≤ a' → a' ≤ 3 → 2 / 10 ≤ l → bucklingReduction l a' ≤ bucklingReduction l a) := by
  have hone : ∀ l, 0 ≤ l → l ≤ 2 / 10 → bucklingReduction l a = 1 := by
    intro l hl h
    rw [reduction_eq]
    apply min_eq_right
    rw [le_div_iff₀ (den_pos hl ha ha1), one_mul]
    exact den_le_one hl h ha ha1
  refine ⟨⟨radicand_nonneg hl ha ha1, (den_pos hl ha ha1).ne'⟩, ⟨?_, min_le_right _ _⟩, hone l hl, ?_, ?_, ?_⟩
  · rw [reduction_eq]
    exact lt_min (div_pos one_pos (den_pos hl ha ha1)) one_pos
  · by_cases h : l ≤ 2 / 10
    · rw [hone l hl h]; nlinarith
    · push Not at h
      have h1 : bucklingReduction l a ≤ 1 / den l a := min_le_left _ _
      have h2 := den_sq_le h.le ha
      have hp := den_pos hl ha ha1
      calc bucklingReduction l a * l ^ 2 ≤ 1 / den l a * l ^ 2 := mul_le_mul_of_nonneg_right h1 (sq_nonneg _)
        _ ≤ 1 / den l a * den l a := mul_le_mul_of_nonneg_left h2 (by positivity)
        _ = 1 := by field_simp
  · intro l' hll
    by_cases h : l ≤ 2 / 10
    · rw [hone l hl h]; exact min_le_right _ _
    · push Not at h
      rw [reduction_eq, reduction_eq]
      apply min_le_min_right
      apply one_div_le_one_div_of_le (den_pos hl ha ha1)
      exact den_mono h.le hll ha le_rfl ha1
  · intro a' haa ha1' h
    rw [reduction_eq, reduction_eq]
    apply min_le_min_right
    apply one_div_le_one_div_of_le (den_pos hl ha ha1)
    exact den_mono h le_rfl ha haa ha1'

/-- Every buckling curve of the code satisfies the bound. -/
theorem C32_curves (k : Curve) : 0 ≤ k.imp ∧ k.imp ≤ 3 := by cases k <;> norm_num [Curve.imp]

/-- C32, second part: the curves are ordered: at every slenderness from 0.2 on, curve `a0` gives the largest factor, then `a`, `b`, `c`,
    `d`. -/
theorem C32_order {l : ℝ} (hl : 2 / 10 ≤ l) :
    bucklingReduction l Curve.d.imp ≤ bucklingReduction l Curve.c.imp ∧
    bucklingReduction l Curve.c.imp ≤ bucklingReduction l Curve.b.imp ∧
    bucklingReduction l Curve.b.imp ≤ bucklingReduction l Curve.a.imp ∧
    bucklingReduction l Curve.a.imp ≤ bucklingReduction l Curve.a0.imp := by
  have h0 : 0 ≤ l := by linarith
  refine ⟨?_, ?_, ?_, ?_⟩ <;>
    exact (C32 h0 (C32_curves _).1 (C32_curves _).2).2.2.2.2.2 _ (by norm_num [Curve.imp]) (C32_curves _).2 hl

/-! ### Equivalent moment factor -/

theorem endRatio_range (M0 M1 : ℝ) : -1 ≤ endRatio M0 M1 ∧ endRatio M0 M1 ≤ 1 := by
  rw [← abs_le]
  unfold endRatio
  simp only
  split_ifs with h1 h2 h3
  · rw [abs_div, abs_one, div_le_one (by linarith)]; exact h2.le
  · exact not_lt.1 h2
  · simp at h3; linarith
  · simp

theorem cmLinear_range {p : ℝ} (h1 : p ≤ 1) : 4 / 10 ≤ cmLinear p ∧ cmLinear p ≤ 1 :=
  ⟨le_max_right _ _, max_le (by linarith) (by norm_num)⟩

theorem inv_range {x : ℝ} (h : |x| > 1) : -1 ≤ 1 / x ∧ 1 / x ≤ 1 := by
  rw [← abs_le, abs_div, abs_one, div_le_one (by linarith)]; exact h.le

theorem cmNonlinear_range {p al : ℝ} (h0 : -1 ≤ p) (u : Bool) : 4 / 10 ≤ cmNonlinear p al u ∧ cmNonlinear p al u ≤ 1 := by
  have hb : ∀ b : ℝ, -1 ≤ b → b ≤ 1 → ∀ q : ℝ, -1 ≤ q → q < 0 → -1 ≤ b * (1 + 2 * q) ∧ b * (1 + 2 * q) ≤ 1 := by
    intro b b0 b1 q q0 q1; constructor <;> nlinarith
  unfold cmNonlinear
  by_cases h : |al| > 1 ∨ al = 0
  · rw [if_pos h]
    have hbr : -1 ≤ (if |al| > 1 then 1 / al else al) ∧ (if |al| > 1 then 1 / al else al) ≤ 1 := by
      split_ifs with hh
      · exact inv_range hh
      · exact abs_le.1 (not_lt.1 hh)
    generalize (if |al| > 1 then 1 / al else al) = b at hbr
    simp only
    obtain ⟨b0, b1⟩ := hbr
    cases u <;> simp only [if_true, if_false, Bool.false_eq_true]
    all_goals
      split_ifs with c1 c2
      · constructor <;> linarith
      · constructor <;> linarith
      · have := hb b b0 b1 p h0 (not_le.1 c2)
        constructor <;> nlinarith
  · rw [if_neg h]
    push Not at h
    obtain ⟨b0, b1⟩ := abs_le.1 h.1
    cases u <;> simp only [if_true, if_false, Bool.false_eq_true]
    all_goals
      split_ifs with c1 c2
      · exact ⟨le_max_right _ _, max_le (by linarith) (by norm_num)⟩
      · exact ⟨le_max_right _ _, max_le (by linarith) (by norm_num)⟩
      · exact ⟨le_max_right _ _, max_le (by linarith) (by norm_num)⟩

/-- C33, first part: the factor lies between 0.4 and 1 for all end moments, span moments and load types. -/
theorem C33_range (M0 M1 : ℝ) (Ms : Option ℝ) (u : Bool) :
    4 / 10 ≤ equivalentMomentFactor M0 M1 Ms u ∧ equivalentMomentFactor M0 M1 Ms u ≤ 1 := by
  obtain ⟨p0, p1⟩ := endRatio_range M0 M1
  unfold equivalentMomentFactor
  cases Ms with
  | none => exact cmLinear_range p1
  | some Ms =>
    simp only
    split_ifs
    · exact cmLinear_range p1
    · exact cmNonlinear_range p0 u

/-- A moment the code treats as it is: zero, or larger than its tolerance `1e-6`. -/
def Plain (M : ℝ) : Prop := M = 0 ∨ 1 / 10 ^ 6 < |M|

theorem endRatio_swap {M0 M1 : ℝ} (h0 : Plain M0) (h1 : Plain M1) : endRatio M0 M1 = endRatio M1 M0 := by
  have t : (0 : ℝ) < 1 / 10 ^ 6 := by norm_num
  rcases h0 with rfl | h0
  · unfold endRatio
    simp
  · rcases h1 with rfl | h1
    · unfold endRatio
      simp
    · have n0 : M0 ≠ 0 := by rintro rfl; simp at h0; linarith
      have n1 : M1 ≠ 0 := by rintro rfl; simp at h1; linarith
      have a0 : 0 < |M0| := abs_pos.2 n0
      have a1 : 0 < |M1| := abs_pos.2 n1
      unfold endRatio
      simp only [gt_iff_lt, h0, h1, if_true, abs_div, one_lt_div a0, one_lt_div a1, one_div_div]
      rcases lt_trichotomy |M0| |M1| with h | h | h
      · rw [if_neg (not_lt.2 h.le), if_pos h]
      · rw [if_neg (not_lt.2 h.le), if_neg (not_lt.2 h.ge)]
        rcases abs_eq_abs.1 h with rfl | rfl
        · rfl
        · have n1' : M1 ≠ 0 := n1
          field_simp
      · rw [if_pos h, if_neg (not_lt.2 h.le)]

theorem cmNonlinear_neg {al : ℝ} (u : Bool) : cmNonlinear (-1) al u = cmNonlinear (-1) (-al) u := by
  have key : ∀ al : ℝ, 0 < al → cmNonlinear (-1) al u = cmNonlinear (-1) (-al) u := by
    intro al h
    have hn : ¬ 0 ≤ -al := not_le.2 (neg_lt_zero.2 h)
    have hp : ¬ (0 : ℝ) ≤ -1 := by norm_num
    unfold cmNonlinear
    rw [abs_neg]
    by_cases hh : |al| > 1
    · have hi : 0 ≤ 1 / al := by positivity
      have hi' : ¬ 0 ≤ 1 / -al := by
        push Not; rw [one_div, inv_neg]; exact neg_lt_zero.2 (inv_pos.2 h)
      simp only [hh, true_or, if_true, ge_iff_le, hi, hi', hp, if_false]
      cases u <;> simp only [if_true, if_false, Bool.false_eq_true] <;> (rw [one_div_neg_eq_neg_one_div]; ring)
    · have h0 : ¬ al = 0 := h.ne'
      have h0' : ¬ -al = 0 := neg_ne_zero.2 h.ne'
      simp only [hh, h0, h0', or_self, if_false, ge_iff_le, h.le, hn, hp, if_true]
      cases u <;> simp only [if_true, if_false, Bool.false_eq_true] <;> congr 1 <;> ring
  rcases lt_trichotomy al 0 with h | h | h
  · have := key (-al) (by linarith)
    rw [neg_neg] at this; exact this.symm
  · rw [h, neg_zero]
  · exact key al h

/-- C33, second part, for end moments that are zero or larger than the tolerance `1e-6` of the code: swapping the end moments does
    not change the factor. -/
theorem C33_swap_partial {M0 M1 : ℝ} (h0 : Plain M0) (h1 : Plain M1) (Ms : Option ℝ) (u : Bool) :
    equivalentMomentFactor M0 M1 Ms u = equivalentMomentFactor M1 M0 Ms u := by
  unfold equivalentMomentFactor
  rw [endRatio_swap h0 h1]
  cases Ms with
  | none => rfl
  | some Ms =>
    simp only
    rw [add_comm M0 M1]
    split_ifs
    · rfl
    · rcases lt_trichotomy |M0| |M1| with h | h | h
      · unfold largerEnd
        rw [if_neg (not_lt.2 h.le), if_pos h]
      · rcases abs_eq_abs.1 h with rfl | rfl
        · rfl
        · have l1 : largerEnd (-M1) M1 = M1 := by unfold largerEnd; simp
          have l2 : largerEnd M1 (-M1) = -M1 := by unfold largerEnd; simp
          rw [l1, l2]
          rcases h1 with rfl | h1
          · simp
          · have n1 : M1 ≠ 0 := by
              rintro rfl; simp at h1; linarith [show (0 : ℝ) < 1 / 10 ^ 6 by norm_num]
            have hp : endRatio M1 (-M1) = -1 := by
              unfold endRatio
              have : |-M1| > 1 / 10 ^ 6 := by rw [abs_neg]; exact h1
              have e : M1 / -M1 = -1 := by field_simp
              simp only [this, if_true, e]
              norm_num
            have ha : spanRatio (-M1) Ms = -spanRatio M1 Ms := by
              unfold spanRatio
              rw [abs_neg]
              split_ifs
              · simp
              · rw [div_neg]
            rw [hp, ha]
            exact cmNonlinear_neg u
      · unfold largerEnd
        rw [if_pos h, if_neg (not_lt.2 h.le)]

/-- C33 fails for an end moment below the tolerance: with end moments `1` and `1e-7` the factor depends on their order. -/
theorem C33_violation : equivalentMomentFactor 1 (1 / 10 ^ 7) none true ≠ equivalentMomentFactor (1 / 10 ^ 7) 1 none true := by
  have h1 : equivalentMomentFactor 1 (1 / 10 ^ 7) none true = 6 / 10 := by
    have : ¬ |(1 / 10 ^ 7 : ℝ)| > 1 / 10 ^ 6 := by rw [abs_of_pos (by norm_num)]; norm_num
    simp only [equivalentMomentFactor, endRatio, this, if_false, cmLinear]
    norm_num
  have h2 : equivalentMomentFactor (1 / 10 ^ 7) 1 none true = 6 / 10 + 4 / 10 ^ 8 := by
    have h : |(1 : ℝ)| > 1 / 10 ^ 6 := by norm_num
    have h' : ¬ |(1 / 10 ^ 7 / 1 : ℝ)| > 1 := by rw [abs_of_pos (by norm_num)]; norm_num
    simp only [equivalentMomentFactor, endRatio, h, if_true, h', if_false, cmLinear]
    norm_num
  rw [h1, h2]; norm_num

/-- Specification, Table B.3 of EN 1993-1-1: `Mh` is the end moment of larger absolute value, `psi Mh` the other one, `Ms` the moment at
    midspan; `u` distinguishes the columns for uniform and concentrated load. -/
def TableB3 (Mh psi Ms : ℝ) (u : Bool) (v : ℝ) : Prop :=
  (Ms = (Mh + psi * Mh) / 2 → v = max (6 / 10 + 4 / 10 * psi) (4 / 10)) ∧
  (Ms ≠ (Mh + psi * Mh) / 2 → Mh ≠ 0 → |Ms| ≤ |Mh| →
    (0 ≤ Ms / Mh → v = max (2 / 10 + 8 / 10 * (Ms / Mh)) (4 / 10)) ∧
    (Ms / Mh < 0 → 0 ≤ psi → v = max ((if u then 1 / 10 else 0) - 8 / 10 * (Ms / Mh)) (4 / 10)) ∧
    (Ms / Mh < 0 → psi < 0 → v = max ((if u then 1 / 10 * (1 - psi) else 2 / 10 * (-psi)) - 8 / 10 * (Ms / Mh)) (4 / 10))) ∧
  (Ms ≠ (Mh + psi * Mh) / 2 → |Mh| < |Ms| →
    (0 ≤ Mh / Ms ∨ 0 ≤ psi → v = if u then 95 / 100 + 5 / 100 * (Mh / Ms) else 90 / 100 + 10 / 100 * (Mh / Ms)) ∧
    (Mh / Ms < 0 → psi < 0 → v = if u then 95 / 100 + 5 / 100 * (Mh / Ms) * (1 + 2 * psi)
      else 90 / 100 + 10 / 100 * (Mh / Ms) * (1 + 2 * psi)))

/-- C52 where the larger end moment exceeds the tolerance, the smaller one is zero or does too, the midspan moment is not zero (see
    `C52_violation`) and is either exactly the mean of the end moments or not within the tolerance of it: the factor is the one of
    Table B.3. -/
theorem C52_partial {Mh psi Ms : ℝ} (hh : 1 / 10 ^ 6 < |Mh|) (hp0 : -1 ≤ psi) (hp1 : psi ≤ 1) (hpl : Plain (psi * Mh)) (u : Bool)
    (hs : Ms ≠ 0) (hlin : Ms = (Mh + psi * Mh) / 2 ∨ 1 / 10 ^ 6 ≤ |Ms - (Mh + psi * Mh) / 2|) :
    TableB3 Mh psi Ms u (equivalentMomentFactor Mh (psi * Mh) (some Ms) u) ∧
    TableB3 Mh psi Ms u (equivalentMomentFactor (psi * Mh) Mh (some Ms) u) := by
  have t : (0 : ℝ) < 1 / 10 ^ 6 := by norm_num
  have n0 : Mh ≠ 0 := by rintro rfl; simp at hh; linarith
  rw [C33_swap_partial (Or.inr hh) hpl (some Ms) u]
  suffices h : TableB3 Mh psi Ms u (equivalentMomentFactor (psi * Mh) Mh (some Ms) u) from ⟨h, h⟩
  have hr : endRatio (psi * Mh) Mh = psi := by
    unfold endRatio
    have e : psi * Mh / Mh = psi := by field_simp
    have : ¬ |psi| > 1 := not_lt.2 (abs_le.2 ⟨hp0, hp1⟩)
    simp only [gt_iff_lt, hh, if_true, e] at *
    rw [if_neg this]
  have hle : largerEnd (psi * Mh) Mh = Mh := by
    unfold largerEnd
    rw [if_neg]
    rw [not_lt, abs_mul]
    have : |psi| ≤ 1 := abs_le.2 ⟨hp0, hp1⟩
    nlinarith [abs_nonneg Mh]
  have hsr : spanRatio Mh Ms = Ms / Mh := by
    unfold spanRatio
    rw [if_neg (not_lt.2 hh.le)]
  have hv : equivalentMomentFactor (psi * Mh) Mh (some Ms) u
      = if |Ms - 1 / 2 * (psi * Mh + Mh)| < 1 / 10 ^ 6 then cmLinear psi else cmNonlinear psi (Ms / Mh) u := by
    simp only [equivalentMomentFactor, hr, hle, hsr]
  have hmean : Ms - 1 / 2 * (psi * Mh + Mh) = Ms - (Mh + psi * Mh) / 2 := by ring
  rw [hv, hmean]
  have ha : Ms / Mh ≠ 0 := div_ne_zero hs n0
  have habs : |Ms / Mh| > 1 ↔ |Mh| < |Ms| := by
    rw [gt_iff_lt, abs_div, one_lt_div (abs_pos.2 n0)]
  refine ⟨fun h => ?_, fun h hm hle => ?_, fun h hlt => ?_⟩
  · rw [if_pos]
    · rfl
    · rw [h, sub_self, abs_zero]; exact t
  · have hb : ¬ |Ms - (Mh + psi * Mh) / 2| < 1 / 10 ^ 6 := not_lt.2 (hlin.resolve_left h)
    have hna : ¬ (|Ms / Mh| > 1 ∨ Ms / Mh = 0) := by
      rw [habs]; push Not; exact ⟨hle, ha⟩
    rw [if_neg hb]
    unfold cmNonlinear
    rw [if_neg hna]
    refine ⟨fun h1 => ?_, fun h1 h2 => ?_, fun h1 h2 => ?_⟩
    · rw [if_pos h1]
    · rw [if_neg (not_le.2 h1), if_pos h2]
      cases u
      · simp only [Bool.false_eq_true, if_false]; congr 1; ring
      · simp only [if_true]
    · rw [if_neg (not_le.2 h1), if_neg (not_le.2 h2)]
      cases u <;> simp only [if_true, if_false, Bool.false_eq_true]
  · have hb : ¬ |Ms - (Mh + psi * Mh) / 2| < 1 / 10 ^ 6 := not_lt.2 (hlin.resolve_left h)
    have hpa : |Ms / Mh| > 1 := habs.2 hlt
    have einv : 1 / (Ms / Mh) = Mh / Ms := one_div_div _ _
    rw [if_neg hb]
    unfold cmNonlinear
    rw [if_pos (Or.inl hpa)]
    simp only [hpa, if_true, einv]
    refine ⟨fun h1 => ?_, fun h1 h2 => ?_⟩
    · by_cases hq : 0 ≤ Mh / Ms
      · rw [if_pos hq]
        cases u <;> simp only [if_true, if_false, Bool.false_eq_true]; ring
      · rw [if_neg hq, if_pos (h1.resolve_left hq)]
        cases u <;> simp only [if_true, if_false, Bool.false_eq_true]; ring
    · rw [if_neg (not_le.2 h1), if_neg (not_le.2 h2)]
      cases u <;> simp only [if_true, if_false, Bool.false_eq_true]; ring

/-- C52 fails when the moment at midspan vanishes: for every pair of different end moments with mean above the tolerance the factor is
    0.95 (uniform) or 0.90 (concentrated), while the table gives 0.4. -/
theorem C52_violation {Mh psi : ℝ} (hh : 1 / 10 ^ 6 < |Mh|)
    (hm : 1 / 10 ^ 6 ≤ |(Mh + psi * Mh) / 2|) (u : Bool) :
    equivalentMomentFactor (psi * Mh) Mh (some 0) u = (if u then 95 / 100 else 90 / 100) ∧
    ∀ v, TableB3 Mh psi 0 u v → v = 4 / 10 := by
  have t : (0 : ℝ) < 1 / 10 ^ 6 := by norm_num
  have n0 : Mh ≠ 0 := by rintro rfl; simp at hh; linarith
  have hne : (0 : ℝ) ≠ (Mh + psi * Mh) / 2 := by
    intro h; rw [← h, abs_zero] at hm; linarith
  constructor
  · have hb : ¬ |(0 : ℝ) - 1 / 2 * (psi * Mh + Mh)| < 1 / 10 ^ 6 := by
      rw [not_lt, zero_sub, abs_neg]
      have : 1 / 2 * (psi * Mh + Mh) = (Mh + psi * Mh) / 2 := by ring
      rw [this]; exact hm
    have hz : ∀ M, spanRatio M 0 = 0 := by intro M; unfold spanRatio; simp
    simp only [equivalentMomentFactor, hb, if_false, hz, cmNonlinear]
    cases u <;> norm_num
  · intro v h
    have := (h.2.1 hne n0 (by simp)).1 (by simp)
    rw [this]; norm_num

/-- The hypotheses are met: end moments 20 and -10, midspan moment 30. -/
example : 1 / 10 ^ 6 < |(20 : ℝ)| ∧ Plain (-(1 / 2) * 20) ∧ (30 : ℝ) ≠ 0 ∧ (1 / 10 ^ 6 ≤ |(30 : ℝ) - (20 + -(1 / 2) * 20) / 2|) ∧
    equivalentMomentFactor 20 (-10) (some 30) true = 95 / 100 + 5 / 100 * (20 / 30) := by
  refine ⟨by norm_num, Or.inr (by norm_num), by norm_num, by norm_num, ?_⟩
  have := (C52_partial (Mh := 20) (psi := -(1 / 2)) (Ms := 30) (by norm_num) (by norm_num) (by norm_num) (Or.inr (by norm_num)) true
    (by norm_num) (Or.inr (by norm_num))).1.2.2 (by norm_num) (by norm_num)
  have h := this.1 (Or.inl (by norm_num))
  simp only [if_true] at h
  rw [← h]; norm_num

end Metku.Ec3
