import Mathlib.Tactic.IntervalCases
import Verif.Props.Ec3

/-!
Properties C31 and C32 (the values themselves), C61 (interaction factors of Annex B) and C62 (resistances and imperfections): EN 1993-1-1.
-/
namespace Metku.Ec3

/-! ### C31, parts in bending and compression -/

/-- **C31, parts in bending and compression (part).** For yield strengths from 235 MPa on, the class is the one of Table 5.2: plastic limits `396/(13 alpha - 1)`,
    `456/(13 alpha - 1)` for `alpha > 1/2`, `36/alpha`, `41.5/alpha` otherwise (no limit for `alpha = 0`), elastic limit `42/(0.67 + 0.33 psi)` for
    `psi > -1`, `62 (1 - psi) √(-psi)` otherwise, all times `epsilon`.
    Missing: smaller yield strengths, see `C31_violation`. -/
theorem C31_combined_partial (r fy a p : ℝ) (hf : 235 ≤ fy) (ha : 0 ≤ a) :
    let e := epsilon fy
    let C := internalCompBend r e a p
    e ^ 2 = 235 / fy ∧ 1 ≤ C ∧ C ≤ 4 ∧
    (C ≤ 1 ↔ a = 0 ∨ (1 / 2 < a ∧ r ≤ 396 * e / (13 * a - 1)) ∨ (a ≤ 1 / 2 ∧ r ≤ 36 * e / a)) ∧
    (C ≤ 2 ↔ a = 0 ∨ (1 / 2 < a ∧ r ≤ 456 * e / (13 * a - 1)) ∨ (a ≤ 1 / 2 ∧ r ≤ 41.5 * e / a)) ∧
    (C ≤ 3 ↔ C ≤ 2 ∨ (-1 < p ∧ r ≤ 42 * e / (0.67 + 0.33 * p)) ∨ (p ≤ -1 ∧ r ≤ 62 * e * (1 - p) * √(-p))) := by
  intro e C
  obtain ⟨h0, h1⟩ := epsilon_le_one hf
  obtain ⟨b1, b4, k1, k2, k3⟩ := compBend_spec (r := r) (p := p) h0.le h1 ha
  have e1 : (41.5 : ℝ) = 415 / 10 := by norm_num
  have e2 : (0.67 : ℝ) = 67 / 100 := by norm_num
  have e3 : (0.33 : ℝ) = 33 / 100 := by norm_num
  rw [e1, e2, e3]
  refine ⟨Real.sq_sqrt (by positivity), b1, b4, k1, k2, ?_⟩
  rw [k3, k2]
  rfl

/-- Web of an I-section in S355, more than half in compression: class 3. -/
example : internalCompBend 45 (epsilon 355) (7 / 10) (-1 / 2) ≤ 3 := by
  have he : (8 / 10 : ℝ) ≤ epsilon 355 := by
    unfold epsilon
    apply Real.le_sqrt_of_sq_le
    norm_num
  refine (C31_combined_partial 45 355 (7 / 10) (-1 / 2) (by norm_num) (by norm_num)).2.2.2.2.2.2 (.inr (.inl ⟨by norm_num, ?_⟩))
  rw [le_div_iff₀ (by norm_num)]
  norm_num
  linarith

/-! ### C32, the value of the reduction factor -/

/-- **C32, the value.** For every buckling curve with the imperfection factor of Table 6.1 and every slenderness from 0.2 on, the reduction factor is the one and
    only number `x` in `(0, 1]` with `x λ² ≤ 1` that satisfies the Ayrton-Perry equation `(1 - x)(1 - x λ²) = α (λ - 0.2) x`. -/
theorem C32_value {l : ℝ} (hl : 2 / 10 ≤ l) :
    ∀ c ∈ [(Curve.a0, (0.13 : ℝ)), (.a, 0.21), (.b, 0.34), (.c, 0.49), (.d, 0.76)], ∀ x : ℝ,
      x = bucklingReduction l c.1.imp ↔ 0 < x ∧ x ≤ 1 ∧ x * l ^ 2 ≤ 1 ∧ (1 - x) * (1 - x * l ^ 2) = c.2 * (l - 0.2) * x := by
  intro c hc x
  have himp : c.1.imp = c.2 := by
    simp only [List.mem_cons, List.not_mem_nil, or_false] at hc
    rcases hc with rfl | rfl | rfl | rfl | rfl <;> norm_num [Curve.imp]
  obtain ⟨a0, a3⟩ := C32_curves c.1
  rw [← himp]
  generalize c.1.imp = a at a0 a3 ⊢
  have h0 : (0 : ℝ) ≤ l := by linarith
  obtain ⟨_, ⟨p, q⟩, _, r, _⟩ := C32 h0 a0 a3
  have hd1 := den_one_le hl a0
  have hd := den_pos h0 a0 a3
  have hval : bucklingReduction l a = 1 / den l a := by
    rw [reduction_eq]
    apply min_eq_left
    rw [div_le_one hd]
    exact hd1
  have hroot : den l a ^ 2 - 2 * buckPhi l a * den l a + l ^ 2 = 0 := root_eq (radicand_nonneg h0 a0 a3)
  have heq : (1 - bucklingReduction l a) * (1 - bucklingReduction l a * l ^ 2) = a * (l - 0.2) * bucklingReduction l a := by
    rw [hval]
    field_simp
    unfold buckPhi at hroot
    norm_num at hroot ⊢
    linarith
  constructor
  · rintro rfl
    exact ⟨p, q, r, heq⟩
  · rintro ⟨x0, x1, x2, hx⟩
    generalize bucklingReduction l a = y at *
    have hs : (0 : ℝ) ≤ l ^ 2 := sq_nonneg l
    have he : 0 ≤ a * (l - 0.2) := mul_nonneg a0 (by norm_num at hl ⊢; linarith)
    -- the left side falls, the right side rises
    rcases lt_trichotomy x y with h | h | h
    · exfalso
      have e1 : (1 - y) * (1 - y * l ^ 2) < (1 - x) * (1 - x * l ^ 2) ∨ (1 - y) * (1 - y * l ^ 2) = (1 - x) * (1 - x * l ^ 2) ∧ l ^ 2 = 0 := by
        left
        have hl2 : 0 < l ^ 2 := by positivity
        have hxl : x * l ^ 2 < y * l ^ 2 := mul_lt_mul_of_pos_right h hl2
        nlinarith
      rcases e1 with e1 | ⟨_, e1⟩
      · nlinarith
      · have : 0 < l ^ 2 := by positivity
        linarith
    · exact h
    · exfalso
      have hl2 : 0 < l ^ 2 := by positivity
      have hxl : y * l ^ 2 < x * l ^ 2 := mul_lt_mul_of_pos_right h hl2
      nlinarith

/-- Curve c, slenderness 1. -/
example : (1 - bucklingReduction 1 Curve.c.imp) ^ 2 = 0.392 * bucklingReduction 1 Curve.c.imp := by
  have := ((C32_value (l := 1) (by norm_num) (.c, 0.49) (by simp) _).1 rfl).2.2.2
  norm_num at this ⊢
  nlinarith

/-! ### C61 -/

/-- Specification, Table B.1 for class 1 and 2: the factor `C (1 + x n)`, at most its value at the limit `x = m`. -/
def Capped (C n x m v : ℝ) : Prop := v ≤ C * (1 + x * n) ∧ v ≤ C * (1 + m * n) ∧ (v = C * (1 + x * n) ∨ v = C * (1 + m * n))

/-- Specification, Table B.2 (members susceptible to torsion): the factor `1 - k x n / (CmLT - 0.25)`, at least its value at `x = 1`. -/
def Floored (k n x CmLT v : ℝ) : Prop :=
  1 - k * x / (CmLT - 0.25) * n ≤ v ∧ 1 - k / (CmLT - 0.25) * n ≤ v ∧ (v = 1 - k * x / (CmLT - 0.25) * n ∨ v = 1 - k / (CmLT - 0.25) * n)

theorem capped_of {C n x m : ℝ} (hC : 0 ≤ C) (hn : 0 ≤ n) : Capped C n x m (C * (1 + min x m * n / gammaM1)) := by
  have g : ∀ z : ℝ, z / gammaM1 = z := fun z => by simp [gammaM1]
  rw [g]
  unfold Capped
  rcases le_total x m with h | h
  · rw [min_eq_left h]
    refine ⟨le_rfl, ?_, .inl rfl⟩
    have := mul_le_mul_of_nonneg_right h hn
    exact mul_le_mul_of_nonneg_left (by linarith) hC
  · rw [min_eq_right h]
    refine ⟨?_, le_rfl, .inr rfl⟩
    have := mul_le_mul_of_nonneg_right h hn
    exact mul_le_mul_of_nonneg_left (by linarith) hC

theorem floored_of {k n x c : ℝ} (hk : 0 ≤ k) (hn : 0 ≤ n) (hc : 1 / 4 < c) :
    Floored k n x c (1 - k * min x 1 / (c - 1 / 4) * n / gammaM1) := by
  have g : ∀ z : ℝ, z / gammaM1 = z := fun z => by simp [gammaM1]
  have e : (0.25 : ℝ) = 1 / 4 := by norm_num
  rw [g]
  unfold Floored
  rw [e]
  have hd : 0 < c - 1 / 4 := by linarith
  have key : ∀ {y z : ℝ}, y ≤ z → 1 - k * z / (c - 1 / 4) * n ≤ 1 - k * y / (c - 1 / 4) * n := by
    intro y z h
    have h1 := div_le_div_of_nonneg_right (mul_le_mul_of_nonneg_left h hk) hd.le
    have := mul_le_mul_of_nonneg_right h1 hn
    linarith
  have o : 1 - k / (c - 1 / 4) * n = 1 - k * 1 / (c - 1 / 4) * n := by rw [mul_one]
  rw [o]
  rcases le_total x 1 with h | h
  · rw [min_eq_left h]
    exact ⟨le_rfl, key h, .inl rfl⟩
  · rw [min_eq_right h]
    exact ⟨key h, le_rfl, .inr rfl⟩

/-- **C61 (part).** For a compressed member (`n ≥ 0`) and nonnegative moment factors (`CmLT > 0.25`) the interaction factors are those of Tables B.1 and B.2 of
    EN 1993-1-1: `kyy`, `kzz` in class 1 and 2, `kyz`, and `kzy` in every class. In class 3 and 4 `kyy` and `kzz` are at least those of the
    table, i.e. on the safe side.
    Missing: the values of `kyy` and `kzz` in class 3 and 4, see `C61_violation`. -/
theorem C61_partial {n l C CmLT ky kz : ℝ} {cls : ℕ} (hn : 0 ≤ n) (hl : 0 ≤ l) (hC : 0 ≤ C) (hLT : 0.25 < CmLT) :
    (cls ≤ 2 → Capped C n (l - 0.2) 0.8 (kyy n l C cls) ∧ Capped C n (l - 0.2) 0.8 (kzz n l C cls true) ∧
      Capped C n (2 * l - 0.6) 1.4 (kzz n l C cls false) ∧ kyz kz cls = 0.6 * kz ∧ kzy ky n l CmLT cls false = 0.6 * ky ∧
      (0.4 ≤ l → Floored 0.1 n l CmLT (kzy ky n l CmLT cls true)) ∧
      (l < 0.4 → kzy ky n l CmLT cls true ≤ 0.6 + l ∧ kzy ky n l CmLT cls true ≤ 1 - 0.1 * l / (CmLT - 0.25) * n ∧
        (kzy ky n l CmLT cls true = 0.6 + l ∨ kzy ky n l CmLT cls true = 1 - 0.1 * l / (CmLT - 0.25) * n))) ∧
    (3 ≤ cls → kyz kz cls = kz ∧ kzy ky n l CmLT cls false = 0.8 * ky ∧ Floored 0.05 n l CmLT (kzy ky n l CmLT cls true) ∧
      ∀ v, Capped C n (0.6 * l) 0.6 v → v ≤ kyy n l C cls ∧ ∀ hollow, v ≤ kzz n l C cls hollow) := by
  have hLT' : 1 / 4 < CmLT := by norm_num at hLT ⊢; linarith
  have d1 : (0.2 : ℝ) = 2 / 10 := by norm_num
  have d2 : (0.8 : ℝ) = 8 / 10 := by norm_num
  have d3 : (0.6 : ℝ) = 6 / 10 := by norm_num
  have d4 : (1.4 : ℝ) = 14 / 10 := by norm_num
  have d5 : (0.4 : ℝ) = 4 / 10 := by norm_num
  have d6 : (0.1 : ℝ) = 1 / 10 := by norm_num
  have d7 : (0.05 : ℝ) = 5 / 100 := by norm_num
  have d8 : (0.25 : ℝ) = 1 / 4 := by norm_num
  constructor
  · intro hc
    have hc' : cls < 3 := by omega
    rw [d1, d2, d3, d4, d5, d6]
    unfold kyy kzz kyz kzy
    simp only [if_pos hc', if_true, Bool.false_eq_true, if_false]
    refine ⟨capped_of hC hn, capped_of hC hn, capped_of hC hn, trivial, trivial, ?_, ?_⟩
    · intro h
      rw [if_neg (not_lt.2 h)]
      exact floored_of (by norm_num) hn hLT'
    · intro h
      rw [if_pos h, d8]
      have g : ∀ z : ℝ, z / gammaM1 = z := fun z => by simp [gammaM1]
      rw [g]
      exact ⟨min_le_left _ _, min_le_right _ _, min_choice _ _⟩
  · intro hc
    have hc' : ¬ cls < 3 := by omega
    rw [d2, d3, d7]
    unfold kyy kzz kyz kzy
    simp only [if_neg hc', if_true, Bool.false_eq_true, if_false]
    refine ⟨trivial, trivial, floored_of (by norm_num) hn hLT', ?_⟩
    rintro v ⟨h1, h2, _⟩
    have g : ∀ z : ℝ, z / gammaM1 = z := fun z => by simp [gammaM1]
    rw [g]
    have : v ≤ C * (1 + min l (6 / 10) * n) := by
      rcases le_total l (6 / 10) with h | h
      · rw [min_eq_left h]
        refine h1.trans (mul_le_mul_of_nonneg_left ?_ hC)
        have := mul_nonneg hl hn
        nlinarith
      · rw [min_eq_right h]
        exact h2
    exact ⟨this, fun _ => this⟩

/-- A class 1 member with slenderness 0.8 at half its buckling resistance. -/
example : Capped 0.9 0.5 (0.8 - 0.2) 0.8 (kyy 0.5 0.8 0.9 1) :=
  ((C61_partial (ky := 1) (kz := 1) (CmLT := 0.9) (cls := 1) (by norm_num) (by norm_num) (by norm_num) (by norm_num)).1 (by norm_num)).1

/-- **C61 is violated** in class 3 and 4: the code limits the slenderness to 0.6 instead of multiplying the slenderness, limited to 1, by 0.6. For every compressed member
    with slenderness between 0 and 1 `kyy` and `kzz` are larger than the factor of the table. -/
theorem C61_violation {n l C v : ℝ} {cls : ℕ} (hn : 0 < n) (hl0 : 0 < l) (hl1 : l < 1) (hC : 0 < C) (hc : 3 ≤ cls)
    (hv : Capped C n (0.6 * l) 0.6 v) (hollow : Bool) : v < kyy n l C cls ∧ v < kzz n l C cls hollow := by
  have hc' : ¬ cls < 3 := by omega
  have d3 : (0.6 : ℝ) = 6 / 10 := by norm_num
  rw [d3] at hv
  unfold kyy kzz
  simp only [if_neg hc']
  have g : ∀ z : ℝ, z / gammaM1 = z := fun z => by simp [gammaM1]
  rw [g]
  have : v < C * (1 + min l (6 / 10) * n) := by
    refine hv.1.trans_lt (mul_lt_mul_of_pos_left ?_ hC)
    have : 6 / 10 * l < min l (6 / 10) := lt_min (by linarith) (by linarith)
    have := mul_lt_mul_of_pos_right this hn
    linarith
  exact ⟨this, this⟩

/-- Specification, Eqs. (6.61), (6.62): sum of the utilisations with both interaction factors. -/
noncomputable def ecInteraction (UN UMy UMz kMy kMz chiLT : ℝ) : ℝ := UN + kMy * (UMy / chiLT) + kMz * UMz

/-- **C61, sum (part).** Without bending about the weak axis, `beam_column_utility` is the sum of Eqs. (6.61) and (6.62).
    Missing: bending about the weak axis, whose interaction factor the function does not take, see `C61_sum_violation`. -/
theorem C61_sum_partial (UN UMy k kMz chiLT : ℝ) : beamColumnUtility UN UMy k chiLT 0 = ecInteraction UN UMy 0 k kMz chiLT := by
  simp only [beamColumnUtility, ecInteraction, gammaM1]
  ring

/-- **C61 is violated**: with bending about the weak axis the sum is the one of the code only for the interaction factor 1; for larger factors it is too small. -/
theorem C61_sum_violation (UN UMy k chiLT : ℝ) {UMz kMz : ℝ} (hz : 0 < UMz) :
    (beamColumnUtility UN UMy k chiLT UMz = ecInteraction UN UMy UMz k kMz chiLT ↔ kMz = 1) ∧
    (1 < kMz → beamColumnUtility UN UMy k chiLT UMz < ecInteraction UN UMy UMz k kMz chiLT) := by
  have e : beamColumnUtility UN UMy k chiLT UMz = UN + k * (UMy / chiLT) + UMz := by
    simp only [beamColumnUtility, gammaM1]
    ring
  rw [e]
  unfold ecInteraction
  constructor
  · constructor
    · intro h
      have : (kMz - 1) * UMz = 0 := by linarith
      rcases mul_eq_zero.1 this with h | h <;> linarith
    · rintro rfl
      ring
  · intro h
    nlinarith

/-! ### C62 -/

/-- **C62, imperfection.** For every height and number of columns the sway imperfection is positive and at most 1/200; it is 1/200 for a single column up to 4 m, never below
    `1/300 · √(1/2)`, equal to 1/300 times the column factor from 9 m on, and does not increase with the height or the number of columns. -/
theorem C62_sway {h m : ℝ} (hh : 0 < h) (hm : 1 ≤ m) :
    0 < swayImperfection h m ∧ swayImperfection h m ≤ 1 / 200 ∧ 1 / 300 * √(1 / 2) ≤ swayImperfection h m ∧
    (h ≤ 4 → swayImperfection h 1 = 1 / 200) ∧ (9 ≤ h → swayImperfection h m ^ 2 = (1 / 300) ^ 2 * ((1 + 1 / m) / 2)) ∧
    (∀ h' m', h ≤ h' → m ≤ m' → swayImperfection h' m' ≤ swayImperfection h m) := by
  have hm0 : 0 < m := by linarith
  have alpha : ∀ h : ℝ, 2 / 3 ≤ min (max (2 / 3) (2 / √h)) 1 ∧ min (max (2 / 3) (2 / √h)) 1 ≤ 1 := fun h =>
    ⟨le_min (le_max_left _ _) (by norm_num), min_le_right _ _⟩
  have half : ∀ m : ℝ, 0 < m → √(1 / 2) ≤ √(1 / 2 * (1 + 1 / m)) := by
    intro m hm
    apply Real.sqrt_le_sqrt
    have : 0 < 1 / m := by positivity
    linarith
  have hs0 : 0 < √(1 / 2 : ℝ) := Real.sqrt_pos.2 (by norm_num)
  have hs : √(1 / 2 * (1 + 1 / m)) ≤ 1 := by
    rw [Real.sqrt_le_one]
    have : 1 / m ≤ 1 := by rw [div_le_one hm0]; exact hm
    linarith
  obtain ⟨a1, a2⟩ := alpha h
  have b1 := half m hm0
  refine ⟨?_, ?_, ?_, ?_, ?_, ?_⟩
  · unfold swayImperfection
    have : 0 < min (max (2 / 3) (2 / √h)) 1 := by linarith
    have : 0 < √(1 / 2 * (1 + 1 / m)) := by linarith
    positivity
  · unfold swayImperfection
    nlinarith
  · unfold swayImperfection
    nlinarith
  · intro h4
    unfold swayImperfection
    have hq : 1 ≤ 2 / √h := by
      rw [le_div_iff₀ (Real.sqrt_pos.2 hh), one_mul, Real.sqrt_le_left (by norm_num)]
      linarith
    rw [min_eq_right (hq.trans (le_max_right _ _))]
    norm_num
  · intro h9
    unfold swayImperfection
    have hq : 2 / √h ≤ 2 / 3 := by
      apply div_le_div_of_nonneg_left (by norm_num) (by norm_num)
      apply Real.le_sqrt_of_sq_le
      linarith
    rw [max_eq_left hq, min_eq_left (by norm_num), mul_pow, Real.sq_sqrt (by positivity)]
    ring
  · intro h' m' h1 h2
    unfold swayImperfection
    have c1 : min (max (2 / 3) (2 / √h')) 1 ≤ min (max (2 / 3) (2 / √h)) 1 := by
      apply min_le_min_right
      apply max_le_max_left
      exact div_le_div_of_nonneg_left (by norm_num) (Real.sqrt_pos.2 hh) (Real.sqrt_le_sqrt h1)
    have c2 : √(1 / 2 * (1 + 1 / m')) ≤ √(1 / 2 * (1 + 1 / m)) := by
      apply Real.sqrt_le_sqrt
      have := one_div_le_one_div_of_le hm0 h2
      linarith
    have c3 : 0 ≤ min (max (2 / 3) (2 / √h)) 1 := by linarith
    exact mul_le_mul (mul_le_mul_of_nonneg_left c1 (by norm_num)) c2 (Real.sqrt_nonneg _) (by positivity)

example : swayImperfection 12 3 ≤ swayImperfection 5 2 :=
  (C62_sway (by norm_num) (by norm_num)).2.2.2.2.2 12 3 (by norm_num) (by norm_num)

/-- **C62, resistances.** With the partial factors 1.0 and 1.25: tension and compression resistance are the yield force; a part whose stress from force, moment or shear stays within
    the resistance does not exceed the yield strength (von Mises for shear); the net section resistance is `0.72 Anet fu`. -/
theorem C62_resistance {A W Av Anet fy fu : ℝ} (hA : 0 < A) (hW : 0 < W) (hV : 0 < Av) (N M V : ℝ) :
    (|N| ≤ tensionResistance A fy ↔ |N| / A ≤ fy) ∧ (|N| ≤ compressionResistance A fy ↔ |N| / A ≤ fy) ∧
    (|M| ≤ bendingResistance W fy ↔ |M| / W ≤ fy) ∧ (0 ≤ fy → (|V| ≤ shearResistance Av fy ↔ 3 * (V / Av) ^ 2 ≤ fy ^ 2)) ∧
    netSectionResistance Anet fu = 0.72 * Anet * fu := by
  refine ⟨?_, ?_, ?_, ?_, ?_⟩
  · rw [div_le_iff₀ hA]; simp [tensionResistance, gammaM0]
  · rw [div_le_iff₀ hA]; simp [compressionResistance, gammaM0, mul_comm]
  · rw [div_le_iff₀ hW]; simp [bendingResistance, gammaM0, mul_comm]
  · intro hf
    have h3 : 0 < √(3 : ℝ) := Real.sqrt_pos.2 (by norm_num)
    have s3 : √(3 : ℝ) ^ 2 = 3 := Real.sq_sqrt (by norm_num)
    have e : shearResistance Av fy = Av * fy / √3 := by simp [shearResistance, gammaM0]
    have e2 : 3 * (V / Av) ^ 2 = (√3 * (|V| / Av)) ^ 2 := by rw [mul_pow, s3, div_pow, div_pow, sq_abs]
    rw [e, e2, le_div_iff₀ h3, sq_le_sq₀ (by positivity) hf]
    constructor
    · intro h
      rw [← mul_div_assoc, div_le_iff₀ hV]
      linarith
    · intro h
      rw [← mul_div_assoc, div_le_iff₀ hV] at h
      linarith
  · simp only [netSectionResistance, gammaM2]
    ring

/-- **C62, buckling.** The buckling resistance computed through slenderness and reduction factor never exceeds the yield force nor the elastic critical force, is positive, and a larger
    critical force never lowers it. -/
theorem C62_buckling {A fy Ncr : ℝ} (hA : 0 < A) (hf : 0 < fy) (hN : 0 < Ncr) (k : Curve) :
    let N := fun Ncr => bucklingStrength A fy (bucklingReduction (slenderness A fy Ncr) k.imp)
    0 < N Ncr ∧ N Ncr ≤ A * fy ∧ N Ncr ≤ Ncr ∧ ∀ Ncr', Ncr ≤ Ncr' → N Ncr ≤ N Ncr' := by
  intro N
  obtain ⟨a0, a3⟩ := C32_curves k
  have hl : 0 ≤ slenderness A fy Ncr := Real.sqrt_nonneg _
  obtain ⟨_, ⟨p, q⟩, _, r, s, _⟩ := C32 hl a0 a3
  have hAf : 0 < A * fy := mul_pos hA hf
  have e : ∀ c, N c = bucklingReduction (slenderness A fy c) k.imp * (A * fy) := by
    intro c
    simp only [N, bucklingStrength, gammaM1, div_one]
    ring
  refine ⟨?_, ?_, ?_, ?_⟩
  · rw [e]; positivity
  · rw [e]; nlinarith
  · rw [e]
    have hsq : slenderness A fy Ncr ^ 2 = A * fy / Ncr := Real.sq_sqrt (by positivity)
    rw [hsq, ← mul_div_assoc, div_le_one hN] at r
    exact r
  · intro c hc
    rw [e, e]
    apply mul_le_mul_of_nonneg_right _ hAf.le
    obtain ⟨_, _, _, _, s', _⟩ := C32 (l := slenderness A fy c) (Real.sqrt_nonneg _) a0 a3
    apply s'
    exact Real.sqrt_le_sqrt (div_le_div_of_nonneg_left hAf.le hN hc)

example : bucklingStrength 5000 355 (bucklingReduction (slenderness 5000 355 1000000) Curve.b.imp) ≤ 1000000 :=
  (C62_buckling (by norm_num) (by norm_num) (by norm_num) .b).2.2.1

end Metku.Ec3
