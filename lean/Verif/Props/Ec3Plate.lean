import Mathlib.Tactic.Linarith
import Mathlib.Tactic.NormNum
import Mathlib.Tactic.FieldSimp
import Mathlib.Tactic.Ring
import Mathlib.Tactic.Positivity
import Mathlib.Topology.Algebra.Order.Field
import Mathlib.Topology.Order.Lattice
import Verif.Model.Ec3Plate

/-!
Properties C35 (plate-buckling reduction factors), C36 (effective widths), C37 (buckling factors): EN 1993-1-5.
-/
namespace Metku.Plate

open Set

/-! ### C35 -/

/-- The limiting slenderness of an internal element. -/
noncomputable def lim (psi : ℝ) : ℝ := 5 / 10 + √(85 / 1000 - 55 / 1000 * psi)

theorem lim_root {psi : ℝ} (h : psi ≤ 1) : lim psi ^ 2 = lim psi - 55 / 1000 * (3 + psi) := by
  have hs : √(85 / 1000 - 55 / 1000 * psi) ^ 2 = 85 / 1000 - 55 / 1000 * psi := Real.sq_sqrt (by linarith)
  unfold lim
  nlinarith

theorem lim_ge (psi : ℝ) : 1 / 2 ≤ lim psi := by
  have := Real.sqrt_nonneg (85 / 1000 - 55 / 1000 * psi)
  unfold lim
  linarith

/-- The factor as one formula in the slenderness cut off at the limit. -/
theorem cut {c l0 : ℝ} (h0 : 0 < l0) (h : l0 ^ 2 ≤ l0 - c) (l : ℝ) :
    (if l ≤ l0 then 1 else min ((l - c) / l ^ 2) 1) = min ((max l l0 - c) / max l l0 ^ 2) 1 := by
  split_ifs with hl
  · rw [max_eq_right hl]
    symm
    apply min_eq_right
    rw [le_div_iff₀ (by positivity), one_mul]
    exact h
  · rw [max_eq_left (not_le.1 hl).le]

/-- `(x - c)/x²` falls from `2c` on. -/
theorem quotient_anti {c x y : ℝ} (hc : 0 ≤ c) (hx : 2 * c ≤ x) (hx0 : 0 < x) (h : x ≤ y) : (y - c) / y ^ 2 ≤ (x - c) / x ^ 2 := by
  have hy : 0 < y := by linarith
  rw [div_le_div_iff₀ (by positivity) (by positivity)]
  have : 0 ≤ (y - x) * (x * y - c * (x + y)) := by
    apply mul_nonneg (by linarith)
    have h1 : c * (x + y) ≤ c * (2 * y) := mul_le_mul_of_nonneg_left (by linarith) hc
    have h2 : 2 * c * y ≤ x * y := mul_le_mul_of_nonneg_right hx hy.le
    linarith
  nlinarith

theorem cut_facts {c l0 : ℝ} (hc : 0 ≤ c) (h0 : 0 < l0) (hl0 : 2 * c ≤ l0) (h : l0 ^ 2 ≤ l0 - c) {f : ℝ → ℝ}
    (hf : ∀ l, f l = if l ≤ l0 then 1 else min ((l - c) / l ^ 2) 1) :
    (∀ l, 0 < f l ∧ f l ≤ 1) ∧ Continuous f ∧ Antitone f := by
  have hf' : f = fun l => min ((max l l0 - c) / max l l0 ^ 2) 1 := by
    funext l
    rw [hf, cut h0 h]
  have hm : ∀ l : ℝ, 0 < max l l0 := fun l => h0.trans_le (le_max_right _ _)
  refine ⟨fun l => ?_, ?_, ?_⟩
  · rw [hf']
    refine ⟨lt_min (div_pos ?_ (pow_pos (hm l) 2)) one_pos, min_le_right _ _⟩
    have : l0 ≤ max l l0 := le_max_right _ _
    have : 0 < l0 ^ 2 := by positivity
    linarith
  · rw [hf']
    apply Continuous.min _ continuous_const
    apply Continuous.div
    · fun_prop
    · fun_prop
    · intro l
      exact (pow_pos (hm l) 2).ne'
  · rw [hf']
    intro l l' hl
    apply min_le_min_right
    exact quotient_anti hc (hl0.trans (le_max_right _ _)) (hm l) (max_le_max_right _ hl)

/-- **C35.** For every stress ratio in `[-3, 1]` the reduction factor of an internal element is defined (the argument of the square root is positive), lies in `(0, 1]`, is continuous and
    non-increasing in the slenderness, is one as long as `λ ≤ 1/2` or `λ² - λ + 0.055 (3 + ψ) ≤ 0` and satisfies `ρ λ² = λ - 0.055 (3 + ψ)` beyond. The same holds for an outstand
    element with the constant 0.188. -/
theorem C35 :
    (∀ psi : ℝ, -3 ≤ psi → psi ≤ 1 →
      0 < 0.085 - 0.055 * psi ∧ (∀ l, 0 < reductionInternal l psi ∧ reductionInternal l psi ≤ 1) ∧ Continuous (reductionInternal · psi) ∧
      Antitone (reductionInternal · psi) ∧
      ∀ l, (l ≤ 1 / 2 ∨ l ^ 2 - l + 0.055 * (3 + psi) ≤ 0 → reductionInternal l psi = 1) ∧
        (1 / 2 < l → 0 < l ^ 2 - l + 0.055 * (3 + psi) → reductionInternal l psi * l ^ 2 = l - 0.055 * (3 + psi))) ∧
    (∀ l, 0 < reductionOutstand l ∧ reductionOutstand l ≤ 1) ∧ Continuous reductionOutstand ∧ Antitone reductionOutstand ∧
      ∀ l, (l ≤ 1 / 2 ∨ l ^ 2 - l + 0.188 ≤ 0 → reductionOutstand l = 1) ∧
        (1 / 2 < l → 0 < l ^ 2 - l + 0.188 → reductionOutstand l * l ^ 2 = l - 0.188) := by
  have e1 : (0.085 : ℝ) = 85 / 1000 := by norm_num
  have e2 : (0.055 : ℝ) = 55 / 1000 := by norm_num
  have e3 : (0.188 : ℝ) = 188 / 1000 := by norm_num
  rw [e1, e2, e3]
  constructor
  · intro psi h1 h2
    have hroot := lim_root h2
    have hge := lim_ge psi
    obtain ⟨f1, f2, f3⟩ := cut_facts (c := 55 / 1000 * (3 + psi)) (l0 := lim psi) (by linarith) (by linarith) (by linarith) hroot.le
      (f := (reductionInternal · psi)) (fun l => rfl)
    refine ⟨by linarith, f1, f2, f3, fun l => ⟨fun h => ?_, fun h h' => ?_⟩⟩
    · show (if l ≤ lim psi then (1 : ℝ) else _) = 1
      rw [if_pos]
      rcases h with h | h
      · linarith
      · by_contra hl
        push Not at hl
        nlinarith
    · have hl : ¬ l ≤ lim psi := by
        intro hl
        nlinarith
      show (if l ≤ lim psi then (1 : ℝ) else min ((l - 55 / 1000 * (3 + psi)) / l ^ 2) 1) * l ^ 2 = _
      have hl2 : 0 < l ^ 2 := by positivity
      rw [if_neg hl, min_eq_left]
      · field_simp
      · rw [div_le_one hl2]
        linarith
  · obtain ⟨f1, f2, f3⟩ := cut_facts (c := 188 / 1000) (l0 := 748 / 1000) (by norm_num) (by norm_num) (by norm_num) (by norm_num)
      (f := reductionOutstand) (fun l => rfl)
    refine ⟨f1, f2, f3, fun l => ⟨fun h => ?_, fun h h' => ?_⟩⟩
    · unfold reductionOutstand
      split_ifs with hl
      · rfl
      · apply min_eq_right
        push Not at hl
        have : 0 < l ^ 2 := by positivity
        rw [le_div_iff₀ this]
        rcases h with h | h <;> nlinarith
    · unfold reductionOutstand
      have hl2 : 0 < l ^ 2 := by positivity
      split_ifs with hl
      · nlinarith
      · rw [min_eq_left]
        · field_simp
        · rw [div_le_one hl2]
          linarith

/-- Uniform compression: limit 0.673; at slenderness 1 the factor is 0.78. -/
example : reductionInternal 1 1 = 0.78 := by
  have := ((C35.1 1 (by norm_num) le_rfl).2.2.2.2 1).2 (by norm_num) (by norm_num)
  norm_num at this ⊢
  exact this

/-! ### C36 -/

/-- **C36.** For a plate of width `b ≥ 0`, reduction factor in `[0, 1]` and stress ratio `ψ ≤ 1`: the two strips are nonnegative and add up to the effective width, which is `ρ` times the compressed
    width (`b`, or `b/(1 - ψ)` when one edge is in tension) and so at most the compressed width, at most `b`; uniform compression without reduction leaves the whole
    plate; the first strip is `0.4 beff` when one edge is in tension, otherwise `2/(5 - ψ) beff` up to a millionth, never larger than the second. The effective width of an outstand element
    is `ρ` times the compressed width. -/
theorem C36 {b psi rho : ℝ} (hb : 0 ≤ b) (hp : psi ≤ 1) (h0 : 0 ≤ rho) (h1 : rho ≤ 1) :
    ∃ bc beff be0 be1, (0 ≤ psi → bc = b) ∧ (psi < 0 → bc = b / (1 - psi)) ∧ bc ≤ b ∧
      effectiveWidthInternal b psi rho = (beff, be0, be1) ∧ effectiveWidthOutstand b psi rho = beff ∧
      be0 + be1 = beff ∧ 0 ≤ be0 ∧ be0 ≤ be1 ∧ beff = rho * bc ∧ beff ≤ bc ∧
      (psi = 1 → be0 = be1) ∧ (psi = 1 → rho = 1 → beff = b) ∧ (psi < 0 → be0 = 0.4 * beff) ∧
      (0 ≤ psi → |be0 - 2 / (5 - psi) * beff| ≤ 1e-6 * beff) := by
  have hbb : 0 ≤ rho * b := mul_nonneg h0 hb
  have hle : rho * b ≤ b := by nlinarith
  by_cases c1 : |psi - 1| < 1 / 10 ^ 6
  · have hpos : 0 < psi := by
      have := (abs_lt.1 c1).1
      norm_num at this
      linarith
    have hneg : ¬ psi < 0 := not_lt.2 hpos.le
    refine ⟨b, rho * b, 1 / 2 * (rho * b), 1 / 2 * (rho * b), fun _ => rfl, fun h => absurd h hneg, le_rfl, ?_, ?_, by ring, by linarith, le_rfl, rfl, hle, fun _ => rfl,
      fun _ h => by rw [h, one_mul], fun h => absurd h hneg, fun _ => ?_⟩
    · simp only [effectiveWidthInternal, if_pos c1]
    · simp only [effectiveWidthOutstand, if_neg hneg]
    · have hd : 0 < 5 - psi := by linarith
      have e : 1 / 2 * (rho * b) - 2 / (5 - psi) * (rho * b) = (1 - psi) / (2 * (5 - psi)) * (rho * b) := by
        field_simp
        ring
      rw [e, abs_mul, abs_of_nonneg hbb]
      apply mul_le_mul_of_nonneg_right _ hbb
      rw [abs_div, abs_of_pos (by linarith : 0 < 2 * (5 - psi)), div_le_iff₀ (by linarith), abs_sub_comm]
      norm_num at c1 ⊢
      linarith
  · by_cases c2 : psi > 0
    · have hneg : ¬ psi < 0 := not_lt.2 (le_of_lt c2)
      have hd : 0 < 5 - psi := by linarith
      have hq : 2 / (5 - psi) ≤ 1 / 2 := by
        rw [div_le_div_iff₀ hd (by norm_num)]
        linarith
      have hq0 : 0 < 2 / (5 - psi) := by positivity
      have hne : psi ≠ 1 := by
        rintro rfl
        apply c1
        norm_num
      refine ⟨b, rho * b, 2 / (5 - psi) * (rho * b), rho * b - 2 / (5 - psi) * (rho * b), fun _ => rfl, fun h => absurd h hneg, le_rfl, ?_, ?_, by ring, by positivity, by nlinarith, rfl, hle,
        fun h => absurd h hne, fun h => absurd h hne, fun h => absurd h hneg, fun _ => ?_⟩
      · simp only [effectiveWidthInternal, if_neg c1, if_pos c2]
      · simp only [effectiveWidthOutstand, if_neg hneg]
      · rw [sub_self, abs_zero]
        positivity
    · have hn : psi ≤ 0 := not_lt.1 c2
      have hd : 0 < 1 - psi := by linarith
      have hne : psi ≠ 1 := by linarith
      have e : b * rho / (1 - psi) = rho * (b / (1 - psi)) := by ring
      have hbc : b / (1 - psi) ≤ b := by
        rw [div_le_iff₀ hd]
        nlinarith
      have hbc0 : 0 ≤ b / (1 - psi) := by positivity
      refine ⟨b / (1 - psi), rho * (b / (1 - psi)), 4 / 10 * (rho * (b / (1 - psi))), 6 / 10 * (rho * (b / (1 - psi))), fun h => ?_, fun _ => rfl, hbc, ?_, ?_, by ring, by positivity, ?_, rfl, ?_,
        fun h => absurd h hne, fun h => absurd h hne, fun _ => by norm_num, fun h => ?_⟩
      · have : psi = 0 := le_antisymm hn h
        rw [this]
        simp
      · simp only [effectiveWidthInternal, if_neg c1, if_neg c2, e]
      · unfold effectiveWidthOutstand
        split_ifs with h
        · exact e
        · have : psi = 0 := le_antisymm hn (not_lt.1 h)
          rw [this]
          simp
      · have : 0 ≤ rho * (b / (1 - psi)) := by positivity
        linarith
      · nlinarith
      · have : psi = 0 := le_antisymm hn h
        rw [this]
        norm_num
        positivity

/-- Pure bending of a web of height 800 with reduction 0.8. -/
example : ∃ be0 be1, effectiveWidthInternal 800 (-1) 0.8 = (0.8 * (800 / 2), be0, be1) ∧ be0 + be1 = 0.8 * (800 / 2) := by
  obtain ⟨bc, beff, be0, be1, _, h2, _, h4, _, h6, _, _, h9, _⟩ := C36 (b := 800) (psi := -1) (rho := 0.8) (by norm_num) (by norm_num) (by norm_num) (by norm_num)
  have := h2 (by norm_num)
  refine ⟨be0, be1, ?_, ?_⟩
  · rw [h4, h9, this]
    norm_num
  · rw [h6, h9, this]
    norm_num

/-! ### C37 -/

/-- The value of the factor of an internal element where it exists. -/
noncomputable def kInt (psi : ℝ) : ℝ :=
  if psi = 1 then 4
  else if psi > 0 then 82 / 10 / (105 / 100 + psi)
  else if psi = 0 then 781 / 100
  else if psi > -1 then 781 / 100 - 629 / 100 * psi + 978 / 100 * psi ^ 2
  else if psi = -1 then 239 / 10
  else 598 / 100 * (1 - psi) ^ 2

theorem internal_ok {psi : ℝ} (h : -3 < psi) : bucklingFactorInternal psi = .ok (kInt psi) := by
  unfold bucklingFactorInternal kInt
  split_ifs <;> rfl

theorem kInt_anti {x y : ℝ} (hy : y ≤ 1) (h : x < y) : kInt y < kInt x := by
  -- values on the five pieces
  have pos : ∀ {z : ℝ}, 0 < z → z ≤ 1 → kInt z = 82 / 10 / (105 / 100 + z) := by
    intro z h1 h2
    unfold kInt
    split_ifs with a
    · rw [a]; norm_num
    · rfl
  have mid : ∀ {z : ℝ}, -1 < z → z < 0 → kInt z = 781 / 100 - 629 / 100 * z + 978 / 100 * z ^ 2 := by
    intro z h1 h2
    unfold kInt
    rw [if_neg (by linarith), if_neg (by linarith), if_neg (by linarith), if_pos h1]
  have low : ∀ {z : ℝ}, z < -1 → kInt z = 598 / 100 * (1 - z) ^ 2 := by
    intro z h1
    unfold kInt
    rw [if_neg (by linarith), if_neg (by linarith), if_neg (by linarith), if_neg (by linarith), if_neg (by linarith)]
  have zero : kInt 0 = 781 / 100 := by norm_num [kInt]
  have mone : kInt (-1) = 239 / 10 := by norm_num [kInt]
  have p_lt : ∀ {z : ℝ}, 0 < z → z ≤ 1 → kInt z < 781 / 100 := by
    intro z h1 h2
    rw [pos h1 h2, div_lt_iff₀ (by linarith)]
    linarith
  have m_gt : ∀ {z : ℝ}, -1 < z → z < 0 → 781 / 100 < kInt z ∧ kInt z < 239 / 10 := by
    intro z h1 h2
    rw [mid h1 h2]
    constructor <;> nlinarith
  have l_gt : ∀ {z : ℝ}, z < -1 → 239 / 10 < kInt z := by
    intro z h1
    rw [low h1]
    nlinarith
  rcases lt_trichotomy y (-1) with y1 | rfl | y1
  · rw [low y1, low (h.trans y1)]
    nlinarith
  · rw [mone]; exact l_gt h
  · rcases lt_trichotomy x (-1) with x1 | rfl | x1
    · have := l_gt x1
      rcases lt_trichotomy y 0 with y0 | rfl | y0
      · linarith [(m_gt y1 y0).2]
      · rw [zero]; linarith
      · linarith [p_lt y0 hy]
    · rw [mone]
      rcases lt_trichotomy y 0 with y0 | rfl | y0
      · exact (m_gt y1 y0).2
      · rw [zero]; norm_num
      · linarith [p_lt y0 hy]
    · rcases lt_trichotomy y 0 with y0 | rfl | y0
      · rw [mid y1 y0, mid x1 (h.trans y0)]
        nlinarith
      · rw [zero]; exact (m_gt x1 h).1
      · rcases lt_trichotomy x 0 with x0 | rfl | x0
        · linarith [p_lt y0 hy, (m_gt x1 x0).1]
        · rw [zero]; exact p_lt y0 hy
        · rw [pos y0 hy, pos x0 (h.le.trans hy)]
          exact div_lt_div_of_pos_left (by norm_num) (by linarith) (by linarith)

theorem tip_eq (psi : ℝ) : bucklingFactorTip psi = 57 / 100 - 21 / 100 * psi + 7 / 100 * psi ^ 2 := by
  unfold bucklingFactorTip
  split_ifs with a b c
  · rw [a]; norm_num
  · rw [b]; norm_num
  · rw [c]; norm_num
  · rfl

theorem support_anti {x y : ℝ} (hx : -1 ≤ x) (hy : y < 1) (h : x < y) : bucklingFactorSupport y < bucklingFactorSupport x := by
  have pos : ∀ {z : ℝ}, 0 < z → z < 1 → bucklingFactorSupport z = 578 / 1000 / (z + 34 / 100) := by
    intro z h1 h2
    unfold bucklingFactorSupport
    rw [if_pos ⟨h2, h1⟩]
  have low : ∀ {z : ℝ}, -1 ≤ z → z ≤ 0 → bucklingFactorSupport z = 17 / 10 - 5 * z + 171 / 10 * z ^ 2 := by
    intro z h1 h2
    unfold bucklingFactorSupport
    rw [if_neg (by rintro ⟨_, h⟩; linarith)]
    split_ifs with a b
    · rw [a]; norm_num
    · rfl
    · have : z = -1 := by
        by_contra hne
        exact b ⟨lt_of_le_of_ne h2 a, lt_of_le_of_ne h1 (Ne.symm hne)⟩
      rw [this]; norm_num
  rcases le_or_gt y 0 with y0 | y0
  · rw [low (by linarith) y0, low hx (by linarith)]
    nlinarith
  · have hlt : bucklingFactorSupport y < 17 / 10 := by
      rw [pos y0 hy, div_lt_iff₀ (by linarith)]
      linarith
    rcases le_or_gt x 0 with x0 | x0
    · rw [low hx x0]
      nlinarith
    · rw [pos y0 hy, pos x0 (h.trans hy)]
      exact div_lt_div_of_pos_left (by norm_num) (by linarith) (by linarith)

/-- **C37 (part).** Internal elements: for every stress ratio in `(-3, 1]` the factor is defined, at least 4 (so positive), strictly decreasing in the stress ratio and takes the values
    4, 7.81, 23.9 of Table 4.1 at 1, 0, -1 and those of its formulas between. Outstand elements with the largest compression at the free edge: for every stress ratio up to 1 at least 0.43, strictly decreasing, with the values
    0.43, 0.57, 0.85 of Table 4.2; with the largest compression at the support: for stress ratios from -1 to below 1 larger than 0.43, strictly decreasing, 1.7 and 23.8 at 0 and
    -1.
    Missing: stress ratio -3 of an internal element and 1 of an outstand element compressed at the support, see `C37_violation`. -/
theorem C37_partial :
    (∃ k : ℝ → ℝ, (∀ x, -3 < x → bucklingFactorInternal x = .ok (k x)) ∧ (∀ x, x ≤ 1 → 4 ≤ k x) ∧ (∀ x y, y ≤ 1 → x < y → k y < k x) ∧
      k 1 = 4 ∧ k 0 = 7.81 ∧ k (-1) = 23.9 ∧ (∀ x, 0 < x → x < 1 → k x * (1.05 + x) = 8.2) ∧
      (∀ x, -1 < x → x < 0 → k x = 7.81 - 6.29 * x + 9.78 * x ^ 2) ∧ ∀ x, x < -1 → k x = 5.98 * (1 - x) ^ 2) ∧
    ((∀ x, x ≤ 1 → 0.43 ≤ bucklingFactorTip x) ∧ (∀ x y, y ≤ 1 → x < y → bucklingFactorTip y < bucklingFactorTip x) ∧
      (∀ x, bucklingFactorTip x = 0.57 - 0.21 * x + 0.07 * x ^ 2) ∧ bucklingFactorTip 1 = 0.43 ∧ bucklingFactorTip 0 = 0.57 ∧ bucklingFactorTip (-1) = 0.85) ∧
    ((∀ x, x < 1 → 0.43 < bucklingFactorSupport x) ∧ (∀ x y, -1 ≤ x → y < 1 → x < y → bucklingFactorSupport y < bucklingFactorSupport x) ∧
      (∀ x, 0 < x → x < 1 → bucklingFactorSupport x * (x + 0.34) = 0.578) ∧
      (∀ x, -1 < x → x < 0 → bucklingFactorSupport x = 1.7 - 5 * x + 17.1 * x ^ 2) ∧
      bucklingFactorSupport 0 = 1.7 ∧ bucklingFactorSupport (-1) = 23.8) := by
  have k1 : kInt 1 = 4 := by norm_num [kInt]
  refine ⟨⟨kInt, fun x h => internal_ok h, fun x h => ?_, fun x y hy h => kInt_anti hy h, k1, by norm_num [kInt], by norm_num [kInt],
    fun x h0 h1 => ?_, fun x h0 h1 => ?_, fun x h => ?_⟩, ⟨?_, ?_, ?_, ?_, ?_, ?_⟩, ?_, ?_, ?_, ?_, ?_, ?_⟩
  · rcases h.lt_or_eq with h | rfl
    · exact k1 ▸ (kInt_anti le_rfl h).le
    · exact k1.ge
  · unfold kInt
    rw [if_neg (by linarith), if_pos h0]
    have : 105 / 100 + x ≠ 0 := by linarith
    field_simp
    norm_num
    ring
  · unfold kInt
    rw [if_neg (by linarith), if_neg (by linarith), if_neg (by linarith), if_pos h0]
    norm_num
  · unfold kInt
    rw [if_neg (by linarith), if_neg (by linarith), if_neg (by linarith), if_neg (by linarith), if_neg (by linarith)]
    norm_num
  · intro x h
    rw [tip_eq]
    norm_num
    nlinarith
  · intro x y hy h
    rw [tip_eq, tip_eq]
    nlinarith
  · intro x
    rw [tip_eq]
    norm_num
  · norm_num [bucklingFactorTip]
  · norm_num [bucklingFactorTip]
  · norm_num [bucklingFactorTip]
  · intro x h
    unfold bucklingFactorSupport
    split_ifs with a b c
    · rw [lt_div_iff₀ (by linarith [a.2])]
      norm_num
      linarith
    · norm_num
    · norm_num
      nlinarith [c.1, sq_nonneg x]
    · norm_num
  · intro x y hx hy h
    exact support_anti hx hy h
  · intro x h0 h1
    unfold bucklingFactorSupport
    rw [if_pos ⟨h1, h0⟩]
    have : x + 34 / 100 ≠ 0 := by linarith
    field_simp
    norm_num
    ring
  · intro x h0 h1
    unfold bucklingFactorSupport
    rw [if_neg (by rintro ⟨_, h⟩; linarith), if_neg (by linarith), if_pos ⟨h1, h0⟩]
    norm_num
  · norm_num [bucklingFactorSupport]
  · norm_num [bucklingFactorSupport]

/-- **C37 is violated.** Uniform compression of an outstand element with `sigma1 = "support"` gives 23.8 instead of 0.43 (more than 55 times too favourable), larger than the factor of every other stress
    ratio from -1 to 1; an internal element with stress ratio -3 or less has no factor: `UnboundLocalError`. -/
theorem C37_violation : bucklingFactorSupport 1 = 23.8 ∧ (∀ x, -1 < x → x < 1 → bucklingFactorSupport x < bucklingFactorSupport 1) ∧
    ∀ x, x ≤ -3 → bucklingFactorInternal x = .error .unboundLocal := by
  have e1 : bucklingFactorSupport 1 = 238 / 10 := by norm_num [bucklingFactorSupport]
  have e2 : bucklingFactorSupport (-1) = 238 / 10 := by norm_num [bucklingFactorSupport]
  refine ⟨by rw [e1]; norm_num, fun x h1 h2 => ?_, fun x h => ?_⟩
  · rw [e1, ← e2]
    exact support_anti le_rfl h2 h1
  · unfold bucklingFactorInternal
    rw [if_neg (by linarith), if_neg (by linarith), if_neg (by linarith), if_neg (by linarith), if_neg (by linarith), if_neg (by linarith)]

end Metku.Plate
