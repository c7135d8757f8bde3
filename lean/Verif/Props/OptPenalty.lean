import Mathlib.Analysis.Calculus.Deriv.Add
import Mathlib.Analysis.Calculus.Deriv.Mul
import Mathlib.Analysis.Calculus.Deriv.Comp
import Mathlib.Analysis.Calculus.Deriv.Pow
import Mathlib.Analysis.Calculus.FDeriv.Basic
import Mathlib.Algebra.Order.BigOperators.Group.List
import Mathlib.Tactic.Positivity
import Mathlib.Tactic.FieldSimp
import Mathlib.Tactic.Ring
import Mathlib.Tactic.Linarith
import Mathlib.Tactic.NormNum
import Verif.Model.OptPenalty

/-!
Properties C22, C23, C46 and C47: penalty and barrier functions, augmented Lagrangian and multipliers.
-/
set_option linter.unusedSectionVars false

namespace Metku.Opt

section
variable {K : Type} [Field K] [LinearOrder K] [IsStrictOrderedRing K]

/-! ### Specification -/

/-- The constraint holds at the point: `g ≤ 0`, `g ≥ 0` or `g = 0`. -/
def Holds (t : CType) (g : K) : Prop :=
  match t with
  | .lt => g ≤ 0
  | .gt => 0 ≤ g
  | .eq => g = 0

/-- The bounds hold, where bounds beyond ±1e8 count as absent. -/
def InBounds (v : PVar K) : Prop := (-(10 ^ 8) < v.lb → v.lb ≤ v.x) ∧ (v.ub < 10 ^ 8 → v.x ≤ v.ub)

/-- All constraints and bounds hold. -/
def Feas (cons : List (PCon K)) (vars : List (PVar K)) : Prop := (∀ c ∈ cons, Holds c.type c.val) ∧ ∀ v ∈ vars, InBounds v

/-! ### Helper facts -/

theorem sum_map_zero {α : Type} {f : α → K} {l : List α} (h : ∀ a ∈ l, f a = 0) : (l.map f).sum = 0 := by
  induction l with
  | nil => rfl
  | cons a l ih => simp [h a (by simp), ih fun b hb => h b (by simp [hb])]

theorem sum_map_nonneg {α : Type} {f : α → K} {l : List α} (h : ∀ a ∈ l, 0 ≤ f a) : 0 ≤ (l.map f).sum := by
  induction l with
  | nil => exact le_refl 0
  | cons a l ih =>
    have h1 := h a (by simp)
    have h2 := ih fun b hb => h b (by simp [hb])
    simp only [List.map_cons, List.sum_cons]
    linarith

theorem sum_map_eq_zero {α : Type} {f : α → K} {l : List α} (h : ∀ a ∈ l, 0 ≤ f a) (h0 : (l.map f).sum ≤ 0) :
    ∀ a ∈ l, f a = 0 := by
  induction l with
  | nil => simp
  | cons a l ih =>
    have h1 := h a (by simp)
    have h2 := sum_map_nonneg fun b hb => h b (List.mem_cons_of_mem _ hb)
    simp only [List.map_cons, List.sum_cons] at h0
    intro b hb
    rcases List.mem_cons.1 hb with e | hb
    · subst e; linarith
    · exact ih (fun c hc => h c (by simp [hc])) (by linarith) b hb

/-- One term is at most the whole sum. -/
theorem le_sum_map {α : Type} {f : α → K} {l : List α} (h : ∀ a ∈ l, 0 ≤ f a) {a : α} (ha : a ∈ l) : f a ≤ (l.map f).sum := by
  induction l with
  | nil => simp at ha
  | cons b l ih =>
    have h1 := h b (by simp)
    have h2 := sum_map_nonneg fun c hc => h c (List.mem_cons_of_mem b hc)
    simp only [List.map_cons, List.sum_cons]
    rcases List.mem_cons.1 ha with e | ha
    · subst e; linarith
    · have := ih (fun c hc => h c (by simp [hc])) ha
      linarith

theorem max_zero_eq_zero {a : K} : max 0 a = 0 ↔ a ≤ 0 := max_eq_left_iff

theorem exactVar_nonneg {R : K} (hR : 0 ≤ R) (v : PVar K) : 0 ≤ exactVar R v := by
  unfold exactVar
  have h1 := mul_nonneg hR (le_max_left 0 (-v.x + v.lb))
  have h2 := mul_nonneg hR (le_max_left 0 (v.x - v.ub))
  split <;> split <;> linarith

theorem exactVar_zero {R : K} (v : PVar K) (h : InBounds v) : exactVar R v = 0 := by
  unfold exactVar
  have e1 : (XLB : K) = -(10 ^ 8) := rfl
  have e2 : (XUB : K) = 10 ^ 8 := rfl
  have : (if v.lb > XLB then R * max 0 (-v.x + v.lb) else 0) = 0 := by
    split
    · rename_i hl
      rw [max_zero_eq_zero.2 (by have := h.1 hl; linarith), mul_zero]
    · rfl
  rw [this]
  split
  · rename_i hu
    rw [max_zero_eq_zero.2 (by have := h.2 hu; linarith), mul_zero, add_zero]
  · rw [add_zero]

theorem exactVar_pos {R : K} (hR : 0 < R) (v : PVar K) (h0 : exactVar R v = 0) : InBounds v := by
  unfold exactVar at h0
  have h1 := mul_nonneg hR.le (le_max_left 0 (-v.x + v.lb))
  have h2 := mul_nonneg hR.le (le_max_left 0 (v.x - v.ub))
  constructor
  · intro hl
    have hl' : v.lb > XLB := hl
    rw [if_pos hl'] at h0
    have hz : R * max 0 (-v.x + v.lb) = 0 := by
      split at h0 <;> linarith
    rcases mul_eq_zero.1 hz with h | h
    · exact absurd h hR.ne'
    · have := max_zero_eq_zero.1 h; linarith
  · intro hu
    have hu' : v.ub < XUB := hu
    rw [if_pos hu'] at h0
    have hz : R * max 0 (v.x - v.ub) = 0 := by
      split at h0 <;> linarith
    rcases mul_eq_zero.1 hz with h | h
    · exact absurd h hR.ne'
    · have := max_zero_eq_zero.1 h; linarith

/-! ### C22 -/

/-- The exact penalty is zero at every feasible point, for all constraint types. -/
theorem C22_exact_zero (R : K) (cons : List (PCon K)) (vars : List (PVar K)) (h : Feas cons vars) :
    exactPenalty R cons vars = 0 := by
  unfold exactPenalty
  rw [sum_map_zero, sum_map_zero, add_zero]
  · exact fun v hv => exactVar_zero v (h.2 v hv)
  · intro c hc
    have := h.1 c hc
    obtain ⟨t, g, m⟩ := c
    cases t
    · simp only [Holds, exactCon] at *
      rw [max_zero_eq_zero.2 this, mul_zero]
    · simp only [Holds, exactCon] at *
      rw [min_eq_left this, mul_zero]
    · simp only [Holds, exactCon] at *
      rw [this, abs_zero]

theorem exactCon_nonneg {R : K} (hR : 0 ≤ R) {c : PCon K} (hg : c.type ≠ .gt) : 0 ≤ exactCon R c := by
  obtain ⟨t, g, m⟩ := c
  cases t
  · exact mul_nonneg hR (le_max_left _ _)
  · exact absurd rfl hg
  · exact abs_nonneg _

/-- C22 for the exact penalty, without '>' constraints: never negative, and zero exactly at the feasible points. Missing: '>' constraints,
    for which the code has the wrong sign (`C22_violation`). -/
theorem C22_exact_partial (R : K) (hR : 0 < R) (cons : List (PCon K)) (vars : List (PVar K)) (hg : ∀ c ∈ cons, c.type ≠ .gt) :
    0 ≤ exactPenalty R cons vars ∧ (exactPenalty R cons vars = 0 ↔ Feas cons vars) := by
  have h1 := sum_map_nonneg fun c hc => exactCon_nonneg hR.le (hg c hc)
  have h2 := sum_map_nonneg (l := vars) fun v _ => exactVar_nonneg hR.le v
  refine ⟨add_nonneg h1 h2, fun h0 => ?_, C22_exact_zero R cons vars⟩
  unfold exactPenalty at h0
  have z1 := sum_map_eq_zero (fun c hc => exactCon_nonneg hR.le (hg c hc)) (by linarith)
  have z2 := sum_map_eq_zero (l := vars) (fun v _ => exactVar_nonneg hR.le v) (by linarith)
  refine ⟨fun c hc => ?_, fun v hv => exactVar_pos hR v (z2 v hv)⟩
  have hz := z1 c hc
  have hgc := hg c hc
  obtain ⟨t, g, m⟩ := c
  cases t
  · simp only [Holds, exactCon] at *
    rcases mul_eq_zero.1 hz with h | h
    · exact absurd h hR.ne'
    · exact max_zero_eq_zero.1 h
  · exact absurd rfl hgc
  · exact abs_eq_zero.1 hz

/-- The term added by the exterior penalty is zero at every feasible point, for all constraint types and exponents. -/
theorem C22_exterior_zero (R f : K) (p : Nat) (hp : p ≠ 0) (cons : List (PCon K)) (vars : List (PVar K)) (h : Feas cons vars) :
    exteriorPenalty R p f cons vars = f := by
  unfold exteriorPenalty
  rw [sum_map_zero, sum_map_zero, add_zero, add_zero]
  · intro v hv
    obtain ⟨hl, hu⟩ := h.2 v hv
    unfold exteriorVar
    have : (if v.lb > XLB then R * max 0 (-v.x + v.lb) ^ 2 else 0) = 0 := by
      split
      · rename_i h
        rw [max_zero_eq_zero.2 (by have := hl h; linarith)]; ring
      · rfl
    rw [this]
    split
    · rename_i h
      rw [max_zero_eq_zero.2 (by have := hu h; linarith)]; ring
    · ring
  · intro c hc
    have := h.1 c hc
    obtain ⟨t, g, m⟩ := c
    cases t
    · simp only [Holds, exteriorCon] at *
      rw [max_zero_eq_zero.2 this, zero_pow hp, mul_zero]
    · simp only [Holds, exteriorCon] at *
      rw [min_eq_left this]; ring
    · simp only [Holds, exteriorCon] at *
      rw [this, zero_pow hp]

/-- C22 for the exterior penalty with an even exponent (the default is 2): the added term is never negative, and is zero exactly at
    the feasible points. Missing: odd exponents with equality constraints (`C22_odd_violation`). -/
theorem C22_exterior_partial (R f : K) (hR : 0 < R) (p : Nat) (hp : p ≠ 0) (he : Even p) (cons : List (PCon K))
    (vars : List (PVar K)) :
    f ≤ exteriorPenalty R p f cons vars ∧ (exteriorPenalty R p f cons vars = f ↔ Feas cons vars) := by
  have n1 : ∀ c ∈ cons, 0 ≤ exteriorCon R p c := by
    intro c _
    obtain ⟨t, g, m⟩ := c
    cases t
    · exact mul_nonneg hR.le (pow_nonneg (le_max_left _ _) _)
    · exact mul_nonneg hR.le (sq_nonneg _)
    · exact he.pow_nonneg _
  have n2 : ∀ v ∈ vars, 0 ≤ exteriorVar R v := by
    intro v _
    unfold exteriorVar
    have h1 := mul_nonneg hR.le (sq_nonneg (max 0 (-v.x + v.lb)))
    have h2 := mul_nonneg hR.le (sq_nonneg (max 0 (v.x - v.ub)))
    split <;> split <;> linarith
  have h1 := sum_map_nonneg n1
  have h2 := sum_map_nonneg n2
  refine ⟨by unfold exteriorPenalty; linarith, fun h0 => ?_, C22_exterior_zero R f p hp cons vars⟩
  unfold exteriorPenalty at h0
  have z1 := sum_map_eq_zero n1 (by linarith)
  have z2 := sum_map_eq_zero n2 (by linarith)
  refine ⟨fun c hc => ?_, fun v hv => ?_⟩
  · have hz := z1 c hc
    obtain ⟨t, g, m⟩ := c
    cases t
    · simp only [Holds, exteriorCon] at *
      rcases mul_eq_zero.1 hz with h | h
      · exact absurd h hR.ne'
      · exact max_zero_eq_zero.1 (pow_eq_zero_iff hp |>.1 h)
    · simp only [Holds, exteriorCon] at *
      rcases mul_eq_zero.1 hz with h | h
      · exact absurd h hR.ne'
      · exact min_eq_left_iff.1 (pow_eq_zero_iff two_ne_zero |>.1 h)
    · exact pow_eq_zero_iff hp |>.1 hz
  · have hz := z2 v hv
    unfold exteriorVar at hz
    have h1 := mul_nonneg hR.le (sq_nonneg (max 0 (-v.x + v.lb)))
    have h2 := mul_nonneg hR.le (sq_nonneg (max 0 (v.x - v.ub)))
    constructor
    · intro hl
      have hl' : v.lb > XLB := hl
      rw [if_pos hl'] at hz
      have hz : R * max 0 (-v.x + v.lb) ^ 2 = 0 := by split at hz <;> linarith
      rcases mul_eq_zero.1 hz with h | h
      · exact absurd h hR.ne'
      · have := max_zero_eq_zero.1 (pow_eq_zero_iff two_ne_zero |>.1 h); linarith
    · intro hu
      have hu' : v.ub < XUB := hu
      rw [if_pos hu'] at hz
      have hz : R * max 0 (v.x - v.ub) ^ 2 = 0 := by split at hz <;> linarith
      rcases mul_eq_zero.1 hz with h | h
      · exact absurd h hR.ne'
      · have := max_zero_eq_zero.1 (pow_eq_zero_iff two_ne_zero |>.1 h); linarith

/-! ### C23 -/

/-- Inequality and bound multipliers are nonnegative. -/
def NonnegMults (m : Mults K) : Prop :=
  (∀ c ∈ m.cons, c.1 ≠ .eq → 0 ≤ c.2) ∧ ∀ v ∈ m.vars, 0 ≤ v.2.1 ∧ 0 ≤ v.2.2

/-- One update from any nonnegative multipliers, with any penalty factors and any point. -/
theorem C23_step (Rineq Req : K) (m : Mults K) (h : NonnegMults m) (vals x : List K) :
    NonnegMults (updateLagMult Rineq Req m vals x) := by
  constructor
  · intro c hc hne
    simp only [updateLagMult] at hc
    rw [List.zipWith_eq_zipWith_take_min] at hc
    obtain ⟨i, hi, rfl⟩ := List.getElem_of_mem hc
    rw [List.getElem_zipWith] at hne ⊢
    simp only [updateConMult] at hne ⊢
    split
    · rename_i heq; exact absurd heq hne
    · exact le_max_right _ _
    · exact le_max_right _ _
  · intro v hv
    simp only [updateLagMult] at hv
    obtain ⟨i, hi, rfl⟩ := List.getElem_of_mem hv
    rw [List.getElem_zipWith]
    have hi' : i < m.vars.length := by
      simp only [List.length_zipWith] at hi; omega
    have hm := h.2 _ (List.getElem_mem hi')
    simp only [updateVarMult]
    constructor
    · split
      · exact le_max_right _ _
      · exact hm.1
    · split
      · exact le_max_right _ _
      · exact hm.2

/-- C23, first half: over every sequence of updates of a fresh problem, with any factors and points. -/
theorem C23_history (types : List CType) (bounds : List (K × K)) (us : List (K × K × List K × List K)) :
    NonnegMults (us.foldl (fun m u => updateLagMult u.1 u.2.1 m u.2.2.1 u.2.2.2) (initMults types bounds)) := by
  have h0 : NonnegMults (initMults types bounds) := by
    constructor
    · intro c hc _
      simp only [initMults, List.mem_map] at hc
      obtain ⟨t, _, rfl⟩ := hc
      exact zero_le_one
    · intro v hv
      simp only [initMults, List.mem_map] at hv
      obtain ⟨b, _, rfl⟩ := hv
      exact ⟨zero_le_one, zero_le_one⟩
  generalize initMults types bounds = m at h0
  induction us generalizing m with
  | nil => exact h0
  | cons u us ih => exact ih _ (C23_step _ _ _ h0 _ _)

/-- C23, second half, for the constraints and the lower bounds: the new multiplier is a function of the constraint's own data
    (value and old multiplier). Missing: the upper bounds (`C23_violation`). -/
theorem C23_own_partial (Rineq Req : K) (m : Mults K) (vals x : List K) :
    (∀ i (h : i < (updateLagMult Rineq Req m vals x).cons.length) (h1 : i < m.cons.length) (h2 : i < vals.length),
      (updateLagMult Rineq Req m vals x).cons[i].2 =
        match (m.cons[i]).1 with
        | .eq => (m.cons[i]).2 - 2 * Req * vals[i]
        | .lt => max ((m.cons[i]).2 + 2 * Rineq * vals[i]) 0
        | .gt => max ((m.cons[i]).2 - 2 * Rineq * vals[i]) 0) ∧
    ∀ i (h : i < (updateLagMult Rineq Req m vals x).vars.length) (h1 : i < m.vars.length) (h2 : i < x.length),
      -(10 ^ 8) < (m.vars[i]).1.1 →
      (updateLagMult Rineq Req m vals x).vars[i].2.1 = max ((m.vars[i]).2.1 + 2 * Rineq * ((m.vars[i]).1.1 - x[i])) 0 := by
  constructor
  · intro i h h1 h2
    simp only [updateLagMult, List.getElem_zipWith, updateConMult]
    rfl
  · intro i h h1 h2 hl
    have hl' : (m.vars[i]).1.1 > XLB := hl
    simp only [updateLagMult, List.getElem_zipWith, updateVarMult, if_pos hl']
    congr 3; ring

/-! ### C47: barrier -/

/-- Strictly inside every inequality and every present bound. -/
def Interior (cons : List (PCon K)) (vars : List (PVar K)) : Prop :=
  (∀ c ∈ cons, (c.type = .lt → c.val < 0) ∧ (c.type = .gt → 0 < c.val)) ∧
  ∀ v ∈ vars, (-(10 ^ 8) < v.lb → v.lb < v.x) ∧ (v.ub < 10 ^ 8 → v.x < v.ub)

/-- C47: the inverse barrier never underestimates the objective strictly inside the feasible set, and any constraint within `ε` of its
    limit costs at least `1/(R ε)`. -/
theorem C47 (R f : K) (hR : 0 < R) (cons : List (PCon K)) (vars : List (PVar K)) (h : Interior cons vars) :
    f ≤ barrier R f cons vars ∧
    (∀ ε > 0, (∃ c ∈ cons, c.type ≠ .eq ∧ |c.val| ≤ ε) → f + 1 / (R * ε) ≤ barrier R f cons vars) ∧
    (∀ ε > 0, (∃ v ∈ vars, (-(10 ^ 8) < v.lb ∧ v.x - v.lb ≤ ε) ∨ (v.ub < 10 ^ 8 ∧ v.ub - v.x ≤ ε)) →
      f + 1 / (R * ε) ≤ barrier R f cons vars) := by
  have cval : ∀ c ∈ cons, c.type ≠ .eq → 0 < |c.val| ∧ barrierCon R c = 1 / (R * |c.val|) := by
    intro c hc hne
    have := h.1 c hc
    obtain ⟨t, g, m⟩ := c
    cases t
    · have hg : g < 0 := this.1 rfl
      simp only [barrierCon, abs_of_neg hg]
      refine ⟨by linarith, ?_⟩
      have : g ≠ 0 := hg.ne
      field_simp
    · have hg : 0 < g := this.2 rfl
      simp only [barrierCon, abs_of_pos hg]
      exact ⟨hg, by rw [div_div]⟩
    · exact absurd rfl hne
  have n1 : ∀ c ∈ cons, 0 ≤ barrierCon R c := by
    intro c hc
    by_cases hne : c.type = .eq
    · obtain ⟨t, g, m⟩ := c
      simp only at hne
      subst hne
      exact le_refl 0
    · obtain ⟨h1, h2⟩ := cval c hc hne
      rw [h2]; positivity
  have vl : ∀ v ∈ vars, -(10 ^ 8) < v.lb → -(1 / R / (-v.x + v.lb)) = 1 / (R * (v.x - v.lb)) ∧ 0 < v.x - v.lb := by
    intro v hv hl
    have := (h.2 v hv).1 hl
    have hne : v.x - v.lb ≠ 0 := by linarith
    refine ⟨?_, by linarith⟩
    have e : -v.x + v.lb = -(v.x - v.lb) := by ring
    rw [e, div_neg, neg_neg, div_div]
  have vu : ∀ v ∈ vars, v.ub < 10 ^ 8 → -(1 / R / (v.x - v.ub)) = 1 / (R * (v.ub - v.x)) ∧ 0 < v.ub - v.x := by
    intro v hv hu
    have := (h.2 v hv).2 hu
    refine ⟨?_, by linarith⟩
    have e : v.x - v.ub = -(v.ub - v.x) := by ring
    rw [e, div_neg, neg_neg, div_div]
  have parts : ∀ v ∈ vars, 0 ≤ (if v.lb > XLB then -(1 / R / (-v.x + v.lb)) else 0) ∧
      0 ≤ (if v.ub < XUB then -(1 / R / (v.x - v.ub)) else 0) := by
    intro v hv
    constructor
    · split
      · rename_i hl
        obtain ⟨e, h1⟩ := vl v hv hl
        rw [e]; positivity
      · exact le_refl 0
    · split
      · rename_i hu
        obtain ⟨e, h1⟩ := vu v hv hu
        rw [e]; positivity
      · exact le_refl 0
  have n2 : ∀ v ∈ vars, 0 ≤ barrierVar R v := fun v hv => add_nonneg (parts v hv).1 (parts v hv).2
  have s1 := sum_map_nonneg n1
  have s2 := sum_map_nonneg n2
  have mono : ∀ a ε : K, 0 < a → a ≤ ε → 1 / (R * ε) ≤ 1 / (R * a) := by
    intro a ε ha hae
    exact one_div_le_one_div_of_le (mul_pos hR ha) (mul_le_mul_of_nonneg_left hae hR.le)
  refine ⟨by unfold barrier; linarith, ?_, ?_⟩
  · rintro ε hε ⟨c, hc, hne, hle⟩
    obtain ⟨h1, h2⟩ := cval c hc hne
    have := le_sum_map n1 hc
    have := mono _ _ h1 hle
    unfold barrier
    linarith
  · rintro ε hε ⟨v, hv, hcase⟩
    have hsum := le_sum_map n2 hv
    have hp := parts v hv
    unfold barrier
    rcases hcase with ⟨hl, hle⟩ | ⟨hu, hle⟩
    · obtain ⟨e, h1⟩ := vl v hv hl
      have hl' : v.lb > XLB := hl
      have := mono _ _ h1 hle
      have hb : barrierVar R v = 1 / (R * (v.x - v.lb)) + (if v.ub < XUB then -(1 / R / (v.x - v.ub)) else 0) := by
        unfold barrierVar; rw [if_pos hl', e]
      rw [hb] at hsum
      linarith [hp.2]
    · obtain ⟨e, h1⟩ := vu v hv hu
      have hu' : v.ub < XUB := hu
      have := mono _ _ h1 hle
      have hb : barrierVar R v = (if v.lb > XLB then -(1 / R / (-v.x + v.lb)) else 0) + 1 / (R * (v.ub - v.x)) := by
        unfold barrierVar; rw [if_pos hu', e]
      rw [hb] at hsum
      linarith [hp.1]

end

/-! ### C46: the multiplier update matches the augmented Lagrangian -/

theorem hasDerivAt_max_sq (a : ℝ) (t : ℝ) : HasDerivAt (fun s => max (a + s) 0 ^ 2) (2 * max (a + t) 0) t := by
  have key : (fun s => max (a + s) 0 ^ 2 - max (a + t) 0 ^ 2 - 2 * max (a + t) 0 * (s - t)) =O[nhds t]
      fun s => ‖s - t‖ ^ 2 := by
    refine Asymptotics.IsBigO.of_bound 1 (Filter.Eventually.of_forall fun s => ?_)
    rw [one_mul, norm_pow, norm_norm, Real.norm_eq_abs, Real.norm_eq_abs, sq_abs, abs_le]
    rcases le_total (a + s) 0 with h1 | h1 <;> rcases le_total (a + t) 0 with h2 | h2 <;>
      simp only [max_eq_left, max_eq_right, h1, h2] <;> constructor <;> nlinarith [sq_nonneg (s - t)]
  have h := (key.hasFDerivAt one_lt_two).hasDerivAt
  have h2 : HasDerivAt (fun s : ℝ => 2 * max (a + t) 0 * (s - t)) (2 * max (a + t) 0) t := by
    simpa using ((hasDerivAt_id t).sub_const t).const_mul (2 * max (a + t) 0)
  have h3 := (h.add h2).add_const (max (a + t) 0 ^ 2)
  refine (HasDerivAt.congr_of_eventuallyEq h3 (Filter.Eventually.of_forall fun s => ?_)).congr_deriv ?_
  · simp only [Pi.add_apply]; ring
  · simp

theorem max_scale {R m g : ℝ} (hR : 0 < R) : R * (2 * max (1 / 2 * m / R + g) 0) = max (m + 2 * R * g) 0 := by
  rw [← mul_assoc, mul_max_of_nonneg _ _ (by positivity : (0 : ℝ) ≤ R * 2)]
  congr 1
  · field_simp
  · ring

/-- C46: the derivative of the augmented Lagrangian in a constraint value is the multiplier the next update installs (with the sign of the
    constraint type), so a stationary point of the augmented Lagrangian is a stationary point of the ordinary Lagrangian with the updated
    multipliers. -/
theorem C46_con (Rineq Req : ℝ) (hR : 0 < Rineq) (c : PCon ℝ) :
    HasDerivAt (alCon Rineq Req c.mult c.type)
      (match c.type with
       | .lt => (updateConMult Rineq Req c).mult
       | .gt => -(updateConMult Rineq Req c).mult
       | .eq => -(updateConMult Rineq Req c).mult) c.val := by
  obtain ⟨t, g, m⟩ := c
  cases t
  · simp only [updateConMult]
    have := (hasDerivAt_max_sq (1 / 2 * m / Rineq) g).const_mul Rineq
    rw [max_scale hR] at this
    exact this
  · simp only [updateConMult]
    have h1 := hasDerivAt_max_sq (1 / 2 * m / Rineq) (-g)
    have h2 := (h1.comp g (hasDerivAt_neg g)).const_mul Rineq
    have e : Rineq * (2 * max (1 / 2 * m / Rineq + -g) 0 * -1) = -max (m - 2 * Rineq * g) 0 := by
      have := max_scale (R := Rineq) (m := m) (g := -g) hR
      have e2 : m + 2 * Rineq * -g = m - 2 * Rineq * g := by ring
      rw [e2] at this
      rw [← this]; ring
    rw [e] at h2
    refine HasDerivAt.congr_of_eventuallyEq h2 (Filter.Eventually.of_forall fun s => ?_)
    simp only [alCon, Function.comp, sub_eq_add_neg]
  · simp only [updateConMult]
    have h1 : HasDerivAt (fun s : ℝ => -m * s + Req * s ^ 2) (-m * 1 + Req * (2 * g ^ (2 - 1) * 1)) g := by
      refine ((hasDerivAt_id g).const_mul (-m)).add ?_
      exact (((hasDerivAt_id g).pow 2).const_mul Req).congr_deriv (by simp)
    refine h1.congr_deriv ?_
    simp; ring

/-- C46 for a variable whose lower bound is the only one present. Missing: upper bounds (`C46_violation`). -/
theorem C46_var_partial (Rineq : ℝ) (hR : 0 < Rineq) (v : PVar ℝ) (hl : -(10 ^ 8) < v.lb) (hu : 10 ^ 8 ≤ v.ub) :
    HasDerivAt (alVar Rineq v) (-(updateVarMult Rineq v).lbMult) v.x := by
  have hl' : v.lb > XLB := hl
  have hu' : ¬ v.ub < XUB := not_lt.2 hu
  have h1 := hasDerivAt_max_sq (1 / 2 * v.lbMult / Rineq) (-v.x + v.lb)
  have hin : HasDerivAt (fun s : ℝ => -s + v.lb) (-1) v.x := (hasDerivAt_neg v.x).add_const v.lb
  have h2 := (HasDerivAt.comp v.x h1 hin).const_mul Rineq
  have e : Rineq * (2 * max (1 / 2 * v.lbMult / Rineq + (-v.x + v.lb)) 0 * -1) =
      -(updateVarMult Rineq v).lbMult := by
    simp only [updateVarMult, if_pos hl']
    rw [← max_scale hR]; ring
  rw [e] at h2
  refine HasDerivAt.congr_of_eventuallyEq h2 (Filter.Eventually.of_forall fun s => ?_)
  simp only [alVar, if_pos hl', if_neg hu', Function.comp, add_zero]

/-! ### Witnesses -/

/-- A violated '>' constraint makes the exact penalty negative: -3 is charged for `g(x) ≥ 0` with `g(x) = -3`. -/
theorem C22_violation : exactPenalty 1 [⟨.gt, -3, 1⟩] ([] : List (PVar ℚ)) = -3 ∧
    ¬ Feas [(⟨.gt, -3, 1⟩ : PCon ℚ)] [] := by
  constructor
  · norm_num [exactPenalty, exactCon]
  · intro h
    have := h.1 _ (List.mem_singleton.2 rfl)
    norm_num [Holds] at this

/-- It also hides another violation: the penalty is zero although neither constraint holds. -/
theorem C22_violation_masked : exactPenalty 1 [⟨.gt, -3, 1⟩, ⟨.lt, 3, 1⟩] ([] : List (PVar ℚ)) = 0 ∧
    ¬ Holds .gt (-3 : ℚ) ∧ ¬ Holds .lt (3 : ℚ) := by
  refine ⟨by norm_num [exactPenalty, exactCon], by norm_num [Holds], by norm_num [Holds]⟩

/-- With an odd exponent a violated equality constraint lowers the exterior penalty function below the objective. -/
theorem C22_odd_violation : exteriorPenalty 10 3 0 [⟨.eq, -2, 1⟩] ([] : List (PVar ℚ)) < 0 := by
  norm_num [exteriorPenalty, exteriorCon]

/-- The new multiplier of the upper bound ignores its old value and follows the multiplier of the lower bound. -/
theorem C23_violation :
    (∀ u u' : ℚ, (updateVarMult 1 ⟨0, 10, 5, 20, u⟩).ubMult = (updateVarMult 1 ⟨0, 10, 5, 20, u'⟩).ubMult) ∧
    (updateVarMult (1 : ℚ) ⟨0, 10, 5, 20, 7⟩).ubMult ≠ (updateVarMult 1 ⟨0, 10, 5, 30, 7⟩).ubMult := by
  constructor
  · intro u u'; rfl
  · norm_num [updateVarMult, XLB, XUB]

/-- The updated upper-bound multiplier is not the derivative of the augmented Lagrangian (no lower bound; the multiplier
    of the absent lower bound keeps its initial value 1, the upper one is 5). -/
theorem C46_violation :
    HasDerivAt (alVar 1 ⟨-(10 ^ 8), 10, 12, 1, 5⟩) (9 : ℝ) 12 ∧ (updateVarMult (1 : ℝ) ⟨-(10 ^ 8), 10, 12, 1, 5⟩).ubMult = 5 := by
  constructor
  · have h1 := hasDerivAt_max_sq (1 / 2 * 5 / 1) (12 - 10)
    have hin : HasDerivAt (fun s : ℝ => s - 10) 1 12 := (hasDerivAt_id (12 : ℝ)).sub_const 10
    have h2 := HasDerivAt.comp (12 : ℝ) h1 hin
    have e : (2 * max ((1 / 2 * 5 / 1 : ℝ) + (12 - 10)) 0 * 1) = 9 := by norm_num
    rw [e] at h2
    refine HasDerivAt.congr_of_eventuallyEq h2 (Filter.Eventually.of_forall fun s => ?_)
    have hl : ¬ ((-(10 ^ 8) : ℝ) > XLB) := by simp [XLB]
    have hu : (10 : ℝ) < XUB := by norm_num [XUB]
    simp only [alVar, if_neg hl, if_pos hu, Function.comp, zero_add, one_mul]
  · norm_num [updateVarMult, XLB, XUB]

/-! ### The hypotheses are satisfiable -/

example : (∀ c ∈ [(⟨.lt, 2, 1⟩ : PCon ℚ), ⟨.eq, -1, 1⟩], c.type ≠ .gt) ∧
    exactPenalty 10 [⟨.lt, 2, 1⟩, ⟨.eq, -1, 1⟩] [(⟨0, 5, 6, 1, 1⟩ : PVar ℚ)] = 31 := by
  constructor
  · intro c hc; simp at hc; rcases hc with rfl | rfl <;> simp
  · norm_num [exactPenalty, exactCon, exactVar, XLB, XUB]

example : Feas [(⟨.lt, -2, 1⟩ : PCon ℚ), ⟨.gt, 1, 1⟩, ⟨.eq, 0, 1⟩] [⟨0, 5, 3, 1, 1⟩] := by
  constructor
  · intro c hc; simp at hc; rcases hc with rfl | rfl | rfl <;> norm_num [Holds]
  · intro v hv; simp at hv; subst hv; norm_num [InBounds]

example : Interior [(⟨.lt, -2, 1⟩ : PCon ℚ), ⟨.gt, 1, 1⟩] [⟨0, 5, 3, 1, 1⟩] := by
  constructor
  · intro c hc; simp at hc; rcases hc with rfl | rfl <;> refine ⟨?_, ?_⟩ <;> intro h <;> first | exact absurd h (by decide) | norm_num
  · intro v hv; simp at hv; subst hv; norm_num

example : NonnegMults (updateLagMult (1 : ℚ) 1 (initMults [.lt, .eq] [(0, 10)]) [-3, 2] [4]) := C23_step _ _ _
  (by constructor
      · intro c hc _; simp [initMults] at hc; rcases hc with rfl | rfl <;> simp
      · intro v hv; simp [initMults] at hv; subst hv; simp) _ _

end Metku.Opt
