import Mathlib.Tactic.Ring
import Mathlib.Tactic.Linarith
import Mathlib.Tactic.NormNum
import Mathlib.Tactic.FieldSimp
import Mathlib.Topology.Order.Compact
import Mathlib.Topology.Instances.Real.Lemmas
import Mathlib.Topology.Algebra.Monoid
import Mathlib.Topology.MetricSpace.ProperSpace.Real
import Verif.Spec.OptSlp

/-!
C118 to C124: sequential linear programming.
-/
set_option linter.unusedSectionVars false

namespace Metku.Opt

variable {K : Type} [Field K] [LinearOrder K] [IsStrictOrderedRing K] {n : Nat}

/-! ### Windows -/

theorem mapM_id_ok {α : Type} (l : List (Except PyErr α)) (ws : List α) : l.mapM id = .ok ws ↔ l = ws.map Except.ok := by
  induction l generalizing ws with
  | nil =>
    cases ws <;> simp [List.mapM_nil, pure, Except.pure]
  | cons a l ih =>
    rw [List.mapM_cons]
    cases a with
    | error e => cases ws <;> simp [bind, Except.bind]
    | ok a =>
      cases hl : l.mapM id with
      | error e =>
        cases ws with
        | nil => simp [bind, Except.bind]
        | cons w ws =>
          simp only [id, bind, Except.bind, List.map_cons, List.cons.injEq, Except.ok.injEq, reduceCtorEq, false_iff, not_and]
          intro _ h
          have := (ih ws).2 h
          rw [hl] at this
          cases this
      | ok vs =>
        have hv := (ih vs).1 hl
        cases ws with
        | nil => simp [bind, Except.bind, pure, Except.pure]
        | cons w ws =>
          simp only [id, bind, Except.bind, pure, Except.pure, List.map_cons, List.cons.injEq, Except.ok.injEq]
          subst hv
          constructor
          · rintro ⟨rfl, rfl⟩
            exact ⟨rfl, rfl⟩
          · rintro ⟨rfl, h⟩
            refine ⟨rfl, ?_⟩
            have := (ih ws).2 h
            rw [hl] at this
            exact Except.ok.inj this

theorem windows_ok {f : Fin n → Except PyErr (K × K)} {w : Fin n → K × K} (h : windows f = .ok w) (i : Fin n) : f i = .ok (w i) := by
  unfold windows at h
  cases hm : (List.ofFn f).mapM id with
  | error e => rw [hm] at h; cases h
  | ok ws =>
    rw [hm] at h
    have hw := Except.ok.inj h
    have hl := (mapM_id_ok _ _).1 hm
    have hlen : ws.length = n := by
      have := congrArg List.length hl
      simpa using this.symm
    have h1 : (List.ofFn f)[(i : Nat)]? = some (f i) := by simp
    rw [hl, List.getElem?_map] at h1
    have h2 : ws[(i : Nat)]? = some ws[(i : Nat)] := List.getElem?_eq_getElem (by omega)
    rw [h2] at h1
    simp only [Option.map_some, Option.some.injEq] at h1
    rw [← h1, ← hw]
    simp [List.getD, h2]

theorem windows_of {f : Fin n → Except PyErr (K × K)} {w : Fin n → K × K} (h : ∀ i, f i = .ok (w i)) : windows f = .ok w := by
  unfold windows
  have : (List.ofFn f).mapM id = .ok (List.ofFn w) := by
    rw [mapM_id_ok, List.map_ofFn]
    congr 1
    funext i
    exact h i
  rw [this]
  refine congrArg Except.ok ?_
  funext i
  simp [List.getD]

theorem clip_inside {v : SVar K} {x : K} (h : v.lb ≤ x ∧ x ≤ v.ub) : v.clip x = x := by
  unfold SVar.clip
  rw [min_eq_left h.2, max_eq_right h.1]

theorem value_inside {c : SlpCfg K n} {s : Slp K n} (h : Inside c.vars s.X) (i : Fin n) : s.value c i = s.X i := clip_inside (h i)

/-- What one iteration does, given the answer of the LP solver. -/
theorem iter_cases {c : SlpCfg K n} {lin : Linearization K n} {solver : Lp K n → Option ((Fin n → K) × K)} {s s' : Slp K n}
    (hin : Inside c.vars s.X) (ht : c.type ≠ .other) (h : slpIter c lin solver s = .ok s')
    (hs : ∀ P, LpAnswer P (solver P)) :
    ∃ d : Fin n → K, (∀ i, moveDelta c.type (c.vars i) (s.X i) = .ok (d i)) ∧
      (s'.m = (s.m.1 - s.m.1 * c.gamma, s.m.2 - s.m.2 * c.gamma)) ∧ s'.C = s.C + s.C * c.gamma ∧
      ((s'.X = s.X ∧ s'.beta = s.beta ∧ ∀ x b, ¬ (slpProblem c lin s fun i => (max (c.vars i).lb (s.X i - s.m.1 * d i),
          min (c.vars i).ub (s.X i + s.m.2 * d i))).Feasible x b) ∨
       ∃ b, LpAnswer (slpProblem c lin s fun i => (max (c.vars i).lb (s.X i - s.m.1 * d i),
          min (c.vars i).ub (s.X i + s.m.2 * d i))) (some (s'.X, b)) ∧
          s'.beta = if c.includeBeta && decide (b < 1) && c.updateBeta then b else s.beta) := by
  have hd : ∃ d : Fin n → K, ∀ i, moveDelta c.type (c.vars i) (s.X i) = .ok (d i) := by
    cases hc : c.type with
    | range => exact ⟨fun i => (c.vars i).ub - (c.vars i).lb, fun i => rfl⟩
    | relative => exact ⟨s.X, fun i => rfl⟩
    | other => exact absurd hc ht
  obtain ⟨d, hd⟩ := hd
  refine ⟨d, hd, ?_⟩
  have hw : windows (fun i => slpWindow c.type s.m (c.vars i) (s.value c i)) =
      .ok fun i => (max (c.vars i).lb (s.X i - s.m.1 * d i), min (c.vars i).ub (s.X i + s.m.2 * d i)) := by
    apply windows_of
    intro i
    unfold slpWindow
    rw [value_inside hin, hd i]
  unfold slpIter at h
  rw [hw] at h
  have h := Except.ok.inj h
  set P := slpProblem c lin s fun i => (max (c.vars i).lb (s.X i - s.m.1 * d i), min (c.vars i).ub (s.X i + s.m.2 * d i)) with hP
  have hans := hs P
  cases hr : solver P with
  | none =>
    rw [hr] at hans h
    subst h
    refine ⟨rfl, rfl, Or.inl ⟨?_, rfl, hans⟩⟩
    funext i
    show min (max (s.X i + 0) (c.vars i).lb) (c.vars i).ub = s.X i
    rw [add_zero, max_eq_left (hin i).1, min_eq_left (hin i).2]
  | some r =>
    obtain ⟨x, b⟩ := r
    rw [hr] at hans h
    have hX : s'.X = x := by
      subst h
      funext i
      have hi := hans.1.1 i
      have h1 : (c.vars i).lb ≤ x i := le_trans (le_max_left _ _) hi.1
      have h2 : x i ≤ (c.vars i).ub := le_trans hi.2 (min_le_left _ _)
      show min (max (s.X i + (x i - s.X i)) (c.vars i).lb) (c.vars i).ub = x i
      rw [add_sub_cancel, max_eq_left h1, min_eq_left h2]
    refine ⟨?_, ?_, Or.inr ⟨b, ?_, ?_⟩⟩
    · subst h; rfl
    · subst h; rfl
    · rw [hX]; exact hans
    · subst h; rfl

/-- The bounds of the linear problem hold for its solution. -/
theorem answer_window {c : SlpCfg K n} {lin : Linearization K n} {s : Slp K n} {d x : Fin n → K} {b : K}
    (h : LpAnswer (slpProblem c lin s fun i => (max (c.vars i).lb (s.X i - s.m.1 * d i),
          min (c.vars i).ub (s.X i + s.m.2 * d i))) (some (x, b))) (i : Fin n) :
    (c.vars i).lb ≤ x i ∧ x i ≤ (c.vars i).ub ∧ s.X i - s.m.1 * d i ≤ x i ∧ x i ≤ s.X i + s.m.2 * d i := by
  have h1 := h.1.1 i
  exact ⟨le_trans (le_max_left _ _) h1.1, le_trans h1.2 (min_le_left _ _), le_trans (le_max_right _ _) h1.1,
    le_trans h1.2 (min_le_right _ _)⟩

/-! ### C118: bounds and move limits -/

/-- Bounds hold after every iteration, whatever the LP solver answers. -/
theorem C118_bounds {c : SlpCfg K n} {lin : Linearization K n} {solver : Lp K n → Option ((Fin n → K) × K)} {s s' : Slp K n}
    (hv : ∀ i, (c.vars i).lb ≤ (c.vars i).ub) (h : slpIter c lin solver s = .ok s') : Inside c.vars s'.X := by
  have key : ∀ (s : Slp K n) (a : Fin n → K), Inside c.vars (slpStep c s a).X := fun s a i =>
    ⟨le_min (le_max_right _ _) (hv i), min_le_right _ _⟩
  unfold slpIter at h
  split at h
  · cases h
  · rename_i w _
    have h := Except.ok.inj h
    subst h
    cases solver (slpProblem c lin s w) with
    | none => exact key _ _
    | some r => exact key _ _

/-- C118: with limits relative to the range, an iteration changes a variable by at most the move limits times its range; with limits relative to
    the value, a variable of non-negative value by at most the move limits times that value. Missing: negative values (`C118_violation`). -/
theorem C118_partial {c : SlpCfg K n} {lin : Linearization K n} {solver : Lp K n → Option ((Fin n → K) × K)} {s s' : Slp K n}
    (hs : ∀ P, LpAnswer P (solver P)) (hin : Inside c.vars s.X) (hm : 0 ≤ s.m.1 ∧ 0 ≤ s.m.2) (h : slpIter c lin solver s = .ok s') :
    Inside c.vars s'.X ∧
    (c.type = .range → ∀ i, s.X i - s.m.1 * ((c.vars i).ub - (c.vars i).lb) ≤ s'.X i ∧
      s'.X i ≤ s.X i + s.m.2 * ((c.vars i).ub - (c.vars i).lb)) ∧
    (c.type = .relative → ∀ i, 0 ≤ s.X i → s.X i * (1 - s.m.1) ≤ s'.X i ∧ s'.X i ≤ s.X i * (1 + s.m.2)) := by
  have hv : ∀ i, (c.vars i).lb ≤ (c.vars i).ub := fun i => le_trans (hin i).1 (hin i).2
  refine ⟨C118_bounds hv h, ?_, ?_⟩
  · intro ht i
    obtain ⟨d, hd, _, _, hx⟩ := iter_cases hin (by rw [ht]; decide) h hs
    have hdi := hd i
    rw [ht] at hdi
    have hdi := Except.ok.inj hdi
    have hr : 0 ≤ (c.vars i).ub - (c.vars i).lb := sub_nonneg.2 (hv i)
    rcases hx with ⟨hx, _, _⟩ | ⟨b, hx, _⟩
    · rw [hx]
      exact ⟨by nlinarith [mul_nonneg hm.1 hr], by nlinarith [mul_nonneg hm.2 hr]⟩
    · rw [hdi]
      exact (answer_window hx i).2.2
  · intro ht i h0
    obtain ⟨d, hd, _, _, hx⟩ := iter_cases hin (by rw [ht]; decide) h hs
    have hdi := hd i
    rw [ht] at hdi
    have hdi := Except.ok.inj hdi
    rcases hx with ⟨hx, _, _⟩ | ⟨b, hx, _⟩
    · rw [hx]
      exact ⟨by nlinarith [mul_nonneg hm.1 h0], by nlinarith [mul_nonneg hm.2 h0]⟩
    · obtain ⟨_, _, h2, h3⟩ := answer_window hx i
      rw [← hdi] at h2 h3
      exact ⟨by nlinarith, by nlinarith⟩

/-- C118, negation: with limits relative to the value, one negative variable freezes the whole design for ever: its window in the linear
    problem is empty. -/
theorem C118_violation {c : SlpCfg K n} {lin : Linearization K n} {solver : Lp K n → Option ((Fin n → K) × K)}
    (hs : ∀ P, LpAnswer P (solver P)) (ht : c.type = .relative) (hg : c.gamma < 1) (k : Nat) {s s' : Slp K n} (hin : Inside c.vars s.X)
    (hm : 0 < s.m.1 ∧ 0 < s.m.2) {i : Fin n} (hi : s.X i < 0) (h : slpRun c lin solver k s = .ok s') : s'.X = s.X := by
  induction k generalizing s with
  | zero => exact congrArg Slp.X (Except.ok.inj h).symm
  | succ k ih =>
    unfold slpRun at h
    split at h
    · cases h
    · rename_i s1 h1
      obtain ⟨d, hd, hm1, _, hx⟩ := iter_cases hin (by rw [ht]; decide) h1 hs
      have hdi := hd i
      rw [ht] at hdi
      have hdi := Except.ok.inj hdi
      have hX : s1.X = s.X := by
        rcases hx with ⟨hx, _, _⟩ | ⟨b, hx, _⟩
        · exact hx
        · exfalso
          obtain ⟨_, _, h2, h3⟩ := answer_window hx i
          rw [← hdi] at h2 h3
          nlinarith [mul_pos_of_neg_of_neg hi (neg_neg_of_pos hm.1), mul_pos_of_neg_of_neg hi (neg_neg_of_pos hm.2)]
      rw [← hX]
      apply ih
      · rw [hX]; exact hin
      · rw [hm1]
        exact ⟨by nlinarith [mul_pos hm.1 (sub_pos.2 hg)], by nlinarith [mul_pos hm.2 (sub_pos.2 hg)]⟩
      · rw [hX]; exact hi
      · exact h

/-- C118, negation: with limits relative to the value, a variable at zero never leaves zero. -/
theorem C118_violation_zero {c : SlpCfg K n} {lin : Linearization K n} {solver : Lp K n → Option ((Fin n → K) × K)}
    (hs : ∀ P, LpAnswer P (solver P)) (ht : c.type = .relative) (k : Nat) {s s' : Slp K n} (hin : Inside c.vars s.X)
    {i : Fin n} (hi : s.X i = 0) (h : slpRun c lin solver k s = .ok s') : s'.X i = 0 := by
  have hv : ∀ i, (c.vars i).lb ≤ (c.vars i).ub := fun i => le_trans (hin i).1 (hin i).2
  induction k generalizing s with
  | zero => rw [← Except.ok.inj h]; exact hi
  | succ k ih =>
    unfold slpRun at h
    split at h
    · cases h
    · rename_i s1 h1
      refine ih (C118_bounds hv h1) ?_ h
      obtain ⟨d, hd, _, _, hx⟩ := iter_cases hin (by rw [ht]; decide) h1 hs
      have hdi := hd i
      rw [ht] at hdi
      have hdi := Except.ok.inj hdi
      rcases hx with ⟨hx, _, _⟩ | ⟨b, hx, _⟩
      · rw [hx]; exact hi
      · obtain ⟨_, _, h2, h3⟩ := answer_window hx i
        rw [← hdi, hi] at h2 h3
        simp only [mul_zero, sub_zero, add_zero] at h2 h3
        exact le_antisymm h3 h2

/-! ### C119: total distance -/

/-- The move limits of the `k`-th iteration. -/
theorem C119_limits {c : SlpCfg K n} {lin : Linearization K n} {solver : Lp K n → Option ((Fin n → K) × K)} (k : Nat) {s s' : Slp K n}
    (h : slpRun c lin solver k s = .ok s') :
    s'.m = (s.m.1 * (1 - c.gamma) ^ k, s.m.2 * (1 - c.gamma) ^ k) ∧ s'.C = s.C * (1 + c.gamma) ^ k := by
  induction k generalizing s with
  | zero => rw [← Except.ok.inj h]; simp
  | succ k ih =>
    unfold slpRun at h
    split at h
    · cases h
    · rename_i s1 h1
      have hm : s1.m = (s.m.1 * (1 - c.gamma), s.m.2 * (1 - c.gamma)) ∧ s1.C = s.C * (1 + c.gamma) := by
        unfold slpIter at h1
        split at h1
        · cases h1
        · rename_i w _
          have h1 := Except.ok.inj h1
          subst h1
          cases solver (slpProblem c lin s w) <;>
            exact ⟨Prod.ext (by simp only [slpMove, slpStep]; ring) (by simp only [slpMove, slpStep]; ring),
              by simp only [slpMove, slpStep]; ring⟩
      obtain ⟨h2, h3⟩ := ih h
      rw [hm.1] at h2
      rw [hm.2] at h3
      exact ⟨by rw [h2]; exact Prod.ext (by simp only; ring) (by simp only; ring), by rw [h3]; ring⟩

/-- C119: in `k` iterations with limits relative to the range a variable moves down by at most `m0 · range · (1 - (1-γ)^k)/γ` and up by at most
    `m1 · range · (1 - (1-γ)^k)/γ`; in the whole run it stays within `m0 · range/γ` and `m1 · range/γ` of its start. -/
theorem C119 {c : SlpCfg K n} {lin : Linearization K n} {solver : Lp K n → Option ((Fin n → K) × K)} (hs : ∀ P, LpAnswer P (solver P))
    (ht : c.type = .range) (hg : 0 < c.gamma ∧ c.gamma ≤ 1) (k : Nat) {s s' : Slp K n} (hin : Inside c.vars s.X)
    (hm : 0 ≤ s.m.1 ∧ 0 ≤ s.m.2) (h : slpRun c lin solver k s = .ok s') (i : Fin n) :
    Inside c.vars s'.X ∧ s'.m = (s.m.1 * (1 - c.gamma) ^ k, s.m.2 * (1 - c.gamma) ^ k) ∧
    s.X i - s.m.1 * ((c.vars i).ub - (c.vars i).lb) * ((1 - (1 - c.gamma) ^ k) / c.gamma) ≤ s'.X i ∧
    s'.X i ≤ s.X i + s.m.2 * ((c.vars i).ub - (c.vars i).lb) * ((1 - (1 - c.gamma) ^ k) / c.gamma) ∧
    s.X i - s.m.1 * ((c.vars i).ub - (c.vars i).lb) / c.gamma ≤ s'.X i ∧
    s'.X i ≤ s.X i + s.m.2 * ((c.vars i).ub - (c.vars i).lb) / c.gamma := by
  have hr : 0 ≤ (c.vars i).ub - (c.vars i).lb := sub_nonneg.2 (le_trans (hin i).1 (hin i).2)
  have key : Inside c.vars s'.X ∧
      s.X i - s.m.1 * ((c.vars i).ub - (c.vars i).lb) * ((1 - (1 - c.gamma) ^ k) / c.gamma) ≤ s'.X i ∧
      s'.X i ≤ s.X i + s.m.2 * ((c.vars i).ub - (c.vars i).lb) * ((1 - (1 - c.gamma) ^ k) / c.gamma) := by
    clear hr
    induction k generalizing s with
    | zero =>
      rw [← Except.ok.inj h]
      simp [hin]
    | succ k ih =>
      unfold slpRun at h
      split at h
      · cases h
      · rename_i s1 h1
        obtain ⟨hin1, hst, _⟩ := C118_partial hs hin hm h1
        have hl := C119_limits 1 (s := s) (s' := s1) (by unfold slpRun slpRun; rw [h1])
        simp only [pow_one] at hl
        have h1g : 0 ≤ 1 - c.gamma := sub_nonneg.2 hg.2
        obtain ⟨h2, h3, h4⟩ := ih (s := s1) hin1 (by rw [hl.1]; exact ⟨mul_nonneg hm.1 h1g, mul_nonneg hm.2 h1g⟩) h
        have h5 := hst ht i
        rw [hl.1] at h3 h4
        have e : (1 - (1 - c.gamma) ^ (k + 1)) / c.gamma = 1 + (1 - c.gamma) * ((1 - (1 - c.gamma) ^ k) / c.gamma) := by
          have := hg.1.ne'
          field_simp
          ring
        refine ⟨h2, ?_, ?_⟩
        · rw [e]; simp only at h3; nlinarith [h5.1]
        · rw [e]; simp only at h4; nlinarith [h5.2]
  refine ⟨key.1, (C119_limits k h).1, key.2.1, key.2.2, ?_, ?_⟩
  all_goals
    have hq : (1 - (1 - c.gamma) ^ k) / c.gamma ≤ 1 / c.gamma := by
      apply div_le_div_of_nonneg_right _ hg.1.le
      have := pow_nonneg (sub_nonneg.2 hg.2) k
      linarith
  · have := mul_le_mul_of_nonneg_left hq (mul_nonneg hm.1 hr)
    rw [mul_one_div] at this
    linarith [key.2.1]
  · have := mul_le_mul_of_nonneg_left hq (mul_nonneg hm.2 hr)
    rw [mul_one_div] at this
    linarith [key.2.2]

/-! ### C120: safeguard against infeasible linear problems -/

/-- C120: as long as the bound of beta is not below the violation of the linearised constraints at the current design, the
    linear problem has a solution. Missing: the bound is reduced during the run, and an infeasible linear problem stops it
    (`C120_stuck`, `C120_violation`). -/
theorem C120_partial {c : SlpCfg K n} {lin : Linearization K n} {solver : Lp K n → Option ((Fin n → K) × K)} {s s' : Slp K n}
    (hs : ∀ P, LpAnswer P (solver P)) (hin : Inside c.vars s.X) (hm : 0 ≤ s.m.1 ∧ 0 ≤ s.m.2) (ht : c.type = .range)
    (hb : c.includeBeta = true) (hb0 : 0 ≤ s.beta) (hrow : ∀ r ∈ (lin s.X).1, ∑ j, r.a j * s.X j - r.b ≤ s.beta)
    (h : slpIter c lin solver s = .ok s') :
    ∃ b, 0 ≤ b ∧ b ≤ s.beta ∧ (∀ r ∈ (lin s.X).1, ∑ j, r.a j * s'.X j ≤ r.b + b) ∧
      ∑ j, (lin s.X).2 j * s'.X j + s.C * b ≤ ∑ j, (lin s.X).2 j * s.X j + s.C * s.beta := by
  obtain ⟨d, hd, _, _, hx⟩ := iter_cases hin (by rw [ht]; decide) h hs
  have hf : (slpProblem c lin s fun i => (max (c.vars i).lb (s.X i - s.m.1 * d i),
          min (c.vars i).ub (s.X i + s.m.2 * d i))).Feasible s.X s.beta := by
    refine ⟨fun i => ?_, ?_, ?_⟩
    · have hdi := hd i
      rw [ht] at hdi
      have hdi := Except.ok.inj hdi
      have hr : 0 ≤ d i := by rw [← hdi]; exact sub_nonneg.2 (le_trans (hin i).1 (hin i).2)
      exact ⟨max_le (hin i).1 (by nlinarith [mul_nonneg hm.1 hr]), le_min (hin i).2 (by nlinarith [mul_nonneg hm.2 hr])⟩
    · show betaOk (if c.includeBeta then some s.beta else none) s.beta
      rw [if_pos hb]
      exact ⟨hb0, le_refl _⟩
    · intro r hr
      have := hrow r hr
      show ∑ j, r.a j * s.X j ≤ r.b + s.beta
      linarith
  rcases hx with ⟨_, _, hx⟩ | ⟨b, hx, _⟩
  · exact absurd hf (hx _ _)
  · have hbe : betaOk (if c.includeBeta then some s.beta else none) b := hx.1.2.1
    rw [if_pos hb] at hbe
    exact ⟨b, hbe.1, hbe.2, hx.1.2.2, hx.2 _ _ hf⟩

/-- C120, negation: once the linear problem is infeasible, the design does not change any more. -/
theorem C120_stuck {c : SlpCfg K n} {lin : Linearization K n} {solver : Lp K n → Option ((Fin n → K) × K)}
    (hs : ∀ P, LpAnswer P (solver P)) (ht : c.type = .range) (hg : 0 ≤ c.gamma ∧ c.gamma ≤ 1) (k : Nat) {s s' : Slp K n}
    (hin : Inside c.vars s.X) (hm : 0 ≤ s.m.1 ∧ 0 ≤ s.m.2)
    (hinf : ∀ (x : Fin n → K) (b : K), (∀ i, (c.vars i).lb ≤ x i ∧ x i ≤ (c.vars i).ub) →
      (∀ i, s.X i - s.m.1 * ((c.vars i).ub - (c.vars i).lb) ≤ x i ∧ x i ≤ s.X i + s.m.2 * ((c.vars i).ub - (c.vars i).lb)) →
      0 ≤ b → b ≤ s.beta → ¬ ∀ r ∈ (lin s.X).1, ∑ j, r.a j * x j ≤ r.b + b)
    (hb0 : 0 ≤ s.beta) (h : slpRun c lin solver k s = .ok s') : s'.X = s.X := by
  induction k generalizing s with
  | zero => exact congrArg Slp.X (Except.ok.inj h).symm
  | succ k ih =>
    unfold slpRun at h
    split at h
    · cases h
    · rename_i s1 h1
      obtain ⟨d, hd, hm1, _, hx⟩ := iter_cases hin (by rw [ht]; decide) h1 hs
      have hde : ∀ i, d i = (c.vars i).ub - (c.vars i).lb := by
        intro i
        have hdi := hd i
        rw [ht] at hdi
        exact (Except.ok.inj hdi).symm
      rcases hx with ⟨hX, hbe, _⟩ | ⟨b, hx, _⟩
      · rw [← hX]
        have hr : ∀ i, 0 ≤ (c.vars i).ub - (c.vars i).lb := fun i => sub_nonneg.2 (le_trans (hin i).1 (hin i).2)
        apply ih
        · rw [hX]; exact hin
        · rw [hm1]
          exact ⟨by nlinarith [mul_nonneg hm.1 (sub_nonneg.2 hg.2)], by nlinarith [mul_nonneg hm.2 (sub_nonneg.2 hg.2)]⟩
        · intro x b h3 h4 h5 h6
          rw [hX, hm1] at h4
          rw [hX]
          rw [hbe] at h6
          refine hinf x b h3 (fun i => ?_) h5 h6
          have h7 := h4 i
          simp only at h7
          have e1 := mul_nonneg (mul_nonneg hm.1 hg.1) (hr i)
          have e2 := mul_nonneg (mul_nonneg hm.2 hg.1) (hr i)
          exact ⟨by nlinarith [h7.1], by nlinarith [h7.2]⟩
        · rw [hbe]; exact hb0
        · exact h
      · exfalso
        have hbe : betaOk (if c.includeBeta then some s.beta else none) b := hx.1.2.1
        refine hinf s1.X b (fun i => ?_) (fun i => ?_) ?_ ?_ hx.1.2.2
        · have := answer_window hx i
          exact ⟨this.1, this.2.1⟩
        · have := answer_window hx i
          rw [hde i] at this
          exact this.2.2
        · cases hc : c.includeBeta with
          | true => rw [hc, if_pos rfl] at hbe; exact hbe.1
          | false => rw [hc, if_neg (by decide)] at hbe; exact le_of_eq hbe.symm
        · cases hc : c.includeBeta with
          | true => rw [hc, if_pos rfl] at hbe; exact hbe.2
          | false => rw [hc, if_neg (by decide)] at hbe; rw [show b = 0 from hbe]; exact hb0

/-- An iteration with limits relative to the range does not raise. -/
theorem iter_ok {c : SlpCfg K n} {lin : Linearization K n} {solver : Lp K n → Option ((Fin n → K) × K)} (ht : c.type = .range) (s : Slp K n) :
    ∃ s', slpIter c lin solver s = .ok s' := by
  have hw := windows_of (f := fun i => slpWindow c.type s.m (c.vars i) (s.value c i))
    (w := fun i => (max (c.vars i).lb (s.value c i - s.m.1 * ((c.vars i).ub - (c.vars i).lb)),
      min (c.vars i).ub (s.value c i + s.m.2 * ((c.vars i).ub - (c.vars i).lb)))) (by
    intro i
    unfold slpWindow
    rw [ht]
    rfl)
  unfold slpIter
  rw [hw]
  exact ⟨_, rfl⟩

theorem run_ok {c : SlpCfg K n} {lin : Linearization K n} {solver : Lp K n → Option ((Fin n → K) × K)} (ht : c.type = .range) (k : Nat)
    (s : Slp K n) : ∃ s', slpRun c lin solver k s = .ok s' := by
  induction k generalizing s with
  | zero => exact ⟨s, rfl⟩
  | succ k ih =>
    obtain ⟨s1, h1⟩ := iter_ok (lin := lin) (solver := solver) ht s
    obtain ⟨s', h'⟩ := ih s1
    exact ⟨s', by unfold slpRun; rw [h1]; exact h'⟩

/-- The constraint `6 - 5t - 8t² + 7t³ ≤ 0` for `0 ≤ t ≤ 2` and the objective `t`. -/
def cubic (t : K) : K := 6 - 5 * t - 8 * t ^ 2 + 7 * t ^ 3

/-- Exact linearisation of the problem. -/
def cubicLin : Linearization K 1 := fun X =>
  ([rowOf .lt (cubic (X 0)) (fun _ => -5 - 16 * X 0 + 21 * X 0 ^ 2) X], fun _ => 1)

/-- Default solver apart from the move limits; the first design is `t = 1`. -/
def cubicCfg : SlpCfg K 1 := slpCfg (fun _ => ⟨0, 2, .cont⟩) (1 / 100) 10 true .range

def cubicStart : Slp K 1 := ⟨fun _ => 1, (1 / 2, 1 / 2), 200000, 10⟩

/-- C120, negation: the first design is feasible; the first linear problem is solved without relaxation, which sets the bound of beta to
    zero for good; the second one is infeasible; from then on the solver stays at an infeasible design. -/
theorem C120_violation {solver : Lp K 1 → Option ((Fin 1 → K) × K)} (hs : ∀ P, LpAnswer P (solver P)) (k : Nat) :
    cubic (1 : K) ≤ 0 ∧ ∃ s', slpRun cubicCfg cubicLin solver (k + 1) cubicStart = .ok s' ∧ s'.X = (fun _ => 0) ∧ 0 < cubic (s'.X 0) := by
  refine ⟨by unfold cubic; norm_num, ?_⟩
  obtain ⟨s1, h1⟩ := iter_ok (c := cubicCfg) (lin := cubicLin) (solver := solver) rfl cubicStart
  have hin : Inside (cubicCfg (K := K)).vars (cubicStart (K := K)).X := fun i => by
    show (0 : K) ≤ 1 ∧ (1 : K) ≤ 2
    norm_num
  have hfirst : s1.X = (fun _ => 0) ∧ s1.beta = 0 ∧ s1.m = (99 / 200, 99 / 200) := by
    obtain ⟨d, hd, hm1, _, hx⟩ := iter_cases hin (by show LimitType.range ≠ .other; decide) h1 hs
    have hdi : d = fun _ => 2 := by
      funext i
      have h2 := Except.ok.inj (hd i)
      rw [← h2]
      show (2 : K) - 0 = 2
      norm_num
    have hmm : s1.m = (99 / 200, 99 / 200) := by
      rw [hm1]
      refine Prod.ext ?_ ?_ <;> (show (1 / 2 : K) - 1 / 2 * (1 / 100) = 99 / 200; norm_num)
    have hzero : (slpProblem cubicCfg cubicLin cubicStart fun i => (max ((cubicCfg (K := K)).vars i).lb (cubicStart.X i - cubicStart.m.1 * d i),
          min ((cubicCfg (K := K)).vars i).ub (cubicStart.X i + cubicStart.m.2 * d i))).Feasible (fun _ => 0) 0 := by
      refine ⟨fun i => ?_, ?_, ?_⟩
      · rw [hdi]
        show max (0 : K) (1 - 1 / 2 * 2) ≤ 0 ∧ (0 : K) ≤ min 2 (1 + 1 / 2 * 2)
        norm_num
      · show betaOk (if (! decide ((10 : K) = 0)) = true then some (10 : K) else none) 0
        rw [if_pos (by norm_num)]
        exact ⟨le_refl _, by norm_num⟩
      · intro r hr
        have hr : r = rowOf .lt (cubic 1) (fun _ => -5 - 16 * 1 + 21 * 1 ^ 2) (fun _ => 1) := by
          simpa [slpProblem, cubicLin, cubicStart] using hr
        subst hr
        simp only [LinRow.lhs, rowOf, cubic, Finset.univ_unique, Finset.sum_singleton]
        norm_num
    rcases hx with ⟨_, _, hx⟩ | ⟨b, hx, hb⟩
    · exact absurd hzero (hx _ _)
    · have hw := answer_window hx 0
      have hc : (cubicCfg (K := K)).includeBeta = true := by
        show (! decide ((10 : K) = 0)) = true
        norm_num
      have hbe : betaOk (if (cubicCfg (K := K)).includeBeta then some (10 : K) else none) b := hx.1.2.1
      rw [if_pos hc] at hbe
      have hcost := hx.2 _ _ hzero
      have e1 : lpCost (fun _ : Fin 1 => (1 : K)) 200000 s1.X b = s1.X 0 + 200000 * b := by
        simp [lpCost]
      have e2 : lpCost (fun _ : Fin 1 => (1 : K)) 200000 (fun _ => 0) 0 = 0 := by simp [lpCost]
      have hcost : lpCost (fun _ : Fin 1 => (1 : K)) 200000 s1.X b ≤ lpCost (fun _ : Fin 1 => (1 : K)) 200000 (fun _ => 0) 0 := hcost
      rw [e1, e2] at hcost
      have hx0 : (0 : K) ≤ s1.X 0 := hw.1
      have hb0 : b = 0 := by linarith [hbe.1]
      refine ⟨?_, ?_, hmm⟩
      · funext i
        rw [Subsingleton.elim i 0]
        linarith [hbe.1]
      · rw [hb, hc, hb0]
        rw [if_pos]
        show (true && decide ((0 : K) < 1) && true) = true
        norm_num
  obtain ⟨s', h'⟩ := run_ok (c := cubicCfg) (lin := cubicLin) (solver := solver) rfl k s1
  have hst : s'.X = s1.X := by
    refine C120_stuck hs rfl (by show (0 : K) ≤ 1 / 100 ∧ (1 / 100 : K) ≤ 1; norm_num) k ?_ ?_ ?_ ?_ h'
    · intro i
      rw [hfirst.1]
      show (0 : K) ≤ 0 ∧ (0 : K) ≤ 2
      norm_num
    · rw [hfirst.2.2]; norm_num
    · intro x b _ hwin hb0 hb hrows
      rw [hfirst.2.1] at hb
      have h3 := hwin 0
      rw [hfirst.1, hfirst.2.2] at h3
      have h4 : x 0 ≤ 0 + 99 / 200 * (2 - 0) := h3.2
      have h5 := hrows (rowOf .lt (cubic (s1.X 0)) (fun _ => -5 - 16 * s1.X 0 + 21 * s1.X 0 ^ 2) s1.X) (by simp [cubicLin])
      rw [hfirst.1] at h5
      simp only [rowOf, cubic, Finset.univ_unique, Finset.sum_singleton, Fin.default_eq_zero] at h5
      norm_num at h4 h5
      linarith
    · rw [hfirst.2.1]
  refine ⟨s', by unfold slpRun; rw [h1]; exact h', by rw [hst, hfirst.1], ?_⟩
  rw [hst, hfirst.1]
  unfold cubic
  norm_num

/-! ### C121: types of constraints -/

/-- C121: a constraint of the type `'<'` holds, to first order, at the new design up to the relaxation `b`, and the relaxation
    pays: no unrelaxed point within bounds and move limits is better. Missing: the types `'>'` and `'='` (`C121_violation`). -/
theorem C121_partial {c : SlpCfg K n} {lin : Linearization K n} {solver : Lp K n → Option ((Fin n → K) × K)} {s s' : Slp K n}
    (hs : ∀ P, LpAnswer P (solver P)) (hin : Inside c.vars s.X) (ht : c.type = .range) (hb0 : 0 ≤ s.beta)
    (h : slpIter c lin solver s = .ok s') (hmove : s'.X ≠ s.X) :
    ∃ b, 0 ≤ b ∧ (c.includeBeta = false → b = 0) ∧ (c.includeBeta = true → b ≤ s.beta) ∧
      (∀ g d, rowOf .lt g d s.X ∈ (lin s.X).1 → firstOrder g d s.X s'.X ≤ b) ∧
      ∀ y : Fin n → K, Inside c.vars y →
        (∀ i, s.X i - s.m.1 * ((c.vars i).ub - (c.vars i).lb) ≤ y i ∧ y i ≤ s.X i + s.m.2 * ((c.vars i).ub - (c.vars i).lb)) →
        (∀ r ∈ (lin s.X).1, ∑ j, r.a j * y j ≤ r.b) →
        ∑ j, (lin s.X).2 j * s'.X j + s.C * b ≤ ∑ j, (lin s.X).2 j * y j := by
  obtain ⟨d, hd, _, _, hx⟩ := iter_cases hin (by rw [ht]; decide) h hs
  have hde : ∀ i, d i = (c.vars i).ub - (c.vars i).lb := by
    intro i
    have hdi := hd i
    rw [ht] at hdi
    exact (Except.ok.inj hdi).symm
  rcases hx with ⟨hx, _, _⟩ | ⟨b, hx, _⟩
  · exact absurd hx hmove
  · have hbe : betaOk (if c.includeBeta then some s.beta else none) b := hx.1.2.1
    have h0 : 0 ≤ b ∧ (c.includeBeta = false → b = 0) ∧ (c.includeBeta = true → b ≤ s.beta) := by
      cases hc : c.includeBeta with
      | true =>
        rw [hc, if_pos rfl] at hbe
        exact ⟨hbe.1, (fun h => nomatch h), fun _ => hbe.2⟩
      | false =>
        rw [hc, if_neg (by decide)] at hbe
        exact ⟨le_of_eq (Eq.symm hbe), fun _ => hbe, fun h => nomatch h⟩
    refine ⟨b, h0.1, h0.2.1, h0.2.2, ?_, ?_⟩
    · intro g e hr
      have h1 := hx.1.2.2 _ hr
      have h2 : ∑ j, e j * s'.X j ≤ ∑ j, e j * s.X j - g + b := h1
      have h3 : ∑ j, e j * (s'.X j - s.X j) = ∑ j, e j * s'.X j - ∑ j, e j * s.X j := by
        rw [← Finset.sum_sub_distrib]
        exact Finset.sum_congr rfl fun j _ => mul_sub _ _ _
      unfold firstOrder
      rw [h3]
      linarith
    · intro y hy hw hrows
      have := hx.2 y 0 ⟨fun i => ?_, ?_, ?_⟩
      · have e : lpCost (lin s.X).2 s.C s'.X b ≤ lpCost (lin s.X).2 s.C y 0 := this
        simpa [lpCost] using e
      · rw [show ((slpProblem c lin s fun i => (max (c.vars i).lb (s.X i - s.m.1 * d i),
          min (c.vars i).ub (s.X i + s.m.2 * d i))).win i) = (max (c.vars i).lb (s.X i - s.m.1 * d i),
          min (c.vars i).ub (s.X i + s.m.2 * d i)) from rfl, hde i]
        exact ⟨max_le (hy i).1 (hw i).1, le_min (hy i).2 (hw i).2⟩
      · show betaOk (if c.includeBeta then some s.beta else none) 0
        cases hc : c.includeBeta with
        | true => rw [if_pos rfl]; exact ⟨le_refl _, hb0⟩
        | false => rw [if_neg (by decide)]; rfl
      · intro r hr
        have := hrows r hr
        show ∑ j, r.a j * y j ≤ r.b + 0
        linarith

/-- Minimisation of `x` with the single constraint `x - 4` of type `t`. -/
def fourLin (t : CType) : Linearization K 1 := fun X => ([rowOf t (X 0 - 4) (fun _ => 1) X], fun _ => 1)

def fourCfg : SlpCfg K 1 := slpCfg (fun _ => ⟨0, 10, .cont⟩) (1 / 100) 10 true .range

def fourStart : Slp K 1 := ⟨fun _ => 6, (1 / 2, 1 / 2), 200000, 10⟩

/-- C121, negation: the constraint `x - 4 > 0` (or `= 0`) is linear and the first design satisfies the former, yet the next design is
    `x = 1`: SLP treats every row as an upper bound. -/
theorem C121_violation (t : CType) {solver : Lp K 1 → Option ((Fin 1 → K) × K)} (hs : ∀ P, LpAnswer P (solver P)) :
    ∃ s', slpIter fourCfg (fourLin t) solver fourStart = .ok s' ∧ s'.X 0 - 4 = -3 := by
  obtain ⟨s1, h1⟩ := iter_ok (c := fourCfg) (lin := fourLin t) (solver := solver) rfl fourStart
  refine ⟨s1, h1, ?_⟩
  have hin : Inside (fourCfg (K := K)).vars (fourStart (K := K)).X := fun i => by
    show (0 : K) ≤ 6 ∧ (6 : K) ≤ 10
    norm_num
  obtain ⟨d, hd, hm1, _, hx⟩ := iter_cases hin (by show LimitType.range ≠ .other; decide) h1 hs
  have hdi : d = fun _ => 10 := by
    funext i
    have h2 := Except.ok.inj (hd i)
    rw [← h2]
    show (10 : K) - 0 = 10
    norm_num
  have hone : (slpProblem fourCfg (fourLin t) fourStart fun i => (max ((fourCfg (K := K)).vars i).lb (fourStart.X i - fourStart.m.1 * d i),
        min ((fourCfg (K := K)).vars i).ub (fourStart.X i + fourStart.m.2 * d i))).Feasible (fun _ => 1) 0 := by
    refine ⟨fun i => ?_, ?_, ?_⟩
    · rw [hdi]
      show max (0 : K) (6 - 1 / 2 * 10) ≤ 1 ∧ (1 : K) ≤ min 10 (6 + 1 / 2 * 10)
      norm_num
    · show betaOk (if (! decide ((10 : K) = 0)) = true then some (10 : K) else none) 0
      rw [if_pos (by norm_num)]
      exact ⟨le_refl _, by norm_num⟩
    · intro r hr
      have hr : r = rowOf t (6 - 4) (fun _ => 1) (fun _ => 6) := by
        simpa [slpProblem, fourLin, fourStart] using hr
      subst hr
      simp only [LinRow.lhs, rowOf, Finset.univ_unique, Finset.sum_singleton]
      norm_num
  rcases hx with ⟨_, _, hx⟩ | ⟨b, hx, hb⟩
  · exact absurd hone (hx _ _)
  · have hw := answer_window hx 0
    rw [hdi] at hw
    have hw : (6 : K) - 1 / 2 * 10 ≤ s1.X 0 := hw.2.2.1
    have hbe : betaOk (if (! decide ((10 : K) = 0)) = true then some (10 : K) else none) b := hx.1.2.1
    rw [if_pos (by norm_num)] at hbe
    have hcost : lpCost (fun _ : Fin 1 => (1 : K)) 200000 s1.X b ≤ lpCost (fun _ : Fin 1 => (1 : K)) 200000 (fun _ => 1) 0 := hx.2 _ _ hone
    simp only [lpCost, Finset.univ_unique, Finset.sum_singleton, Fin.default_eq_zero] at hcost
    norm_num at hw hcost
    linarith [hbe.1]

/-! ### C124: predicted decrease -/

/-- C124: from a design that satisfies all linearised constraints, the objective does not increase to first order. -/
theorem C124 {c : SlpCfg K n} {lin : Linearization K n} {solver : Lp K n → Option ((Fin n → K) × K)} {s s' : Slp K n}
    (hs : ∀ P, LpAnswer P (solver P)) (hin : Inside c.vars s.X) (hm : 0 ≤ s.m.1 ∧ 0 ≤ s.m.2) (ht : c.type = .range)
    (hb0 : 0 ≤ s.beta) (hC : 0 ≤ s.C) (hrow : ∀ r ∈ (lin s.X).1, ∑ j, r.a j * s.X j ≤ r.b) (f : K)
    (h : slpIter c lin solver s = .ok s') : firstOrder f (lin s.X).2 s.X s'.X ≤ f := by
  by_cases hmove : s'.X = s.X
  · rw [hmove]
    simp [firstOrder]
  · obtain ⟨b, hb, _, _, _, hbest⟩ := C121_partial hs hin ht hb0 h hmove
    have hr : ∀ i, 0 ≤ (c.vars i).ub - (c.vars i).lb := fun i => sub_nonneg.2 (le_trans (hin i).1 (hin i).2)
    have h1 := hbest s.X hin (fun i => ⟨by nlinarith [mul_nonneg hm.1 (hr i)], by nlinarith [mul_nonneg hm.2 (hr i)]⟩) hrow
    have h3 : ∑ j, (lin s.X).2 j * (s'.X j - s.X j) = ∑ j, (lin s.X).2 j * s'.X j - ∑ j, (lin s.X).2 j * s.X j := by
      rw [← Finset.sum_sub_distrib]
      exact Finset.sum_congr rfl fun j _ => mul_sub _ _ _
    unfold firstOrder
    rw [h3]
    nlinarith [mul_nonneg hC hb]

/-! ### Mixed-integer problems: C122, C123 -/

theorem sum_bits_zero (y : List K) (hy : ∀ b ∈ y, b = 0 ∨ b = 1) : 0 ≤ y.sum ∧ (y.sum = 0 → ∀ b ∈ y, b = 0) := by
  induction y with
  | nil => simp
  | cons a y ih =>
    obtain ⟨h1, h2⟩ := ih fun b hb => hy b (List.mem_cons_of_mem _ hb)
    have ha := hy a List.mem_cons_self
    rw [List.sum_cons]
    rcases ha with rfl | rfl
    · refine ⟨by linarith, fun h b hb => ?_⟩
      rcases List.mem_cons.1 hb with rfl | hb
      · rfl
      · exact h2 (by linarith) b hb
    · exact ⟨by linarith, fun h => by linarith⟩

theorem zip_zero (y values : List K) (hy : ∀ b ∈ y, b = 0) : (List.zipWith (· * ·) y values).sum = 0 := by
  induction y generalizing values with
  | nil => simp
  | cons a y ih =>
    cases values with
    | nil => simp
    | cons v vs =>
      rw [List.zipWith_cons_cons, List.sum_cons, ih vs fun b hb => hy b (List.mem_cons_of_mem _ hb), hy a List.mem_cons_self]
      simp

theorem chosen_iff (values : List K) (x : K) : Chosen values x ↔ x ∈ values := by
  induction values generalizing x with
  | nil =>
    constructor
    · rintro ⟨y, hl, _, hs, _⟩
      have : y = [] := List.length_eq_zero_iff.1 hl
      subst this
      simp at hs
    · intro h
      cases h
  | cons v vs ih =>
    constructor
    · rintro ⟨y, hl, hb, hs, hx⟩
      cases y with
      | nil => simp at hl
      | cons a y =>
        rw [List.zipWith_cons_cons, List.sum_cons] at hx
        rw [List.sum_cons] at hs
        have hb' := fun b hb' => hb b (List.mem_cons_of_mem a hb')
        rcases hb a List.mem_cons_self with rfl | rfl
        · refine List.mem_cons_of_mem _ ((ih x).1 ⟨y, by simpa using hl, hb', by linarith, by rw [← hx]; ring⟩)
        · have h0 := (sum_bits_zero y hb').2 (by linarith)
          rw [zip_zero y vs h0] at hx
          rw [← hx]
          simp
    · intro h
      rcases List.mem_cons.1 h with rfl | h
      · refine ⟨1 :: List.replicate vs.length 0, by simp, ?_, by simp, ?_⟩
        · intro b hb
          rcases List.mem_cons.1 hb with rfl | hb
          · exact Or.inr rfl
          · exact Or.inl (List.eq_of_mem_replicate hb)
        · rw [List.zipWith_cons_cons, List.sum_cons, zip_zero _ _ fun b hb => List.eq_of_mem_replicate hb]
          ring
      · obtain ⟨y, hl, hb, hs, hx⟩ := (ih x).2 h
        refine ⟨0 :: y, by simp [hl], ?_, by simp [hs], ?_⟩
        · intro b hb'
          rcases List.mem_cons.1 hb' with rfl | hb'
          · exact Or.inl rfl
          · exact hb b hb'
        · rw [List.zipWith_cons_cons, List.sum_cons, hx]
          ring

/-- `np.argmin` finds a nearest value. -/
theorem argminFrom_spec (x : K) (l pre vs : List K) (hl : l = pre ++ vs) (b : Nat) (d : K) (hb : b < pre.length)
    (hd : ∃ u, l[b]? = some u ∧ d = (u - x) ^ 2) (hmin : ∀ u ∈ pre, d ≤ (u - x) ^ 2) :
    ∃ u, l[argminFrom x b d pre.length vs]? = some u ∧ ∀ v ∈ l, (u - x) ^ 2 ≤ (v - x) ^ 2 := by
  induction vs generalizing pre b d with
  | nil =>
    obtain ⟨u, hu, rfl⟩ := hd
    refine ⟨u, hu, fun v hv => hmin v ?_⟩
    rw [hl, List.append_nil] at hv
    exact hv
  | cons v vs ih =>
    have hl' : l = (pre ++ [v]) ++ vs := by rw [hl]; simp
    have hlen : pre.length + 1 = (pre ++ [v]).length := by simp
    unfold argminFrom
    split
    · rename_i hlt
      rw [hlen]
      refine ih (pre ++ [v]) hl' _ _ (by simp) ⟨v, by rw [hl]; simp, rfl⟩ ?_
      intro u hu
      rcases List.mem_append.1 hu with hu | hu
      · exact le_trans hlt.le (hmin u hu)
      · rw [List.mem_singleton.1 hu]
    · rename_i hlt
      rw [hlen]
      refine ih (pre ++ [v]) hl' _ _ (by simp; omega) hd ?_
      intro u hu
      rcases List.mem_append.1 hu with hu | hu
      · exact hmin u hu
      · rw [List.mem_singleton.1 hu]; exact not_lt.1 hlt

theorem argminSq_spec (x : K) {l : List K} {k : Nat} (h : argminSq x l = .ok k) :
    ∃ u, l[k]? = some u ∧ ∀ v ∈ l, (u - x) ^ 2 ≤ (v - x) ^ 2 := by
  cases l with
  | nil => cases h
  | cons v vs =>
    have h := Except.ok.inj h
    subst h
    exact argminFrom_spec x (v :: vs) [v] vs rfl 0 _ (by simp) ⟨v, rfl, rfl⟩ (by simp)

theorem argminSq_exact {l : List K} (hl : l.Pairwise (· < ·)) {i : Nat} {x : K} (hx : l[i]? = some x) : argminSq x l = .ok i := by
  have hne : ∃ k, argminSq x l = .ok k := by
    cases l with
    | nil => simp at hx
    | cons v vs => exact ⟨_, rfl⟩
  obtain ⟨k, hk⟩ := hne
  obtain ⟨u, hu, hmin⟩ := argminSq_spec x hk
  have h0 := hmin x (List.mem_of_getElem? hx)
  rw [sub_self, zero_pow two_ne_zero] at h0
  have hux : u = x := by
    have := pow_eq_zero_iff (n := 2) two_ne_zero |>.1 (le_antisymm h0 (sq_nonneg (u - x)))
    linarith
  rw [hux] at hu
  have hnd : l.Nodup := hl.imp fun h => ne_of_lt h
  have hki : k = i := by
    have h1 : k < l.length := by
      by_contra hc
      rw [List.getElem?_eq_none (by omega)] at hu
      cases hu
    exact (List.nodup_iff_injective_get.1 hnd |> fun hinj => by
      have h2 : i < l.length := by
        by_contra hc
        rw [List.getElem?_eq_none (by omega)] at hx
        cases hx
      have e1 : l.get ⟨k, h1⟩ = x := by
        have := List.getElem?_eq_getElem h1
        rw [hu] at this
        exact (Option.some.inj this).symm
      have e2 : l.get ⟨i, h2⟩ = x := by
        have := List.getElem?_eq_getElem h2
        rw [hx] at this
        exact (Option.some.inj this).symm
      have := hinj (e1.trans e2.symm)
      exact Fin.mk.inj this)
  rw [hk, hki]

theorem lt_of_get {α : Type} {l : List α} {i : Nat} {x : α} (h : l[i]? = some x) : i < l.length := by
  by_contra hc
  rw [List.getElem?_eq_none (by omega)] at h
  cases h

theorem pairwise_get {l : List K} (hl : l.Pairwise (· < ·)) {i j : Nat} {x y : K} (hi : l[i]? = some x) (hj : l[j]? = some y) (h : i < j) :
    x < y := by
  have h1 := lt_of_get hi
  have h2 := lt_of_get hj
  have := List.pairwise_iff_getElem.1 hl i j h1 h2 h
  have e1 := List.getElem?_eq_getElem h1
  have e2 := List.getElem?_eq_getElem h2
  rw [hi] at e1
  rw [hj] at e2
  rw [Option.some.inj e1, Option.some.inj e2]
  exact this

/-- C123: a discrete variable at one of its (increasing) values can stay there or go to the value before and after, however small the
    move limits are. Missing: a variable with a single value (`C123_violation`). -/
theorem C123_partial (t : LimitType) (m : K × K) (v : SVar K) {values : List K} {i : Nat} {x d : K} (hk : v.kind = .discrete values)
    (hl : values.Pairwise (· < ·)) (hlen : 2 ≤ values.length) (hx : values[i]? = some x) (hb : ∀ u ∈ values, v.lb ≤ u ∧ u ≤ v.ub)
    (hd : moveDelta t v x = .ok d) (hm : 0 ≤ m.1 * d ∧ 0 ≤ m.2 * d) :
    ∃ w, mislpWindow t m v x = .ok w ∧ ∀ j u, values[j]? = some u → i ≤ j + 1 → j ≤ i + 1 → w.1 ≤ u ∧ u ≤ w.2 := by
  have hi := lt_of_get hx
  have harg := argminSq_exact hl hx
  have key : ∃ w, widen values x (m.1 * d, m.2 * d) = .ok w ∧ 0 ≤ w.1 ∧ 0 ≤ w.2 ∧
      (∀ u, 0 < i → values[i - 1]? = some u → x - w.1 ≤ u) ∧ ∀ u, values[i + 1]? = some u → u ≤ x + w.2 := by
    unfold widen
    rw [harg]
    simp only [bind, Except.bind, pure, Except.pure]
    by_cases h0 : i = 0
    · rw [if_pos h0]
      have h1 : values[1]? = some values[1] := List.getElem?_eq_getElem (by omega)
      unfold valueAt
      rw [h1]
      refine ⟨_, rfl, hm.1, le_trans hm.2 (le_max_left _ _), fun u h => by omega, fun u hu => ?_⟩
      rw [h0, h1] at hu
      rw [← Option.some.inj hu]
      have := le_max_right (m.2 * d) (values[1] - x)
      simp only at this ⊢
      linarith
    · rw [if_neg h0]
      have h1 : values[i - 1]? = some values[i - 1] := List.getElem?_eq_getElem (by omega)
      unfold valueAt
      rw [h1]
      simp only
      by_cases h2 : i = values.length - 1
      · rw [if_pos h2]
        refine ⟨_, rfl, le_trans hm.1 (le_max_left _ _), hm.2, fun u _ hu => ?_, fun u hu => ?_⟩
        · rw [← Option.some.inj hu]
          have := le_max_right (m.1 * d) (x - values[i - 1])
          simp only at this ⊢
          linarith
        · have := lt_of_get hu
          omega
      · rw [if_neg h2]
        have h3 : values[i + 1]? = some values[i + 1] := List.getElem?_eq_getElem (by omega)
        rw [h3]
        simp only
        refine ⟨_, rfl, le_trans hm.1 (le_max_left _ _), le_trans hm.2 (le_max_left _ _), fun u _ hu => ?_, fun u hu => ?_⟩
        · rw [← Option.some.inj hu]
          have := le_max_right (m.1 * d) (x - values[i - 1])
          simp only at this ⊢
          linarith
        · rw [← Option.some.inj hu]
          have := le_max_right (m.2 * d) (values[i + 1] - x)
          simp only at this ⊢
          linarith
  obtain ⟨w, hw, h1, h2, h3, h4⟩ := key
  have hmv : mislpMoves t m v x = .ok w := by
    unfold mislpMoves
    rw [hd, hk]
    exact hw
  refine ⟨(max (x - w.1) v.lb, min (x + w.2) v.ub), ?_, ?_⟩
  · unfold mislpWindow
    rw [hmv, hk]
  · intro j u hu hij hji
    have hbu := hb u (List.mem_of_getElem? hu)
    have hlo : x - w.1 ≤ u := by
      rcases lt_trichotomy j i with h | h | h
      · have : j = i - 1 := by omega
        subst this
        exact h3 u (by omega) hu
      · subst h
        rw [hx] at hu
        rw [← Option.some.inj hu]
        linarith
      · have := pairwise_get hl hx hu h
        linarith
    have hhi : u ≤ x + w.2 := by
      rcases lt_trichotomy j i with h | h | h
      · have := pairwise_get hl hu hx h
        linarith
      · subst h
        rw [hx] at hu
        rw [← Option.some.inj hu]
        linarith
      · have : j = i + 1 := by omega
        subst this
        exact h4 u hu
    exact ⟨max_le hlo hbu.1, le_min hhi hbu.2⟩

/-- C123, negation: a discrete variable with a single value makes every iteration raise. -/
theorem C123_violation (t : LimitType) (m : K × K) (v : SVar K) (u x : K) (ht : t ≠ .other) (hk : v.kind = .discrete [u]) :
    mislpWindow t m v x = .error .indexError := by
  have hd : ∃ d, moveDelta t v x = .ok d := by
    cases t with
    | range => exact ⟨_, rfl⟩
    | relative => exact ⟨_, rfl⟩
    | other => exact absurd rfl ht
  obtain ⟨d, hd⟩ := hd
  have : mislpMoves t m v x = .error .indexError := by
    unfold mislpMoves
    rw [hd, hk]
    rfl
  unfold mislpWindow
  rw [this]

variable [FloorRing K]

theorem pyRound_int (z : ℤ) : pyRound (z : K) = z := by
  unfold pyRound
  rw [Int.floor_intCast, sub_self, if_pos (by norm_num)]

theorem round3_exact {x : K} {z : ℤ} (h : x * 1000 = z) : round3 x = x := by
  unfold round3
  rw [h, pyRound_int, ← h]
  field_simp

/-- What an iteration of MISLP does, given the answer of the MILP solver. -/
theorem mislp_cases {c : SlpCfg K n} {lin : Linearization K n} {solver : Milp K n → Option ((Fin n → K) × K)} {s s' : Slp K n}
    (h : mislpIter c lin solver s = .ok s') (hs : ∀ P, MilpAnswer P (solver P)) :
    ∃ w, windows (fun i => mislpWindow c.type s.m (c.vars i) (s.value c i)) = .ok w ∧
      ((s'.X = s.X ∧ ∀ x b, ¬ (mislpProblem c lin s w).Feasible x b) ∨
        ∃ x b, MilpAnswer (mislpProblem c lin s w) (some (x, b)) ∧ ∀ i, s'.X i = round3 (x i)) := by
  unfold mislpIter at h
  split at h
  · cases h
  · rename_i w hw
    have h := Except.ok.inj h
    refine ⟨w, hw, ?_⟩
    have hans := hs (mislpProblem c lin s w)
    cases hr : solver (mislpProblem c lin s w) with
    | none =>
      rw [hr] at hans h
      subst h
      refine Or.inl ⟨?_, hans⟩
      funext i
      exact add_zero _
    | some r =>
      obtain ⟨x, b⟩ := r
      rw [hr] at hans h
      subst h
      refine Or.inr ⟨x, b, hans, fun i => ?_⟩
      exact add_sub_cancel _ _

/-- C122: without binary variables in the problem, every change of the design gives the discrete variables allowed values, if these are multiples
    of a thousandth. Missing: other values (`C122_violation`) and problems with binary variables (`C122_violation_binary`). -/
theorem C122_partial {c : SlpCfg K n} {lin : Linearization K n} {solver : Milp K n → Option ((Fin n → K) × K)} {s s' : Slp K n}
    (hs : ∀ P, MilpAnswer P (solver P)) (h : mislpIter c lin solver s = .ok s') (hmove : s'.X ≠ s.X)
    (hnb : ∀ i, (c.vars i).kind ≠ .binary) (i : Fin n) (values : List K) (hk : (c.vars i).kind = .discrete values)
    (hv : ∀ u ∈ values, ∃ z : ℤ, u * 1000 = z) : s'.X i ∈ values := by
  obtain ⟨w, _, hx⟩ := mislp_cases h hs
  rcases hx with ⟨hx, _⟩ | ⟨x, b, hx, hX⟩
  · exact absurd hx hmove
  · have h1 : kindOk (HasBinary fun i => (c.vars i).kind) (c.vars i).kind (x i) := hx.1.2.2.2 i
    rw [hk] at h1
    have h2 := (chosen_iff values (x i)).1 (h1 fun ⟨j, hj⟩ => hnb j hj)
    obtain ⟨z, hz⟩ := hv _ h2
    rw [hX i, round3_exact hz]
    exact h2

/-- C122, negation: if no allowed value is a multiple of a thousandth (areas in square metres, say), every change of the design
    gives the variable a value that is not allowed. -/
theorem C122_violation {c : SlpCfg K n} {lin : Linearization K n} {solver : Milp K n → Option ((Fin n → K) × K)} {s s' : Slp K n}
    (hs : ∀ P, MilpAnswer P (solver P)) (h : mislpIter c lin solver s = .ok s') (hmove : s'.X ≠ s.X)
    (i : Fin n) (values : List K) (hv : ∀ u ∈ values, ∀ z : ℤ, u * 1000 ≠ z) : s'.X i ∉ values := by
  obtain ⟨w, _, hx⟩ := mislp_cases h hs
  rcases hx with ⟨hx, _⟩ | ⟨x, b, hx, hX⟩
  · exact absurd hx hmove
  · intro hc
    refine hv _ hc (pyRound (x i * 1000)) ?_
    rw [hX i]
    unfold round3
    field_simp

theorem pyRound_err (x : K) : |(pyRound x : K) - x| ≤ 1 / 2 := by
  have h1 := Int.floor_le x
  have h2 := Int.lt_floor_add_one x
  unfold pyRound
  rw [abs_le]
  split
  · rename_i h
    constructor <;> linarith
  · rename_i h
    split
    · rename_i h'
      push_cast
      constructor <;> linarith
    · rename_i h'
      split
      · constructor <;> linarith
      · push_cast
        constructor <;> linarith

theorem round3_err (x : K) : |round3 x - x| ≤ 1 / 2000 := by
  have h := pyRound_err (x * 1000)
  unfold round3
  rw [abs_le] at h ⊢
  constructor
  · rw [le_sub_iff_add_le, le_div_iff₀ (by norm_num)]
    linarith [h.1]
  · rw [sub_le_iff_le_add, div_le_iff₀ (by norm_num)]
    linarith [h.2]

/-- C121 for MISLP: before rounding to thousandths, equality constraints hold exactly and constraints of type `'<'` up to the relaxation, to
    first order. -/
theorem C121_mislp_partial {c : SlpCfg K n} {lin : Linearization K n} {solver : Milp K n → Option ((Fin n → K) × K)} {s s' : Slp K n}
    (hs : ∀ P, MilpAnswer P (solver P)) (h : mislpIter c lin solver s = .ok s') (hmove : s'.X ≠ s.X) :
    ∃ (x : Fin n → K) (b : K), (∀ i, |s'.X i - x i| ≤ 1 / 2000) ∧ 0 ≤ b ∧ b ≤ s.beta ∧
      (∀ g d, rowOf .lt g d s.X ∈ (lin s.X).1 → firstOrder g d s.X x ≤ b) ∧
      (∀ g d, rowOf .eq g d s.X ∈ (lin s.X).1 → firstOrder g d s.X x = 0) := by
  obtain ⟨w, _, hx⟩ := mislp_cases h hs
  have h3 : ∀ (e x : Fin n → K), ∑ j, e j * (x j - s.X j) = ∑ j, e j * x j - ∑ j, e j * s.X j := by
    intro e x
    rw [← Finset.sum_sub_distrib]
    exact Finset.sum_congr rfl fun j _ => mul_sub _ _ _
  rcases hx with ⟨hx, _⟩ | ⟨x, b, hx, hX⟩
  · exact absurd hx hmove
  · refine ⟨x, b, fun i => by rw [hX i]; exact round3_err _, hx.1.2.1.1, hx.1.2.1.2, ?_, ?_⟩
    · intro g e hr
      have h2 : ∑ j, e j * x j ≤ ∑ j, e j * s.X j - g + b := hx.1.2.2.1 _ hr
      unfold firstOrder
      rw [h3]
      linarith
    · intro g e hr
      have h2 : ∑ j, e j * x j = ∑ j, e j * s.X j - g := hx.1.2.2.1 _ hr
      unfold firstOrder
      rw [h3]
      linarith

/-- C119 for MISLP: move limits and the bound of beta shrink by the factor `1 - γ` in every iteration. -/
theorem C119_mislp {c : SlpCfg K n} {lin : Linearization K n} {solver : Milp K n → Option ((Fin n → K) × K)} {s s' : Slp K n}
    (h : mislpIter c lin solver s = .ok s') :
    s'.m = (s.m.1 * (1 - c.gamma), s.m.2 * (1 - c.gamma)) ∧ s'.beta = s.beta * (1 - c.gamma) ∧ s'.C = s.C := by
  unfold mislpIter at h
  split at h
  · cases h
  · rename_i w _
    have h := Except.ok.inj h
    subst h
    cases solver (mislpProblem c lin s w) <;> exact ⟨rfl, rfl, rfl⟩

theorem round3_nat (z : ℤ) : round3 (z : K) = z := round3_exact (z := z * 1000) (by push_cast; ring)

/-- C121 for MISLP, negation: constraints of type `'>'` are left out of the mixed-integer problem. The first design satisfies the linear
    constraint `x - 4 > 0`, the next one, `x = 1`, does not. -/
theorem C121_violation_mislp {solver : Milp K 1 → Option ((Fin 1 → K) × K)} (hs : ∀ P, MilpAnswer P (solver P)) :
    ∃ s', mislpIter fourCfg (fourLin .gt) solver fourStart = .ok s' ∧ s'.X 0 - 4 = -3 := by
  have hwin : windows (fun i => mislpWindow (fourCfg (K := K)).type (fourStart (K := K)).m ((fourCfg (K := K)).vars i)
      ((fourStart (K := K)).value fourCfg i)) = .ok fun _ => (1, 10) := by
    apply windows_of
    intro i
    have e : (fourStart (K := K)).value fourCfg i = 6 := by
      show max (0 : K) (min 6 10) = 6
      norm_num
    rw [e]
    refine congrArg Except.ok (Prod.ext ?_ ?_)
    · show max ((6 : K) - 1 / 2 * (10 - 0)) 0 = 1
      norm_num
    · show min ((6 : K) + 1 / 2 * (10 - 0)) 10 = 10
      norm_num
  have hok : ∃ s', mislpIter (K := K) fourCfg (fourLin .gt) solver fourStart = .ok s' := by
    unfold mislpIter
    rw [hwin]
    exact ⟨_, rfl⟩
  obtain ⟨s', h⟩ := hok
  refine ⟨s', h, ?_⟩
  obtain ⟨w, hw, hx⟩ := mislp_cases h hs
  rw [hwin] at hw
  have hw := Except.ok.inj hw
  subst hw
  have hone : (mislpProblem (K := K) fourCfg (fourLin .gt) fourStart fun _ => (1, 10)).Feasible (fun _ => 1) 0 := by
    refine ⟨fun i => ?_, ?_, ?_, fun i => trivial⟩
    · show (1 : K) ≤ 1 ∧ (1 : K) ≤ 10
      norm_num
    · show (0 : K) ≤ 0 ∧ (0 : K) ≤ 10
      norm_num
    · intro r hr
      have hr : r = rowOf .gt (6 - 4) (fun _ => 1) (fun _ => 6) := by
        simpa [mislpProblem, fourLin, fourStart] using hr
      subst hr
      trivial
  rcases hx with ⟨_, hx⟩ | ⟨x, b, hx, hX⟩
  · exact absurd hone (hx _ _)
  · have hx0 : (1 : K) ≤ x 0 := (hx.1.1 0).1
    have hb : (0 : K) ≤ b := hx.1.2.1.1
    have hcost : lpCost (fun _ : Fin 1 => (1 : K)) 200000 x b ≤ lpCost (fun _ : Fin 1 => (1 : K)) 200000 (fun _ => 1) 0 := hx.2 _ _ hone
    simp only [lpCost, Finset.univ_unique, Finset.sum_singleton, Fin.default_eq_zero] at hcost
    norm_num at hcost
    have e : x 0 = ((1 : ℤ) : K) := by
      push_cast
      linarith
    rw [hX 0, e, round3_nat]
    norm_num

/-- One continuous variable between 0 and 0.0006, to be maximised. -/
def smallCfg : SlpCfg K 1 := slpCfg (fun _ => ⟨0, 6 / 10000, .cont⟩) (1 / 1000) 100 true .range

def smallLin : Linearization K 1 := fun _ => ([], fun _ => -1)

def smallStart : Slp K 1 := ⟨fun _ => 0, (1, 1), 200000, 100⟩

/-- C118, negation for MISLP: rounding to thousandths takes the design out of the bounds. -/
theorem C118_violation_mislp {solver : Milp K 1 → Option ((Fin 1 → K) × K)} (hs : ∀ P, MilpAnswer P (solver P)) :
    ∃ s', mislpIter smallCfg smallLin solver smallStart = .ok s' ∧ ((smallCfg (K := K)).vars 0).ub < s'.X 0 := by
  have hwin : windows (fun i => mislpWindow (smallCfg (K := K)).type (smallStart (K := K)).m ((smallCfg (K := K)).vars i)
      ((smallStart (K := K)).value smallCfg i)) = .ok fun _ => (0, 6 / 10000) := by
    apply windows_of
    intro i
    have e : (smallStart (K := K)).value smallCfg i = 0 := by
      show max (0 : K) (min 0 (6 / 10000)) = 0
      norm_num
    rw [e]
    refine congrArg Except.ok (Prod.ext ?_ ?_)
    · show max ((0 : K) - 1 * (6 / 10000 - 0)) 0 = 0
      norm_num
    · show min ((0 : K) + 1 * (6 / 10000 - 0)) (6 / 10000) = 6 / 10000
      norm_num
  have hok : ∃ s', mislpIter (K := K) smallCfg smallLin solver smallStart = .ok s' := by
    unfold mislpIter
    rw [hwin]
    exact ⟨_, rfl⟩
  obtain ⟨s', h⟩ := hok
  refine ⟨s', h, ?_⟩
  obtain ⟨w, hw, hx⟩ := mislp_cases h hs
  rw [hwin] at hw
  have hw := Except.ok.inj hw
  subst hw
  have hone : (mislpProblem (K := K) smallCfg smallLin smallStart fun _ => (0, 6 / 10000)).Feasible (fun _ => 6 / 10000) 0 := by
    refine ⟨fun i => ?_, ?_, fun r hr => ?_, fun i => trivial⟩
    · show (0 : K) ≤ 6 / 10000 ∧ (6 / 10000 : K) ≤ 6 / 10000
      norm_num
    · show (0 : K) ≤ 0 ∧ (0 : K) ≤ 100
      norm_num
    · cases hr
  rcases hx with ⟨_, hx⟩ | ⟨x, b, hx, hX⟩
  · exact absurd hone (hx _ _)
  · have hx0 : x 0 ≤ 6 / 10000 := (hx.1.1 0).2
    have hb : (0 : K) ≤ b := hx.1.2.1.1
    have hcost : lpCost (fun _ : Fin 1 => (-1 : K)) 200000 x b ≤ lpCost (fun _ : Fin 1 => (-1 : K)) 200000 (fun _ => 6 / 10000) 0 := hx.2 _ _ hone
    simp only [lpCost, Finset.univ_unique, Finset.sum_singleton, Fin.default_eq_zero] at hcost
    have e : x 0 = 6 / 10000 := by linarith
    have e3 : pyRound (6 / 10000 * 1000 : K) = 1 := by
      have e4 : (6 / 10000 * 1000 : K) = 3 / 5 := by norm_num
      have e5 : ⌊(3 / 5 : K)⌋ = 0 := by
        rw [Int.floor_eq_iff]
        norm_num
      unfold pyRound
      rw [e4, e5, if_neg (by norm_num), if_pos (by norm_num)]
      norm_num
    rw [hX 0, e]
    unfold round3
    rw [e3]
    show (6 / 10000 : K) < ((1 : ℤ) : K) / 1000
    norm_num

/-- A binary variable and a discrete variable with the values 1 and 3, to be minimised with `x ≥ 2`. -/
def mixedCfg : SlpCfg K 2 := slpCfg (fun i => if i = 0 then ⟨0, 1, .binary⟩ else ⟨1, 3, .discrete [1, 3]⟩) (1 / 1000) 100 true .range

def mixedLin : Linearization K 2 := fun X => ([rowOf .lt (2 - X 1) (fun i => if i = 0 then 0 else -1) X], fun i => if i = 0 then 0 else 1)

def mixedStart : Slp K 2 := ⟨fun i => if i = 0 then 0 else 3, (1, 1), 10, 100⟩

/-- C122, negation: with a binary variable in the problem the discrete variables are continuous: the design moves from the allowed value 3 to 2. -/
theorem C122_violation_binary {solver : Milp K 2 → Option ((Fin 2 → K) × K)} (hs : ∀ P, MilpAnswer P (solver P)) :
    ∃ s', mislpIter mixedCfg mixedLin solver mixedStart = .ok s' ∧ s'.X 1 = 2 ∧ s'.X 1 ∉ [(1 : K), 3] := by
  have hwin : windows (fun i => mislpWindow (mixedCfg (K := K)).type (mixedStart (K := K)).m ((mixedCfg (K := K)).vars i)
      ((mixedStart (K := K)).value mixedCfg i)) = .ok fun i => if i = 0 then (0, 1) else (1, 3) := by
    apply windows_of
    intro i
    match i with
    | 0 => rfl
    | 1 =>
      have e : (mixedStart (K := K)).value mixedCfg 1 = 3 := by
        show max (1 : K) (min 3 3) = 3
        norm_num
      rw [e]
      have hs : ([1, 3] : List K).Pairwise (· < ·) := by simp
      have ha : argminSq (3 : K) [1, 3] = .ok 1 := argminSq_exact hs (i := 1) rfl
      have hwd : widen ([1, 3] : List K) 3 (1 * (3 - 1), 1 * (3 - 1)) = .ok (2, 2) := by
        unfold widen
        rw [ha]
        refine congrArg Except.ok (Prod.ext ?_ ?_)
        · show max ((1 : K) * (3 - 1)) (3 - 1) = 2
          norm_num
        · show ((1 : K) * (3 - 1)) = 2
          norm_num
      have hmv : mislpMoves LimitType.range (1, 1) (⟨1, 3, .discrete [1, 3]⟩ : SVar K) 3 = .ok (2, 2) := hwd
      show mislpWindow LimitType.range (1, 1) (⟨1, 3, .discrete [1, 3]⟩ : SVar K) 3 = .ok (1, 3)
      unfold mislpWindow
      rw [hmv]
      refine congrArg Except.ok (Prod.ext ?_ ?_)
      · show max ((3 : K) - 2) 1 = 1
        norm_num
      · show min ((3 : K) + 2) 3 = 3
        norm_num
  have hok : ∃ s', mislpIter (K := K) mixedCfg mixedLin solver mixedStart = .ok s' := by
    unfold mislpIter
    rw [hwin]
    exact ⟨_, rfl⟩
  obtain ⟨s', h⟩ := hok
  refine ⟨s', h, ?_⟩
  obtain ⟨w, hw, hx⟩ := mislp_cases h hs
  rw [hwin] at hw
  have hw := Except.ok.inj hw
  subst hw
  have hlhs : ∀ x : Fin 2 → K, (rowOf (K := K) .lt (2 - 3) (fun i => if i = 0 then 0 else -1) (fun i => if i = 0 then 0 else 3) : LinRow K 2).lhs x = -x 1 := by
    intro x
    simp [LinRow.lhs, rowOf, Fin.sum_univ_two]
  have hmem : ∀ r, r ∈ (mixedLin (K := K) (mixedStart (K := K)).X).1 ↔
      r = rowOf .lt (2 - 3) (fun i => if i = 0 then 0 else -1) (fun i => if i = 0 then 0 else 3) := by
    intro r
    simp [mixedLin, mixedStart]
  have hone : (mislpProblem (K := K) mixedCfg mixedLin mixedStart fun i => if i = 0 then (0, 1) else (1, 3)).Feasible
      (fun i => if i = 0 then 0 else 2) 0 := by
    refine ⟨fun i => ?_, ?_, fun r hr => ?_, fun i => ?_⟩
    · match i with
      | 0 =>
        show (0 : K) ≤ 0 ∧ (0 : K) ≤ 1
        norm_num
      | 1 =>
        show (1 : K) ≤ 2 ∧ (2 : K) ≤ 3
        norm_num
    · show (0 : K) ≤ 0 ∧ (0 : K) ≤ 100
      norm_num
    · rw [(hmem r).1 hr]
      show LinRow.lhs _ _ ≤ _
      rw [hlhs]
      simp [rowOf, Fin.sum_univ_two]
    · match i with
      | 0 => exact Or.inl rfl
      | 1 => exact fun hn => absurd ⟨0, rfl⟩ hn
  rcases hx with ⟨_, hx⟩ | ⟨x, b, hx, hX⟩
  · exact absurd hone (hx _ _)
  · have hb : (0 : K) ≤ b := hx.1.2.1.1
    have hrow : milpRow x b (rowOf .lt (2 - 3) (fun i => if i = 0 then 0 else -1) (fun i => if i = 0 then 0 else 3)) :=
      hx.1.2.2.1 _ ((hmem _).2 rfl)
    have hrow : LinRow.lhs (rowOf (K := K) .lt (2 - 3) (fun i => if i = 0 then 0 else -1) (fun i => if i = 0 then 0 else 3)) x ≤
        (rowOf (K := K) .lt (2 - 3) (fun i : Fin 2 => if i = 0 then 0 else -1) (fun i => if i = 0 then 0 else 3)).b + b := hrow
    rw [hlhs] at hrow
    simp [rowOf, Fin.sum_univ_two] at hrow
    have hcost : lpCost (fun i : Fin 2 => if i = 0 then (0 : K) else 1) 10 x b ≤
      lpCost (fun i : Fin 2 => if i = 0 then (0 : K) else 1) 10 (fun i => if i = 0 then 0 else 2) 0 := hx.2 _ _ hone
    simp [lpCost, Fin.sum_univ_two] at hcost
    have e : x 1 = ((2 : ℤ) : K) := by
      push_cast
      linarith
    have e2 : s'.X 1 = 2 := by
      rw [hX 1, e, round3_nat]
      norm_num
    refine ⟨e2, ?_⟩
    rw [e2]
    norm_num

/-! ### Correct solvers exist, and examples -/

/-- Over the reals every linear problem of SLP has an optimal solution or no feasible point, so a correct LP solver exists. -/
theorem lpSolver_exists (n : Nat) : ∃ solver : Lp ℝ n → Option ((Fin n → ℝ) × ℝ), ∀ P, LpAnswer P (solver P) := by
  have key : ∀ P : Lp ℝ n, ∃ r, LpAnswer P r := by
    intro P
    by_cases hne : ∃ p : (Fin n → ℝ) × ℝ, P.Feasible p.1 p.2
    · have hcl : IsClosed {p : (Fin n → ℝ) × ℝ | P.Feasible p.1 p.2} := by
        have h1 : IsClosed {p : (Fin n → ℝ) × ℝ | ∀ i, (P.win i).1 ≤ p.1 i ∧ p.1 i ≤ (P.win i).2} := by
          simp only [Set.ofPred_forall, Set.ofPred_and]
          exact isClosed_iInter fun i => (isClosed_le continuous_const (by fun_prop)).inter (isClosed_le (by fun_prop) continuous_const)
        have h2 : IsClosed {p : (Fin n → ℝ) × ℝ | betaOk P.betaMax p.2} := by
          cases hb : P.betaMax with
          | none => exact isClosed_eq continuous_snd continuous_const
          | some u => exact (isClosed_le continuous_const continuous_snd).inter (isClosed_le continuous_snd continuous_const)
        have h3 : IsClosed {p : (Fin n → ℝ) × ℝ | ∀ r ∈ P.rows, r.lhs p.1 ≤ r.b + p.2} := by
          simp only [Set.ofPred_forall]
          refine isClosed_iInter fun r => isClosed_iInter fun _ => isClosed_le ?_ (by fun_prop)
          unfold LinRow.lhs
          fun_prop
        exact h1.inter (h2.inter h3)
      have hsub : {p : (Fin n → ℝ) × ℝ | P.Feasible p.1 p.2} ⊆
          Set.Icc ((fun i => (P.win i).1), (0 : ℝ)) ((fun i => (P.win i).2), max 0 (P.betaMax.getD 0)) := by
        intro p hp
        have hb := hp.2.1
        have : 0 ≤ p.2 ∧ p.2 ≤ max 0 (P.betaMax.getD 0) := by
          cases hbm : P.betaMax with
          | none =>
            rw [hbm] at hb
            have hb : p.2 = 0 := hb
            rw [hb]
            exact ⟨le_refl _, le_max_left _ _⟩
          | some u =>
            rw [hbm] at hb
            exact ⟨hb.1, le_trans hb.2 (le_max_right _ _)⟩
        exact ⟨⟨fun i => (hp.1 i).1, this.1⟩, ⟨fun i => (hp.1 i).2, this.2⟩⟩
      have hco := isCompact_Icc.of_isClosed_subset hcl hsub
      have hcont : ContinuousOn (fun p : (Fin n → ℝ) × ℝ => lpCost P.df P.C p.1 p.2) {p | P.Feasible p.1 p.2} := by
        unfold lpCost
        fun_prop
      obtain ⟨p, hp, hmin⟩ := hco.exists_isMinOn hne hcont
      exact ⟨some p, hp, fun x b hx => hmin (show P.Feasible (x, b).1 (x, b).2 from hx)⟩
    · exact ⟨none, fun x b h => hne ⟨(x, b), h⟩⟩
  choose solver h using key
  exact ⟨solver, h⟩

/-- The same for the mixed-integer problems of MISLP. -/
theorem milpSolver_exists (n : Nat) : ∃ solver : Milp ℝ n → Option ((Fin n → ℝ) × ℝ), ∀ P, MilpAnswer P (solver P) := by
  have key : ∀ P : Milp ℝ n, ∃ r, MilpAnswer P r := by
    intro P
    by_cases hne : ∃ p : (Fin n → ℝ) × ℝ, P.Feasible p.1 p.2
    · have hcl : IsClosed {p : (Fin n → ℝ) × ℝ | P.Feasible p.1 p.2} := by
        have h1 : IsClosed {p : (Fin n → ℝ) × ℝ | ∀ i, (P.win i).1 ≤ p.1 i ∧ p.1 i ≤ (P.win i).2} := by
          simp only [Set.ofPred_forall, Set.ofPred_and]
          exact isClosed_iInter fun i => (isClosed_le continuous_const (by fun_prop)).inter (isClosed_le (by fun_prop) continuous_const)
        have h2 : IsClosed {p : (Fin n → ℝ) × ℝ | 0 ≤ p.2 ∧ p.2 ≤ P.betaMax} :=
          (isClosed_le continuous_const continuous_snd).inter (isClosed_le continuous_snd continuous_const)
        have h3 : IsClosed {p : (Fin n → ℝ) × ℝ | ∀ r ∈ P.rows, milpRow p.1 p.2 r} := by
          simp only [Set.ofPred_forall]
          refine isClosed_iInter fun r => isClosed_iInter fun _ => ?_
          have hc : Continuous fun p : (Fin n → ℝ) × ℝ => r.lhs p.1 := by
            unfold LinRow.lhs
            fun_prop
          unfold milpRow
          cases r.type with
          | lt => exact isClosed_le hc (by fun_prop)
          | eq => exact isClosed_eq hc continuous_const
          | gt => exact isClosed_univ
        have h4 : IsClosed {p : (Fin n → ℝ) × ℝ | ∀ i, kindOk (HasBinary P.kinds) (P.kinds i) (p.1 i)} := by
          simp only [Set.ofPred_forall]
          refine isClosed_iInter fun i => ?_
          have hc : Continuous fun p : (Fin n → ℝ) × ℝ => p.1 i := by fun_prop
          cases P.kinds i with
          | cont => exact isClosed_univ
          | binary =>
            exact (isClosed_eq hc continuous_const).union (isClosed_eq hc continuous_const)
          | discrete values =>
            by_cases hb : HasBinary P.kinds
            · have : {p : (Fin n → ℝ) × ℝ | kindOk (HasBinary P.kinds) (.discrete values) (p.1 i)} = Set.univ := by
                ext p
                simp [kindOk, hb]
              rw [this]
              exact isClosed_univ
            · have : {p : (Fin n → ℝ) × ℝ | kindOk (HasBinary P.kinds) (.discrete values) (p.1 i)} =
                  (fun p : (Fin n → ℝ) × ℝ => p.1 i) ⁻¹' {u | u ∈ values} := by
                ext p
                simp [kindOk, hb, chosen_iff]
              rw [this]
              exact (values.finite_toSet.isClosed).preimage hc
        exact h1.inter (h2.inter (h3.inter h4))
      have hsub : {p : (Fin n → ℝ) × ℝ | P.Feasible p.1 p.2} ⊆
          Set.Icc ((fun i => (P.win i).1), (0 : ℝ)) ((fun i => (P.win i).2), P.betaMax) := by
        intro p hp
        exact ⟨⟨fun i => (hp.1 i).1, hp.2.1.1⟩, ⟨fun i => (hp.1 i).2, hp.2.1.2⟩⟩
      have hco := isCompact_Icc.of_isClosed_subset hcl hsub
      have hcont : ContinuousOn (fun p : (Fin n → ℝ) × ℝ => lpCost P.df P.C p.1 p.2) {p | P.Feasible p.1 p.2} := by
        unfold lpCost
        fun_prop
      obtain ⟨p, hp, hmin⟩ := hco.exists_isMinOn hne hcont
      exact ⟨some p, hp, fun x b hx => hmin (show P.Feasible (x, b).1 (x, b).2 from hx)⟩
    · exact ⟨none, fun x b h => hne ⟨(x, b), h⟩⟩
  choose solver h using key
  exact ⟨solver, h⟩

/-- The hypotheses of C118, C119, C121 and C124 are met by the problem of the violations: with a correct solver, `k` iterations of the cubic problem
    keep the design within the bounds and, in total, within 50 ranges of its start. -/
example (k : Nat) : ∃ (solver : Lp ℝ 1 → Option ((Fin 1 → ℝ) × ℝ)) (s' : Slp ℝ 1), (∀ P, LpAnswer P (solver P)) ∧
    slpRun cubicCfg cubicLin solver k cubicStart = .ok s' ∧ s'.m = (1 / 2 * (99 / 100) ^ k, 1 / 2 * (99 / 100) ^ k) ∧ s'.X 0 ≤ 101 := by
  obtain ⟨solver, hs⟩ := lpSolver_exists 1
  obtain ⟨s', h⟩ := run_ok (c := cubicCfg) (lin := cubicLin) (solver := solver) rfl k cubicStart
  refine ⟨solver, s', hs, h, ?_⟩
  have hC := C119 hs rfl (by show (0 : ℝ) < 1 / 100 ∧ (1 / 100 : ℝ) ≤ 1; norm_num) k
    (fun i => by show (0 : ℝ) ≤ 1 ∧ (1 : ℝ) ≤ 2; norm_num) (by show (0 : ℝ) ≤ 1 / 2 ∧ (0 : ℝ) ≤ 1 / 2; norm_num) h 0
  obtain ⟨_, h1, _, _, _, h2⟩ := hC
  refine ⟨?_, ?_⟩
  · rw [h1]
    show ((1 / 2 : ℝ) * (1 - 1 / 100) ^ k, (1 / 2 : ℝ) * (1 - 1 / 100) ^ k) = _
    norm_num
  · have h2 : s'.X 0 ≤ 1 + 1 / 2 * (2 - 0) / (1 / 100) := h2
    norm_num at h2
    exact h2

/-- Limits relative to the value: the design `(-1, 5)` is frozen. -/
example (k : Nat) : ∃ (solver : Lp ℝ 2 → Option ((Fin 2 → ℝ) × ℝ)), ∀ s', slpRun (slpCfg (fun _ => ⟨-10, 10, .cont⟩) (1 / 100) 10 true .relative)
    (fun _ => ([], fun _ => 1)) solver k ⟨fun i => if i = 0 then -1 else 5, (1 / 20, 1 / 20), 200000, 10⟩ = .ok s' → s'.X 1 = 5 := by
  obtain ⟨solver, hs⟩ := lpSolver_exists 2
  refine ⟨solver, fun s' h => ?_⟩
  have := C118_violation hs rfl (by show (1 / 100 : ℝ) < 1; norm_num) k (fun i => ?_)
    (by show (0 : ℝ) < 1 / 20 ∧ (0 : ℝ) < 1 / 20; norm_num) (i := 0) (by show (-1 : ℝ) < 0; norm_num) h
  · rw [this]
    rfl
  · match i with
    | 0 => show (-10 : ℝ) ≤ -1 ∧ (-1 : ℝ) ≤ 10; norm_num
    | 1 => show (-10 : ℝ) ≤ 5 ∧ (5 : ℝ) ≤ 10; norm_num

/-- C120: the hypotheses are met by the first iteration of the cubic problem. -/
example : ∃ (solver : Lp ℝ 1 → Option ((Fin 1 → ℝ) × ℝ)) (s' : Slp ℝ 1), slpIter cubicCfg cubicLin solver cubicStart = .ok s' ∧
    ∃ b, 0 ≤ b ∧ b ≤ 10 ∧ s'.X 0 + 200000 * b ≤ 1 + 200000 * 10 := by
  obtain ⟨solver, hs⟩ := lpSolver_exists 1
  obtain ⟨s', h⟩ := iter_ok (c := cubicCfg) (lin := cubicLin) (solver := solver) rfl cubicStart
  refine ⟨solver, s', h, ?_⟩
  obtain ⟨b, h1, h2, _, h4⟩ := C120_partial hs (fun i => by show (0 : ℝ) ≤ 1 ∧ (1 : ℝ) ≤ 2; norm_num)
    (by show (0 : ℝ) ≤ 1 / 2 ∧ (0 : ℝ) ≤ 1 / 2; norm_num) rfl (by show (! decide ((10 : ℝ) = 0)) = true; norm_num)
    (by show (0 : ℝ) ≤ 10; norm_num) (by
      intro r hr
      have hr : r = rowOf .lt (cubic 1) (fun _ => -5 - 16 * 1 + 21 * 1 ^ 2) (fun _ => 1) := by
        simpa [cubicLin, cubicStart] using hr
      subst hr
      simp only [rowOf, cubic, cubicStart, Finset.univ_unique, Finset.sum_singleton]
      norm_num) h
  refine ⟨b, h1, h2, ?_⟩
  simpa [cubicLin, cubicStart] using h4

/-- C121 and C124: the constraint `x - 4 ≤ 0` and the objective `x` from the design `6`: the design moves, its constraint value is at most the
    relaxation. -/
example : ∃ (solver : Lp ℝ 1 → Option ((Fin 1 → ℝ) × ℝ)) (s' : Slp ℝ 1), slpIter fourCfg (fourLin .lt) solver fourStart = .ok s' ∧
    ∃ b, 0 ≤ b ∧ b ≤ 10 ∧ (6 : ℝ) - 4 + 1 * (s'.X 0 - 6) ≤ b := by
  obtain ⟨solver, hs⟩ := lpSolver_exists 1
  obtain ⟨s', h, hx⟩ := C121_violation .lt hs
  refine ⟨solver, s', h, ?_⟩
  obtain ⟨b, h1, _, h2, h3, _⟩ := C121_partial hs (fun i => by show (0 : ℝ) ≤ 6 ∧ (6 : ℝ) ≤ 10; norm_num) rfl
    (by show (0 : ℝ) ≤ 10; norm_num) h (by
      intro hc
      rw [hc] at hx
      have : (6 : ℝ) - 4 = -3 := hx
      norm_num at this)
  refine ⟨b, h1, h2 (by show (! decide ((10 : ℝ) = 0)) = true; norm_num), ?_⟩
  have := h3 (6 - 4) (fun _ => 1) (by simp [fourLin, fourStart])
  simpa [firstOrder, fourStart] using this

/-- C123: areas of three profiles. -/
example : ∃ w, mislpWindow .range ((1 / 1000, 1 / 1000) : ℚ × ℚ) ⟨10, 40, .discrete [10, 20, 40]⟩ 20 = .ok w ∧ w.1 ≤ 10 ∧ 40 ≤ w.2 := by
  obtain ⟨w, hw, h⟩ := C123_partial (K := ℚ) .range (1 / 1000, 1 / 1000) ⟨10, 40, .discrete [10, 20, 40]⟩ (i := 1) (x := 20) (d := 30) rfl
    (by simp; norm_num) (by simp) rfl (by simp; norm_num) (by simp [moveDelta]; norm_num) (by norm_num)
  exact ⟨w, hw, (h 0 10 rfl (by omega) (by omega)).1, (h 2 40 rfl (by omega) (by omega)).2⟩

/-- C122: a discrete variable with values in square metres: no value is a multiple of a thousandth, and the hypotheses can be met. -/
example : ∀ u ∈ [(123 / 100000 : ℚ), 246 / 100000], ∀ z : ℤ, u * 1000 ≠ z := by
  intro u hu z h
  simp only [List.mem_cons, List.not_mem_nil, or_false] at hu
  rcases hu with rfl | rfl
  · have h : (123 : ℚ) = 100 * z := by linarith
    have : (123 : ℤ) = 100 * z := by exact_mod_cast h
    omega
  · have h : (246 : ℚ) = 100 * z := by linarith
    have : (246 : ℤ) = 100 * z := by exact_mod_cast h
    omega

/-- C122: one iteration of MISLP with the values 10, 20, 40 from 20 with the objective `x`: the design moves to the allowed value 10. -/
example : ∃ (solver : Milp ℝ 1 → Option ((Fin 1 → ℝ) × ℝ)) (s' : Slp ℝ 1), mislpIter
    (slpCfg (fun _ => ⟨10, 40, .discrete [10, 20, 40]⟩) (1 / 1000) 100 true .range) (fun _ => ([], fun _ => 1)) solver
    ⟨fun _ => 20, (1 / 10, 1 / 10), 200000, 100⟩ = .ok s' ∧ s'.X 0 ≠ 20 ∧ s'.X 0 ∈ [(10 : ℝ), 20, 40] := by
  obtain ⟨solver, hs⟩ := milpSolver_exists 1
  set c : SlpCfg ℝ 1 := slpCfg (fun _ => ⟨10, 40, .discrete [10, 20, 40]⟩) (1 / 1000) 100 true .range with hc
  set lin : Linearization ℝ 1 := fun _ => ([], fun _ => 1) with hlin
  set s : Slp ℝ 1 := ⟨fun _ => 20, (1 / 10, 1 / 10), 200000, 100⟩ with hss
  have hv : s.value c 0 = 20 := by
    show max (10 : ℝ) (min 20 40) = 20
    norm_num
  obtain ⟨w, hw, hnb⟩ := C123_partial (K := ℝ) .range (1 / 10, 1 / 10) ⟨10, 40, .discrete [10, 20, 40]⟩ (i := 1) (x := 20) (d := 30) rfl
    (by simp; norm_num) (by simp) rfl (by simp; norm_num) (by simp [moveDelta]; norm_num) (by norm_num)
  have hwin : windows (fun i => mislpWindow c.type s.m (c.vars i) (s.value c i)) = .ok fun _ => w := by
    apply windows_of
    intro i
    rw [Subsingleton.elim i 0, hv]
    exact hw
  have hok : ∃ s', mislpIter c lin solver s = .ok s' := by
    unfold mislpIter
    rw [hwin]
    exact ⟨_, rfl⟩
  obtain ⟨s', h⟩ := hok
  refine ⟨solver, s', h, ?_⟩
  have hten : (mislpProblem c lin s fun _ => w).Feasible (fun _ => 10) 0 := by
    refine ⟨fun i => hnb 0 10 rfl (by omega) (by omega), by show (0 : ℝ) ≤ 0 ∧ (0 : ℝ) ≤ 100; norm_num, (fun r hr => nomatch hr), fun i => ?_⟩
    exact fun _ => (chosen_iff _ _).2 (by simp)
  have hne : s'.X 0 ≠ 20 := by
    obtain ⟨w', hw', hx⟩ := mislp_cases h hs
    rw [hwin] at hw'
    have hw' := Except.ok.inj hw'
    subst hw'
    rcases hx with ⟨_, hx⟩ | ⟨x, b, hx, hX⟩
    · exact absurd hten (hx _ _)
    · have hb : (0 : ℝ) ≤ b := hx.1.2.1.1
      have hcost : lpCost (fun _ : Fin 1 => (1 : ℝ)) 200000 x b ≤ lpCost (fun _ : Fin 1 => (1 : ℝ)) 200000 (fun _ => 10) 0 := hx.2 _ _ hten
      simp only [lpCost, Finset.univ_unique, Finset.sum_singleton, Fin.default_eq_zero] at hcost
      norm_num at hcost
      have := round3_err (x 0)
      rw [abs_le] at this
      rw [hX 0]
      intro hc
      rw [hc] at this
      linarith [this.2]
  refine ⟨hne, ?_⟩
  refine C122_partial hs h (fun hc => hne (by rw [hc])) (fun i hi => nomatch hi) 0 [10, 20, 40] rfl ?_
  intro u hu
  simp only [List.mem_cons, List.not_mem_nil, or_false] at hu
  rcases hu with rfl | rfl | rfl
  · exact ⟨10000, by norm_num⟩
  · exact ⟨20000, by norm_num⟩
  · exact ⟨40000, by norm_num⟩

end Metku.Opt
