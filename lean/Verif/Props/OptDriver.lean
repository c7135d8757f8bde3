import Mathlib.Algebra.Order.Field.Rat
import Mathlib.Tactic.Linarith
import Mathlib.Tactic.NormNum
import Verif.Model.OptDriver

/-!
Properties C20, C48 and C49: what the iteration driver records and returns.
-/
set_option linter.unusedSectionVars false

namespace Metku.Opt

variable {K : Type} [Field K] [LinearOrder K] [IsStrictOrderedRing K]

/-! ### Specification -/

/-- `x` satisfies every constraint within the problem's tolerance. -/
def Admissible (p : DProb K) (x : List K) : Prop :=
  ∀ c ∈ p.cons,
    match c.1 with
    | .lt => c.2 x ≤ p.conTol
    | .gt => -p.conTol ≤ c.2 x
    | .eq => |c.2 x| ≤ p.conTol

/-- `b` is a best one among the admissible points of `vs`: a pair of value and point, and nothing only if none is admissible. -/
def IsBest (p : DProb K) (vs : List (List K)) (b : Option (K × List K)) : Prop :=
  match b with
  | none => ∀ v ∈ vs, ¬ Admissible p v
  | some (f, x) => x ∈ vs ∧ Admissible p x ∧ f = p.obj x ∧ ∀ v ∈ vs, Admissible p v → f ≤ p.obj v

/-! ### Helper facts -/

theorem isFeasible_iff (p : DProb K) (x : List K) : isFeasible p x = true ↔ Admissible p x := by
  unfold isFeasible Admissible
  rw [List.all_eq_true]
  constructor
  · intro h c hc
    have := h c hc
    revert this
    cases c.1 <;> simp
  · intro h c hc
    have := h c hc
    revert this
    cases c.1 <;> simp

theorem recordBest_isBest (p : DProb K) (vs : List (List K)) (b : Option (K × List K)) (h : IsBest p vs b) (x : List K) :
    IsBest p (vs ++ [x]) (recordBest p b x) := by
  unfold recordBest
  by_cases hf : isFeasible p x = true
  · have ha := (isFeasible_iff p x).1 hf
    cases b with
    | none =>
      simp only [hf, Bool.and_true, if_true]
      refine ⟨by simp, ha, rfl, fun v hv hva => ?_⟩
      rcases List.mem_append.1 hv with hv | hv
      · exact absurd hva (h v hv)
      · rw [List.mem_singleton.1 hv]
    | some b =>
      obtain ⟨f, y⟩ := b
      obtain ⟨h1, h2, h3, h4⟩ := h
      by_cases hlt : p.obj x < f
      · simp only [hf, Bool.and_true, hlt, decide_true, if_true]
        refine ⟨by simp, ha, rfl, fun v hv hva => ?_⟩
        rcases List.mem_append.1 hv with hv | hv
        · exact hlt.le.trans (h4 v hv hva)
        · rw [List.mem_singleton.1 hv]
      · simp only [hf, Bool.and_true, hlt, decide_false, Bool.false_eq_true, if_false]
        refine ⟨by simp [h1], h2, h3, fun v hv hva => ?_⟩
        rcases List.mem_append.1 hv with hv | hv
        · exact h4 v hv hva
        · rw [List.mem_singleton.1 hv]; exact not_lt.1 hlt
  · have ha : ¬ Admissible p x := fun h => hf ((isFeasible_iff p x).2 h)
    simp only [Bool.not_eq_true] at hf
    simp only [hf, Bool.and_false, Bool.false_eq_true, if_false]
    cases b with
    | none =>
      intro v hv
      rcases List.mem_append.1 hv with hv | hv
      · exact h v hv
      · rw [List.mem_singleton.1 hv]; exact ha
    | some b =>
      obtain ⟨f, y⟩ := b
      obtain ⟨h1, h2, h3, h4⟩ := h
      refine ⟨by simp [h1], h2, h3, fun v hv hva => ?_⟩
      rcases List.mem_append.1 hv with hv | hv
      · exact h4 v hv hva
      · rw [List.mem_singleton.1 hv] at hva; exact absurd hva ha

/-- Induction principle: what every iteration preserves, the loop preserves. -/
theorem loop_inv {p : DProb K} {k : StepKind} {act : Nat → Drv K → List K} {timeUp : Nat → Bool} (I : Drv K → Prop)
    (hstep : ∀ i s, I s → I (iterate p k act i s).1) : ∀ fuel i s, I s → I (loop p k act timeUp fuel i s) := by
  intro fuel
  induction fuel with
  | zero => intro i s h; exact h
  | succ n ih =>
    intro i s h
    unfold loop
    split
    · exact h
    · simp only
      split
      · exact hstep i s h
      · exact ih _ _ (hstep i s h)

theorem stepArr_best (p : DProb K) (k : StepKind) (s : Drv K) (a : List K) :
    (stepArr p k s a).1.best = s.best ∧ (stepArr p k s a).1.visited = s.visited ∧ (stepArr p k s a).1.xvals = s.xvals := by
  cases k <;> simp [stepArr]

/-! ### C20 -/

/-- One iteration visits one more point and keeps the record a best one of the points visited. -/
theorem C20_step (p : DProb K) (k : StepKind) (act : Nat → Drv K → List K) (i : Nat) (s : Drv K) (h : IsBest p s.visited s.best) :
    IsBest p (iterate p k act i s).1.visited (iterate p k act i s).1.best ∧
      ∃ x, (iterate p k act i s).1.visited = s.visited ++ [x] := by
  obtain ⟨e1, e2, _⟩ := stepArr_best p k s (act i s)
  simp only [iterate, e1, e2]
  exact ⟨recordBest_isBest p _ _ h _, _, rfl⟩

/-- C20: on a new solver object, for every step rule, clock and iteration limit, the returned pair is a best admissible point of those
    visited by the iterations, whenever one of them is admissible. Missing: the starting point is never considered, an inadmissible point is
    returned when none is admissible, and a second run starts from the first run's record (witnesses below). -/
theorem C20_partial (p : DProb K) (k : StepKind) (act : Nat → Drv K → List K) (timeUp : Nat → Bool) (maxiter : Nat) (shared : Bool)
    (x0 : List K) :
    let r := solve p k act timeUp maxiter shared x0
    (∃ v ∈ r.1.visited, Admissible p v) →
      r.2.2 ∈ r.1.visited ∧ Admissible p r.2.2 ∧ r.2.1 = p.obj r.2.2 ∧ ∀ v ∈ r.1.visited, Admissible p v → r.2.1 ≤ p.obj v := by
  intro r hv
  have hI : IsBest p r.1.visited r.1.best :=
    loop_inv (fun s => IsBest p s.visited s.best) (fun i s h => (C20_step p k act i s h).1) maxiter 0 _
      (by intro v hv; simp [startSolve] at hv)
  have hr : r.2 = finish p r.1 := rfl
  cases hb : r.1.best with
  | none =>
    rw [hb] at hI
    obtain ⟨v, hv, ha⟩ := hv
    exact absurd ha (hI v hv)
  | some b =>
    rw [hb] at hI
    obtain ⟨f, x⟩ := b
    have : r.2 = (f, x) := by rw [hr, finish, hb]
    rw [this]
    exact hI

/-- The recorded objective never increases: from any state with a record, whatever the iterations do. -/
theorem C20_monotone (p : DProb K) (k : StepKind) (act : Nat → Drv K → List K) (timeUp : Nat → Bool) (fuel i : Nat) (s : Drv K)
    (f : K) (x : List K) (h : s.best = some (f, x)) :
    ∃ f' x', (loop p k act timeUp fuel i s).best = some (f', x') ∧ f' ≤ f := by
  refine loop_inv (fun s => ∃ f' x', s.best = some (f', x') ∧ f' ≤ f) ?_ fuel i s ⟨f, x, h, le_refl f⟩
  rintro i s ⟨f', x', hb, hle⟩
  obtain ⟨e1, _, _⟩ := stepArr_best p k s (act i s)
  simp only [iterate, e1, hb, recordBest]
  split
  · rename_i hc
    simp only [Bool.and_eq_true, decide_eq_true_eq] at hc
    exact ⟨_, _, rfl, hc.1.le.trans hle⟩
  · exact ⟨f', x', rfl, hle⟩

/-! ### C48 and C49 -/

/-- The points listed in the solver's history. -/
def history (s : Drv K) : List (List K) := s.xvals.map s.arr

theorem getD_set_ne {l : List (List K)} {i j : Nat} {a : List K} (h : i ≠ j) : (l.set i a).getD j [] = l.getD j [] := by
  simp [List.getD_eq_getElem?_getD, List.getElem?_set_ne h]

theorem getD_append_lt {l m : List (List K)} {j : Nat} (h : j < l.length) : (l ++ m).getD j [] = l.getD j [] := by
  simp [List.getD_eq_getElem?_getD, List.getElem?_append_left h]

theorem getD_set_self {l : List (List K)} {i : Nat} {a : List K} (h : i < l.length) : (l.set i a).getD i [] = a := by
  simp [List.getD_eq_getElem?_getD, h]

/-- C48 for solvers that assign a new array in `step`: the history is the starting point followed by the visited points, in order. Missing: solvers
    that update the point in place (`C48_inplace`, `C48_violation`). -/
theorem C48_partial (p : DProb K) (act : Nat → Drv K → List K) (timeUp : Nat → Bool) (maxiter : Nat) (shared : Bool) (x0 : List K) :
    let r := solve p .replace act timeUp maxiter shared x0
    history r.1 = x0 :: r.1.visited := by
  intro r
  have hI : history r.1 = x0 :: r.1.visited ∧ ∀ j ∈ r.1.xvals, j < r.1.heap.length := by
    refine loop_inv (fun s => history s = x0 :: s.visited ∧ ∀ j ∈ s.xvals, j < s.heap.length) ?_ maxiter 0 _ ?_
    · rintro i s ⟨h1, h2⟩
      simp only [iterate, stepArr]
      constructor
      · simp only [history, List.map_append, List.map_cons, List.map_nil]
        rw [← List.cons_append, ← h1]
        congr 1
        refine List.map_congr_left fun j hj => ?_
        simp only [Drv.arr]
        exact getD_append_lt (h2 j hj)
      · intro j hj
        simp only [List.length_append, List.length_cons, List.length_nil]
        rcases List.mem_append.1 hj with hj | hj
        · have := h2 j hj; omega
        · rw [List.mem_singleton.1 hj]; omega
    · constructor
      · cases shared <;> simp [history, startSolve, Drv.arr]
      · intro j hj; simp [startSolve] at hj; subst hj; simp [startSolve]
  exact hI.1

/-- What the history of an in-place solver holds after at least one iteration: the first visited point is lost, every entry is shifted by
    one and the last point appears twice. -/
theorem C48_inplace (p : DProb K) (act : Nat → Drv K → List K) (timeUp : Nat → Bool) (maxiter : Nat) (shared : Bool) (x0 : List K) :
    let r := solve p .inplace act timeUp maxiter shared x0
    ∀ v vs, r.1.visited = v :: vs → history r.1 = x0 :: (vs ++ [(v :: vs).getLast (by simp)]) := by
  intro r
  have hI : (r.1.visited = [] ∧ history r.1 = [x0] ∧ (∀ j ∈ r.1.xvals, j ≠ r.1.X ∧ j < r.1.heap.length) ∧ r.1.X < r.1.heap.length) ∨
      (∃ pre w, r.1.xvals = pre ++ [r.1.X] ∧ (∀ j ∈ pre, j ≠ r.1.X ∧ j < r.1.heap.length) ∧ r.1.X < r.1.heap.length ∧
        r.1.visited.getLast? = some w ∧ r.1.arr r.1.X = w ∧ pre.map r.1.arr = x0 :: r.1.visited.tail) := by
    refine loop_inv (fun s => (s.visited = [] ∧ history s = [x0] ∧ (∀ j ∈ s.xvals, j ≠ s.X ∧ j < s.heap.length) ∧
        s.X < s.heap.length) ∨
      (∃ pre w, s.xvals = pre ++ [s.X] ∧ (∀ j ∈ pre, j ≠ s.X ∧ j < s.heap.length) ∧ s.X < s.heap.length ∧
        s.visited.getLast? = some w ∧ s.arr s.X = w ∧ pre.map s.arr = x0 :: s.visited.tail)) ?_ maxiter 0 _ ?_
    · rintro i s h
      right
      have hX : s.X < s.heap.length := by
        rcases h with h | ⟨pre, w, h⟩
        · exact h.2.2.2
        · exact h.2.2.1
      set x := moved p (s.arr s.X) (act i s) with hx
      have harrlast : ((s.heap.set s.X x) ++ [x]).getD (s.heap.set s.X x).length [] = x := by
        simp [List.getD_eq_getElem?_getD]
      have harr : ∀ j, j < s.heap.length → j ≠ s.X → ((s.heap.set s.X x) ++ [x]).getD j [] = s.heap.getD j [] := by
        intro j hj hne
        rw [getD_append_lt (by simpa using hj), getD_set_ne hne.symm]
      have harrX : ((s.heap.set s.X x) ++ [x]).getD s.X [] = x := by
        rw [getD_append_lt (by simpa using hX), getD_set_self hX]
      refine ⟨s.xvals, x, ?_, ?_, ?_, ?_, ?_, ?_⟩
      · simp only [iterate, stepArr]
      · intro j hj
        simp only [iterate, stepArr, List.length_append, List.length_set, List.length_cons, List.length_nil, ← hx]
        have : j < s.heap.length := by
          rcases h with h | ⟨pre, w, h⟩
          · exact (h.2.2.1 j hj).2
          · rw [h.1] at hj
            rcases List.mem_append.1 hj with hj | hj
            · exact (h.2.1 j hj).2
            · rw [List.mem_singleton.1 hj]; exact hX
        omega
      · simp [iterate, stepArr]
      · simp only [iterate, stepArr, Drv.arr, ← hx]
        simp only [Drv.arr] at hx
        rw [← hx, harrlast]; simp
      · simp only [iterate, stepArr, Drv.arr, ← hx]
        simp only [Drv.arr] at hx
        rw [← hx, harrlast]
      · simp only [iterate, stepArr, Drv.arr]
        simp only [Drv.arr] at hx
        rw [← hx, harrlast]
        rcases h with ⟨h1, h2, h3, h4⟩ | ⟨pre, w, h1, h2, h3, h4, h5, h6⟩
        · rw [h1]
          simp only [List.nil_append, List.tail_cons]
          rw [← h2]
          exact List.map_congr_left fun j hj => harr j (h3 j hj).2 (h3 j hj).1
        · rw [h1]
          have hmap : ∀ t : Drv K, t.heap = s.heap.set s.X x ++ [x] →
              (pre ++ [s.X]).map t.arr = pre.map s.arr ++ [x] := by
            intro t ht
            rw [List.map_append, List.map_cons, List.map_nil]
            congr 1
            · refine List.map_congr_left fun j hj => ?_
              simp only [Drv.arr, ht]
              exact harr j (h2 j hj).2 (h2 j hj).1
            · simp only [Drv.arr, ht, harrX]
          rw [hmap _ rfl, h6]
          have hne : s.visited ≠ [] := by
            intro h; rw [h] at h4; cases h4
          rw [List.tail_append_of_ne_nil hne, List.cons_append]
    · left
      refine ⟨rfl, ?_, ?_, ?_⟩
      · cases shared <;> simp [history, startSolve, Drv.arr]
      · intro j hj; simp [startSolve] at hj; subst hj; cases shared <;> simp [startSolve]
      · cases shared <;> simp [startSolve]
  intro v vs hv
  rcases hI with h | ⟨pre, w, h1, _, _, h4, h5, h6⟩
  · rw [h.1] at hv; cases hv
  · simp only [history]
    rw [h1, List.map_append, h6, List.map_cons, List.map_nil, h5, hv]
    rw [hv, List.getLast?_eq_some_getLast (by simp)] at h4
    cases h4
    simp

/-- C49 for a starting point that is not itself an array of floats, or a solver that assigns a new array: the caller's starting point is
    unchanged. Missing: arrays with an in-place solver (`C49_inplace`). -/
theorem C49_partial (p : DProb K) (k : StepKind) (act : Nat → Drv K → List K) (timeUp : Nat → Bool) (maxiter : Nat) (shared : Bool)
    (x0 : List K) (h : shared = false ∨ k = .replace) :
    (solve p k act timeUp maxiter shared x0).1.arr 0 = x0 := by
  have hI : (solve p k act timeUp maxiter shared x0).1.arr 0 = x0 ∧ 0 < (solve p k act timeUp maxiter shared x0).1.heap.length ∧
      ((solve p k act timeUp maxiter shared x0).1.X ≠ 0 ∨ k = .replace) := by
    refine loop_inv (fun s => s.arr 0 = x0 ∧ 0 < s.heap.length ∧ (s.X ≠ 0 ∨ k = .replace)) ?_ maxiter 0 _ ?_
    · rintro i s ⟨h1, h2, h3⟩
      cases k with
      | inplace =>
        have h3 : s.X ≠ 0 := by rcases h3 with h | h; exact h; cases h
        simp only [iterate, stepArr, Drv.arr]
        refine ⟨?_, by simp, Or.inl ?_⟩
        · rw [getD_append_lt (by simpa using h2), getD_set_ne h3]; exact h1
        · simp only [List.length_set]; omega
      | replace =>
        simp only [iterate, stepArr, Drv.arr]
        refine ⟨?_, by simp, by simp⟩
        rw [getD_append_lt h2]; exact h1
    · refine ⟨by simp [startSolve, Drv.arr], by simp [startSolve], ?_⟩
      rcases h with h | h
      · left; simp [startSolve, h]
      · right; exact h
  exact hI.1

/-- What happens to a float array given to an in-place solver: the first iteration overwrites it with the first visited point. -/
theorem C49_inplace (p : DProb K) (act : Nat → Drv K → List K) (timeUp : Nat → Bool) (maxiter : Nat) (x0 : List K) :
    let r := solve p .inplace act timeUp maxiter true x0
    ∀ v vs, r.1.visited = v :: vs → r.1.arr 0 = v := by
  intro r
  have hI : (r.1.visited = [] ∧ r.1.X = 0 ∧ 0 < r.1.heap.length) ∨
      (∃ v vs, r.1.visited = v :: vs ∧ r.1.arr 0 = v ∧ r.1.X ≠ 0 ∧ 0 < r.1.heap.length) := by
    refine loop_inv (fun s => (s.visited = [] ∧ s.X = 0 ∧ 0 < s.heap.length) ∨
      (∃ v vs, s.visited = v :: vs ∧ s.arr 0 = v ∧ s.X ≠ 0 ∧ 0 < s.heap.length)) ?_ maxiter 0 _ ?_
    · rintro i s h
      right
      rcases h with ⟨h1, h2, h3⟩ | ⟨v, vs, h1, h2, h3, h4⟩
      · refine ⟨moved p (s.arr s.X) (act i s), [], ?_, ?_, ?_, ?_⟩
        · simp [iterate, stepArr, Drv.arr, h1, List.getD_eq_getElem?_getD]
        · simp only [iterate, stepArr, Drv.arr]
          rw [getD_append_lt (by simpa using h3), h2, getD_set_self h3]
        · simp only [iterate, stepArr, List.length_set]; omega
        · simp [iterate, stepArr]
      · refine ⟨v, vs ++ [moved p (s.arr s.X) (act i s)], ?_, ?_, ?_, ?_⟩
        · simp [iterate, stepArr, Drv.arr, h1, List.getD_eq_getElem?_getD]
        · simp only [iterate, stepArr, Drv.arr]
          rw [getD_append_lt (by simpa using h4), getD_set_ne h3]; exact h2
        · simp only [iterate, stepArr, List.length_set]; omega
        · simp [iterate, stepArr]
    · left; simp [startSolve]
  intro v vs hv
  rcases hI with h | ⟨v', vs', h1, h2, _⟩
  · rw [h.1] at hv; cases hv
  · rw [hv] at h1; cases h1; exact h2

/-! ### Witnesses -/

/-- Minimise the only variable in [0, 10], no constraints. -/
def dmin : DProb ℚ := ⟨fun x => x.getD 0 0, [], 1 / 10 ^ 4, [(0, 10)]⟩

/-- The same with the constraint `5 - x ≤ 0`. -/
def dmin5 : DProb ℚ := ⟨fun x => x.getD 0 0, [(.lt, fun x => 5 - x.getD 0 0)], 1 / 10 ^ 4, [(0, 10)]⟩

/-- Always one unit up. -/
def up : Nat → Drv ℚ → List ℚ := fun _ _ => [1]

theorem solve_dmin : solve dmin .inplace up (fun _ => false) 2 true [0] =
    (⟨[[1], [0], [0], [2], [2]], 4, some (1, [1]), [2, 3, 4], [0, 1, 2], [[1], [2]]⟩, (1, [1])) := by
  norm_num [solve, loop, iterate, stepArr, moved, Drv.arr, dmin, up, startSolve, stopX, stopF, recordBest, isFeasible, finish,
    List.zipWith, List.range, List.range.loop]

/-- C20 fails: the admissible starting point 0 is visited, but 1 is returned. C48 fails: the history reads 0, 2, 2 instead of 0, 1, 2. C49 fails: the
    caller's array [0] has become [1]. -/
theorem C20_violation_start : let r := solve dmin .inplace up (fun _ => false) 2 true [0]
    Admissible dmin [0] ∧ dmin.obj [0] < r.2.1 := by
  rw [solve_dmin]
  refine ⟨by intro c hc; simp [dmin] at hc, by norm_num [dmin]⟩

/-- See `C20_violation_start`. -/
theorem C48_violation : let r := solve dmin .inplace up (fun _ => false) 2 true [0]
    history r.1 = [[0], [2], [2]] ∧ r.1.visited = [[1], [2]] := by
  rw [solve_dmin]
  exact ⟨rfl, rfl⟩

/-- See `C20_violation_start`. -/
theorem C49_violation : (solve dmin .inplace up (fun _ => false) 2 true [0]).1.arr 0 = [1] := by
  rw [solve_dmin]; rfl

theorem solve_dmin5 : solve dmin5 .inplace up (fun _ => false) 2 true [0] =
    (⟨[[1], [0], [0], [2], [2]], 4, none, [2, 3, 4], [0, 1, 2], [[1], [2]]⟩, (2, [2])) := by
  norm_num [solve, loop, iterate, stepArr, moved, Drv.arr, dmin5, up, startSolve, stopX, stopF, recordBest, isFeasible, finish,
    List.zipWith, List.range, List.range.loop]

/-- C20 fails when no visited point is admissible: an inadmissible one is returned as the best. -/
theorem C20_violation_none : ¬ Admissible dmin5 (solve dmin5 .inplace up (fun _ => false) 2 true [0]).2.2 := by
  rw [solve_dmin5]
  intro h
  have := h (.lt, fun x => 5 - x.getD 0 0) (by simp [dmin5])
  norm_num [dmin5] at this

/-- C20 fails on the second use of a solver object: the inadmissible record of the first run survives, although the second run visits
    the admissible point 6. -/
theorem C20_violation_reuse :
    let r := solveAgain dmin5 .inplace up (fun _ => false) 1 true [5] (solve dmin5 .inplace up (fun _ => false) 2 true [0])
    Admissible dmin5 [6] ∧ [6] ∈ r.1.visited ∧ r.2 = (2, [2]) ∧ ¬ Admissible dmin5 [2] := by
  rw [solve_dmin5]
  refine ⟨?_, ?_, ?_, ?_⟩
  · intro c hc; simp [dmin5] at hc; subst hc; norm_num [dmin5]
  · norm_num [solveAgain, loop, iterate, stepArr, moved, Drv.arr, dmin5, up, startSolve, stopX, stopF, recordBest, isFeasible, finish,
      List.zipWith, List.range, List.range.loop]
  · norm_num [solveAgain, loop, iterate, stepArr, moved, Drv.arr, dmin5, up, startSolve, stopX, stopF, recordBest, isFeasible, finish,
      List.zipWith, List.range, List.range.loop]
  · intro h
    have := h (.lt, fun x => 5 - x.getD 0 0) (by simp [dmin5])
    norm_num [dmin5] at this

/-- The hypothesis of `C20_partial` is met by a run that visits an admissible point. -/
example : ∃ v ∈ (solve dmin .inplace up (fun _ => false) 2 true [0]).1.visited, Admissible dmin v := by
  rw [solve_dmin]
  exact ⟨[1], by simp, by intro c hc; simp [dmin] at hc⟩

end Metku.Opt
