import Mathlib.Tactic.Linarith
import Mathlib.Tactic.NormNum
import Mathlib.Data.Rat.Floor
import Verif.Model.OptHistory
import Verif.Props.OptProblem
import Verif.Props.OptDriver

/-!
Properties C58 (discreteness of values), C59 (iterates within the bounds) and C60 (unlocked variables follow again).
-/
set_option linter.unusedSectionVars false

namespace Metku.Opt

variable {K : Type} [Field K] [LinearOrder K] [IsStrictOrderedRing K] [FloorRing K]

/-! ### C58 -/

/-- Specification: `d` is the distance from `x` to the nearest element of `S`. -/
def IsDistance (S : Set K) (x d : K) : Prop := (∃ y ∈ S, d = |x - y|) ∧ ∀ y ∈ S, d ≤ |x - y|

theorem IsDistance.unique {S : Set K} {x d d' : K} (h : IsDistance S x d) (h' : IsDistance S x d') : d = d' := by
  obtain ⟨⟨y, hy, e⟩, m⟩ := h
  obtain ⟨⟨z, hz, e'⟩, m'⟩ := h'
  apply le_antisymm
  · rw [e']; exact m z hz
  · rw [e]; exact m' y hy

theorem pyRound_near (x : K) : |x - (pyRound x : K)| ≤ 1 / 2 := by
  have h0 := Int.floor_le x
  have h1 := Int.lt_floor_add_one x
  unfold pyRound
  rw [abs_le]
  split_ifs with a b c <;> push_cast <;> constructor <;> linarith

/-- Rounding gives a nearest integer. -/
theorem pyRound_distance (x : K) : IsDistance (Set.range fun n : ℤ => (n : K)) x |x - (pyRound x : K)| := by
  refine ⟨⟨_, ⟨pyRound x, rfl⟩, rfl⟩, ?_⟩
  rintro _ ⟨n, rfl⟩
  simp only
  have hr := pyRound_near x
  by_cases hn : n = pyRound x
  · rw [hn]
  · have : (1 : K) ≤ |((pyRound x : ℤ) : K) - n| := by
      have h1 : (1 : ℤ) ≤ |pyRound x - n| := Int.one_le_abs (sub_ne_zero.2 (Ne.symm hn))
      have : ((1 : ℤ) : K) ≤ ((|pyRound x - n| : ℤ) : K) := Int.cast_le.2 h1
      simpa using this
    have t : |((pyRound x : ℤ) : K) - n| ≤ |x - (pyRound x : K)| + |x - n| := by
      have := abs_sub_le ((pyRound x : ℤ) : K) x (n : K)
      rwa [abs_sub_comm ((pyRound x : ℤ) : K) x] at this
    linarith

theorem values_distance {values : List K} {x d : K} (h : pyMin (values.map fun val => |val - x|) = .ok d) :
    IsDistance {y | y ∈ values} x d := by
  obtain ⟨h1, h2⟩ := pyMin_spec _ _ h
  obtain ⟨y, hy, e⟩ := List.mem_map.1 h1
  refine ⟨⟨y, hy, ?_⟩, fun z hz => ?_⟩
  · rw [← e, abs_sub_comm]
  · have := h2 _ (List.mem_map.2 ⟨z, hz, rfl⟩)
    rwa [abs_sub_comm] at this

theorem pyMin_total {l : List K} (h : l ≠ []) : ∃ d, pyMin l = .ok d := by
  cases l with
  | nil => exact absurd rfl h
  | cons x xs => exact ⟨_, rfl⟩

/-- **C58.** The discreteness violation reported for an integer variable is the distance to the nearest integer, and zero exactly when that distance is
    at most 0.0001; the one for a variable with a list of allowed values is the distance to the nearest of them, and zero exactly when that
    distance is at most 0.001; both are never negative. -/
theorem C58 (x : K) :
    (∃ d, IsDistance (Set.range fun n : ℤ => (n : K)) x d ∧ (d ≤ 0.0001 → integerViolation x = 0) ∧ (0.0001 < d → integerViolation x = d)) ∧
    ∀ values : List K, (values = [] → discreteViolation values x = .error .valueError) ∧
      (values ≠ [] → ∃ d v, discreteViolation values x = .ok v ∧ IsDistance {y | y ∈ values} x d ∧
        (d ≤ 0.001 → v = 0) ∧ (0.001 < d → v = d)) := by
  have e4 : (0.0001 : K) = 1 / 10000 := by norm_num
  have e3 : (0.001 : K) = 1 / 1000 := by norm_num
  rw [e4, e3]
  constructor
  · refine ⟨_, pyRound_distance x, fun h => ?_, fun h => ?_⟩
    · simp only [integerViolation, if_pos h]
    · simp only [integerViolation, if_neg (not_le.2 h)]
  · intro values
    constructor
    · rintro rfl
      rfl
    · intro hne
      obtain ⟨d, hd⟩ := pyMin_total (l := values.map fun val => |val - x|) (by simpa using hne)
      refine ⟨d, if d ≤ 1 / 1000 then 0 else d, by simp only [discreteViolation, hd], values_distance hd, fun h => if_pos h, fun h => if_neg (not_le.2 h)⟩

/-- **C58, acceptance (part).** A value is accepted for a list variable exactly when it lies within the bounds and closer than 0.0001 to an allowed value; a value of size at most
    100000 is accepted for an integer variable exactly when it lies within the bounds and at most 0.0001 from an integer.
    Missing: larger values of integer variables, see `C58_violation`. -/
theorem C58_allowed_partial (v : Var K) (x : K) :
    (∀ values : List K, values ≠ [] → ∃ b, discreteAllowed v values x = .ok b ∧
      (b = true ↔ v.lb ≤ x ∧ x ≤ v.ub ∧ ∃ y ∈ values, |x - y| < 0.0001)) ∧
    (|x| + 1 / 2 ≤ 100000 → (integerAllowed v x = true ↔ v.lb ≤ x ∧ x ≤ v.ub ∧ ∃ n : ℤ, |x - n| ≤ 0.0001)) := by
  have e4 : (0.0001 : K) = 1 / 10000 := by norm_num
  rw [e4]
  constructor
  · intro values hne
    unfold discreteAllowed
    by_cases hb : v.lb ≤ x ∧ x ≤ v.ub
    · obtain ⟨d, hd⟩ := pyMin_total (l := values.map fun val => |val - x|) (by simpa using hne)
      rw [if_pos hb]
      simp only [hd]
      refine ⟨_, rfl, ?_⟩
      obtain ⟨⟨y, hy, e⟩, m⟩ := values_distance hd
      rw [decide_eq_true_iff]
      constructor
      · intro h
        exact ⟨hb.1, hb.2, y, hy, e ▸ h⟩
      · rintro ⟨_, _, z, hz, h⟩
        exact (m z hz).trans_lt h
    · rw [if_neg hb]
      refine ⟨false, rfl, ?_⟩
      simp only [Bool.false_eq_true, false_iff]
      rintro ⟨h1, h2, _⟩
      exact hb ⟨h1, h2⟩
  · intro hx
    unfold integerAllowed
    obtain ⟨⟨_, ⟨n0, rfl⟩, e⟩, m⟩ := pyRound_distance x
    have hr := pyRound_near x
    have hbig : max (1 / 10 ^ 9 * max |x| |(pyRound x : K)|) (1 / 10000) = 1 / 10000 := by
      apply max_eq_right
      have h1 : |(pyRound x : K)| ≤ |x| + 1 / 2 := by
        have := abs_sub_abs_le_abs_sub (pyRound x : K) x
        rw [abs_sub_comm] at this
        linarith
      have h2 : max |x| |(pyRound x : K)| ≤ 100000 := max_le (by linarith) (by linarith)
      calc 1 / 10 ^ 9 * max |x| |(pyRound x : K)| ≤ 1 / 10 ^ 9 * 100000 := mul_le_mul_of_nonneg_left h2 (by positivity)
        _ = 1 / 10000 := by norm_num
    rw [hbig]
    by_cases hb : v.lb ≤ x ∧ x ≤ v.ub
    · rw [if_pos hb, decide_eq_true_iff]
      constructor
      · intro h
        exact ⟨hb.1, hb.2, pyRound x, h⟩
      · rintro ⟨_, _, n, h⟩
        exact (m _ ⟨n, rfl⟩).trans h
    · rw [if_neg hb]
      simp only [Bool.false_eq_true, false_iff]
      rintro ⟨h1, h2, _⟩
      exact hb ⟨h1, h2⟩

/-- The two tolerances differ: the value 1.0005 has no discreteness violation for the list 1, 2, but it is not accepted. -/
example : discreteViolation [1, 2] (10005 / 10000 : ℚ) = .ok 0 ∧
    ∀ b, discreteAllowed (newVar (.discrete [1, 2]) 1 2 none none) [1, 2] (10005 / 10000 : ℚ) = .ok b → b = false := by
  constructor
  · norm_num [discreteViolation, pyMin, abs]
  · intro b h
    obtain ⟨b', h', hb⟩ := (C58_allowed_partial (newVar (.discrete [1, 2]) 1 2 none none) (10005 / 10000 : ℚ)).1 [1, 2] (by simp)
    rw [h] at h'
    cases h'
    rw [← Bool.not_eq_true, hb]
    rintro ⟨_, _, y, hy, hd⟩
    simp only [List.mem_cons, List.not_mem_nil, or_false] at hy
    rcases hy with rfl | rfl <;> norm_num [abs] at hd

/-- **C58 is violated** for large values: `math.isclose` also has a relative tolerance of 1e-9, so an integer variable with wide enough bounds accepts the
    value 1000000000.5, which is half a unit away from every integer and for which the same variable reports the violation 1/2. -/
theorem C58_violation (v : Var K) (h1 : v.lb ≤ 1000000000 + 1 / 2) (h2 : 1000000000 + 1 / 2 ≤ v.ub) :
    integerAllowed v (1000000000 + 1 / 2) = true ∧ integerViolation (1000000000 + 1 / 2 : K) = 1 / 2 ∧
      ∀ n : ℤ, (1 / 2 : K) ≤ |(1000000000 + 1 / 2) - (n : K)| := by
  have far : ∀ n : ℤ, (1 / 2 : K) ≤ |(1000000000 + 1 / 2) - (n : K)| := by
    intro n
    rcases le_or_gt n 1000000000 with h | h
    · have : (n : K) ≤ 1000000000 := by exact_mod_cast h
      exact le_abs.2 (.inl (by linarith))
    · have : (1000000000 : K) + 1 ≤ n := by exact_mod_cast h
      exact le_abs.2 (.inr (by linarith))
  have hd : |(1000000000 + 1 / 2 : K) - (pyRound (1000000000 + 1 / 2 : K) : K)| = 1 / 2 :=
    le_antisymm (pyRound_near _) (far _)
  refine ⟨?_, ?_, far⟩
  · unfold integerAllowed
    rw [if_pos ⟨h1, h2⟩, decide_eq_true_iff, hd]
    apply le_max_of_le_left
    have : (1000000000 + 1 / 2 : K) ≤ max |(1000000000 + 1 / 2 : K)| |(pyRound (1000000000 + 1 / 2 : K) : K)| :=
      (le_abs_self _).trans (le_max_left _ _)
    have := mul_le_mul_of_nonneg_left this (by norm_num : (0 : K) ≤ 1 / 10 ^ 9)
    refine le_trans ?_ this
    norm_num
  · simp only [integerViolation, hd]
    rw [if_neg (by norm_num)]

example : integerAllowed (newVar .integer 0 2000000000 none none) (1000000000 + 1 / 2 : ℚ) = true :=
  (C58_violation (newVar .integer 0 2000000000 none none : Var ℚ) (by norm_num [newVar]) (by norm_num [newVar])).1

/-! ### C59 -/

section Driver
omit [FloorRing K]

/-- Specification: `x` has one component per variable, each within its bounds. -/
def Within (bounds : List (K × K)) (x : List K) : Prop :=
  x.length = bounds.length ∧ ∀ (i : ℕ) (y : K) (b : K × K), x[i]? = some y → bounds[i]? = some b → b.1 ≤ y ∧ y ≤ b.2

theorem moved_within (p : DProb K) (x a : List K) (hb : ∀ b ∈ p.bounds, b.1 ≤ b.2) (hx : x.length = p.bounds.length)
    (ha : a.length = p.bounds.length) : Within p.bounds (moved p x a) := by
  refine ⟨by simp [moved, hx, ha], fun i y b hy hbi => ?_⟩
  simp only [moved, List.getElem?_zipWith] at hy
  rw [hbi] at hy
  have hbb := hb b (List.mem_of_getElem? hbi)
  revert hy
  cases h : (List.zipWith (· + ·) x a)[i]? with
  | none => rw [List.getElem?_zipWith] at h; simp [h]
  | some z =>
    rw [List.getElem?_zipWith] at h
    simp only [h]
    intro hy
    simp only [Option.some.injEq] at hy
    rw [← hy]
    exact ⟨le_min (le_max_right _ _) hbb, min_le_right _ _⟩

theorem moved_in (p : DProb K) (x a : List K) (i : ℕ) (y z : K) (b : K × K) (hy : x[i]? = some y) (hz : a[i]? = some z)
    (hb : p.bounds[i]? = some b) (h1 : b.1 ≤ y + z) (h2 : y + z ≤ b.2) : (moved p x a)[i]? = some (y + z) := by
  simp only [moved, List.getElem?_zipWith, hy, hz, hb]
  rw [max_eq_left h1, min_eq_left h2]

theorem getD_last (h : List (List K)) (x : List K) : (h ++ [x]).getD h.length [] = x := by
  simp [List.getD_eq_getElem?_getD]

/-- **C59 (part).** For a solver whose step moves the point in place (as the base class and SLP do), every visited point lies within the bounds, whatever
    the actions, the clock and the iteration limit (the actions and the starting point having one component per variable).
    Missing: solvers whose step assigns a new array (MMA), see `C59_violation`. -/
theorem C59_partial (p : DProb K) (act : Nat → Drv K → List K) (timeUp : Nat → Bool) (maxiter : Nat) (shared : Bool) (x0 : List K)
    (hb : ∀ b ∈ p.bounds, b.1 ≤ b.2) (hx : x0.length = p.bounds.length) (ha : ∀ i s, (act i s).length = p.bounds.length) :
    ∀ v ∈ (solve p .inplace act timeUp maxiter shared x0).1.visited, Within p.bounds v := by
  have hI := loop_inv (p := p) (k := .inplace) (act := act) (timeUp := timeUp)
    (fun s => (s.arr s.X).length = p.bounds.length ∧ ∀ v ∈ s.visited, Within p.bounds v) (by
      rintro i s ⟨h1, h2⟩
      have hm := moved_within p (s.arr s.X) (act i s) hb h1 (ha i s)
      have harr : (iterate p .inplace act i s).1.arr (iterate p .inplace act i s).1.X = moved p (s.arr s.X) (act i s) := by
        simp only [iterate, stepArr, Drv.arr]
        exact getD_last _ _
      have hv : (iterate p .inplace act i s).1.visited = s.visited ++ [moved p (s.arr s.X) (act i s)] := by
        simp only [iterate, stepArr, Drv.arr]
        rw [getD_last]
      refine ⟨harr ▸ hm.1, fun v h => ?_⟩
      rw [hv] at h
      rcases List.mem_append.1 h with h | h
      · exact h2 v h
      · rw [List.mem_singleton.1 h]; exact hm) maxiter 0 (startSolve p shared x0 none []) (by
      refine ⟨?_, by simp [startSolve]⟩
      cases shared <;> simpa [startSolve, Drv.arr] using hx)
  exact hI.2

/-- **C59, the step itself.** A component whose move stays within its bounds is moved by exactly the action. -/
theorem C59_step (p : DProb K) (act : Nat → Drv K → List K) (i : Nat) (s : Drv K) (j : ℕ) (y z : K) (b : K × K)
    (hy : (s.arr s.X)[j]? = some y) (hz : (act i s)[j]? = some z) (hb : p.bounds[j]? = some b) (h1 : b.1 ≤ y + z) (h2 : y + z ≤ b.2) :
    ∃ v, (iterate p .inplace act i s).1.visited = s.visited ++ [v] ∧ v[j]? = some (y + z) := by
  refine ⟨_, ?_, moved_in p (s.arr s.X) (act i s) j y z b hy hz hb h1 h2⟩
  simp only [iterate, stepArr, Drv.arr]
  rw [getD_last]

/-- A run with two variables that moves against the bound. -/
example : ∀ v ∈ (solve (K := ℚ) ⟨fun x => x.sum, [], 0, [(0, 1), (0, 2)]⟩ .inplace (fun _ _ => [3, -3]) (fun _ => false) 4 false
    [1 / 2, 1]).1.visited, Within [(0, 1), (0, 2)] v :=
  C59_partial _ _ _ _ _ _ (by simp) rfl (fun _ _ => rfl)

/-- **C59 is violated** for a solver that assigns the point it computed: the driver visits whatever it returns. -/
theorem C59_violation : ∃ v ∈ (solve (K := ℚ) ⟨fun x => x.sum, [], 0, [(0, 1)]⟩ .replace (fun _ _ => [5]) (fun _ => false) 1 false
    [1 / 2]).1.visited, ¬ Within [(0, 1)] v := by
  refine ⟨[5], ?_, ?_⟩
  · simp [solve, loop, iterate, stepArr, startSolve, Drv.arr, List.getD_eq_getElem?_getD]
  · rintro ⟨_, h⟩
    have := h 0 5 (0, 1) rfl rfl
    norm_num at this

/-! ### C60 -/

end Driver

/-- **C60.** Locking and then unlocking a variable without giving a value changes nothing; after the unlocking a new value is stored (an index
    variable stores the whole part of a nonnegative value) and the attribute the variable targets receives the scaled value. -/
theorem C60 {o : Objective K} {p p1 p2 : Prob K} {i : ℕ} {v : Var K} (hv : p.vars[i]? = some v) (hl : v.locked = false)
    (h1 : step o p (.lock i) = .ok p1) (h2 : step o p1 (.unlock i) = .ok p2) :
    p2 = p ∧ (∃ w, p1.vars[i]? = some w ∧ w.locked = true) ∧
    ∀ (x : K) (p3 : Prob K), substituteAt p2 i x = .ok p3 →
      ∃ z, p3.vars[i]? = some { v with value := some z } ∧
        (match v.kind with
          | .index _ => 0 ≤ x → z = (⌊x⌋ : Int)
          | _ => z = x) ∧
        ∀ (a : String) (objs : List Nat), v.kind.plain = true → v.target = some ⟨.one a, objs⟩ → ∀ ob ∈ objs, p3.struct ob a = x * v.scaling := by
  simp only [step, Except.ok.injEq] at h1 h2
  have hp : p2 = p := by
    subst h1
    rw [← h2]
    have : ((p.vars.modify i fun v => { v with locked := true }).modify i unlockVar) = p.vars := by
      rw [List.modify_modify_eq]
      apply List.ext_getElem?
      intro j
      rw [List.getElem?_modify]
      by_cases hj : i = j
      · subst hj
        rw [hv]
        simp only [if_true, Function.comp, unlockVar]
        cases v
        simp only at hl
        subst hl
        rfl
      · simp [hj]
    simp only [this]
  refine ⟨hp, ⟨{ v with locked := true }, ?_, rfl⟩, ?_⟩
  · rw [← h1]
    simp [hv]
  · intro x p3 h3
    rw [hp] at h3
    simp only [substituteAt, hv] at h3
    cases hs : substVar v x p.struct with
    | error e => rw [hs] at h3; cases h3
    | ok r =>
      obtain ⟨v', s'⟩ := r
      rw [hs] at h3
      simp only [Except.ok.injEq] at h3
      have hvar := substVar_var hl hs
      have hi : i < p.vars.length := by
        by_contra hc
        rw [List.getElem?_eq_none (not_lt.1 hc)] at hv
        cases hv
      refine ⟨stored v.kind x, ?_, ?_, ?_⟩
      · rw [← h3]
        simp only [List.getElem?_set_self hi, hvar]
      · cases hk : v.kind with
        | index l => intro hx; simp [stored, pyInt, hx]
        | _ => rfl
      · intro a objs hk ht ob ho
        rw [← h3]
        exact substVar_plain hk hl ht ho hs

/-- A problem with one free variable. -/
example : ∃ (o : Objective ℚ) (p p1 p2 p3 : Prob ℚ), p.vars[0]?.map (·.locked) = some false ∧ step o p (.lock 0) = .ok p1 ∧
    step o p1 (.unlock 0) = .ok p2 ∧ substituteAt p2 0 7 = .ok p3 ∧ p3.struct 0 "h" = 14 := by
  let v : Var ℚ := { newVar .cont 0 10 (some 1) (some ⟨.one "h", [0]⟩) with scaling := 2 }
  let p : Prob ℚ := {
    vars := [v]
    struct := fun _ _ => 0
    results := fun _ => none
    feaDone := []
    X := none
    x0 := none
    cons := []
    numFem := 0 }
  have hs : step (K := ℚ) ⟨fun _ => 0, false, false⟩ p (.lock 0) = .ok { p with vars := [{ v with locked := true }] } := rfl
  have hu : step (K := ℚ) ⟨fun _ => 0, false, false⟩ { p with vars := [{ v with locked := true }] } (.unlock 0) = .ok p := rfl
  refine ⟨⟨fun _ => 0, false, false⟩, p, _, _, _, rfl, hs, hu, rfl, ?_⟩
  obtain ⟨_, _, h⟩ := C60 (p := p) (i := 0) (v := v) rfl rfl hs hu
  obtain ⟨_, _, _, h3⟩ := h 7 _ rfl
  have := h3 "h" [0] rfl rfl 0 (by simp)
  rw [this]
  norm_num [v]

end Metku.Opt
