import Mathlib.Tactic.Ring
import Mathlib.Tactic.Linarith
import Mathlib.Tactic.NormNum
import Mathlib.Tactic.Positivity
import Mathlib.Algebra.BigOperators.Field
import Verif.Spec.OptGa
import Verif.Props.OptSlp

/-!
C130 to C135: genetic algorithm and ant colony.
-/
set_option linter.unusedSectionVars false

namespace Metku.Opt

section Ga

variable {K : Type} [Field K] [LinearOrder K] [IsStrictOrderedRing K] [FloorRing K] {n : Nat}

theorem gaRun_append (p : GaProb K n) (s : Ga K n) (a b : List (Fin n → K)) : gaRun p s (a ++ b) = gaRun p (gaRun p s a) b := by
  unfold gaRun
  rw [List.foldl_append]

theorem gaRun_le (p : GaProb K n) (inds : List (Fin n → K)) (s : Ga K n) :
    (gaRun p s inds).bestF ≤ s.bestF ∧ ∀ ind ∈ inds, (gaRun p s inds).bestF ≤ gaFitness p (gaPoint p ind) := by
  induction inds generalizing s with
  | nil => exact ⟨le_rfl, fun _ h => (List.not_mem_nil h).elim⟩
  | cons a l ih =>
    obtain ⟨h1, h2⟩ := ih (gaEval p s a)
    have h3 : (gaEval p s a).bestF ≤ s.bestF ∧ (gaEval p s a).bestF ≤ gaFitness p (gaPoint p a) := by
      unfold gaEval
      simp only
      split
      · rename_i h
        exact ⟨le_of_lt h, le_rfl⟩
      · rename_i h
        exact ⟨le_rfl, not_lt.1 h⟩
    refine ⟨le_trans h1 h3.1, fun ind hi => ?_⟩
    rcases List.mem_cons.1 hi with rfl | hi
    · exact le_trans h1 h3.2
    · exact h2 ind hi

theorem gaRun_attained (p : GaProb K n) (inds : List (Fin n → K)) (s : Ga K n) :
    gaRun p s inds = s ∨ ∃ ind ∈ inds, (gaRun p s inds).bestF = gaFitness p (gaPoint p ind) ∧
      (gaRun p s inds).bestX = some (p.clip (gaPoint p ind)) := by
  induction inds generalizing s with
  | nil => exact .inl rfl
  | cons a l ih =>
    rcases ih (gaEval p s a) with h | ⟨ind, hi, h⟩
    · have hrun : gaRun p s (a :: l) = gaEval p s a := h
      rw [hrun]
      unfold gaEval
      simp only
      split
      · exact .inr ⟨a, List.mem_cons_self, rfl, rfl⟩
      · exact .inl rfl
    · exact .inr ⟨ind, List.mem_cons_of_mem _ hi, h⟩

theorem clip_bounds {p : GaProb K n} (hb : ∀ i, p.lb i ≤ p.ub i) (x : Fin n → K) (i : Fin n) : p.lb i ≤ p.clip x i ∧ p.clip x i ≤ p.ub i :=
  ⟨le_max_left _ _, max_le (hb i) (min_le_right _ _)⟩

theorem round3_within {a b x : K} (ha : Thousandths a) (hb : Thousandths b) (h : a ≤ x ∧ x ≤ b) : a ≤ round3 x ∧ round3 x ≤ b := by
  obtain ⟨za, hza⟩ := ha
  obtain ⟨zb, hzb⟩ := hb
  have he := abs_le.1 (round3_err x)
  have hr : round3 x * 1000 = (pyRound (x * 1000) : K) := by
    unfold round3
    rw [div_mul_cancel₀ _ (by norm_num)]
  have h1 : (za : K) < ((pyRound (x * 1000) + 1 : ℤ) : K) := by
    push_cast
    rw [← hr, ← hza]
    linarith [he.1, h.1]
  have h2 : ((pyRound (x * 1000) : ℤ) : K) < ((zb + 1 : ℤ) : K) := by
    push_cast
    rw [← hr, ← hzb]
    linarith [he.2, h.2]
  have h1 := Int.lt_add_one_iff.1 (Int.cast_lt.1 h1)
  have h2 := Int.lt_add_one_iff.1 (Int.cast_lt.1 h2)
  have h1 : (za : K) ≤ (pyRound (x * 1000) : K) := Int.cast_le.2 h1
  have h2 : (pyRound (x * 1000) : K) ≤ (zb : K) := Int.cast_le.2 h2
  rw [← hr, ← hza] at h1
  rw [← hr, ← hzb] at h2
  constructor <;> linarith

theorem clip_point {p : GaProb K n} (hb : ∀ i, p.lb i ≤ p.ub i) (ht : ∀ i, Thousandths (p.lb i) ∧ Thousandths (p.ub i)) (ind : Fin n → K) :
    p.clip (gaPoint p ind) = gaPoint p ind := by
  funext i
  have := round3_within (ht i).1 (ht i).2 (clip_bounds hb ind i)
  show max (p.lb i) (min (round3 (p.clip ind i)) (p.ub i)) = round3 (p.clip ind i)
  rw [min_eq_left this.2, max_eq_right this.1]

/-- C130: for a new solver object and bounds that are multiples of a thousandth, the result of any sequence of evaluations, of which one has a
    fitness below the initial value, is a design within the bounds whose fitness is the value returned, and no evaluated design is better.
    Missing: other bounds (`C130_violation`), reused objects (`C130_violation_reuse`). -/
theorem C130_partial {p : GaProb K n} (hb : ∀ i, p.lb i ≤ p.ub i) (ht : ∀ i, Thousandths (p.lb i) ∧ Thousandths (p.ub i))
    (inds : List (Fin n → K)) (f0 : K) (hlt : (gaRun p ⟨f0, f0, none, 0⟩ inds).bestF < f0) :
    ∃ x, (gaRun p ⟨f0, f0, none, 0⟩ inds).bestX = some x ∧ IsFitness p x (gaRun p ⟨f0, f0, none, 0⟩ inds).bestF ∧
      (∀ i, p.lb i ≤ x i ∧ x i ≤ p.ub i) ∧
      ∀ ind ∈ inds, ∀ f, IsFitness p (fun i => round3 (max (p.lb i) (min (ind i) (p.ub i)))) f → (gaRun p ⟨f0, f0, none, 0⟩ inds).bestF ≤ f := by
  rcases gaRun_attained p inds ⟨f0, f0, none, 0⟩ with h | ⟨ind, _, h1, h2⟩
  · rw [h] at hlt
    exact absurd hlt (lt_irrefl _)
  · refine ⟨_, h2, ?_, fun i => clip_bounds hb _ i, fun ind' hi f hf => ?_⟩
    · rw [clip_point hb ht]
      exact h1
    · have hf' : f = gaFitness p (gaPoint p ind') := hf
      rw [hf']
      exact (gaRun_le p inds _).2 ind' hi

/-- One variable between 0 and 0.0006, to be maximised. -/
def tiny : GaProb K 1 := ⟨fun _ => 0, fun _ => 6 / 10000, fun x => - x 0, fun _ => []⟩

theorem round3_tiny : round3 (6 / 10000 : K) = 1 / 1000 := by
  have he := abs_le.1 (round3_err (6 / 10000 : K))
  have hr : round3 (6 / 10000 : K) * 1000 = (pyRound (6 / 10000 * 1000 : K) : K) := by
    unfold round3
    rw [div_mul_cancel₀ _ (by norm_num)]
  have h1 : ((0 : ℤ) : K) < (pyRound (6 / 10000 * 1000 : K) : K) := by
    rw [← hr]
    push_cast
    linarith [he.1]
  have h2 : (pyRound (6 / 10000 * 1000 : K) : K) < ((2 : ℤ) : K) := by
    rw [← hr]
    push_cast
    linarith [he.2]
  have h3 : pyRound (6 / 10000 * 1000 : K) = 1 := by
    have := Int.cast_lt.1 h1
    have := Int.cast_lt.1 h2
    omega
  unfold round3
  rw [h3]
  norm_num

/-- C130, negation: with other bounds, designs are evaluated outside of them, and the value returned is not the fitness of the design returned. -/
theorem C130_violation :
    ∃ x, (gaRun (K := K) tiny ⟨1, 1, none, 0⟩ [fun _ => 6 / 10000]).bestX = some x ∧
      (gaRun (K := K) tiny ⟨1, 1, none, 0⟩ [fun _ => 6 / 10000]).bestF = - (1 / 1000) ∧ IsFitness tiny x (- (6 / 10000)) := by
  have hp : gaPoint (K := K) tiny (fun _ => 6 / 10000) = fun _ => 1 / 1000 := by
    funext i
    show round3 (max 0 (min (6 / 10000) (6 / 10000))) = (1 / 1000 : K)
    rw [min_self, max_eq_right (by norm_num), round3_tiny]
  have hf : gaFitness (K := K) tiny (fun _ => 1 / 1000) = - (1 / 1000) := by
    show - (1 / 1000 : K) + 2000000 * (List.map _ ([] : List K)).sum = _
    simp
  have he : gaRun (K := K) tiny ⟨1, 1, none, 0⟩ [fun _ => 6 / 10000] = ⟨- (1 / 1000), 1, some ((tiny (K := K)).clip fun _ => 1 / 1000), 0⟩ := by
    show gaEval (K := K) tiny ⟨1, 1, none, 0⟩ (fun _ => 6 / 10000) = _
    unfold gaEval
    simp only [hp, hf]
    rw [if_pos (by norm_num)]
  rw [he]
  refine ⟨_, rfl, rfl, ?_⟩
  show - (6 / 10000 : K) = - (max 0 (min (1 / 1000) (6 / 10000))) + 2000000 * (List.map _ ([] : List K)).sum
  rw [min_eq_right (by norm_num), max_eq_right (by norm_num)]
  simp

/-- C130, negation: `solve` does not reset the best value; if the object has solved another problem with a smaller value before, the result is the old
    value and the old design, whatever designs are evaluated. -/
theorem C130_violation_reuse (p : GaProb K n) (s : Ga K n) (h : ∀ x f, IsFitness p x f → s.bestF ≤ f) (inds : List (Fin n → K)) :
    gaRun p s inds = s := by
  induction inds with
  | nil => rfl
  | cons a l ih =>
    have : gaEval p s a = s := by
      unfold gaEval
      exact if_neg (not_lt.2 (h (gaPoint p a) _ rfl))
    show gaRun p (gaEval p s a) l = s
    rw [this, ih]

/-! ### Initial population -/

theorem mapM_ok {α β : Type} (f : α → Except PyErr β) (g : α → β) (l : List α) (h : ∀ a ∈ l, f a = .ok (g a)) : l.mapM f = .ok (l.map g) := by
  induction l with
  | nil => rfl
  | cons a l ih =>
    rw [List.mapM_cons, h a List.mem_cons_self, ih fun b hb => h b (List.mem_cons_of_mem _ hb)]
    rfl

theorem gaIndividual_eq {x0 : List K} (hne : x0 ≠ []) (c : Nat) : gaIndividual x0 x0.length c = .ok (x0.rotate c) := by
  have hpos : 0 < x0.length := List.length_pos_iff.2 hne
  unfold gaIndividual
  rw [mapM_ok _ (fun i => x0.getD ((c + i) % x0.length) 0)]
  · refine congrArg Except.ok (List.ext_getElem? fun i => ?_)
    by_cases hi : i < x0.length
    · rw [List.getElem?_map, List.getElem?_range hi, List.getElem?_rotate hi]
      have hm : (i + c) % x0.length < x0.length := Nat.mod_lt _ hpos
      rw [List.getElem?_eq_getElem hm]
      simp only [Option.map_some, Nat.add_comm c i]
      simp [List.getD_eq_getElem?_getD, List.getElem?_eq_getElem hm]
    · rw [List.getElem?_eq_none (by simp; omega), List.getElem?_eq_none (by rw [List.length_rotate]; omega)]
  · intro i _
    unfold gaGene
    rw [if_neg (by omega)]
    have hm : (c + i) % x0.length < x0.length := Nat.mod_lt _ hpos
    unfold valueAt
    rw [List.getElem?_eq_getElem hm]
    simp [List.getD_eq_getElem?_getD, List.getElem?_eq_getElem hm]

/-- C131: in the first run of a process, and after runs with the same number of variables, every individual of the initial population is the starting point. Missing: runs after a
    problem with another number of variables (`C131_violation`). -/
theorem C131_partial {x0 : List K} (hne : x0 ≠ []) (runs pop : Nat) :
    gaPopulation x0 x0.length (runs * x0.length) pop = .ok (List.replicate pop x0) := by
  unfold gaPopulation
  rw [mapM_ok _ (fun _ => x0)]
  · rw [List.map_const', List.length_range]
  · intro k _
    rw [gaIndividual_eq hne, ← Nat.add_mul, Nat.mul_comm, ← List.rotate_mod, Nat.mul_mod_right, List.rotate_zero]

/-- C131, negation: after a run with `m` variables and `q` individuals, the individuals of the next run are the starting point rotated by `q · m` places: values get to the wrong variables. -/
theorem C131_violation {x0 : List K} (hne : x0 ≠ []) (m q pop : Nat) :
    gaPopulation x0 x0.length (gaCounter m 0 q) pop = .ok (List.replicate pop (x0.rotate (q * m))) := by
  unfold gaPopulation gaCounter
  rw [mapM_ok _ (fun _ => x0.rotate (q * m))]
  · rw [List.map_const', List.length_range]
  · intro k _
    rw [gaIndividual_eq hne, Nat.zero_add]
    refine congrArg Except.ok ?_
    rw [← List.rotate_mod, ← List.rotate_mod x0 (q * m), Nat.add_mul_mod_self_right]

end Ga

/-! ### New population -/

section Population

variable {α : Type}

theorem replicate_flatten_mem {k : Nat} {l : List α} {a : α} (h : a ∈ l) : a ∈ (List.replicate (k + 1) l).flatten :=
  List.mem_flatten.2 ⟨l, by simp, h⟩

/-- C132: the new population contains the best design; with `k` selected individuals it has `k · (size/k + 1)` members, and one more if a best individual is
    stored, which is more than the size given to the solver. -/
theorem C132 {popSize idx : Nat} {best : α} {bestInd : Option α} {offspring : List α} (hi : idx < offspring.length) :
    ∃ r, gaNewPop popSize idx best bestInd offspring = .ok r ∧ best ∈ r ∧
      r.length = offspring.length * (popSize / offspring.length + 1) + bestInd.toList.length ∧ popSize < r.length := by
  unfold gaNewPop
  rw [if_neg (by omega)]
  refine ⟨_, rfl, ?_, ?_, ?_⟩
  · exact List.mem_append_left _ (replicate_flatten_mem (List.mem_iff_getElem?.2 ⟨idx, by rw [List.getElem?_set_self (by omega)]⟩))
  · simp [List.length_flatten, Nat.mul_comm]
  · have := Nat.lt_mul_div_succ popSize (b := offspring.length) (by omega)
    simp only [List.length_append, List.length_flatten, List.map_replicate, List.sum_replicate, List.length_set, smul_eq_mul]
    rw [Nat.mul_comm]
    omega

theorem mutateInit_length (g : Nat → α → α) (l : List α) : (mutateInit g l).length = l.length := by
  unfold mutateInit
  simp

theorem mateAt_length (f : α → α → α × α) (j : Nat) (l : List α) : (mateAt f j l).length = l.length := by
  unfold mateAt
  split <;> simp

theorem mutateInit_last (g : Nat → α → α) (l : List α) : (mutateInit g l)[l.length - 1]? = l[l.length - 1]? := by
  unfold mutateInit
  rw [List.getElem?_mapIdx]
  cases h : l[l.length - 1]? with
  | none => rfl
  | some a =>
    have : l.length - 1 < l.length := by
      by_contra hc
      rw [List.getElem?_eq_none (by omega)] at h
      cases h
    simp only [Option.map_some]
    rw [if_neg (by omega)]

theorem mateAt_last (f : α → α → α × α) (j : Nat) (l : List α) (hodd : l.length % 2 = 1) : (mateAt f j l)[l.length - 1]? = l[l.length - 1]? := by
  unfold mateAt
  split
  · rename_i a b h1 h2
    have hlt : 2 * j + 1 < l.length := by
      by_contra hc
      rw [List.getElem?_eq_none (by omega)] at h2
      cases h2
    rw [List.getElem?_set_ne (by omega), List.getElem?_set_ne (by omega)]
  · rfl

theorem gaRounds_last (f : Nat → α → α → α × α) (g : Nat → Nat → α → α) (k : Nat) (l : List α) (hodd : l.length % 2 = 1) :
    (gaRounds f g k l).length = l.length ∧ (gaRounds f g k l)[l.length - 1]? = l[l.length - 1]? := by
  unfold gaRounds
  induction k with
  | zero => exact ⟨rfl, rfl⟩
  | succ k ih =>
    rw [List.range_succ, List.foldl_append]
    simp only [List.foldl_cons, List.foldl_nil]
    obtain ⟨h1, h2⟩ := ih
    have h3 := mateAt_length (f k) k (List.foldl (fun l j => mutateInit (g j) (mateAt (f j) j l)) l (List.range k))
    refine ⟨by rw [mutateInit_length, h3, h1], ?_⟩
    have h4 := mutateInit_last (g k) (mateAt (f k) k (List.foldl (fun l j => mutateInit (g j) (mateAt (f j) j l)) l (List.range k)))
    rw [h3, h1] at h4
    rw [h4]
    have h5 := mateAt_last (f k) k (List.foldl (fun l j => mutateInit (g j) (mateAt (f j) j l)) l (List.range k)) (by rw [h1]; exact hodd)
    rw [h1] at h5
    rw [h5, h2]

/-- C133: with an even number of selected individuals, crossover and mutation leave the stored best individual in the population, whatever operators are
    used. Missing: odd numbers (`C133_violation_odd`); the stored individual itself may be changed (`C133_violation`). -/
theorem C133_partial {popSize idx : Nat} {best b : α} {offspring r : List α} (heven : offspring.length % 2 = 0)
    (h : gaNewPop popSize idx best (some b) offspring = .ok r) (f : Nat → α → α → α × α) (g : Nat → Nat → α → α) : b ∈ gaGeneration f g r := by
  unfold gaNewPop at h
  split at h
  · cases h
  · obtain rfl := Except.ok.inj h
    set r := (List.replicate (popSize / offspring.length + 1) (offspring.set idx best)).flatten ++ (some b).toList with hr
    have hlen : r.length = offspring.length * (popSize / offspring.length + 1) + 1 := by
      rw [hr]
      simp [List.length_flatten, Nat.mul_comm]
    have hodd : r.length % 2 = 1 := by
      rw [hlen, Nat.add_mod, Nat.mul_mod, heven]
      simp
    have hlast : r[r.length - 1]? = some b := by
      rw [hr]
      simp
    have := (gaRounds_last f g (r.length / 2) r hodd).2
    rw [hlast] at this
    exact List.mem_of_getElem? this

/-- C133, negation: with one selected individual and an even population size the stored individual is paired, and crossover replaces it. -/
theorem C133_violation_odd : ∃ r, gaNewPop 2 0 5 (some 5) [7] = .ok r ∧ 5 ∈ r ∧ 5 ∉ gaGeneration (fun _ _ _ => (1, 1)) (fun _ _ a => a) r :=
  ⟨[5, 5, 5, 5], rfl, by decide, by decide⟩

/-- C133, negation: the stored best individual is an element of the list that is mutated: it was 3 when it was evaluated as the best and is 4 after the loop. -/
theorem C133_violation : (gaRounds (fun _ a b => (a, b)) (fun j _ (a : Nat) => if j = 1 then a + 1 else a) 1 [3, 3, 3, 3, 3])[0]? = some 3 ∧
    gaBestInd (fun _ a b => (a, b)) (fun j _ (a : Nat) => if j = 1 then a + 1 else a) [3, 3, 3, 3, 3] 0 = some 4 := by
  decide

end Population

/-! ### Ant colony -/

section Aco

variable {m v : Nat}

theorem foldl_local_pos {xi : ℝ} (hxi : 0 < xi) (ants : List (Fin m → Fin v)) {tau : Fin m → Fin v → ℝ} (h : ∀ i j, 0 < tau i j) :
    ∀ i j, 0 < ants.foldl (localUpdate xi) tau i j := by
  induction ants generalizing tau with
  | nil => exact h
  | cons a l ih =>
    refine ih fun i j => ?_
    unfold localUpdate
    split
    · exact mul_pos (h i j) hxi
    · exact h i j

theorem mem_insertAnt (F : (Fin m → Fin v) → ℝ) (a b : Fin m → Fin v) (l : List (Fin m → Fin v)) : b ∈ insertAnt F a l ↔ b = a ∨ b ∈ l := by
  induction l with
  | nil => simp [insertAnt]
  | cons c l ih =>
    unfold insertAnt
    split
    · simp
    · rw [List.mem_cons, ih, List.mem_cons]
      tauto

theorem insertAnt_length (F : (Fin m → Fin v) → ℝ) (a : Fin m → Fin v) (l : List (Fin m → Fin v)) : (insertAnt F a l).length = l.length + 1 := by
  induction l with
  | nil => rfl
  | cons c l ih =>
    unfold insertAnt
    split
    · rfl
    · simp [ih]

theorem sortAnts_length (F : (Fin m → Fin v) → ℝ) (l : List (Fin m → Fin v)) : (sortAnts F l).length = l.length := by
  induction l with
  | nil => rfl
  | cons c l ih =>
    unfold sortAnts
    rw [insertAnt_length, ih]
    rfl

theorem globalFrom_pos {rho : ℝ} (hrho : 0 ≤ rho) {top : Nat} {F : (Fin m → Fin v) → ℝ} (hF : ∀ a, 0 < F a) (sorted : List (Fin m → Fin v)) :
    ∀ (k rank : Nat) (tau : Fin m → Fin v → ℝ), rank + k = top → top ≤ sorted.length → (∀ i j, 0 < tau i j) →
      ∃ tau', globalFrom rho top F sorted k rank tau = .ok tau' ∧ (∀ i j, 0 < tau' i j) ∧ ∀ i j, tau i j ≤ tau' i j := by
  intro k
  induction k with
  | zero => exact fun rank tau _ _ h => ⟨tau, rfl, h, fun _ _ => le_rfl⟩
  | succ k ih =>
    intro rank tau hr hl h
    unfold globalFrom
    have hlt : rank < sorted.length := by omega
    rw [List.getElem?_eq_getElem hlt]
    have hinc : ∀ i j, tau i j ≤ globalOne rho top rank (F sorted[rank]) tau sorted[rank] i j := by
      intro i j
      unfold globalOne
      split
      · have h1 : (0 : ℝ) ≤ (top : ℝ) - rank := by
          rw [sub_nonneg]
          exact_mod_cast (by omega : rank ≤ top)
        have := div_nonneg (mul_nonneg hrho h1) (le_of_lt (hF sorted[rank]))
        linarith
      · exact le_rfl
    obtain ⟨tau', h1, h2, h3⟩ := ih (rank + 1) (globalOne rho top rank (F sorted[rank]) tau sorted[rank]) (by omega) hl
      fun i j => lt_of_lt_of_le (h i j) (hinc i j)
    exact ⟨tau', h1, h2, fun i j => le_trans (hinc i j) (h3 i j)⟩

theorem acoRun_pos {xi rho : ℝ} (hxi : 0 < xi) (hrho : 0 ≤ rho) {top : Nat} {F : (Fin m → Fin v) → ℝ} (hF : ∀ a, 0 < F a)
    (its : List (List (Fin m → Fin v))) (hl : ∀ ants ∈ its, top ≤ ants.length) (tau : Fin m → Fin v → ℝ) (h : ∀ i j, 0 < tau i j) :
    ∃ tau', acoRun xi rho top F tau its = .ok tau' ∧ ∀ i j, 0 < tau' i j := by
  induction its generalizing tau with
  | nil => exact ⟨tau, rfl, h⟩
  | cons ants its ih =>
    obtain ⟨tau1, h1, h2, _⟩ := globalFrom_pos (top := top) hrho hF (sortAnts F ants) top 0 _ (by omega)
      (by rw [sortAnts_length]; exact hl ants List.mem_cons_self) (foldl_local_pos hxi ants h)
    have h1 : acoIter xi rho top F tau ants = .ok tau1 := h1
    obtain ⟨tau', h3, h4⟩ := ih (fun a ha => hl a (List.mem_cons_of_mem _ ha)) tau1 h2
    refine ⟨tau', ?_, h4⟩
    unfold acoRun
    rw [h1]
    exact h3

/-- C134: with positive fitness and at least as many ants as are rewarded, the iterations never raise, and after any number of them the probabilities of
    every member are those of a distribution that gives every value of the list a positive probability, in proportion to the power `alpha` of the pheromone
    and the power `beta` of the heuristic. Missing: fewer ants (`C134_violation`). -/
theorem C134_partial {xi rho alpha beta : ℝ} (hxi : 0 < xi) (hrho : 0 ≤ rho) {top : Nat} {F : (Fin m → Fin v) → ℝ} (hF : ∀ a, 0 < F a)
    {eta : Fin m → Fin v → ℝ} (heta : ∀ i j, 0 < eta i j) (hv : 0 < v)
    (its : List (List (Fin m → Fin v))) (hl : ∀ ants ∈ its, top ≤ ants.length) (tau : Fin m → Fin v → ℝ) (h : ∀ i j, 0 < tau i j) :
    ∃ tau', acoRun xi rho top F tau its = .ok tau' ∧
      ∀ i, (∀ j, 0 < acoProb alpha beta tau' eta i j) ∧ ∑ j, acoProb alpha beta tau' eta i j = 1 ∧
        ∀ j k, acoProb alpha beta tau' eta i j * (tau' i k ^ alpha * eta i k ^ beta) = acoProb alpha beta tau' eta i k * (tau' i j ^ alpha * eta i j ^ beta) := by
  obtain ⟨tau', h1, h2⟩ := acoRun_pos hxi hrho hF its hl tau h
  refine ⟨tau', h1, fun i => ?_⟩
  have hw : ∀ j, 0 < acoWeight alpha beta tau' eta i j := fun j =>
    mul_pos (Real.rpow_pos_of_pos (h2 i j) _) (Real.rpow_pos_of_pos (heta i j) _)
  have hs : 0 < ∑ k, acoWeight alpha beta tau' eta i k :=
    Finset.sum_pos (fun k _ => hw k) ⟨⟨0, hv⟩, Finset.mem_univ _⟩
  refine ⟨fun j => div_pos (hw j) hs, ?_, fun j k => ?_⟩
  · unfold acoProb
    rw [← Finset.sum_div, div_self hs.ne']
  · unfold acoProb acoWeight
    ring

theorem globalFrom_raises {rho : ℝ} {top : Nat} {F : (Fin m → Fin v) → ℝ} (sorted : List (Fin m → Fin v)) :
    ∀ (k rank : Nat) (tau : Fin m → Fin v → ℝ), sorted.length < rank + k → globalFrom rho top F sorted k rank tau = .error .indexError ∨ sorted.length < rank := by
  intro k
  induction k with
  | zero => exact fun rank tau h => .inr (by omega)
  | succ k ih =>
    intro rank tau h
    unfold globalFrom
    by_cases hlt : rank < sorted.length
    · rw [List.getElem?_eq_getElem hlt]
      rcases ih (rank + 1) (globalOne rho top rank (F sorted[rank]) tau sorted[rank]) (by omega) with h1 | h1
      · exact .inl h1
      · omega
    · rw [List.getElem?_eq_none (by omega)]
      exact .inl rfl

/-- C134, negation: with fewer ants than are rewarded (four by default), the first iteration raises. -/
theorem C134_violation {xi rho : ℝ} {top : Nat} {F : (Fin m → Fin v) → ℝ} (tau : Fin m → Fin v → ℝ) (ants : List (Fin m → Fin v))
    (h : ants.length < top) : acoIter xi rho top F tau ants = .error .indexError := by
  unfold acoIter
  rcases globalFrom_raises (rho := rho) (top := top) (F := F) (sortAnts F ants) top 0 (ants.foldl (localUpdate xi) tau)
    (by rw [sortAnts_length]; omega) with h1 | h1
  · exact h1
  · omega

theorem insertAnt_perm (F : (Fin m → Fin v) → ℝ) (a : Fin m → Fin v) (l : List (Fin m → Fin v)) : (insertAnt F a l).Perm (a :: l) := by
  induction l with
  | nil => exact List.Perm.refl _
  | cons c l ih =>
    unfold insertAnt
    split
    · exact List.Perm.refl _
    · exact (List.Perm.cons c ih).trans (List.Perm.swap a c l)

theorem sortAnts_perm (F : (Fin m → Fin v) → ℝ) (l : List (Fin m → Fin v)) : (sortAnts F l).Perm l := by
  induction l with
  | nil => exact List.Perm.refl _
  | cons c l ih => exact (insertAnt_perm F c _).trans (List.Perm.cons c ih)

theorem insertAnt_sorted (F : (Fin m → Fin v) → ℝ) (a : Fin m → Fin v) {l : List (Fin m → Fin v)} (h : l.Pairwise fun a b => F a ≤ F b) :
    (insertAnt F a l).Pairwise fun a b => F a ≤ F b := by
  induction l with
  | nil => exact List.pairwise_singleton _ _
  | cons c l ih =>
    obtain ⟨h1, h2⟩ := List.pairwise_cons.1 h
    unfold insertAnt
    split
    · rename_i hle
      refine List.pairwise_cons.2 ⟨fun b hb => ?_, h⟩
      rcases List.mem_cons.1 hb with rfl | hb
      · exact hle
      · exact le_trans hle (h1 b hb)
    · rename_i hle
      refine List.pairwise_cons.2 ⟨fun b hb => ?_, ih h2⟩
      rcases (mem_insertAnt F a b l).1 hb with rfl | hb
      · exact le_of_lt (not_le.1 hle)
      · exact h1 b hb

theorem sortAnts_sorted (F : (Fin m → Fin v) → ℝ) (l : List (Fin m → Fin v)) : (sortAnts F l).Pairwise fun a b => F a ≤ F b := by
  induction l with
  | nil => exact List.Pairwise.nil
  | cons c l ih => exact insertAnt_sorted F c ih

theorem foldl_local_eq (xi : ℝ) (ants : List (Fin m → Fin v)) (tau : Fin m → Fin v → ℝ) (i : Fin m) (j : Fin v) :
    ants.foldl (localUpdate xi) tau i j = tau i j * xi ^ (ants.countP fun a => decide (a i = j)) := by
  induction ants generalizing tau with
  | nil => simp
  | cons a l ih =>
    rw [List.foldl_cons, ih, List.countP_cons]
    unfold localUpdate
    by_cases h : j = a i
    · rw [if_pos h, if_pos (by simp [h]), pow_add, pow_one]
      ring
    · rw [if_neg h, if_neg (by simpa using Ne.symm h), Nat.add_zero]

theorem globalFrom_eq (rho : ℝ) (top : Nat) (F : (Fin m → Fin v) → ℝ) (i : Fin m) (j : Fin v) :
    ∀ (k rank : Nat) (sorted : List (Fin m → Fin v)) (tau tau' : Fin m → Fin v → ℝ), globalFrom rho top F sorted k rank tau = .ok tau' →
      tau' i j = tau i j + ((((sorted.drop rank).take k).zipIdx rank).map fun q => if q.1 i = j then rho * ((top : ℝ) - q.2) / F q.1 else 0).sum := by
  intro k
  induction k with
  | zero =>
    intro rank sorted tau tau' h
    obtain rfl := Except.ok.inj h
    simp
  | succ k ih =>
    intro rank sorted tau tau' h
    unfold globalFrom at h
    split at h
    · cases h
    · rename_i ant hant
      have hlt : rank < sorted.length := by
        by_contra hc
        rw [List.getElem?_eq_none (by omega)] at hant
        cases hant
      rw [List.getElem?_eq_getElem hlt] at hant
      have hant := Option.some.inj hant
      rw [ih (rank + 1) sorted _ tau' h, List.drop_eq_getElem_cons hlt, List.take_succ_cons, List.zipIdx_cons, List.map_cons, List.sum_cons, hant]
      unfold globalOne
      by_cases hj : j = ant i
      · rw [if_pos hj, if_pos hj.symm]
        ring
      · rw [if_neg hj, if_neg (Ne.symm hj)]
        ring

/-- C134: the pheromone of a value is multiplied by `xi` once for every ant that chose it, and the ants ranked first by their fitness add
    `rho · (top - rank) / fitness`. -/
theorem C134_update {xi rho : ℝ} {top : Nat} {F : (Fin m → Fin v) → ℝ} {tau tau' : Fin m → Fin v → ℝ} {ants : List (Fin m → Fin v)}
    (h : acoIter xi rho top F tau ants = .ok tau') :
    ∃ ranked : List (Fin m → Fin v), ranked.Perm ants ∧ (ranked.Pairwise fun a b => F a ≤ F b) ∧
      ∀ i j, tau' i j = tau i j * xi ^ (ants.countP fun a => decide (a i = j)) +
        (((ranked.take top).zipIdx).map fun q => if q.1 i = j then rho * ((top : ℝ) - q.2) / F q.1 else 0).sum := by
  refine ⟨sortAnts F ants, sortAnts_perm F ants, sortAnts_sorted F ants, fun i j => ?_⟩
  rw [globalFrom_eq rho top F i j top 0 _ _ _ h, foldl_local_eq, List.drop_zero]

theorem acoEvaluate_from (F : (Fin m → Fin v) → ℝ) (ants : List (Fin m → Fin v)) (done : List (Fin m → Fin v)) (f : ℝ) (c : Fin m → Fin v)
    (hc : BestOf F done f c) :
    ∃ f' c', ants.foldl (fun b a => match b with
        | none => some (F a, a)
        | some (f, c) => if F a < f then some (F a, a) else some (f, c)) (some (f, c)) = some (f', c') ∧ BestOf F (done ++ ants) f' c' := by
  induction ants generalizing done f c with
  | nil => exact ⟨f, c, rfl, by rw [List.append_nil]; exact hc⟩
  | cons a l ih =>
    obtain ⟨h1, h2, h3⟩ := hc
    rw [List.foldl_cons]
    simp only
    by_cases hlt : F a < f
    · rw [if_pos hlt]
      have := ih (done ++ [a]) (F a) a ⟨rfl, by simp, fun b hb => by
        rcases List.mem_append.1 hb with hb | hb
        · exact le_trans (le_of_lt hlt) (h3 b hb)
        · rw [List.mem_singleton.1 hb]⟩
      rwa [List.append_assoc] at this
    · rw [if_neg hlt]
      have := ih (done ++ [a]) f c ⟨h1, List.mem_append_left _ h2, fun b hb => by
        rcases List.mem_append.1 hb with hb | hb
        · exact h3 b hb
        · rw [List.mem_singleton.1 hb]
          exact not_lt.1 hlt⟩
      rwa [List.append_assoc] at this

theorem acoEvaluate_best (F : (Fin m → Fin v) → ℝ) {ants : List (Fin m → Fin v)} (hne : ants ≠ []) :
    ∃ f c, acoEvaluate F ants = some (f, c) ∧ BestOf F ants f c := by
  cases ants with
  | nil => exact absurd rfl hne
  | cons a l =>
    exact acoEvaluate_from F l [a] (F a) a ⟨rfl, List.mem_singleton.2 rfl, fun b hb => by rw [List.mem_singleton.1 hb]⟩

theorem acoBest_from (F : (Fin m → Fin v) → ℝ) (nmax : Nat) (its : List (List (Fin m → Fin v))) (hne : ∀ ants ∈ its, ants ≠ []) :
    ∀ (N : Nat) (done : List (Fin m → Fin v)) (f : ℝ) (c : Fin m → Fin v), BestOf F done f c →
      ∃ k f' c', k ≤ its.length ∧ acoBest F nmax N (some (f, c)) its = some (f', c') ∧ BestOf F (done ++ (its.take k).flatten) f' c' := by
  induction its with
  | nil => exact fun N done f c hc => ⟨0, f, c, le_rfl, rfl, by simpa using hc⟩
  | cons ants its ih =>
    have ih := ih fun a ha => hne a (List.mem_cons_of_mem _ ha)
    intro N done f c hc
    obtain ⟨g, d, hg, hbest⟩ := acoEvaluate_best F (hne ants List.mem_cons_self)
    obtain ⟨h1, h2, h3⟩ := hc
    unfold acoBest
    rw [hg]
    unfold isBetter
    simp only [decide_eq_true_eq]
    by_cases hlt : g < f
    · rw [if_pos hlt]
      obtain ⟨k, f', c', hk, h4, h5⟩ := ih 0 (done ++ ants) g d ⟨hbest.1, List.mem_append_right _ hbest.2.1, fun b hb => by
        rcases List.mem_append.1 hb with hb | hb
        · exact le_trans (le_of_lt hlt) (h3 b hb)
        · exact hbest.2.2 b hb⟩
      refine ⟨k + 1, f', c', by simpa using hk, h4, ?_⟩
      rw [List.take_succ_cons, List.flatten_cons, ← List.append_assoc]
      exact h5
    · rw [if_neg hlt]
      have hc' : BestOf F (done ++ ants) f c := ⟨h1, List.mem_append_left _ h2, fun b hb => by
        rcases List.mem_append.1 hb with hb | hb
        · exact h3 b hb
        · exact le_trans (not_lt.1 hlt) (hbest.2.2 b hb)⟩
      split
      · refine ⟨1, f, c, by simp, rfl, ?_⟩
        simpa using hc'
      · obtain ⟨k, f', c', hk, h4, h5⟩ := ih (N + 1) (done ++ ants) f c hc'
        refine ⟨k + 1, f', c', by simpa using hk, h4, ?_⟩
        rw [List.take_succ_cons, List.flatten_cons, ← List.append_assoc]
        exact h5

/-- C135: a new object gives the best of all ants of the iterations carried out, with its fitness. Missing: reused objects (`C135_violation`). -/
theorem C135_partial (F : (Fin m → Fin v) → ℝ) (nmax : Nat) {its : List (List (Fin m → Fin v))} (hits : its ≠ [])
    (hne : ∀ ants ∈ its, ants ≠ []) :
    ∃ k f c, 1 ≤ k ∧ k ≤ its.length ∧ acoBest F nmax 0 none its = some (f, c) ∧ BestOf F (its.take k).flatten f c := by
  cases its with
  | nil => exact absurd rfl hits
  | cons ants its =>
    obtain ⟨g, d, hg, hbest⟩ := acoEvaluate_best F (hne ants List.mem_cons_self)
    obtain ⟨k, f, c, hk, h1, h2⟩ := acoBest_from F nmax its (fun a ha => hne a (List.mem_cons_of_mem _ ha)) 0 ants g d hbest
    refine ⟨k + 1, f, c, by omega, by simpa using hk, ?_, ?_⟩
    · unfold acoBest
      rw [hg]
      exact h1
    · rw [List.take_succ_cons, List.flatten_cons]
      exact h2

/-- The search stops early only after `nmax + 1` iterations without improvement: with fewer iterations all of them are carried out. -/
theorem acoBest_all (F : (Fin m → Fin v) → ℝ) (nmax : Nat) (its : List (List (Fin m → Fin v))) (hne : ∀ ants ∈ its, ants ≠ []) :
    ∀ (N : Nat) (done : List (Fin m → Fin v)) (f : ℝ) (c : Fin m → Fin v), BestOf F done f c → N + its.length ≤ nmax →
      ∃ f' c', acoBest F nmax N (some (f, c)) its = some (f', c') ∧ BestOf F (done ++ its.flatten) f' c' := by
  induction its with
  | nil => exact fun N done f c hc _ => ⟨f, c, rfl, by simpa using hc⟩
  | cons ants its ih =>
    have ih := ih fun a ha => hne a (List.mem_cons_of_mem _ ha)
    intro N done f c hc hN
    rw [List.length_cons] at hN
    obtain ⟨g, d, hg, hbest⟩ := acoEvaluate_best F (hne ants List.mem_cons_self)
    obtain ⟨h1, h2, h3⟩ := hc
    unfold acoBest
    rw [hg]
    unfold isBetter
    simp only [decide_eq_true_eq]
    rw [List.flatten_cons, ← List.append_assoc]
    by_cases hlt : g < f
    · rw [if_pos hlt]
      exact ih 0 (done ++ ants) g d ⟨hbest.1, List.mem_append_right _ hbest.2.1, fun b hb => by
        rcases List.mem_append.1 hb with hb | hb
        · exact le_trans (le_of_lt hlt) (h3 b hb)
        · exact hbest.2.2 b hb⟩ (by omega)
    · rw [if_neg hlt, if_neg (by omega)]
      exact ih (N + 1) (done ++ ants) f c ⟨h1, List.mem_append_left _ h2, fun b hb => by
        rcases List.mem_append.1 hb with hb | hb
        · exact h3 b hb
        · exact le_trans (not_lt.1 hlt) (hbest.2.2 b hb)⟩ (by omega)

/-- C135: with at most `nmax + 1` iterations, the result is the best of all ants. -/
theorem C135_all (F : (Fin m → Fin v) → ℝ) (nmax : Nat) {its : List (List (Fin m → Fin v))} (hits : its ≠ [])
    (hne : ∀ ants ∈ its, ants ≠ []) (hN : its.length ≤ nmax + 1) :
    ∃ f c, acoBest F nmax 0 none its = some (f, c) ∧ BestOf F its.flatten f c := by
  cases its with
  | nil => exact absurd rfl hits
  | cons ants its =>
    obtain ⟨g, d, hg, hbest⟩ := acoEvaluate_best F (hne ants List.mem_cons_self)
    obtain ⟨f, c, h1, h2⟩ := acoBest_all F nmax its (fun a ha => hne a (List.mem_cons_of_mem _ ha)) 0 ants g d hbest
      (by rw [List.length_cons] at hN; omega)
    refine ⟨f, c, ?_, by rw [List.flatten_cons]; exact h2⟩
    unfold acoBest
    rw [hg]
    exact h1

/-- C135, negation: `solve` does not reset the best value; after a problem with a smaller one, the result is the old value and the old design. -/
theorem C135_violation (F : (Fin m → Fin v) → ℝ) (nmax : Nat) (f : ℝ) (c : Fin m → Fin v) (hF : ∀ a, f ≤ F a)
    (its : List (List (Fin m → Fin v))) (N : Nat) : acoBest F nmax N (some (f, c)) its = some (f, c) := by
  induction its generalizing N with
  | nil => rfl
  | cons ants its ih =>
    unfold acoBest
    have hb : isBetter (acoEvaluate F ants) (some (f, c)) = false := by
      by_cases hne : ants = []
      · rw [hne]
        rfl
      · obtain ⟨g, d, hg, hbest⟩ := acoEvaluate_best F hne
        rw [hg]
        unfold isBetter
        simp only [decide_eq_false_iff_not, not_lt]
        rw [hbest.1]
        exact hF d
    simp only [hb]
    rw [if_neg (by decide)]
    split
    · rfl
    · exact ih (N + 1)

end Aco

/-! ### Examples -/

/-- Bounds of whole millimetres, two evaluations (C130). -/
example : (gaRun (K := ℚ) (⟨fun _ => 1, fun _ => 5, fun x => x 0, fun _ => []⟩ : GaProb ℚ 1) ⟨100, 100, none, 0⟩ [fun _ => 4, fun _ => 3]).bestF < 100 := by
  have h := (gaRun_le (K := ℚ) (⟨fun _ => 1, fun _ => 5, fun x => x 0, fun _ => []⟩ : GaProb ℚ 1) [fun _ => 4, fun _ => 3] ⟨100, 100, none, 0⟩).2
    (fun _ => 3) (by simp)
  refine lt_of_le_of_lt h ?_
  show round3 (max (1 : ℚ) (min 3 5)) + 2000000 * (List.map _ ([] : List ℚ)).sum < 100
  rw [show max (1 : ℚ) (min 3 5) = 3 by norm_num, round3_exact (z := 3000) (by norm_num)]
  norm_num

/-- The bounds are numbers of thousandths. -/
example : Thousandths (1 : ℚ) ∧ Thousandths (5 / 2 : ℚ) := ⟨⟨1000, by norm_num⟩, ⟨2500, by norm_num⟩⟩

/-- A reused object (C130). -/
example (inds : List (Fin 1 → ℚ)) :
    gaRun (⟨fun _ => 1, fun _ => 5, fun _ => 7, fun _ => []⟩ : GaProb ℚ 1) ⟨2, 3, some fun _ => 9, 0⟩ inds = ⟨2, 3, some fun _ => 9, 0⟩ :=
  C130_violation_reuse _ _ (fun x f hf => by
    have hf : f = 7 + 2000000 * (List.map _ ([] : List ℚ)).sum := hf
    rw [hf]
    norm_num) inds

/-- A problem with one variable and three individuals before one with two variables (C131). -/
example : gaPopulation [(1 : ℚ), 2] 2 (gaCounter 1 0 3) 2 = .ok [[2, 1], [2, 1]] := C131_violation (x0 := [(1 : ℚ), 2]) (by simp) 1 3 2

/-- Two selected individuals (C132, C133). -/
example (f : Nat → Nat → Nat → Nat × Nat) (g : Nat → Nat → Nat → Nat) : 9 ∈ gaGeneration f g [9, 4, 9, 4, 9, 4, 9] :=
  have h : gaNewPop 5 0 9 (some 9) [3, 4] = .ok [9, 4, 9, 4, 9, 4, 9] := by simp [gaNewPop, List.replicate]
  C133_partial (offspring := [3, 4]) (by decide) h f g

/-- Two ants, one rewarded (C134, C135). -/
example : ∃ tau', acoRun (3 / 4) 1 1 (fun _ => 10) (fun _ _ => 1) [[fun _ : Fin 2 => (0 : Fin 3), fun _ => 1]] = .ok tau' ∧
    ∀ i, (∀ j, 0 < acoProb 1 (1 / 2) tau' (fun _ _ => 1) i j) ∧ ∑ j, acoProb 1 (1 / 2) tau' (fun _ _ => 1) i j = 1 := by
  obtain ⟨tau', h1, h2⟩ := C134_partial (xi := 3 / 4) (rho := 1) (alpha := 1) (beta := 1 / 2) (by norm_num) (by norm_num) (top := 1) (F := fun _ => 10) (fun _ => by norm_num) (eta := fun _ _ => 1)
    (fun _ _ => by norm_num) (by norm_num) [[fun _ : Fin 2 => (0 : Fin 3), fun _ => 1]] (by simp) (fun _ _ => 1) (fun _ _ => by norm_num)
  exact ⟨tau', h1, fun i => ⟨(h2 i).1, (h2 i).2.1⟩⟩

/-- Two ants, four rewarded (C134). -/
example : acoIter (3 / 4) 1 4 (fun _ => 10) (fun _ _ => 1) [fun _ : Fin 2 => (0 : Fin 3), fun _ => 1] = .error .indexError :=
  C134_violation _ _ (by simp)

/-- One iteration of two ants (C135). -/
example : ∃ f c, acoBest (fun a : Fin 1 → Fin 2 => ((a 0 : ℕ) : ℝ)) 10 0 none [[fun _ => 1, fun _ => 0]] = some (f, c) ∧
    BestOf (fun a : Fin 1 → Fin 2 => ((a 0 : ℕ) : ℝ)) [fun _ => 1, fun _ => 0] f c :=
  C135_all _ 10 (its := [[fun _ => 1, fun _ => 0]]) (by simp) (by simp) (by simp)

end Metku.Opt
