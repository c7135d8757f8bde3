import Verif.Props.RaamiGen
import Mathlib.Algebra.BigOperators.Group.List.Basic

/-! C191: line loads on the elements of a member. C192: piecewise constant line loads. -/
namespace Metku.Raami

set_option linter.unusedSectionVars false

variable {K : Type} [Field K] [LinearOrder K] [IsStrictOrderedRing K] [FloorRing K]

/-! ### Line loads -/

/-- The value at the relative distance `s` from the start of a load that changes linearly from `v0` to `v1`. -/
def trapezium (v0 v1 s : K) : K := (1 - s) * v0 + s * v1

/-- The resultant of the loads on elements of equal length `l`. -/
def resultant (l : K) (qs : List (ℕ × K × K)) : K := (qs.map (fun q => (q.2.1 + q.2.2) / 2 * l)).sum

theorem lineValues_get (fac v0 v1 : K) (elems : List ℕ) (i : ℕ) : (lineValues fac v0 v1 elems)[i]? =
    (elems[i]?).map (fun e => (e, fac * trapezium v0 v1 ((i : K) / elems.length), fac * trapezium v0 v1 (((i + 1 : ℕ) : K) / elems.length))) := by
  unfold lineValues
  rw [List.getElem?_mapIdx]
  have h : ∀ s : K, v0 + s * (v1 - v0) = trapezium v0 v1 s := fun s => by unfold trapezium; ring
  simp only [h]

theorem sum_trapezia (a b : K) : ∀ n : ℕ, ((List.range n).map (fun i : ℕ => (a + (i : K) * b))).sum = n * a + (n * (n - 1) / 2 : K) * b
  | 0 => by simp
  | n + 1 => by
    rw [List.range_succ, List.map_append, List.sum_append, sum_trapezia a b n]
    simp
    ring

/-- C191: every element of the member is loaded once; the values at its ends are those of the trapezoidal load at the
nodes of the FEM model (times the factor), so the load is continuous and has the given values at the ends of the member;
and the resultant is that of the load. -/
theorem C191 (fac v0 v1 len : K) (elems : List ℕ) (hn : elems ≠ []) :
    (lineValues fac v0 v1 elems).map (fun q => q.1) = elems ∧
    (∀ (i : ℕ) (q : ℕ × K × K), (lineValues fac v0 v1 elems)[i]? = some q →
      q.2.1 = fac * trapezium v0 v1 ((i : K) / elems.length) ∧ q.2.2 = fac * trapezium v0 v1 (((i + 1 : ℕ) : K) / elems.length)) ∧
    (∀ (i : ℕ) (q r : ℕ × K × K), (lineValues fac v0 v1 elems)[i]? = some q → (lineValues fac v0 v1 elems)[i + 1]? = some r → q.2.2 = r.2.1) ∧
    (∃ q r : ℕ × K × K, (lineValues fac v0 v1 elems).head? = some q ∧ (lineValues fac v0 v1 elems).getLast? = some r ∧ q.2.1 = fac * v0 ∧ r.2.2 = fac * v1) ∧
    resultant (len / elems.length) (lineValues fac v0 v1 elems) = fac * ((v0 + v1) / 2) * len := by
  have hl : 0 < elems.length := List.length_pos_of_ne_nil hn
  have h0 : (elems.length : K) ≠ 0 := by positivity
  have hlen : (lineValues fac v0 v1 elems).length = elems.length := by simp [lineValues]
  have hvals : ∀ (i : ℕ) (q : ℕ × K × K), (lineValues fac v0 v1 elems)[i]? = some q →
      q.2.1 = fac * trapezium v0 v1 ((i : K) / elems.length) ∧ q.2.2 = fac * trapezium v0 v1 (((i + 1 : ℕ) : K) / elems.length) := by
    intro i q hq
    rw [lineValues_get] at hq
    obtain ⟨e, -, rfl⟩ := Option.map_eq_some_iff.mp hq
    exact ⟨rfl, rfl⟩
  refine ⟨?_, hvals, ?_, ?_, ?_⟩
  · apply List.ext_getElem?
    intro i
    rw [List.getElem?_map, lineValues_get, Option.map_map]
    show (elems[i]?).map (fun e => e) = _
    cases elems[i]? <;> rfl
  · intro i q r hq hr
    rw [(hvals i q hq).2, (hvals (i + 1) r hr).1]
  · have a1 : (lineValues fac v0 v1 elems)[0]? = some ((lineValues fac v0 v1 elems)[0]'(by omega)) := List.getElem?_eq_getElem _
    have a2 : (lineValues fac v0 v1 elems)[elems.length - 1]? = some ((lineValues fac v0 v1 elems)[elems.length - 1]'(by omega)) := List.getElem?_eq_getElem _
    refine ⟨_, _, by rw [List.head?_eq_getElem?]; exact a1, by rw [List.getLast?_eq_getElem?, hlen]; exact a2, ?_, ?_⟩
    · rw [(hvals _ _ a1).1]
      unfold trapezium
      simp
    · rw [(hvals _ _ a2).2, show elems.length - 1 + 1 = elems.length by omega, div_self h0]
      unfold trapezium
      ring
  · unfold resultant
    have e : (lineValues fac v0 v1 elems).map (fun q => (q.2.1 + q.2.2) / 2 * (len / elems.length)) =
        (List.range elems.length).map (fun i : ℕ => (fac * (v0 + (v1 - v0) / (2 * elems.length)) * (len / elems.length) + (i : K) * (fac * ((v1 - v0) / elems.length) * (len / elems.length)))) := by
      apply List.ext_getElem?
      intro i
      rw [List.getElem?_map, lineValues_get, Option.map_map, List.getElem?_map]
      rcases lt_or_ge i elems.length with hi | hi
      · rw [List.getElem?_eq_getElem hi, List.getElem?_range hi]
        simp only [Option.map_some, Function.comp_apply, Option.some.injEq]
        unfold trapezium
        push_cast
        field_simp
        ring
      · rw [List.getElem?_eq_none hi, List.getElem?_eq_none (by rw [List.length_range]; exact hi)]
        rfl
    rw [e, sum_trapezia]
    field_simp
    ring

example : ([3, 4, 5, 6] : List ℕ) ≠ [] ∧ lineValues (3 / 2 : ℚ) 2 10 [3, 4, 5, 6] = [(3, 3, 6), (4, 6, 9), (5, 9, 12), (6, 12, 15)] := by
  refine ⟨by simp, ?_⟩
  decide +kernel

/-! ### Piecewise constant loads -/

/-- The value wanted on the `i`-th of `nel` elements: `v0` before the step at the local coordinate `t`, and `v1` after it. -/
def stepWanted (v0 v1 t : K) (i nel : ℕ) : Option K :=
  if ((i + 1 : ℕ) : K) / nel ≤ t then some v0 else if t ≤ (i : K) / nel then some v1 else none

theorem stepValues_get (fac v0 v1 : K) (p q : K × K) (nel : ℕ) (t : K) {i : ℕ} (hi : i < nel) :
    (stepValues fac v0 v1 p q nel t)[i]? = some (stepValue fac v0 v1 (p.1 + t * (q.1 - p.1)) (p.1 + (i : K) / nel * (q.1 - p.1)) (p.1 + ((i + 1 : ℕ) : K) / nel * (q.1 - p.1))) := by
  unfold stepValues
  rw [List.getElem?_map, List.getElem?_range hi]
  rfl

theorem frac_lt {i nel : ℕ} (hi : i < nel) : (i : K) / nel < ((i + 1 : ℕ) : K) / nel := by
  have : (0 : K) < nel := by
    have : 0 < nel := by omega
    positivity
  apply div_lt_div_of_pos_right _ this
  push_cast
  linarith

/-- C192 (partial): on a member from left to right the elements on either side of the step have the wanted values, and the element
across the step has the value of larger magnitude. -/
theorem C192_partial (fac v0 v1 : K) (p q : K × K) (nel : ℕ) (t : K) (hpq : p.1 < q.1) {i : ℕ} (hi : i < nel) :
    ∃ w, (stepValues fac v0 v1 p q nel t)[i]? = some w ∧ (∀ v, stepWanted v0 v1 t i nel = some v → w = fac * v) ∧
      (stepWanted v0 v1 t i nel = none → (w = fac * v0 ∨ w = fac * v1) ∧ |fac * v0| ≤ |w| ∧ |fac * v1| ≤ |w|) := by
  have hd : 0 < q.1 - p.1 := by linarith
  have hlt := frac_lt (K := K) hi
  refine ⟨_, stepValues_get fac v0 v1 p q nel t hi, ?_, ?_⟩
  all_goals
    unfold stepWanted stepValue
    rw [max_eq_right (by nlinarith), min_eq_left (by nlinarith)]
  · intro v hv
    by_cases h1 : ((i + 1 : ℕ) : K) / nel ≤ t
    · rw [if_pos h1] at hv
      obtain rfl := Option.some.inj hv
      rw [if_pos (by nlinarith)]
    · rw [if_neg h1] at hv
      by_cases h2 : t ≤ (i : K) / nel
      · rw [if_pos h2] at hv
        obtain rfl := Option.some.inj hv
        rw [if_neg (by nlinarith [not_le.mp h1]), if_pos (by nlinarith)]
      · rw [if_neg h2] at hv
        cases hv
  · intro hv
    by_cases h1 : ((i + 1 : ℕ) : K) / nel ≤ t
    · rw [if_pos h1] at hv
      cases hv
    · rw [if_neg h1] at hv
      by_cases h2 : t ≤ (i : K) / nel
      · rw [if_pos h2] at hv
        cases hv
      · rw [if_neg (by nlinarith [not_le.mp h1]), if_neg (by nlinarith [not_le.mp h2])]
        split_ifs with h3
        · exact ⟨Or.inl rfl, le_refl _, h3⟩
        · exact ⟨Or.inr rfl, le_of_lt (not_le.mp h3), le_refl _⟩

/-- C192 (violation): on a member from right to left the values are exchanged. -/
theorem C192_violation_left (fac v0 v1 : K) (p q : K × K) (nel : ℕ) (t : K) (hpq : q.1 < p.1) {i : ℕ} (hi : i < nel) :
    (t ≤ (i : K) / nel → (stepValues fac v0 v1 p q nel t)[i]? = some (fac * v0)) ∧
    (((i + 1 : ℕ) : K) / nel ≤ t → (stepValues fac v0 v1 p q nel t)[i]? = some (fac * v1)) := by
  have hd : q.1 - p.1 < 0 := by linarith
  have hlt := frac_lt (K := K) hi
  rw [stepValues_get fac v0 v1 p q nel t hi]
  unfold stepValue
  rw [max_eq_left (by nlinarith), min_eq_right (by nlinarith)]
  constructor
  · intro h
    rw [if_pos (by nlinarith)]
  · intro h
    rw [if_neg (by nlinarith), if_pos (by nlinarith)]

/-- C192 (violation): a column has the first value on all its elements, wherever the step is. -/
theorem C192_violation_column (fac v0 v1 : K) (p q : K × K) (nel : ℕ) (t : K) (hpq : q.1 = p.1) {i : ℕ} (hi : i < nel) :
    (stepValues fac v0 v1 p q nel t)[i]? = some (fac * v0) := by
  rw [stepValues_get fac v0 v1 p q nel t hi]
  unfold stepValue
  rw [hpq]
  simp

example : (stepValues (1 : ℚ) 2 3 (0, 0) (8, 0) 4 (1 / 2)) = [2, 2, 3, 3] ∧ stepValues (1 : ℚ) 2 3 (8, 0) (0, 0) 4 (1 / 2) = [3, 3, 2, 2] ∧
    stepValues (1 : ℚ) 2 3 (0, 0) (0, 8) 4 (1 / 2) = [2, 2, 2, 2] ∧ stepValues (1 : ℚ) 2 3 (0, 0) (8, 0) 4 (3 / 5) = [2, 2, 3, 3] := by decide +kernel

end Metku.Raami
