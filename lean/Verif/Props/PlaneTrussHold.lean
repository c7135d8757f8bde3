import Verif.Props.PlaneTrussWeb

/-!
How many braces meet at a node of a roof truss: at least one at each node of a closed truss, at most three anywhere, and how many at the ridge.
-/
namespace Metku.Truss

/-- Braces at the nodes of `Nt` top nodes and `Nb` bottom nodes. -/
structure Hold (Nt Nb : ℕ) (closed : Bool) (W : List (Ref × Ref)) : Prop where
  top : ∀ i < Nt, closed = true ∨ (0 < i ∧ i + 1 < Nt) → ∃ j < Nb, Linked W (.top i) (.bot j)
  bot : ∀ j < Nb, closed = true ∨ (0 < j ∧ j + 1 < Nb) → ∃ i < Nt, Linked W (.top i) (.bot j)
  fewT : ∀ i, ∃ k, ∀ j, Linked W (.top i) (.bot j) → k ≤ j ∧ j ≤ k + 2
  fewB : ∀ j, ∃ k, ∀ i, Linked W (.top i) (.bot j) → k ≤ i ∧ i ≤ k + 2

theorem hold_K (n : ℕ) (hn : 0 < n) : Hold (2 * n + 1) (2 * n) true (kW n) := by
  refine ⟨fun i hi _ => ?_, fun j hj _ => ⟨j, by omega, linked_K.2 (by omega)⟩, fun i => ⟨i - 1, fun j h => ?_⟩, fun j => ⟨j, fun i h => ?_⟩⟩
  · rcases Nat.lt_or_ge i (2 * n) with k | k
    · exact ⟨i, k, linked_K.2 (by omega)⟩
    · exact ⟨i - 1, by omega, linked_K.2 (by omega)⟩
  · rw [linked_K] at h
    omega
  · rw [linked_K] at h
    omega

theorem hold_Ku (n : ℕ) (edge : Bool) : Hold (2 * n + 3) (2 * n + 2) edge (kuW n edge) := by
  refine ⟨fun i hi h => ?_, fun j hj _ => ?_, fun i => ⟨i - 1, fun j h => ?_⟩, fun j => ⟨j, fun i h => ?_⟩⟩
  · rcases Nat.lt_or_ge i 1 with k | k
    · exact ⟨0, by omega, linked_Ku.2 (.inr ⟨h.resolve_right (by omega), by omega⟩)⟩
    · rcases Nat.lt_or_ge i (2 * n + 2) with k' | k'
      · exact ⟨i, by omega, linked_Ku.2 (.inl (by omega))⟩
      · exact ⟨2 * n + 1, by omega, linked_Ku.2 (.inr ⟨h.resolve_right (by omega), by omega⟩)⟩
  · rcases Nat.lt_or_ge j (2 * n + 1) with k | k
    · exact ⟨j + 1, by omega, linked_Ku.2 (.inl (by omega))⟩
    · exact ⟨j, by omega, linked_Ku.2 (.inl (by omega))⟩
  · rw [linked_Ku] at h
    rcases h with h | ⟨-, h⟩ <;> omega
  · rw [linked_Ku] at h
    rcases h with h | ⟨-, h⟩ <;> omega

theorem hold_Kd (n : ℕ) (hn : 0 < n) (edge : Bool) : Hold (2 * n + 1) (2 * n + 2) edge (kdW n edge) := by
  refine ⟨fun i hi _ => ?_, fun j hj h => ?_, fun i => ⟨i, fun j h => ?_⟩, fun j => ⟨j - 1, fun i h => ?_⟩⟩
  · rcases Nat.lt_or_ge i 1 with k | k
    · exact ⟨i + 1, by omega, linked_Kd.2 (.inl (by omega))⟩
    · exact ⟨i, by omega, linked_Kd.2 (.inl (by omega))⟩
  · rcases Nat.lt_or_ge j 1 with k | k
    · exact ⟨0, by omega, linked_Kd.2 (.inr ⟨h.resolve_right (by omega), by omega⟩)⟩
    · rcases Nat.lt_or_ge j (2 * n + 1) with k' | k'
      · exact ⟨j, by omega, linked_Kd.2 (.inl (by omega))⟩
      · exact ⟨2 * n, by omega, linked_Kd.2 (.inr ⟨h.resolve_right (by omega), by omega⟩)⟩
  · rw [linked_Kd] at h
    rcases h with h | ⟨-, h⟩ <;> omega
  · rw [linked_Kd] at h
    rcases h with h | ⟨-, h⟩ <;> omega

theorem hold_N (n : ℕ) (hn : 2 ≤ n) : Hold (2 * n + 1) (2 * n - 1) true (nW n) := by
  refine ⟨fun i hi _ => ?_, fun j hj _ => ⟨j + 1, by omega, (linked_N hn).2 (by omega)⟩, fun i => ⟨i - 2, fun j h => ?_⟩, fun j => ⟨j, fun i h => ?_⟩⟩
  · rcases Nat.lt_or_ge i 1 with k | k
    · exact ⟨i, by omega, (linked_N hn).2 (by omega)⟩
    · rcases Nat.lt_or_ge i (2 * n) with k' | k'
      · exact ⟨i - 1, by omega, (linked_N hn).2 (by omega)⟩
      · exact ⟨i - 2, by omega, (linked_N hn).2 (by omega)⟩
  · rw [linked_N hn] at h
    omega
  · rw [linked_N hn] at h
    omega

theorem hold_N0 (n : ℕ) (hn : 0 < n) (up edge : Bool) : Hold (2 * n + 1) (2 * n + 1) edge (n0W n up edge) := by
  refine ⟨fun i hi h => ⟨i, hi, (linked_N0 hn).2 (.inl ⟨rfl, ?_⟩)⟩, fun i hi h => ⟨i, hi, (linked_N0 hn).2 (.inl ⟨rfl, ?_⟩)⟩, fun i => ⟨i - 1, fun j h => ?_⟩, fun j => ⟨j - 1, fun i h => ?_⟩⟩
  · rcases h with h | h
    · exact .inr ⟨h, by omega⟩
    · exact .inl (by omega)
  · rcases h with h | h
    · exact .inr ⟨h, by omega⟩
    · exact .inl (by omega)
  · rw [linked_N0 hn] at h
    rcases h with ⟨h, -⟩ | ⟨-, h⟩ | ⟨-, h⟩ <;> omega
  · rw [linked_N0 hn] at h
    rcases h with ⟨h, -⟩ | ⟨-, h⟩ | ⟨-, h⟩ <;> omega

theorem hold_T (n : ℕ) (hn : 0 < n) : Hold (4 * n + 1) (2 * n) true (tW n) := by
  refine ⟨fun i hi _ => ?_, fun j hj _ => ⟨2 * j, by omega, linked_T.2 (by omega)⟩, fun i => ⟨i / 2 - 1, fun j h => ?_⟩, fun j => ⟨2 * j, fun i h => ?_⟩⟩
  · rcases Nat.lt_or_ge i (4 * n) with k | k
    · exact ⟨i / 2, by omega, linked_T.2 (by omega)⟩
    · exact ⟨i / 2 - 1, by omega, linked_T.2 (by omega)⟩
  · rw [linked_T] at h
    omega
  · rw [linked_T] at h
    omega

theorem hold_Tu (n : ℕ) (edge : Bool) : Hold (4 * n + 3) (2 * n + 2) edge (tuW n edge) := by
  refine ⟨fun i hi h => ?_, fun j hj _ => ?_, fun i => ⟨i / 2, fun j h => ?_⟩, fun j => ⟨2 * j - 1, fun i h => ?_⟩⟩
  · refine ⟨i / 2, by omega, linked_Tu.2 ?_⟩
    rcases Nat.even_or_odd' i with ⟨c, rfl | rfl⟩
    · refine .inl ⟨by omega, ?_⟩
      rcases h with h | h
      · exact .inr ⟨h, by omega⟩
      · exact .inl (by omega)
    · exact .inr (.inl (by omega))
  · rcases Nat.lt_or_ge j (2 * n + 1) with k | k
    · exact ⟨2 * j + 1, by omega, linked_Tu.2 (.inr (.inl (by omega)))⟩
    · exact ⟨2 * j - 1, by omega, linked_Tu.2 (.inr (.inr (by omega)))⟩
  · rw [linked_Tu] at h
    rcases h with ⟨h, -⟩ | h | h <;> omega
  · rw [linked_Tu] at h
    rcases h with ⟨h, -⟩ | h | h <;> omega

theorem hold_Td (n : ℕ) (hn : 0 < n) (edge : Bool) : Hold (4 * n + 1) (2 * n + 2) edge (tdW n edge) := by
  refine ⟨fun i hi _ => ?_, fun j hj h => ?_, fun i => ⟨i / 2, fun j h => ?_⟩, fun j => ⟨2 * j - 2, fun i h => ?_⟩⟩
  · rcases Nat.lt_or_ge i 1 with k | k
    · exact ⟨1, by omega, linked_Td.2 (.inl (by omega))⟩
    · exact ⟨(i + 1) / 2, by omega, linked_Td.2 (.inl (by omega))⟩
  · rcases Nat.lt_or_ge j 1 with k | k
    · exact ⟨0, by omega, linked_Td.2 (.inr ⟨h.resolve_right (by omega), by omega⟩)⟩
    · rcases Nat.lt_or_ge j (2 * n + 1) with k' | k'
      · exact ⟨2 * j, by omega, linked_Td.2 (.inl (by omega))⟩
      · exact ⟨4 * n, by omega, linked_Td.2 (.inr ⟨h.resolve_right (by omega), by omega⟩)⟩
  · rw [linked_Td] at h
    rcases h with h | ⟨-, h⟩ <;> omega
  · rw [linked_Td] at h
    rcases h with h | ⟨-, h⟩ <;> omega

/-- The ridge node `r`: two braces in K and KT trusses, one brace in N trusses unless diagonals rise to the ridge. -/
structure AtRidge (top : Topology) (rising : Bool) (r : ℕ) (W : List (Ref × Ref)) : Prop where
  two : top = .K ∨ top = .KT → ∃ j, Linked W (.top r) (.bot j) ∧ Linked W (.top r) (.bot (j + 1))
  one : top = .N → rising = false → ∀ i j, Linked W (.top r) (.bot i) → Linked W (.top r) (.bot j) → i = j

end Metku.Truss
