import Mathlib.Algebra.BigOperators.Group.List.Basic
import Mathlib.Algebra.BigOperators.Group.Finset.Basic
import Mathlib.Algebra.Field.Basic

/-!
Specification vocabulary for the frame properties.  Nothing here refers to the model functions:
only to arrays of degree-of-freedom numbers, vectors and matrices.
-/
namespace Metku.Fem

/-- Entry `(node, direction)` of the arrays of degree-of-freedom numbers. -/
def entry (dofv : List (List Int)) (ij : Nat × Nat) : Option Int :=
  (dofv[ij.1]?).bind (·[ij.2]?)

/-- "Without gaps or collisions": active numbers are below `n` and each number below `n` sits on exactly
    one (node, direction) pair. -/
def Numbered (dofv : List (List Int)) (n : Nat) : Prop :=
  (∀ ij k, entry dofv ij = some k → 0 ≤ k → k < n) ∧
  (∀ k : Nat, k < n → ∃! ij : Nat × Nat, entry dofv ij = some (k : Int))

/-- Displacement stored at `(node, direction)`. -/
def entryU {K : Type} (u : List (List K)) (ij : Nat × Nat) : Option K :=
  (u[ij.1]?).bind (·[ij.2]?)

/-- The displacement arrays have the shape of the arrays of degree-of-freedom numbers. -/
def SameShape {K : Type} (dofv : List (List Int)) (u : List (List K)) : Prop :=
  ∀ ij, (entry dofv ij).isSome → (entryU u ij).isSome

/-- Value of the global vector `u` seen at an element position carrying number `d`
    (inactive directions do not move). -/
def valAt {K : Type} [Zero K] (u : Nat → K) (d : Option Int) : K :=
  match d with
  | some d => if 0 ≤ d then u d.toNat else 0
  | none => 0

/-- Bilinear form `w · M · u` of an `n × n` matrix. -/
def form {K : Type} [Field K] (n : Nat) (M : Nat → Nat → K) (w u : Nat → K) : K :=
  ∑ r ∈ Finset.range n, ∑ c ∈ Finset.range n, w r * M r c * u c

end Metku.Fem
