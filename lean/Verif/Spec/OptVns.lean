import Verif.Model.OptVns

/-!
Specification vocabulary for neighbourhood search and the two-phase solver. Only the data types of the model are used.
-/
namespace Metku.Opt

variable {K : Type} [Field K] [LinearOrder K]

/-- All constraints hold at the point. -/
def DvFeasible (p : DvProb K) (X : List Int) : Prop := ∀ g ∈ p.cons X, g ≤ 0

/-- All variables have the same upper bound, which is not negative. -/
def SameUb (p : DvProb K) (u : Int) : Prop := 0 ≤ u ∧ p.ubs ≠ [] ∧ ∀ v ∈ p.ubs, v = u

/-- Bounds of the variables. -/
def boundsOf (vs : List (NVar K)) : List (K × K) := vs.map fun v => (v.lb, v.ub)

/-- The inner solver keeps the number of variables. -/
def KeepsLength (solver : List (K × K) → List K → Inner K) (n : Nat) : Prop := ∀ bs x, (solver bs x).values.length = n

end Metku.Opt
