import Verif.Model.OptGa

/-!
Specification vocabulary for the genetic algorithm and the ant colony. Only the data types of the model are used.
-/
namespace Metku.Opt

/-- Fitness of a point: objective plus two million times the sum of the squares of the constraint violations, each at most 100. -/
def IsFitness {K : Type} [Field K] [LinearOrder K] {n : Nat} (p : GaProb K n) (x : Fin n → K) (f : K) : Prop :=
  f = p.obj x + 2000000 * ((p.cons x).map fun g => (min (max g 0) 100) ^ 2).sum

/-- A number of thousandths. -/
def Thousandths {K : Type} [Field K] (x : K) : Prop := ∃ z : ℤ, x * 1000 = z

/-- The fitness and the ant are the best of the list: the value belongs to the ant, the ant is in the list and no other is better. -/
def BestOf {m v : Nat} (F : (Fin m → Fin v) → ℝ) (l : List (Fin m → Fin v)) (f : ℝ) (a : Fin m → Fin v) : Prop :=
  f = F a ∧ a ∈ l ∧ ∀ b ∈ l, f ≤ F b

end Metku.Opt
