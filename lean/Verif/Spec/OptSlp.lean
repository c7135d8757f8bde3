import Verif.Model.OptSlp

/-!
Specification vocabulary for sequential linear programming. Only the data types of the model and the constraints of the
problems that are given to ortools are used.
-/
namespace Metku.Opt

variable {K : Type} [Field K] [LinearOrder K] {n : Nat}

/-- `r` is a correct answer of an LP solver to the problem `P`: an optimal solution, or `none` if there is no feasible point. -/
def LpAnswer (P : Lp K n) : Option ((Fin n → K) × K) → Prop
  | none => ∀ x b, ¬ P.Feasible x b
  | some r => P.Feasible r.1 r.2 ∧ ∀ x b, P.Feasible x b → lpCost P.df P.C r.1 r.2 ≤ lpCost P.df P.C x b

/-- `r` is a correct answer of a MILP solver to the problem `P`. -/
def MilpAnswer (P : Milp K n) : Option ((Fin n → K) × K) → Prop
  | none => ∀ x b, ¬ P.Feasible x b
  | some r => P.Feasible r.1 r.2 ∧ ∀ x b, P.Feasible x b → lpCost P.df P.C r.1 r.2 ≤ lpCost P.df P.C x b

/-- The point is within the bounds of the variables. -/
def Inside (vars : Fin n → SVar K) (x : Fin n → K) : Prop := ∀ i, (vars i).lb ≤ x i ∧ x i ≤ (vars i).ub

/-- First-order approximation at `y` of a function with the value `g` and the gradient `d` at `x`. -/
def firstOrder (g : K) (d x y : Fin n → K) : K := g + ∑ j, d j * (y j - x j)

/-- The row belonging to a constraint with the value `g` and the gradient `d` at `x` (`A`, `B = A.dot(x) - b` of `linearize`). -/
def rowOf (t : CType) (g : K) (d x : Fin n → K) : LinRow K n := ⟨t, d, ∑ j, d j * x j - g⟩

end Metku.Opt
