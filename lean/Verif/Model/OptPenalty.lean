import Verif.Model.OptProblem

/-!
Model of the penalty, barrier and augmented Lagrangian functions and the multiplier update of
`metku/optimization/structopt.py` 866-1076.

Simplifications: the values the constraints return at `x` are given as a list next to the constraint types; only free
variables appear in `self.vars`; `XLB = -1e8` and `XUB = 1e8` (constants.py) as exact numbers.
-/
namespace Metku.Opt

variable {K : Type} [Field K] [LinearOrder K]

/-- A constraint as the penalty functions see it: type, value at `x`, multiplier (`con.mult`). -/
structure PCon (K : Type) where
  type : CType
  val : K
  mult : K

/-- A variable as the penalty functions see it: bounds, the component `x[i]`, multipliers. -/
structure PVar (K : Type) where
  lb : K
  ub : K
  x : K
  lbMult : K
  ubMult : K

/-- `XLB`, constants.py. -/
def XLB : K := -(10 ^ 8)

/-- `XUB`, constants.py. -/
def XUB : K := 10 ^ 8

/-- Constraint term of `exact_penalty_fun`, structopt.py 875-891. -/
def exactCon (R : K) (c : PCon K) : K :=
  match c.type with
  | .eq => |c.val|
  | .lt => R * max 0 c.val
  | .gt => R * min 0 c.val

/-- Bound terms of `exact_penalty_fun`, structopt.py 894-901. -/
def exactVar (R : K) (v : PVar K) : K :=
  (if v.lb > XLB then R * max 0 (-v.x + v.lb) else 0) + (if v.ub < XUB then R * max 0 (v.x - v.ub) else 0)

/-- `problem.exact_penalty_fun(R)(x)`, structopt.py 866-905. -/
def exactPenalty (R : K) (cons : List (PCon K)) (vars : List (PVar K)) : K :=
  (cons.map (exactCon R)).sum + (vars.map (exactVar R)).sum

/-- Constraint term of `exterior_penalty_fun`, structopt.py 915-931. -/
def exteriorCon (R : K) (p : Nat) (c : PCon K) : K :=
  match c.type with
  | .eq => c.val ^ p
  | .lt => R * max 0 c.val ^ p
  | .gt => R * min 0 c.val ^ 2

/-- Bound terms of `exterior_penalty_fun`, structopt.py 934-941. -/
def exteriorVar (R : K) (v : PVar K) : K :=
  (if v.lb > XLB then R * max 0 (-v.x + v.lb) ^ 2 else 0) + (if v.ub < XUB then R * max 0 (v.x - v.ub) ^ 2 else 0)

/-- `problem.exterior_penalty_fun(R, p)(x)` with `f = obj(x)`, structopt.py 908-945. -/
def exteriorPenalty (R : K) (p : Nat) (f : K) (cons : List (PCon K)) (vars : List (PVar K)) : K :=
  f + (cons.map (exteriorCon R p)).sum + (vars.map (exteriorVar R)).sum

/-- Constraint term of `barrier_fun(R, 'inverse')`, structopt.py 956-978. -/
def barrierCon (R : K) (c : PCon K) : K :=
  match c.type with
  | .eq => 0
  | .lt => -(1 / R / c.val)
  | .gt => 1 / R / c.val

/-- Bound terms of `barrier_fun` (the same for both barrier types), structopt.py 980-987. -/
def barrierVar (R : K) (v : PVar K) : K :=
  (if v.lb > XLB then -(1 / R / (-v.x + v.lb)) else 0) + (if v.ub < XUB then -(1 / R / (v.x - v.ub)) else 0)

/-- `problem.barrier_fun(R, 'inverse')(x)` with `f = obj(x)`, structopt.py 947-993 (the logarithmic barrier is not modelled). -/
def barrier (R f : K) (cons : List (PCon K)) (vars : List (PVar K)) : K :=
  f + (cons.map (barrierCon R)).sum + (vars.map (barrierVar R)).sum

/-- Constraint term of `augmented_lagrangian` as a function of the constraint value, structopt.py 1009-1027. -/
def alCon (Rineq Req mult : K) (t : CType) (val : K) : K :=
  match t with
  | .eq => -mult * val + Req * val ^ 2
  | .lt => Rineq * max (1 / 2 * mult / Rineq + val) 0 ^ 2
  | .gt => Rineq * max (1 / 2 * mult / Rineq - val) 0 ^ 2

/-- Bound terms of `augmented_lagrangian` as a function of `x[i]`, structopt.py 1029-1036. -/
def alVar (Rineq : K) (v : PVar K) (x : K) : K :=
  (if v.lb > XLB then Rineq * max (1 / 2 * v.lbMult / Rineq + (-x + v.lb)) 0 ^ 2 else 0) +
  (if v.ub < XUB then Rineq * max (1 / 2 * v.ubMult / Rineq + (x - v.ub)) 0 ^ 2 else 0)

/-- `problem.augmented_lagrangian(Rineq, Req)(x)` with `f = obj(x)`, structopt.py 995-1040. -/
def augmentedLagrangian (Rineq Req f : K) (cons : List (PCon K)) (vars : List (PVar K)) : K :=
  f + (cons.map fun c => alCon Rineq Req c.mult c.type c.val).sum + (vars.map fun v => alVar Rineq v v.x).sum

/-- New multiplier of a constraint, structopt.py 1048-1066. -/
def updateConMult (Rineq Req : K) (c : PCon K) : PCon K :=
  { c with mult := match c.type with
      | .eq => c.mult - 2 * Req * c.val
      | .lt => max (c.mult + 2 * Rineq * c.val) 0
      | .gt => max (c.mult - 2 * Rineq * c.val) 0 }

/-- New multipliers of a variable's bounds, structopt.py 1069-1076: the upper bound's multiplier is computed from the
    (already updated) multiplier of the lower bound. -/
def updateVarMult (Rineq : K) (v : PVar K) : PVar K :=
  let lm := if v.lb > XLB then max (v.lbMult + 2 * Rineq * (-v.x + v.lb)) 0 else v.lbMult
  { v with
    lbMult := lm
    ubMult := if v.ub < XUB then max (lm + 2 * Rineq * (v.x - v.ub)) 0 else v.ubMult }

/-- Multipliers held by a problem: one per constraint (with its type), and two per variable (with its bounds). -/
structure Mults (K : Type) where
  cons : List (CType × K)
  vars : List ((K × K) × (K × K))

/-- `problem.update_lag_mult(x, Rineq, Req)`; `vals` are the constraint values at `x`. -/
def updateLagMult (Rineq Req : K) (m : Mults K) (vals x : List K) : Mults K where
  cons := List.zipWith (fun c g => (c.1, (updateConMult Rineq Req ⟨c.1, g, c.2⟩).mult)) m.cons vals
  vars := List.zipWith (fun v xi =>
    let r := updateVarMult Rineq ⟨v.1.1, v.1.2, xi, v.2.1, v.2.2⟩
    (v.1, (r.lbMult, r.ubMult))) m.vars x

/-- Multipliers of a fresh problem: every multiplier starts at 1.0 (constraints.py 56, variables.py 105-107). -/
def initMults (types : List CType) (bounds : List (K × K)) : Mults K :=
  ⟨types.map fun t => (t, 1), bounds.map fun b => (b, (1, 1))⟩

end Metku.Opt
