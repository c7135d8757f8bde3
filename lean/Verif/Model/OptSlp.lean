import Mathlib.Data.List.OfFn
import Mathlib.Algebra.BigOperators.Fin
import Verif.Model.OptProblem

/-!
Model of sequential linear programming: `metku/optimization/solvers/slp.py` and `metku/optimization/solvers/mislp.py`.

Simplifications: vectors have one component per free variable; `problem.linearize` is a function of the point (it leaves the
variables at that point, brought into their bounds, structopt.py 330-437); the LP and MILP solvers of ortools are arguments that return
either a solution or `none` (status `INFEASIBLE`); the move limits are arrays of floats, not shared with the caller; the history of move limits,
`beta_vals`, `milps` and printing are left out; a discrete variable is not listed twice.
-/
namespace Metku.Opt

variable {K : Type} [Field K] [LinearOrder K] {n : Nat}

/-- `move_limit_type`: `other` is any string except the two known ones, slp.py 73-79 and mislp.py 67-70. -/
inductive LimitType
  | range | relative | other
  deriving DecidableEq

/-- Class of a variable, as far as MISLP distinguishes it (mislp.py 74, 90). -/
inductive SKind (K : Type)
  | cont
  | discrete (values : List K)
  | binary

/-- A free variable: bounds and class. -/
structure SVar (K : Type) where
  lb : K
  ub : K
  kind : SKind K

/-- A row `a`, `b` of `A, B` and the type of its constraint. -/
structure LinRow (K : Type) (n : Nat) where
  type : CType
  a : Fin n → K
  b : K

/-- `max(var.lb, min(x, var.ub))`: the value a variable gets in `substitute_variables`, structopt.py 728. -/
def SVar.clip (v : SVar K) (x : K) : K := max v.lb (min x v.ub)

/-- `delta`, slp.py 73-77 and mislp.py 67-70: an unknown type leaves the name unbound. -/
def moveDelta (t : LimitType) (v : SVar K) (x : K) : Except PyErr K :=
  match t with
  | .range => .ok (v.ub - v.lb)
  | .relative => .ok x
  | .other => .error .unboundLocal

/-- Bounds of the variable with the value `x` in the linear problem of SLP, slp.py 70-87. -/
def slpWindow (t : LimitType) (m : K × K) (v : SVar K) (x : K) : Except PyErr (K × K) :=
  match moveDelta t v x with
  | .error e => .error e
  | .ok d => .ok (max v.lb (x - m.1 * d), min v.ub (x + m.2 * d))

/-- Position of the first smallest value of `(values - x)**2`, from position `i` on. -/
def argminFrom (x : K) : Nat → K → Nat → List K → Nat
  | b, _, _, [] => b
  | b, d, i, v :: vs => if (v - x) ^ 2 < d then argminFrom x i ((v - x) ^ 2) (i + 1) vs else argminFrom x b d (i + 1) vs

/-- `np.argmin((np.asarray(values) - x)**2)`, mislp.py 77, two_phase.py 62, vns.py 45. -/
def argminSq (x : K) : List K → Except PyErr Nat
  | [] => .error .valueError
  | v :: vs => .ok (argminFrom x 0 ((v - x) ^ 2) 1 vs)

/-- `values[i]` -/
def valueAt (values : List K) (i : Nat) : Except PyErr K :=
  match values[i]? with
  | none => .error .indexError
  | some v => .ok v

/-- Widening of the allowed changes `w` to the neighbouring values, mislp.py 77-88. -/
def widen (values : List K) (x : K) (w : K × K) : Except PyErr (K × K) := do
  let idx ← argminSq x values
  if idx = 0 then do
    let v1 ← valueAt values 1
    pure (w.1, max w.2 (v1 - x))
  else do
    let p ← valueAt values (idx - 1)
    if idx = values.length - 1 then pure (max w.1 (x - p), w.2)
    else do
      let q ← valueAt values (idx + 1)
      pure (max w.1 (x - p), max w.2 (q - x))

/-- Allowed changes, mislp.py 72-88. -/
def mislpMoves (t : LimitType) (m : K × K) (v : SVar K) (x : K) : Except PyErr (K × K) :=
  match moveDelta t v x with
  | .error e => .error e
  | .ok d =>
    match v.kind with
    | .discrete values => widen values x (m.1 * d, m.2 * d)
    | _ => .ok (m.1 * d, m.2 * d)

/-- Bounds of the variable with the value `x` in the mixed-integer problem of MISLP, mislp.py 61-102; a binary variable ranges from 0 to 1. -/
def mislpWindow (t : LimitType) (m : K × K) (v : SVar K) (x : K) : Except PyErr (K × K) :=
  match mislpMoves t m v x with
  | .error e => .error e
  | .ok w =>
    match v.kind with
    | .binary => .ok (0, 1)
    | _ => .ok (max (x - w.1) v.lb, min (x + w.2) v.ub)

/-- The bounds of all variables, or the first exception. -/
def windows (f : Fin n → Except PyErr (K × K)) : Except PyErr (Fin n → K × K) :=
  match (List.ofFn f).mapM id with
  | .error e => .error e
  | .ok ws => .ok fun i => ws.getD i (0, 0)

/-- The linear problem given to ortools, slp.py 60-102. `betaMax` is `none` if the variable beta is left out. -/
structure Lp (K : Type) (n : Nat) where
  win : Fin n → K × K
  rows : List (LinRow K n)
  df : Fin n → K
  C : K
  betaMax : Option K

/-- `solver.Sum([A[i, j] * x[j] for j in range(m)])` -/
def LinRow.lhs (r : LinRow K n) (x : Fin n → K) : K := ∑ j, r.a j * x j

/-- Bounds of beta, slp.py 89-90. -/
def betaOk (betaMax : Option K) (b : K) : Prop :=
  match betaMax with
  | none => b = 0
  | some u => 0 ≤ b ∧ b ≤ u

/-- Constraints of the linear problem, slp.py 85-96: whatever its type, a row is an upper bound. -/
def Lp.Feasible (P : Lp K n) (x : Fin n → K) (b : K) : Prop :=
  (∀ i, (P.win i).1 ≤ x i ∧ x i ≤ (P.win i).2) ∧ betaOk P.betaMax b ∧ ∀ r ∈ P.rows, r.lhs x ≤ r.b + b

/-- Objective of the linear problem, slp.py 99-102 and mislp.py 140. -/
def lpCost (df : Fin n → K) (C : K) (x : Fin n → K) (b : K) : K := ∑ j, df j * x j + C * b

/-- Parameters of the solver object that do not change, slp.py 18-48. -/
structure SlpCfg (K : Type) (n : Nat) where
  vars : Fin n → SVar K
  gamma : K
  type : LimitType
  includeBeta : Bool
  updateBeta : Bool

/-- State of the solver object. -/
structure Slp (K : Type) (n : Nat) where
  X : Fin n → K
  m : K × K
  C : K
  beta : K

/-- `problem.linearize`: the rows and the gradient of the objective at a point. -/
abbrev Linearization (K : Type) (n : Nat) := (Fin n → K) → List (LinRow K n) × (Fin n → K)

/-- Values of the variables after `linearize(self.X)`. -/
def Slp.value (c : SlpCfg K n) (s : Slp K n) (i : Fin n) : K := (c.vars i).clip (s.X i)

/-- The linear problem of the current state. -/
def slpProblem (c : SlpCfg K n) (lin : Linearization K n) (s : Slp K n) (w : Fin n → K × K) : Lp K n where
  win := w
  rows := (lin s.X).1
  df := (lin s.X).2
  C := s.C
  betaMax := if c.includeBeta then some s.beta else none

/-- `step(action)`, slp.py 126-140. -/
def slpStep (c : SlpCfg K n) (s : Slp K n) (action : Fin n → K) : Slp K n where
  X := fun i => min (max (s.X i + action i) (c.vars i).lb) (c.vars i).ub
  m := (s.m.1 - s.m.1 * c.gamma, s.m.2 - s.m.2 * c.gamma)
  C := s.C + s.C * c.gamma
  beta := s.beta

/-- The solution of the linear problem is used, slp.py 109-124. -/
def slpMove (c : SlpCfg K n) (s : Slp K n) : Option ((Fin n → K) × K) → Slp K n
  | none => slpStep c s fun _ => 0
  | some (x, b) =>
    let s1 := { s with beta := if c.includeBeta && decide (b < 1) && c.updateBeta then b else s.beta }
    slpStep c s1 fun i => x i - s.X i

/-- `take_action` followed by `step`, slp.py 50-140. -/
def slpIter (c : SlpCfg K n) (lin : Linearization K n) (solver : Lp K n → Option ((Fin n → K) × K)) (s : Slp K n) :
    Except PyErr (Slp K n) :=
  match windows fun i => slpWindow c.type s.m (c.vars i) (s.value c i) with
  | .error e => .error e
  | .ok w => .ok (slpMove c s (solver (slpProblem c lin s w)))

/-- `k` iterations. -/
def slpRun (c : SlpCfg K n) (lin : Linearization K n) (solver : Lp K n → Option ((Fin n → K) × K)) :
    Nat → Slp K n → Except PyErr (Slp K n)
  | 0, s => .ok s
  | k + 1, s =>
    match slpIter c lin solver s with
    | .error e => .error e
    | .ok s1 => slpRun c lin solver k s1

/-- The solver object before the first iteration, slp.py 18-48. -/
def slpCfg (vars : Fin n → SVar K) (gamma beta : K) (updateBeta : Bool) (type : LimitType) : SlpCfg K n where
  vars := vars
  gamma := gamma
  type := type
  includeBeta := ! decide (beta = 0)
  updateBeta := updateBeta

/-- The mixed-integer problem given to ortools, mislp.py 43-140. -/
structure Milp (K : Type) (n : Nat) where
  win : Fin n → K × K
  kinds : Fin n → SKind K
  rows : List (LinRow K n)
  df : Fin n → K
  C : K
  betaMax : K

/-- The binary variables `y` of a discrete variable and their two constraints, mislp.py 119-137. -/
def Chosen (values : List K) (x : K) : Prop :=
  ∃ y : List K, y.length = values.length ∧ (∀ b ∈ y, b = 0 ∨ b = 1) ∧ y.sum = 1 ∧ (List.zipWith (· * ·) y values).sum = x

/-- Constraint of a row, mislp.py 109-115: rows of the type `'>'` are left out. -/
def milpRow (x : Fin n → K) (b : K) (r : LinRow K n) : Prop :=
  match r.type with
  | .lt => r.lhs x ≤ r.b + b
  | .eq => r.lhs x = r.b
  | .gt => True

/-- There is a binary variable in the problem (`binary_vars_exist`), mislp.py 90-96. -/
def HasBinary (kinds : Fin n → SKind K) : Prop := ∃ i, kinds i = .binary

/-- Requirement on a variable beyond its bounds, mislp.py 91 and 117-137. -/
def kindOk (hasBinary : Prop) (k : SKind K) (x : K) : Prop :=
  match k with
  | .cont => True
  | .binary => x = 0 ∨ x = 1
  | .discrete values => ¬ hasBinary → Chosen values x

/-- Constraints of the mixed-integer problem. -/
def Milp.Feasible (P : Milp K n) (x : Fin n → K) (b : K) : Prop :=
  (∀ i, (P.win i).1 ≤ x i ∧ x i ≤ (P.win i).2) ∧ (0 ≤ b ∧ b ≤ P.betaMax) ∧ (∀ r ∈ P.rows, milpRow x b r) ∧
    ∀ i, kindOk (HasBinary P.kinds) (P.kinds i) (x i)

/-- The mixed-integer problem of the current state. -/
def mislpProblem (c : SlpCfg K n) (lin : Linearization K n) (s : Slp K n) (w : Fin n → K × K) : Milp K n where
  win := w
  kinds := fun i => (c.vars i).kind
  rows := (lin s.X).1
  df := (lin s.X).2
  C := s.C
  betaMax := s.beta

variable [FloorRing K]

/-- `round(x, 3)`: to the nearest thousandth, ties to even. -/
def round3 (x : K) : K := (pyRound (x * 1000) : K) / 1000

/-- `step(action)`, mislp.py 179-191: the point is not brought into the bounds. -/
def mislpStep (c : SlpCfg K n) (s : Slp K n) (action : Fin n → K) : Slp K n where
  X := fun i => s.X i + action i
  m := (s.m.1 * (1 - c.gamma), s.m.2 * (1 - c.gamma))
  C := s.C
  beta := s.beta * (1 - c.gamma)

/-- The solution of the mixed-integer problem is used, mislp.py 148-150 and 176-177. -/
def mislpMove (c : SlpCfg K n) (s : Slp K n) : Option ((Fin n → K) × K) → Slp K n
  | none => mislpStep c s fun _ => 0
  | some (x, _) => mislpStep c s fun i => round3 (x i) - s.X i

/-- `take_action` followed by `step`, mislp.py 29-191. -/
def mislpIter (c : SlpCfg K n) (lin : Linearization K n) (solver : Milp K n → Option ((Fin n → K) × K)) (s : Slp K n) :
    Except PyErr (Slp K n) :=
  match windows fun i => mislpWindow c.type s.m (c.vars i) (s.value c i) with
  | .error e => .error e
  | .ok w => .ok (mislpMove c s (solver (mislpProblem c lin s w)))

end Metku.Opt
