import Mathlib.Analysis.Normed.Module.Basic
import Mathlib.Data.Real.Basic
import Verif.Model.OptPenalty
import Verif.Model.PyErr

/-!
Model of the solvers of `metku/optimization/solvers/` that hand the problem to a library: `lp.py`, `milp.py`,
`slsqp.py`, `trust_region.py`, and of the loops of `steepest.py`, `alm.py` and `grid_search.py`.

The library routines (Gurobi, OR-tools, SciPy) are functions given as parameters; the properties state what they assume
about them.  Floats are real numbers.  Substitution of variables, structural analysis and printing are left out: the
objective and the constraints are functions of the values of all variables.  A right-hand side that is itself a variable
is not modelled.
-/
namespace Metku.Solve

open Metku

/-- Sorts of variables, variables.py. -/
inductive Kind
  | plain
  | integer
  | binary
  | discrete (values : List ℝ)

/-- A variable: bounds, current value, lock. -/
structure SVar where
  (lb ub value : ℝ)
  (locked : Bool)
  (kind : Kind)

/-- A constraint: `LinearConstraint(a, b, con_type)` or `NonLinearConstraint(con_fun, con_type)`. -/
inductive SCon
  | linear (a : List ℝ) (b : ℝ) (type : String)
  | nonlinear (g : List ℝ → ℝ) (type : String)

/-- `con.type`. -/
def SCon.type : SCon → String
  | linear _ _ t => t
  | nonlinear _ t => t

/-- `a.dot(x)`, and the sum over `zip(a, x)`. -/
def dot (a x : List ℝ) : ℝ := (List.zipWith (· * ·) a x).sum

/-- A problem; `obj` is `problem.obj(x)` as a function of the values of all variables. -/
structure Problem where
  (vars : List SVar)
  (cons : List SCon)

/-- `problem.vars`: the unlocked variables, structopt.py 164-171. -/
def Problem.free (p : Problem) : List SVar := p.vars.filter fun v => !v.locked

/-- The values of all variables: those of `x` for the free ones, the stored values for the locked ones
    (`fixed_vals`, structopt.py 182-190, constraints.py 188-209, objective.py 46-70). -/
def fullPoint : List SVar → List ℝ → List ℝ
  | [], _ => []
  | v :: vs, x =>
    if v.locked then v.value :: fullPoint vs x
    else match x with
      | [] => []
      | x0 :: xs => x0 :: fullPoint vs xs

/-- `con(x)`, constraints.py 116-152, 171-217. -/
def SCon.value (vars : List SVar) (x : List ℝ) : SCon → ℝ
  | linear a b _ => dot a (fullPoint vars x) - b
  | nonlinear g _ => g (fullPoint vars x)

/-! ### LP and MILP -/

/-- Senses of rows. -/
inductive Sense
  | le | ge | eq
  deriving DecidableEq

/-- The model built in Gurobi or OR-tools. -/
structure LinModel where
  (bounds : List (ℝ × ℝ))
  (binary : List Bool)
  (c : List ℝ)
  (minimise : Bool)
  (rows : List (List ℝ × Sense × ℝ))

/-- Answer of the library. -/
inductive Answer
  | optimal (x : List ℝ)
  | infeasible
  | other

/-- The sense of a row, lp.py 78-90, 97-102: anything but `<` and `>` is an equation. -/
def senseOf (t : String) : Sense := if t = "<" then .le else if t = ">" then .ge else .eq

/-- Rows of the model: linear constraints only, lp.py 74-102, milp.py 57-75. -/
def rowsOf (cons : List SCon) : List (List ℝ × Sense × ℝ) :=
  cons.filterMap fun
    | .linear a b t => some (a, senseOf t, b)
    | .nonlinear _ _ => none

/-- The model of `LP.solve` and `MILP.solve`, lp.py 46-102, milp.py 37-75.  `milp`: binary variables are declared as such,
    all others are continuous. -/
def linModel (milp : Bool) (p : Problem) (c : List ℝ) (objType : String) : LinModel where
  bounds := p.free.map fun v => (v.lb, v.ub)
  binary := p.free.map fun v => milp && match v.kind with
    | .binary => true
    | _ => false
  c := c
  minimise := decide (objType = "MIN")
  rows := rowsOf p.cons

/-- `solver.X` and `solver.feasible` after `solve`. -/
structure LinResult where
  (X : List ℝ)
  (feasible : Bool)

/-- `LP("gurobi").solve(problem)` and `MILP().solve(problem)`, lp.py 27-136, milp.py 22-107.  `LinExpr` refuses lists of
    different lengths (`GurobiError`, here `valueError`); without a solution `v.x` raises `AttributeError`. -/
def solveGurobi (milp : Bool) (engine : LinModel → Answer) (p : Problem) (c : List ℝ) (objType : String) :
    Except PyErr LinResult :=
  let m := linModel milp p c objType
  let n := p.free.length
  if c.length ≠ n ∨ ∃ r ∈ m.rows, r.1.length ≠ n then .error .valueError
  else match engine m with
    | .optimal x => .ok ⟨x, true⟩
    | .infeasible => .error .attributeError
    | .other => .error .attributeError

instance (m : List (List ℝ × Sense × ℝ)) (n : Nat) : Decidable (∃ r ∈ m, r.1.length ≠ n) := inferInstance

/-- `LP("ortools").solve(problem)`, lp.py 27-136; `feasible` stays as it was (`False` in a new solver). -/
def solveOrtools (engine : LinModel → Answer) (p : Problem) (c : List ℝ) (objType : String) (feasible0 : Bool := false) :
    LinResult :=
  match engine (linModel false p c objType) with
  | .optimal x => ⟨x, feasible0⟩
  | _ => ⟨[], feasible0⟩

/-! ### SLSQP, COBYLA, trust region -/

/-- The arguments of `scipy.optimize.minimize` other than the objective: bounds, equations `h(x) = 0` and inequalities
    `g(x) >= 0`. -/
structure ScipyProblem where
  (bounds : Option (List (ℝ × ℝ)))
  (eqs : List (List ℝ → ℝ))
  (ineqs : List (List ℝ → ℝ))

/-- `_create_eqcons`, slsqp.py 36-47. -/
def eqCons (p : Problem) : List (List ℝ → ℝ) :=
  p.cons.filterMap fun c => if c.type = "=" then some fun x => c.value p.vars x else none

/-- `_create_ieqcons`, slsqp.py 49-62. -/
def ineqCons (p : Problem) : List (List ℝ → ℝ) :=
  p.cons.filterMap fun c =>
    if c.type = "<" ∨ c.type = "<=" then some fun x => -(c.value p.vars x)
    else if c.type = ">" ∨ c.type = ">=" then some fun x => c.value p.vars x
    else none

/-- `_create_bounds`, slsqp.py 64-74. -/
def boundsOf (p : Problem) : List (ℝ × ℝ) := p.free.map fun v => (v.lb, v.ub)

/-- What SciPy returns. -/
structure ScipyResult where
  (x : List ℝ)
  (f : ℝ)
  (success : Bool)

/-- `best_f`, `best_x`, `X`, `feasible` after `solve`. -/
structure Solved where
  (bestF : ℝ)
  (bestX : List ℝ)
  (feasible : Bool)

/-- `x0`: the given one, or the upper bounds, slsqp.py 96-99, trust_region.py 151-154. -/
def startPoint (p : Problem) (x0 : Option (List ℝ)) : List ℝ := x0.getD (p.free.map (·.ub))

/-- `SLSQP.solve`, slsqp.py 76-146. -/
def slsqp (minimize : ScipyProblem → (List ℝ → ℝ) → List ℝ → ScipyResult) (p : Problem) (obj : List ℝ → ℝ)
    (x0 : Option (List ℝ)) : Solved :=
  let out := minimize ⟨some (boundsOf p), eqCons p, ineqCons p⟩ (fun x => obj (fullPoint p.vars x)) (startPoint p x0)
  ⟨out.f, out.x, out.success⟩

/-- `COBYLA.solve`, slsqp.py 170-206: no bounds are passed on. -/
def cobyla (minimize : ScipyProblem → (List ℝ → ℝ) → List ℝ → ScipyResult) (p : Problem) (obj : List ℝ → ℝ)
    (x0 : Option (List ℝ)) : ScipyResult :=
  minimize ⟨none, eqCons p, ineqCons p⟩ (fun x => obj (fullPoint p.vars x)) (startPoint p x0)

/-- A constraint `lo <= fun(x) <= hi` of the trust-region method; `none` is infinite. -/
structure Interval where
  (f : List ℝ → ℝ)
  (lo hi : Option ℝ)

/-- The constraint handed to SciPy, trust_region.py 102-140.  Linear constraints multiply `con.a` with the values of the
    free variables. -/
def trustCon (p : Problem) (c : SCon) : Interval :=
  let ends (z : ℝ) : Option ℝ × Option ℝ :=
    if c.type = "<" ∨ c.type = "<=" then (none, some z)
    else if c.type = ">" ∨ c.type = ">=" then (some z, none)
    else if c.type = "=" then (some z, some z)
    else (none, none)
  match c with
  | .nonlinear _ _ => ⟨fun x => c.value p.vars x, (ends 0).1, (ends 0).2⟩
  | .linear a b _ => ⟨fun x => dot a x, (ends b).1, (ends b).2⟩

/-- SciPy's answer for the trust-region method; `violation` is the largest violation of a constraint. -/
structure TrustResult where
  (x : List ℝ)
  (f : ℝ)
  (violation : ℝ)

/-- What `TrustRegionConstr.solve` leaves: the value is minus infinity (`none`) after an exception. -/
structure TrustSolved where
  (bestF : Option ℝ)
  (bestX : List ℝ)
  (feasible : Bool)

/-- `TrustRegionConstr.solve`, trust_region.py 84-262; the library returns nothing when it raises an exception, and then
    `feasible` stays as it was (`False` in a new solver). -/
noncomputable def trust (minimize : List Interval → List (ℝ × ℝ) → (List ℝ → ℝ) → List ℝ → Option TrustResult) (p : Problem)
    (obj : List ℝ → ℝ) (x0 : Option (List ℝ)) (feasible0 : Bool := false) : TrustSolved :=
  match minimize (p.cons.map (trustCon p)) (boundsOf p) (fun x => obj (fullPoint p.vars x)) (startPoint p x0) with
  | some out => ⟨some out.f, out.x, decide (out.violation ≤ 1e-8)⟩
  | none => ⟨none, startPoint p x0, feasible0⟩

/-! ### Steepest descent -/

section Steepest
variable {V : Type} [NormedAddCommGroup V] [NormedSpace ℝ V]

/-- Local variables of `SteepestDescent.solve` (a new solver): `x` (also `xvals`) and `fvals`, newest first, and `f_stop`. -/
structure Descent (V : Type) where
  (xs : List V)
  (fs : List ℝ)
  (fstop : Nat)

/-- `x[k]`: `xs` holds `x[0] … x[len-1]`, newest first. -/
def Descent.xk (s : Descent V) (k : Nat) : Except PyErr V :=
  match s.xs.reverse[k]? with
  | some x => .ok x
  | none => .error .indexError

/-- One pass of the loop, steepest.py 70-113: the new state, and whether the loop is left.  `search` is
    `minimize_scalar(…, method='brent')`: the flag `success` and the step. -/
noncomputable def descentPass (obj : V → ℝ) (grad : V → V) (search : (ℝ → ℝ) → Bool × ℝ) (k : Nat) (s : Descent V) :
    Except PyErr (Descent V × Bool) := do
  let x ← s.xk k
  let df := grad x
  if ‖df‖ < 1e-8 then pure (s, true)
  else
    let d := -((1 / ‖df‖) • df)
    let r := search fun a => obj (x + a • d)
    let s := if r.1 then { s with xs := (x + r.2 • d) :: s.xs, fs := obj (x + r.2 • d) :: s.fs } else s
    match s.fs with
    | f1 :: f0 :: _ =>
      let s := if |f1 - f0| ≤ 1e-8 + 1e-4 * |f0| then { s with fstop := s.fstop + 1 } else s
      pure (s, decide (s.fstop = 2))
    | _ => .error .indexError

/-- The loop, `fuel = maxiter - k`. -/
noncomputable def descentLoop (obj : V → ℝ) (grad : V → V) (search : (ℝ → ℝ) → Bool × ℝ) :
    Nat → Nat → Descent V → Except PyErr (Descent V)
  | 0, _, s => .ok s
  | fuel + 1, k, s => do
    let r ← descentPass obj grad search k s
    if r.2 then pure r.1 else descentLoop obj grad search fuel (k + 1) r.1

/-- `SteepestDescent(fun, grad).solve(x0, maxiter)`, steepest.py 55-113. -/
noncomputable def descent (obj : V → ℝ) (grad : V → V) (search : (ℝ → ℝ) → Bool × ℝ) (x0 : V) (maxiter : Nat) :
    Except PyErr (Descent V) :=
  descentLoop obj grad search maxiter 0 ⟨[x0], [obj x0], 0⟩

end Steepest

/-! ### Augmented Lagrangian -/

/-- A problem as `ALM` sees it: objective, constraints with their types, bounds of the variables. -/
structure AlmProblem where
  (obj : List ℝ → ℝ)
  (cons : List (Opt.CType × (List ℝ → ℝ)))
  (bounds : List (ℝ × ℝ))

/-- `problem.augmented_lagrangian(Rineq, Req)(x)` with the current multipliers, structopt.py 995-1040. -/
noncomputable def almFun (p : AlmProblem) (m : Opt.Mults ℝ) (Rineq Req : ℝ) (x : List ℝ) : ℝ :=
  Opt.augmentedLagrangian Rineq Req (p.obj x)
    (List.zipWith (fun c mu => ⟨c.1, c.2 x, mu.2⟩) p.cons m.cons)
    (List.zipWith (fun (v : (ℝ × ℝ) × (ℝ × ℝ)) xi => ⟨v.1.1, v.1.2, xi, v.2.1, v.2.2⟩) m.vars x)

/-- State of `ALM.solve`: iterates and objective values (newest first), multipliers, penalty factors, `f_stop`. -/
structure Alm where
  (xs : List (List ℝ))
  (fs : List ℝ)
  (mults : Opt.Mults ℝ)
  (Rineq Req : ℝ)
  (fstop : Nat)

/-- One pass, alm.py 69-163; `minimize` is `scipy.optimize.minimize(…, method='CG')`, `stopX` and `stopF` are
    `stopping_criterion` (optsolver.py 110-151) on the new and the old value.  The second component tells whether the loop is
    left. -/
noncomputable def almPass (p : AlmProblem) (minimize : (List ℝ → ℝ) → List ℝ → List ℝ) (stopX : List ℝ → List ℝ → Bool)
    (stopF : ℝ → ℝ → Bool) (s : Alm) : Alm × Bool :=
  match s.xs, s.fs with
  | x :: xs, f :: fs =>
    let y := minimize (almFun p s.mults s.Rineq s.Req) x
    let fy := p.obj y
    let s := { s with xs := y :: x :: xs, fs := fy :: f :: fs }
    if stopX y x then (s, true)
    else
      let s := if stopF f fy then { s with fstop := s.fstop + 1 } else s
      if s.fstop = 2 then (s, true)
      else
        ({ s with
            mults := Opt.updateLagMult s.Rineq s.Req s.mults (p.cons.map fun c => c.2 y) y
            Rineq := s.Rineq * 1.5
            Req := s.Req * 1.5 }, false)
  | _, _ => (s, true)

/-- The loop, `fuel = maxiter - k`. -/
noncomputable def almLoop (p : AlmProblem) (minimize : (List ℝ → ℝ) → List ℝ → List ℝ) (stopX : List ℝ → List ℝ → Bool)
    (stopF : ℝ → ℝ → Bool) : Nat → Alm → Alm
  | 0, s => s
  | fuel + 1, s =>
    let r := almPass p minimize stopX stopF s
    if r.2 then r.1 else almLoop p minimize stopX stopF fuel r.1

/-- `ALM(problem).solve(x0, maxiter, Rineq, Req)` on a new problem, alm.py 30-163. -/
noncomputable def alm (p : AlmProblem) (minimize : (List ℝ → ℝ) → List ℝ → List ℝ) (stopX : List ℝ → List ℝ → Bool)
    (stopF : ℝ → ℝ → Bool) (x0 : List ℝ) (maxiter : Nat) (Rineq Req : ℝ) : Alm :=
  almLoop p minimize stopX stopF maxiter
    ⟨[x0], [p.obj x0], Opt.initMults (p.cons.map Prod.fst) p.bounds, Rineq, Req, 0⟩

/-! ### Grid search -/

/-- `itertools.product`: the last list runs fastest. -/
def cartesian {α : Type} : List (List α) → List (List α)
  | [] => [[]]
  | l :: ls => l.flatMap fun a => (cartesian ls).map (a :: ·)

/-- The grid of parameters of `GridSearch.__init__`, grid_search.py 20-27; `params` are the items of the dictionary after
    sorting.  `zip(*[])` of an empty dictionary cannot be unpacked (`ValueError`). -/
def grid {α : Type} (params : List (String × List α)) : Except PyErr (List (List (String × α))) :=
  if params = [] then .error .valueError
  else .ok ((cartesian (params.map Prod.snd)).map fun v => (params.map Prod.fst).zip v)

instance {α : Type} (l : List α) : Decidable (l = []) := decidable_of_iff (l.isEmpty = true) List.isEmpty_iff

/-- `GridSearch.__init__` and `run`, grid_search.py 13-68: the problems and parameters for which the solver is started, in
    turn (`problem('discrete')` each time).  Not modelled: writing the results. -/
def gridRuns {α : Type} (solverParams : List (String × List α)) (problemParams : Option (List (String × List α))) :
    Except PyErr (List (String × List (String × α))) := do
  let g ← grid solverParams
  let _ ← match problemParams with
    | none => pure []
    | some [] => pure []
    | some q => grid q
  pure (g.map fun o => ("discrete", o))

end Metku.Solve
