import Verif.Model.OptVars

/-!
Model of `OptimizationProblem` (structopt.py), `Constraint` (constraints.py) and `ObjectiveFunction`
(objective.py) as a state machine.

Simplifications: every constraint and the objective are attached to this problem (`con.problem is not None`);
the finite element analysis stores, per load id, the structure for which it was made (the analysis result
is a function of it); constraint and objective functions may read the explicit values, the structure and the stored
analyses; for mismatching lengths `X - x` raises `ValueError` (numpy broadcasting of length-one arrays is
not modelled).
-/
namespace Metku.Opt

open Metku

/-- Dictionary `fea_done`, structopt.py 101: load id ↦ flag. -/
abbrev Dict := List (String × Bool)

/-- `d[k] = v`. -/
def Dict.set (d : Dict) (k : String) (v : Bool) : Dict := (k, v) :: d.filter (·.1 ≠ k)

/-- `for k in d.keys(): d[k] = False`, structopt.py 738-739. -/
def Dict.allFalse (d : Dict) : Dict := d.map fun kv => (kv.1, false)

/-- Constraint types '<', '>', '=' (constraints.py 30). -/
inductive CType
  | lt | gt | eq
  deriving DecidableEq, Repr

/-- What constraint and objective functions can see. -/
structure View (K : Type) where
  args : List (Option K)
  struct : Struct K
  results : String → Option (Struct K)

/-- `LinearConstraint` (constraints.py 104-123; a constant right-hand side) or `NonLinearConstraint` (166-177). -/
inductive CFun (K : Type)
  | linear (a : List K) (b : K)
  | nonlinear (g : View K → K)

/-- State of a constraint, constraints.py 39-60. -/
structure Con (K : Type) where
  fn : CFun K
  type : CType
  feaRequired : Bool
  loadIds : List String
  mult : K
  potential : Bool
  potTol : K

/-- State of the problem, structopt.py 82-108. -/
structure Prob (K : Type) where
  vars : List (Var K)
  cons : List (Con K)
  struct : Struct K
  results : String → Option (Struct K)
  feaDone : Dict
  X : Option (List K)
  x0 : Option (List K)
  numFem : Nat

/-- `ObjectiveFunction`, objective.py 17-30; `maximise` is `obj_type == MAX`. -/
structure Objective (K : Type) where
  fn : View K → K
  maximise : Bool
  feaRequired : Bool

variable {K : Type} [Field K] [LinearOrder K] [FloorRing K]

/-- `problem.vars`: unlocked variables, structopt.py 164-171. -/
def Prob.free (p : Prob K) : List (Var K) := p.vars.filter (! ·.locked)

/-- `problem.fixed_vals`, structopt.py 182-190. -/
def Prob.fixedVals (p : Prob K) : List (Option K) := p.vars.map fun v => if v.locked then v.value else none

/-- `max(var.lb, min(x, var.ub))`, structopt.py 728. -/
def clip (v : Var K) (x : K) : K := max v.lb (min x v.ub)

/-- `for x, var in zip(xvals, self.vars): var.substitute(x)`, structopt.py 740-741; the list holds all variables,
    locked ones are skipped. -/
def substFree : List (Var K) → List K → Struct K → Except PyErr (List (Var K) × Struct K)
  | [], _, s => .ok ([], s)
  | v :: vs, xs, s =>
    if v.locked then do
      let r ← substFree vs xs s
      pure (v :: r.1, r.2)
    else
      match xs with
      | [] => .ok (v :: vs, s)
      | x :: xs => do
        let w ← substVar v x s
        let r ← substFree vs xs w.2
        pure (w.1 :: r.1, r.2)

/-- `problem.substitute_variables(xvals)`, structopt.py 724-741. -/
def substituteVariables (p : Prob K) (xs : List K) : Except PyErr (Prob K) := do
  let xc := List.zipWith (fun x v => clip v x) xs p.free
  let r ← substFree p.vars xc p.struct
  pure { p with
    vars := r.1
    struct := r.2
    X := some xc
    x0 := if (p.X.getD []).any (· ≠ 0) then p.x0 else some xc
    feaDone := p.feaDone.allFalse }

/-- `problem.fea(load_id)`, structopt.py 550-559. -/
def fea (p : Prob K) (id : String) : Prob K :=
  { p with
    results := Function.update p.results id (some p.struct)
    feaDone := p.feaDone.set id true
    numFem := p.numFem + 1 }

/-- Loop over load ids, constraints.py 90-94. -/
def feaAll (p : Prob K) (ids : List String) : Prob K :=
  ids.foldl (fun p id => if p.feaDone.lookup id = some true then p else fea p id) p

/-- Arithmetic with a value that may be `None`: `TypeError`. -/
def getVal : Option K → Except PyErr K
  | some y => .ok y
  | none => .error .typeError

/-- `Constraint.__call__`, constraints.py 62-94; `X_TOL = 1e-8` (constants.py). -/
def conPrepare (p : Prob K) (c : Con K) (x : List K) : Except PyErr (Prob K) := do
  let vals ← p.free.mapM fun v => getVal v.value
  if vals.length ≠ x.length then .error .valueError else
  let p ← if (List.zipWith (fun a b => (a - b) ^ 2) vals x).sum > (1 / 10 ^ 8 : K) ^ 2
    then substituteVariables p x else Except.ok p
  pure (if c.feaRequired then feaAll p c.loadIds else p)

/-- The loop putting the entries of `x` in place of the `None`s of `fixed_vals`,
    constraints.py 192-206 and objective.py 45-66 (identical): `X` is reversed and popped, the loop breaks
    when it is empty; `pop` from an empty list raises `IndexError`. -/
def mergeFixed : List (Option K) → List K → Except PyErr (List (Option K))
  | [], _ => .ok []
  | none :: _, [] => .error .indexError
  | none :: fs, [x] => .ok (some x :: fs)
  | none :: fs, x :: y :: X => do
    let r ← mergeFixed fs (y :: X)
    pure (some x :: r)
  | some v :: fs, [] => .ok (some v :: fs)
  | some v :: fs, x :: X => do
    let r ← mergeFixed fs (x :: X)
    pure (some v :: r)

/-- The `potential` flag, constraints.py 151-160 and 210-219. -/
def potentialAfter (c : Con K) (g : K) : Bool :=
  match c.type with
  | .lt => if g < -c.potTol then false else true
  | .gt => if g > c.potTol then false else true
  | .eq => c.potential

/-- `X.append(var.idx)` raises `AttributeError` for index variables (the property `idx` is commented out,
    variables.py 336-340), `None` in the product raises `TypeError`; constraints.py 138-149. -/
def linearArgs (vars : List (Var K)) : Except PyErr (List K) :=
  vars.mapM fun v => match v.kind with
    | .index _ => .error .attributeError
    | _ => getVal v.value

/-- `con(x)`: value, new problem state, new constraint state.
    LinearConstraint 125-162, NonLinearConstraint 179-221. -/
def evalCon (p : Prob K) (c : Con K) (x : List K) : Except PyErr (K × Prob K × Con K) := do
  let p ← conPrepare p c x
  let g ← match c.fn with
    | .linear a b => do
      let X ← linearArgs p.vars
      if a.length ≠ X.length then .error .valueError else
      pure ((List.zipWith (· * ·) a X).sum - b)
    | .nonlinear g => do
      let args ← mergeFixed p.fixedVals x
      pure (g ⟨args, p.struct, p.results⟩)
  pure (g, p, { c with potential := potentialAfter c g })

/-- Does the constraint value respect its type within `con_tol = 1e-4`?  structopt.py 82, 207-224. -/
def violates (t : CType) (g : K) : Bool :=
  match t with
  | .lt => decide (g > 1 / 10 ^ 4)
  | .gt => decide (g < -(1 / 10 ^ 4))
  | .eq => decide (|g| > 1 / 10 ^ 4)

/-- `problem.feasible(x)`, structopt.py 193-226: evaluation stops at the first violated constraint. -/
def feasible (x : List K) : Prob K → List (Con K) → Except PyErr (Bool × Prob K)
  | p, [] => .ok (true, p)
  | p, c :: cs => do
    let r ← evalCon p c x
    if violates c.type r.1 then pure (false, r.2.1) else feasible x r.2.1 cs

/-- `ObjectiveFunction.__call__`, objective.py 32-76. `None` entries left in the list raise `TypeError` in
    `min(x, var.ub)` when they meet a free variable. -/
def evalObj (p : Prob K) (o : Objective K) (x : List K) : Except PyErr (K × Prob K) := do
  let p := if o.feaRequired && p.feaDone.isEmpty then fea p "ALL" else p
  let args ← mergeFixed p.fixedVals x
  let xs ← (args.take p.free.length).mapM getVal
  let p ← substituteVariables p xs
  let f := o.fn ⟨args, p.struct, p.results⟩
  pure (if o.maximise then -f else f, p)

end Metku.Opt
