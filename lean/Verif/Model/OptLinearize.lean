import Verif.Model.OptProblem

/-!
Model of `OptimizationProblem.linearize` (structopt.py 330-437) on the state machine of `OptProblem`.

Simplifications: the `potential` flags that the constraint evaluations inside the loop update are not stored back (the selection of
constraints is made before the loop); the printed warning is left out; a binary variable without a value is a `TypeError` at once.
-/
namespace Metku.Opt

open Metku

variable {K : Type} [Field K] [LinearOrder K] [FloorRing K]

/-- `var.substitute(y)` for the free variable number `i`; nothing else in the problem is notified. -/
def substNthFree : List (Var K) → Nat → K → Struct K → Except PyErr (List (Var K) × Struct K)
  | [], _, _, _ => .error .indexError
  | v :: vs, i, y, s =>
    if v.locked then
      match substNthFree vs i y s with
      | .error e => .error e
      | .ok r => .ok (v :: r.1, r.2)
    else
      match i with
      | 0 =>
        match substVar v y s with
        | .error e => .error e
        | .ok w => .ok (w.1 :: vs, w.2)
      | i + 1 =>
        match substNthFree vs i y s with
        | .error e => .error e
        | .ok r => .ok (v :: r.1, r.2)

/-- The same on the problem. -/
def substNth (p : Prob K) (i : Nat) (y : K) : Except PyErr (Prob K) :=
  match substNthFree p.vars i y p.struct with
  | .error e => .error e
  | .ok r => .ok { p with
      vars := r.1
      struct := r.2 }

/-- `problem.eval_cons(x)`, structopt.py 611-620: values and updated constraints. -/
def evalCons (x : List K) : Prob K → List (Con K) → Except PyErr (List (Con K × K) × Prob K)
  | p, [] => .ok ([], p)
  | p, c :: cs =>
    match evalCon p c x with
    | .error e => .error e
    | .ok r =>
      match evalCons x r.2.1 cs with
      | .error e => .error e
      | .ok t => .ok ((r.2.2, r.1) :: t.1, t.2)

/-- Step length, structopt.py 386-388. -/
def linStep (prev ub : K) : K :=
  let h := max (1 / 10 ^ 6 * |prev|) (1 / 10 ^ 8)
  if prev + h > ub then -h else h

/-- Column `i` of the Jacobian: loop over the constraints, structopt.py 405-414. -/
def linRows (xh : List K) (i : Nat) (h : K) (bin : Bool) : Prob K → List (Con K × K) → Except PyErr (List K × Prob K)
  | p, [] => .ok ([], p)
  | p, cb :: cs =>
    match cb.1.fn with
    | .linear a _ =>
      match a[i]? with
      | none => .error .indexError
      | some ai =>
        match linRows xh i h bin p cs with
        | .error e => .error e
        | .ok r => .ok (ai :: r.1, r.2)
    | .nonlinear _ =>
      if bin then
        match linRows xh i h bin p cs with
        | .error e => .error e
        | .ok r => .ok (0 :: r.1, r.2)
      else
        match evalCon p cb.1 xh with
        | .error e => .error e
        | .ok g =>
          match linRows xh i h bin g.2.1 cs with
          | .error e => .error e
          | .ok r => .ok ((g.1 - cb.2) / h :: r.1, r.2)

/-- Result for one variable: derivative of the objective, column of the Jacobian, array `x`. -/
structure LinCol (K : Type) where
  df : K
  dg : List K
  x : List K

/-- Rest of the body for a variable that has been given its shifted value: objective and constraints at the shifted point, then the
    original value; structopt.py 391-420. -/
def linEval (o : Objective K) (grad : Bool) (i : Nat) (h : K) (bin : Bool) (fx prev : K) (x : List K) (cbs : List (Con K × K)) (p : Prob K) :
    Except PyErr (LinCol K × Prob K) := do
  let xh ← p.free.mapM fun v => getVal v.value
  let f ← if grad || bin then Except.ok ((0 : K), p) else
    match evalObj p o xh with
    | .error e => Except.error e
    | .ok r => Except.ok ((r.1 - fx) / h, r.2)
  let g ← linRows xh i h bin f.2 cbs
  let p ← substNth g.2 i prev
  pure (⟨f.1, g.1, x⟩, p)

/-- Body of the loop over the variables, structopt.py 374-420. -/
def linVar (o : Objective K) (grad : Bool) (i : Nat) (fx : K) (x : List K) (cbs : List (Con K × K)) (p : Prob K) :
    Except PyErr (LinCol K × Prob K) :=
  match p.free[i]? with
  | none => .error .indexError
  | some v =>
    match v.value with
    | none => .error .typeError
    | some prev =>
      match v.kind with
      | .index _ => .error .attributeError
      | .binary _ => linEval o grad i 1 true fx prev x cbs p
      | _ =>
        let h := linStep prev v.ub
        match substNth p i (prev + h) with
        | .error e => .error e
        | .ok q => linEval o grad i h false fx prev (x.set i prev) cbs q

/-- Loop over the variables `i, i+1, ..., i+m-1`: derivatives of the objective, columns of the Jacobian, array `x`. -/
def linLoop (o : Objective K) (grad : Bool) (fx : K) (cbs : List (Con K × K)) : Nat → Nat → List K → Prob K →
    Except PyErr (List K × List (List K) × List K × Prob K)
  | 0, _, x, p => .ok ([], [], x, p)
  | m + 1, i, x, p =>
    match linVar o grad i fx x cbs p with
    | .error e => .error e
    | .ok r =>
      match linLoop o grad fx cbs m (i + 1) r.1.x r.2 with
      | .error e => .error e
      | .ok t => .ok (r.1.df :: t.1, r.1.dg :: t.2.1, t.2.2.1, t.2.2.2)

/-- `A, B, df, fx` (the columns of `A`), and the caller's array `x` afterwards. -/
structure LinRes (K : Type) where
  cols : List (List K)
  B : List K
  df : List K
  fx : K
  x : List K

/-- `A.dot(x) - b` -/
def linB (cols : List (List K)) (x : List K) (cbs : List (Con K × K)) : List K :=
  cbs.mapIdx fun j cb => (List.zipWith (fun col xi => col.getD j 0 * xi) cols x).sum - cb.2

/-- `df`: the user's gradient at `x` or the difference quotients, structopt.py 369-372, 402. -/
def linGrad (grad : Option (List K → List K)) (x df : List K) : List K :=
  match grad with
  | none => df
  | some g => g x

/-- `problem.linearize(x, only_potential)`, structopt.py 330-437. `grad` is the user's gradient, if given. -/
def linearize (p : Prob K) (o : Objective K) (grad : Option (List K → List K)) (onlyPotential : Bool) (x : List K) :
    Except PyErr (LinRes K × Prob K) := do
  let p ← substituteVariables p x
  let f ← evalObj p o x
  let c ← evalCons x f.2 p.cons
  let act := if onlyPotential then c.1.filter (·.1.potential) else c.1
  let l ← linLoop o grad.isSome f.1 act p.free.length 0 x c.2
  pure (⟨l.2.1, linB l.2.1 l.2.2.1 act, linGrad grad x l.1, f.1, l.2.2.1⟩, l.2.2.2)

end Metku.Opt
