import Verif.Model.OptProblem

/-!
Histories of calls a user (or a solver) makes on an optimisation problem.
-/
namespace Metku.Opt

open Metku

variable {K : Type} [Field K] [LinearOrder K] [FloorRing K]

/-- One call: `problem.substitute_variables(xs)`, `problem.cons[k](x)`, `problem.obj(x)`, `problem.fea(id)`,
    `problem.feasible(x)`, `problem.all_vars[i].lock()`, `problem.all_vars[i].unlock()`. -/
inductive Op (K : Type)
  | subst (xs : List K)
  | con (k : Nat) (x : List K)
  | obj (x : List K)
  | fea (id : String)
  | feasible (x : List K)
  | lock (i : Nat)
  | unlock (i : Nat)

/-- Effect of one call on the problem.  structopt.py 193-226, 550-559, 724-741, constraints.py 62-221,
    objective.py 32-76, variables.py 119-136. -/
def step (o : Objective K) (p : Prob K) : Op K → Except PyErr (Prob K)
  | .subst xs => substituteVariables p xs
  | .con k x =>
    match p.cons[k]? with
    | none => .error .indexError
    | some c =>
      match evalCon p c x with
      | .error e => .error e
      | .ok (_, p', c') => .ok { p' with cons := p'.cons.set k c' }
  | .obj x =>
    match evalObj p o x with
    | .error e => .error e
    | .ok (_, p') => .ok p'
  | .fea id => .ok (fea p id)
  | .feasible x =>
    match feasible x p p.cons with
    | .error e => .error e
    | .ok (_, p') => .ok p'
  | .lock i => .ok { p with vars := p.vars.modify i fun v => { v with locked := true } }
  | .unlock i => .ok { p with vars := p.vars.modify i unlockVar }

/-- A history of calls; a call that raises ends it. -/
def runOps (o : Objective K) : Prob K → List (Op K) → Except PyErr (Prob K)
  | p, [] => .ok p
  | p, a :: as => do
    let p ← step o p a
    runOps o p as

/-- `problem.all_vars[i].lock(val)` / `problem.all_vars[i].substitute(val)`: the variable changes the structure directly,
    the problem is not told.  variables.py 119-130. -/
def lockAt (p : Prob K) (i : Nat) (val : Option K) : Except PyErr (Prob K) :=
  match p.vars[i]? with
  | none => .error .indexError
  | some v =>
    match lockVar v val p.struct with
    | .error e => .error e
    | .ok (v', s') => .ok { p with vars := p.vars.set i v', struct := s' }

/-- See `lockAt`. -/
def substituteAt (p : Prob K) (i : Nat) (val : K) : Except PyErr (Prob K) :=
  match p.vars[i]? with
  | none => .error .indexError
  | some v =>
    match substVar v val p.struct with
    | .error e => .error e
    | .ok (v', s') => .ok { p with vars := p.vars.set i v', struct := s' }

end Metku.Opt
