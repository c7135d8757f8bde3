import Verif.Model.OptProblem

/-!
Model of the iteration driver of the solvers, `OptSolver.solve` in `metku/optimization/solvers/optsolver.py`.

Simplifications: the objective and the constraints are functions of the point; `take_action` is an arbitrary function of the iteration number and
the solver state that does not write to the arrays of the driver; a point is given (`x0 is not None`) and `log` is
true (the default); the 2-norms of the stopping criterion are compared squared; process time is an arbitrary
predicate of the iteration number; plotting and printing are left out. numpy arrays live in a heap, so that sharing of arrays is visible.
-/
namespace Metku.Opt

variable {K : Type} [Field K] [LinearOrder K]

/-- What the driver uses of an optimisation problem. -/
structure DProb (K : Type) where
  obj : List K → K
  cons : List (CType × (List K → K))
  conTol : K
  bounds : List (K × K)

/-- State of the solver object and the arrays. `best` is `(best_f, best_x)`, `none` standing for `(inf, None)`; `xvals` holds
    references. `visited` is a ghost: the points at which the loop evaluated the problem, in order. -/
structure Drv (K : Type) where
  heap : List (List K)
  X : Nat
  best : Option (K × List K)
  xvals : List Nat
  fvals : List K
  visited : List (List K)

/-- Content of the array `r`. -/
def Drv.arr (s : Drv K) (r : Nat) : List K := s.heap.getD r []

/-- `is_feasible(x)`, optsolver.py 47-68. -/
def isFeasible (p : DProb K) (x : List K) : Bool :=
  p.cons.all fun c =>
    match c.1 with
    | .lt => ! decide (c.2 x > p.conTol)
    | .gt => ! decide (c.2 x < -p.conTol)
    | .eq => ! decide (|c.2 x| > p.conTol)

/-- How the solver's `step` forms the new point: in place as in `OptSolver.step` (optsolver.py 178-193) and `SLP.step` (slp.py
    126-140), or by assigning a new array as in `MMA.step` (mma.py 164-170). -/
inductive StepKind
  | inplace
  | replace
  deriving DecidableEq

/-- `X += action` followed by `np.clip` of every component. -/
def moved (p : DProb K) (x action : List K) : List K :=
  List.zipWith (fun y b => min (max y b.1) b.2) (List.zipWith (· + ·) x action) p.bounds

/-- `step(action)`: returns the state with `self.X` set, and the reference of the returned copy. -/
def stepArr (p : DProb K) (k : StepKind) (s : Drv K) (action : List K) : Drv K × Nat :=
  match k with
  | .inplace =>
    let x := moved p (s.arr s.X) action
    let h := s.heap.set s.X x
    ({ s with heap := h ++ [x] }, h.length)
  | .replace =>
    ({ s with
      heap := s.heap ++ [action, action]
      X := s.heap.length }, s.heap.length + 1)

/-- `stopping_criterion('x', ...)`, optsolver.py 122-133, with squared norms. -/
def stopX (prev cur : List K) : Bool :=
  decide ((List.zipWith (fun a b => (b - a) ^ 2) prev cur).sum < (1 / 10 ^ 8) ^ 2 * (prev.map (· ^ 2)).sum)

/-- `stopping_criterion('f', ...)`, optsolver.py 134-149. -/
def stopF (f0 f1 : K) : Bool := decide (|f1 - f0| ≤ 1 / 10 ^ 8 + 1 / 10 ^ 4 * |f0|)

/-- Recording of the best point, optsolver.py 287-289. -/
def recordBest (p : DProb K) (best : Option (K × List K)) (x : List K) : Option (K × List K) :=
  let better := match best with
    | none => true
    | some b => decide (p.obj x < b.1)
  if better && isFeasible p x then some (p.obj x, x) else best

/-- Body of the loop, optsolver.py 238-328; the Boolean is `done`. -/
def iterate (p : DProb K) (k : StepKind) (act : Nat → Drv K → List K) (i : Nat) (s : Drv K) : Drv K × Bool :=
  let prev := s.arr s.X
  let r := stepArr p k s (act i s)
  let s1 := { r.1 with X := r.2 }
  let x := s1.arr s1.X
  let s2 := { s1 with
    best := recordBest p s1.best x
    fvals := s1.fvals ++ [p.obj x]
    xvals := s1.xvals ++ [s1.X]
    visited := s1.visited ++ [x] }
  (s2, isFeasible p x && (stopX prev x || stopF (p.obj prev) (p.obj x)))

/-- `for i in range(maxiter)`, optsolver.py 238-331; `fuel` iterations are left, `timeUp i` says that the time limit is
    exceeded at the start of iteration `i`. -/
def loop (p : DProb K) (k : StepKind) (act : Nat → Drv K → List K) (timeUp : Nat → Bool) : Nat → Nat → Drv K → Drv K
  | 0, _, s => s
  | fuel + 1, i, s =>
    if timeUp i then s
    else
      let r := iterate p k act i s
      if r.2 then r.1 else loop p k act timeUp fuel (i + 1) r.1

/-- Beginning of `solve`, optsolver.py 213-225. The caller's `x0` is the array `0` of the heap; `asarray(x0, dtype=float)` is that very
    array when `x0` is an array of floats (`shared`), and a copy otherwise. -/
def startSolve (p : DProb K) (shared : Bool) (x0 : List K) (best : Option (K × List K)) (xv : List (List K)) : Drv K where
  heap := x0 :: x0 :: x0 :: xv
  X := if shared then 0 else 1
  best := best
  xvals := (List.range xv.length).map (· + 3) ++ [2]
  fvals := [p.obj x0]
  visited := []

/-- End of `solve`, optsolver.py 333-337. -/
def finish (p : DProb K) (s : Drv K) : K × List K :=
  match s.best with
  | some b => b
  | none => (p.obj (s.arr s.X), s.arr s.X)

/-- `solver.solve(problem, x0, maxiter)` on a new solver object: final state and returned value. -/
def solve (p : DProb K) (k : StepKind) (act : Nat → Drv K → List K) (timeUp : Nat → Bool) (maxiter : Nat) (shared : Bool)
    (x0 : List K) : Drv K × (K × List K) :=
  let s := loop p k act timeUp maxiter 0 (startSolve p shared x0 none [])
  (s, finish p s)

/-- A further `solve` on the same object: `best_f` and `best_x` (set at the end of the first call, optsolver.py 333-335) and `xvals` are kept. -/
def solveAgain (p : DProb K) (k : StepKind) (act : Nat → Drv K → List K) (timeUp : Nat → Bool) (maxiter : Nat) (shared : Bool)
    (x0 : List K) (prev : Drv K × (K × List K)) : Drv K × (K × List K) :=
  let s := loop p k act timeUp maxiter 0 (startSolve p shared x0 (some prev.2) (prev.1.xvals.map prev.1.arr))
  (s, finish p s)

end Metku.Opt
