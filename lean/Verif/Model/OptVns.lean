import Mathlib.Algebra.Order.Ring.Int
import Verif.Model.OptSlp
import Verif.Model.OptVars

/-!
Model of `metku/optimization/solvers/vns.py` (`DiscreteVNS`, 178-355, and `VNS.take_action`, 34-106) and of
`TwoPhase.discretize` (`metku/optimization/solvers/two_phase.py`, 46-67).

Simplifications: objective and constraints are functions of the point; the draws of `np.random.randint` and the answers of the clock are
arguments; the problem of `DiscreteVNS` has index variables (lower bound 0) and integer points given as arrays of integers; the variables of `VNS` carry numbers; the
inner solver of `VNS` is a function of the bounds and the starting point that gives its result and leaves values in the variables; printing, plotting and the counters of GA
are left out.
-/
namespace Metku.Opt

variable {K : Type} [Field K] [LinearOrder K]

/-! ### `DiscreteVNS` -/

/-- The problem: objective, constraint values and the upper bound of every index variable. -/
structure DvProb (K : Type) where
  obj : List Int → K
  cons : List Int → List K
  ubs : List Int

/-- `X`, `best_fval` and `constr_vals`. -/
structure Dv (K : Type) where
  X : List Int
  best : K
  consVals : List K

/-- `sum(np.clip(constr_vals, 0, 100)**2)`, vns.py 262-263. -/
def clippedSq (c : List K) : K := (c.map fun g => (min (max g 0) 100) ^ 2).sum

/-- `X += action; np.clip(X, 0, problem.vars[0].ub)`, vns.py 249-250. -/
def dvMove (ub0 : Int) (X action : List Int) : List Int := (List.zipWith (· + ·) X action).map fun x => min (max x 0) ub0

/-- The step is an improvement, vns.py 257, 262-267. -/
def dvAccepts (best : K) (prev : List K) (f : K) (c : List K) : Bool :=
  decide (0 < best - f) && decide (0 ≤ clippedSq prev - clippedSq c) && c.all fun g => decide (g ≤ 0)

/-- `var.substitute(int(x))` of every index variable, vns.py 252-253, variables.py 320-334: an index beyond the list raises. -/
def dvSubst (ubs X : List Int) : Except PyErr Unit :=
  if (List.zip X ubs).any fun p => decide (p.2 < p.1) then .error .valueError else .ok ()

/-- `step(action)`, vns.py 238-284: the new point and state, and whether the reward is 1. -/
def dvStep (p : DvProb K) (s : Dv K) (action : List Int) : Except PyErr (List Int × Dv K × Bool) :=
  match p.ubs with
  | [] => .error .indexError
  | ub0 :: _ =>
    let X := dvMove ub0 s.X action
    match dvSubst p.ubs X with
    | .error e => .error e
    | .ok _ =>
      let c := p.cons X
      let ok := dvAccepts s.best s.consVals (p.obj X) c
      .ok (X, { s with
        best := if ok then p.obj X else s.best
        consVals := c }, ok)

/-- Outcome of the search for an improvement. -/
inductive DvSearch (K : Type)
  | found (s : Dv K) (rest : List (Bool × List Int))
  | timeout (s : Dv K)
  | running (s : Dv K)

/-- `while r <= 0`, vns.py 329-346. A draw is the answer of the clock (time is up) and the random action; `seen` are the actions tried so far.
    When the draws are used up, the loop is still running. -/
def dvSearch (p : DvProb K) : List (Bool × List Int) → List (List Int) → Dv K → Except PyErr (DvSearch K)
  | [], _, s => .ok (.running s)
  | (up, a) :: ds, seen, s =>
    if up then .ok (.timeout s)
    else if a ∈ seen then dvSearch p ds seen s
    else
      match dvStep p s a with
      | .error e => .error e
      | .ok (X, s1, ok) => if ok then .ok (.found { s1 with X := X } ds) else dvSearch p ds (a :: seen) s1

/-- What the caller of `solve` gets: the pair `(objective, point)`, the pair `(point, objective)`, or nothing yet. -/
inductive DvReturn (K : Type)
  | objPoint (f : K) (X : List Int)
  | pointObj (X : List Int) (f : K)
  | none

/-- `for i in range(maxiter)`, vns.py 328-355. -/
def dvLoop (p : DvProb K) : Nat → List (Bool × List Int) → Dv K → Except PyErr (DvReturn K)
  | 0, _, s => .ok (.objPoint (p.obj s.X) s.X)
  | k + 1, ds, s =>
    match dvSearch p ds [] s with
    | .error e => .error e
    | .ok (.running _) => .ok .none
    | .ok (.timeout s) => .ok (.pointObj s.X (p.obj s.X))
    | .ok (.found s ds) => dvLoop p k ds s

/-- `DiscreteVNS().solve(problem, x0, maxiter)`, vns.py 183-190 and 287-355: `best_fval = 10e3`. -/
def dvSolve (p : DvProb K) (x0 : List Int) (maxiter : Nat) (ds : List (Bool × List Int)) : Except PyErr (DvReturn K) :=
  dvLoop p maxiter ds ⟨x0, 10000, p.cons x0⟩

/-! ### `VNS` -/

/-- Class of a variable as `VNS.take_action` distinguishes it. -/
inductive NKind (K : Type)
  | discrete (values : List K)
  | index
  | cont

/-- A variable of the problem. -/
structure NVar (K : Type) where
  lb : K
  ub : K
  value : K
  kind : NKind K

/-- Bounds of a discrete variable, vns.py 45-57: the differences to the neighbouring values are compared with the bounds themselves. -/
def widenAbs (values : List K) (x : K) (w : K × K) : Except PyErr (K × K) := do
  let idx ← argminSq x values
  if idx = 0 then do
    let v1 ← valueAt values 1
    pure (w.1, max w.2 (v1 - x))
  else do
    let p ← valueAt values (idx - 1)
    if idx = values.length - 1 then pure (max w.1 (x - p), w.2)
    else do
      let q ← valueAt values (idx + 1)
      pure (max w.1 (x - p), max w.2 (q - x))

/-- Bounds set for the inner solver, vns.py 43-73. -/
def vnsBounds (step : K) (v : NVar K) : Except PyErr (K × K) :=
  match v.kind with
  | .discrete values =>
    let delta := (v.ub - v.lb) / (step * values.length)
    widenAbs values v.value (v.lb - delta, v.ub + delta)
  | .index => .ok (max 0 (v.value - step), min v.ub (v.value + step))
  | .cont =>
    let delta := (v.ub - v.lb) / 10
    .ok (max v.lb (v.value - delta * step), min v.ub (v.value + delta * step))

/-- State of the solver object and the variables. -/
structure Vns (K : Type) where
  vars : List (NVar K)
  fopt : K
  expansion : Nat
  step : K
  x0 : Option (List K)

/-- Result of the inner solver: objective, point, and the values it leaves in the variables. -/
structure Inner (K : Type) where
  f : K
  x : List K
  values : List K

/-- The variables with new bounds. -/
def setBounds (vs : List (NVar K)) (bs : List (K × K)) : List (NVar K) :=
  List.zipWith (fun v b => { v with
    lb := b.1
    ub := b.2 }) vs bs

/-- The variables with new values. -/
def setValues (vs : List (NVar K)) (xs : List K) : List (NVar K) :=
  List.zipWith (fun v x => { v with value := x }) vs xs

/-- `fopt < self.fopt and np.all(xopt != self.prev_x)`, vns.py 87. -/
def vnsAccepts (fopt : K) (prev : List K) (r : Inner K) : Bool :=
  decide (r.f < fopt) && (List.zipWith (fun a b => decide (a ≠ b)) r.x prev).all id

/-- `take_action`, vns.py 34-106, with the calls of itself (at most ten, as `space_expansion` counts them). `prev` is `prev_x`. The
    result is the state and the action, `none` standing for zeros. -/
def vnsAction (solver : List (K × K) → List K → Inner K) (maxExpansion : Nat) (prev : List K) : Nat → Vns K → Except PyErr (Vns K × Option (List K))
  | 0, s => .ok (s, none)
  | fuel + 1, s =>
    match s.vars.mapM (vnsBounds s.step) with
    | .error e => .error e
    | .ok bs =>
      let s1 := { s with vars := setBounds s.vars bs }
      if 10 ≤ s.expansion then .ok (s1, none)
      else
        let x0 := s.x0.getD (s.vars.map (·.value))
        let r := solver bs x0
        let s2 := { s1 with
          vars := setValues s1.vars r.values
          x0 := some x0 }
        let old := s.vars.map fun v => (v.lb, v.ub)
        if vnsAccepts s.fopt prev r then
          .ok ({ s2 with
            vars := setBounds s2.vars old
            fopt := r.f
            x0 := some r.x
            expansion := 0 }, some (List.zipWith (· - ·) r.x prev))
        else if maxExpansion ≤ s.expansion then .ok (s2, none)
        else vnsAction solver maxExpansion prev fuel { s2 with
          vars := setBounds s2.vars old
          expansion := s.expansion + 1
          step := s.step + 1 }

/-- `take_action()` as the driver calls it; eleven calls suffice. -/
def vnsTake (solver : List (K × K) → List K → Inner K) (maxExpansion : Nat) (s : Vns K) : Except PyErr (Vns K × Option (List K)) :=
  vnsAction solver maxExpansion (s.vars.map (·.value)) 11 s

/-! ### `TwoPhase` -/

/-- A variable of the second phase, as `discretize` distinguishes it: `type(var) is Variable`, an index variable or another one with a list of values. -/
inductive PKind (K : Type)
  | plain
  | index (values : List K)
  | listed (values : List K)

variable [FloorRing K]

/-- `IndexVariable.substitute`, variables.py 320-334: the argument, converted to an integer, is a position in the list (from the end if
    negative); whatever goes wrong is a `ValueError`. -/
def indexSubst (values : List K) (x : K) : Except PyErr K :=
  match pyIndex values (pyInt x) with
  | none => .error .valueError
  | some v => .ok v

/-- `discretize` for one variable, two_phase.py 55-67: the values it keeps. `min([])` of an empty list raises in the constructor of a discrete variable
    (variables.py 362-364), an index variable accepts it. -/
def discretizeVar (ll ul : Nat) (k : PKind K) (x : K) : Except PyErr (Option (List K)) :=
  match k with
  | .plain => .ok none
  | .listed values => do
    let idx ← argminSq x values
    let kept := (values.take (min values.length (idx + ul))).drop (idx - ll)
    if kept.isEmpty then .error .valueError else pure (some kept)
  | .index values => do
    let idx ← argminSq x values
    let v ← valueAt values idx
    let _ ← indexSubst values v
    pure (some ((values.take (min values.length (idx + ul))).drop (idx - ll)))

end Metku.Opt
