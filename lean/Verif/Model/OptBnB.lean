import Verif.Model.OptProblem

/-!
Model of the branch-and-bound solver `metku/optimization/solvers/bnb.py`.

Simplifications: no variable is locked by the user; `optimality_tightening` (linear programs solved by Gurobi), the solver
of the relaxation and the neighbourhood of the upper bounding heuristic are oracles; nodes are selected arbitrarily
(the code selects depth first); a node carries its branchings up to the root instead of a place in a tree;
the node's lower bound, which only guides the selection, is left out.
-/
namespace Metku.Opt

variable {K : Type} [Field K] [LinearOrder K] [FloorRing K]

/-- Variable class: `Variable`, `IntegerVariable` (and its subclasses), `DiscreteVariable`. -/
inductive BKind (K : Type)
  | cont
  | int
  | disc (values : List K)

/-- What branch and bound uses of a variable. -/
structure BVar (K : Type) where
  kind : BKind K
  lb : K
  ub : K
  prio : K

/-- A linear constraint `a'x (type) b`. -/
structure LinCon (K : Type) where
  a : List K
  b : K
  type : CType

/-! ### Feasibility-based bound tightening -/

/-- `bnd`, bnb.py 533-534: kept from an earlier variable when the coefficient is tiny. -/
def newBnd (a axm s b : K) (old : Option K) : Option K :=
  if |a| > 1 / 10 ^ 9 then some (1 / a * (b - (s - axm))) else old

/-- New bounds of one variable, bnb.py 535-550. -/
def tightenVar (a : K) (bnd : Option K) (v : BVar K) : Except PyErr (BVar K) :=
  if a > 0 then
    match bnd with
    | none => .error .unboundLocal
    | some t =>
      let ub := min v.ub t
      match v.kind with
      | .cont => .ok { v with ub := ub }
      | .int => .ok { v with ub := (⌊ub⌋ : K) }
      | .disc values =>
        match pyMax (values.filter fun y => decide (y ≤ ub)) with
        | .error e => .error e
        | .ok m => .ok { v with ub := m }
  else if a < 0 then
    match bnd with
    | none => .error .unboundLocal
    | some t =>
      let lb := max v.lb t
      match v.kind with
      | .cont => .ok { v with lb := lb }
      | .int => .ok { v with lb := (⌈lb⌉ : K) }
      | .disc values =>
        match pyMin (values.filter fun y => decide (y ≥ lb)) with
        | .error e => .error e
        | .ok m => .ok { v with lb := m }
  else .ok v

/-- Loop over the variables for one constraint, bnb.py 532-550; `s` is `sum(ax_min)`. -/
def tightenRow (s b : K) : List K → List K → Option K → List (BVar K) → Except PyErr (Option K × List (BVar K))
  | a :: as, m :: ms, bnd, v :: vs =>
    let bnd := newBnd a m s b bnd
    match tightenVar a bnd v with
    | .error e => .error e
    | .ok v' =>
      match tightenRow s b as ms bnd vs with
      | .error e => .error e
      | .ok r => .ok (r.1, v' :: r.2)
  | _, _, bnd, vs => .ok (bnd, vs)

/-- `ax_min = np.minimum(con.a*xub, con.a*xlb)`, bnb.py 530. -/
def axMin (a : List K) (box : List (K × K)) : List K :=
  List.zipWith (fun a b => min (a * b.2) (a * b.1)) a box

/-- Loop over the constraints, bnb.py 528-550; every linear constraint is treated alike, whatever its type. Arrays of different
    lengths do not broadcast (`ValueError`). -/
def tightenCons (box : List (K × K)) : List (LinCon K) → Option K → List (BVar K) → Except PyErr (List (BVar K))
  | [], _, vs => .ok vs
  | c :: cs, bnd, vs =>
    if c.a.length ≠ box.length then .error .valueError
    else
      match tightenRow (axMin c.a box).sum c.b c.a (axMin c.a box) bnd vs with
      | .error e => .error e
      | .ok r => tightenCons box cs r.1 r.2

/-- `feasibility_tightening()`, bnb.py 520-552. -/
def feasTighten (cons : List (LinCon K)) (vs : List (BVar K)) : Except PyErr (List (BVar K)) :=
  tightenCons (vs.map fun v => (v.lb, v.ub)) cons none vs

/-! ### Branching -/

/-- `var.discrete_violation(x)`: variables.py 204-210, 248-256, 393-403. -/
def bViolation (v : BVar K) (x : K) : Except PyErr K :=
  match v.kind with
  | .cont => .ok 0
  | .int => .ok (integerViolation x)
  | .disc values => discreteViolation values x

/-- `var.is_allowed_value(x)`: variables.py 234-246, 372-391; continuous variables have no such method. -/
def bAllowed (v : BVar K) (x : K) : Except PyErr Bool :=
  match v.kind with
  | .cont => .error .attributeError
  | .int =>
    .ok (decide (v.lb ≤ x ∧ x ≤ v.ub) &&
      decide (|x - (pyRound x : K)| ≤ max (1 / 10 ^ 9 * max |x| |(pyRound x : K)|) (1 / 10000)))
  | .disc values =>
    if v.lb ≤ x ∧ x ≤ v.ub then
      match pyMin (values.map fun val => |val - x|) with
      | .error e => .error e
      | .ok d => .ok (decide (d < 1 / 10000))
    else .ok false

/-- `variables_at_discrete_values`, bnb.py 450-463. -/
def allAllowed : List (BVar K) → List K → Except PyErr Bool
  | v :: vs, x :: xs =>
    match bAllowed v x with
    | .error e => .error e
    | .ok r =>
      match allAllowed vs xs with
      | .error e => .error e
      | .ok rs => .ok (r && rs)
  | [], _ => .ok true
  | _ :: _, [] => .error .indexError

/-- The current choice of branching variable, bnb.py 472-491. -/
structure Pick (K : Type) where
  viol : K
  idx : Nat
  prio : K
  xr : K
  kind : BKind K

/-- Body of the loop over the variables, bnb.py 475-491. -/
def pickStep (cur : Option (Pick K)) (i : Nat) (v : BVar K) (x viol : K) : Option (Pick K) :=
  match cur with
  | none => if viol > 0 then some ⟨viol, i, v.prio, x, v.kind⟩ else none
  | some c =>
    if v.prio > c.prio then (if viol > 0 then some ⟨viol, i, v.prio, x, v.kind⟩ else some c)
    else if v.prio = c.prio then (if viol > c.viol then some ⟨viol, i, v.prio, x, v.kind⟩ else some c)
    else some c

/-- Choice of the branching variable, bnb.py 472-491. -/
def pickVar : Nat → List (BVar K) → List K → Option (Pick K) → Except PyErr (Option (Pick K))
  | i, v :: vs, x :: xs, cur =>
    match bViolation v x with
    | .error e => .error e
    | .ok viol => pickVar (i + 1) vs xs (pickStep cur i v x viol)
  | _, [], _, cur => .ok cur
  | _, _ :: _, [], _ => .error .indexError

/-- A branching: variable, limit, and whether it is an upper limit (`sense == '<'`). -/
structure Branching (K : Type) where
  idx : Nat
  lim : K
  upper : Bool

/-- `branch(node)`, bnb.py 466-516: `vars.index(None)` is a `ValueError`, and only discrete variables know the next smaller and
    larger value. -/
def branch (vs : List (BVar K)) (xR : List K) : Except PyErr (Branching K × Branching K) :=
  match pickVar 0 vs xR none with
  | .error e => .error e
  | .ok none => .error .valueError
  | .ok (some c) =>
    match c.kind with
    | .disc values =>
      match smallerDiscrete values c.xr with
      | .error e => .error e
      | .ok lo =>
        match largerDiscrete values c.xr with
        | .error e => .error e
        | .ok hi => .ok (⟨c.idx, lo, true⟩, ⟨c.idx, hi, false⟩)
    | _ => .error .attributeError

/-- Bound of one branching, bnb.py 301-304. -/
def applyBranching (vs : List (BVar K)) (b : Branching K) : List (BVar K) :=
  vs.modify b.idx fun v => if b.upper then { v with ub := min v.ub b.lim } else { v with lb := max v.lb b.lim }

/-- Variables with the bounds of a node, bnb.py 279-304: original bounds, then the branchings from the node up to the root. -/
def nodeVars (orig : List (BVar K)) (path : List (Branching K)) : List (BVar K) := path.foldl applyBranching orig

/-! ### The search -/

/-- The problem. `cons` are all constraint functions in order, as `eval_cons` evaluates them. -/
structure BProb (K : Type) where
  vars : List (BVar K)
  lin : List (LinCon K)
  obj : List K → K
  cons : List (List K → K)
  conTol : K

/-- External solvers. -/
structure Oracle (K : Type) where
  /-- `optimality_tightening`, bnb.py 554-605. -/
  optTight : List (BVar K) → List (BVar K)
  /-- `lower_bound`: value and solution of the relaxation, or infeasible; bnb.py 318-411. -/
  lower : List (BVar K) → Option (K × List K)
  /-- `discrete_neighborhood(xR, 2)`, structopt.py 822-864. -/
  cand : List K → List (List K)

/-- Whether the lower bound exceeds the incumbent (`best_f = inf` at the start). -/
def exceeds (f : K) (best : Option (K × List K)) : Bool :=
  match best with
  | none => false
  | some b => decide (f > b.1)

/-- Whether the value is below the incumbent. -/
def improves (f : K) (best : Option (K × List K)) : Bool :=
  match best with
  | none => true
  | some b => decide (f < b.1)

/-- `upper_bound(node)`, bnb.py 414-437. -/
def upperBound (P : BProb K) (best : Option (K × List K)) (cands : List (List K)) : Option (K × List K) :=
  cands.foldl (fun best x =>
    if (P.cons.all fun g => decide (g x ≤ P.conTol)) && improves (P.obj x) best then some (P.obj x, x) else best) best

/-- Treatment of a selected node in the main loop, bnb.py 654-714: new open nodes and new incumbent. -/
def processNode (P : BProb K) (O : Oracle K) (path : List (Branching K)) (best : Option (K × List K)) :
    Except PyErr (List (List (Branching K)) × Option (K × List K)) :=
  match feasTighten P.lin (nodeVars P.vars path) with
  | .error e => .error e
  | .ok vs1 =>
    let vs := O.optTight vs1
    if vs.any fun v => decide (v.lb > v.ub) then .ok ([], best)
    else
      match O.lower vs with
      | none => .ok ([], best)
      | some (flb, xR) =>
        if exceeds flb best then .ok ([], best)
        else
          let best1 := upperBound P best (O.cand xR)
          match allAllowed vs xR with
          | .error e => .error e
          | .ok true => .ok ([], if improves flb best1 then some (flb, xR) else best1)
          | .ok false =>
            match branch vs xR with
            | .error e => .error e
            | .ok (b1, b2) => .ok ([b1 :: path, b2 :: path], best1)

/-- Open nodes and incumbent. -/
structure BState (K : Type) where
  opened : List (List (Branching K))
  best : Option (K × List K)

/-- One pass of the main loop, bnb.py 639-716, with any open node selected. -/
inductive BStep (P : BProb K) (O : Oracle K) : BState K → BState K → Prop
  | mk (l1 l2 path new best best') : processNode P O path best = .ok (new, best') →
      BStep P O ⟨l1 ++ path :: l2, best⟩ ⟨l1 ++ l2 ++ new, best'⟩

/-- States reached from the root node, with the number of passes. -/
inductive BReach (P : BProb K) (O : Oracle K) : Nat → BState K → Prop
  | root : BReach P O 0 ⟨[[]], none⟩
  | step {k s s'} : BReach P O k s → BStep P O s s' → BReach P O (k + 1) s'

end Metku.Opt
