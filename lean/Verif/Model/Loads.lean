import Mathlib.Algebra.Order.Floor.Ring
import Mathlib.Algebra.Order.Field.Basic
import Mathlib.Tactic.DeriveFintype
import Verif.Model.PyErr

/-!
Model of the load combinations of `metku/eurocodes/en1991/en1991.py` (EN 1990), function by function, over an ordered field.

Simplifications: floats are exact; a load object is its kind, value and three factors; object identity (`is`, `!=`) is identity of the position in the list, since `add` makes a new list with a copied load for each entry (line 165); a combination is the list of its loads with factors in the order permanent, leading, accompanying, as `get_single_result` reads it (lines 209-221); load identifiers are natural numbers; strings other than `'x'` and `'y'` are one direction.
-/
namespace Metku.Loads

variable {K : Type} [Field K] [LinearOrder K] [IsStrictOrderedRing K]

/-- `Load` and its subclasses, en1991.py 40-130. -/
inductive Kind
  | load | area | imposed | snow | wind
  deriving DecidableEq

/-- A load object: `value` and `comb_factors`. -/
structure Load (K : Type) where
  kind : Kind
  value : K
  psi : K × K × K

/-- Factors of the constructor of `SnowLoad`, en1991.py 99-104: the argument is ignored. -/
def snowFactors (v : K) : K × K × K := if v < 275 / 100 then (7 / 10, 4 / 10, 2 / 10) else (7 / 10, 5 / 10, 2 / 10)

/-- Default factors of the constructors, en1991.py 43, 63, 75, 93-104, 117. -/
def Load.new (k : Kind) (v : K) : Load K :=
  { kind := k
    value := v
    psi := match k with
      | .load => (1, 1, 1)
      | .area => (1, 1, 1)
      | .imposed => (7 / 10, 5 / 10, 2 / 10)
      | .snow => snowFactors v
      | .wind => (6 / 10, 2 / 10, 0) }

/-- `copy.copy`, en1991.py 56-57, 66-67, 83-84, 106-107, 125-126: the copy of a snow load runs the constructor again. -/
def Load.copy (l : Load K) : Load K := match l.kind with
  | .snow => { l with psi := snowFactors l.value }
  | _ => l

/-- Building categories, en1991.py 21-27; any other string raises KeyError. -/
inductive Cls
  | A | B | C | D | E | other
  deriving DecidableEq

/-- `comb_factors[structure_class]`, en1991.py 21-27, 154-156. -/
def Cls.factors : Cls → Except PyErr (K × K × K)
  | .A => .ok (7 / 10, 5 / 10, 3 / 10)
  | .B => .ok (7 / 10, 5 / 10, 3 / 10)
  | .C => .ok (7 / 10, 7 / 10, 3 / 10)
  | .D => .ok (7 / 10, 7 / 10, 6 / 10)
  | .E => .ok (1, 9 / 10, 8 / 10)
  | .other => .error .keyError

inductive Dir
  | x | y | other
  deriving DecidableEq

/-- An entry `[load, direction, identifiers]`. -/
structure Entry (K : Type) where
  load : Load K
  dir : Dir
  ids : List ℕ

/-- A `Combiner`, en1991.py 133-152. `kfi` is absent for a consequence class other than 1, 2, 3. -/
structure Combiner (K : Type) where
  cls : Cls
  kfi : Option K
  kk : K
  G : List (Entry K)
  Q : List (Entry K)

/-- Constructor, en1991.py 134-152. -/
def Combiner.new (cls : Cls) (CC : ℕ) (kk : K) : Combiner K :=
  { cls := cls
    kfi := if CC = 3 then some (11 / 10) else if CC = 2 then some 1 else if CC = 1 then some (9 / 10) else none
    kk := kk
    G := []
    Q := [] }

/-- `add` for one load, en1991.py 165-178. -/
def Combiner.add (c : Combiner K) (e : Entry K) : Except PyErr (Combiner K) := do
  let l := e.load.copy
  match l.kind with
  | .imposed => do
    let f ← c.cls.factors
    pure { c with Q := c.Q ++ [{ e with load := { l with psi := f, value := l.value * c.kk } }] }
  | .snow => pure { c with Q := c.Q ++ [{ e with load := { l with value := l.value * c.kk } }] }
  | .wind => pure { c with Q := c.Q ++ [{ e with load := { l with value := l.value * c.kk } }] }
  | .area => do
    let f ← c.cls.factors
    pure { c with G := c.G ++ [{ e with load := { l with psi := f, value := l.value * c.kk } }] }
  | .load => do
    let f ← c.cls.factors
    pure { c with G := c.G ++ [{ e with load := { l with psi := f } }] }

/-- `add` with several loads, one after the other, en1991.py 158-161. -/
def Combiner.addAll (c : Combiner K) (l : List (Entry K)) : Except PyErr (Combiner K) := l.foldlM Combiner.add c

/-- `sum_G_k`, en1991.py 180-182. -/
def Combiner.sumG (c : Combiner K) : K := (c.G.map (fun e => e.load.value)).sum

/-- `use_reduction_factor`, en1991.py 194-205; `np.clip` between 0.7 and 1. -/
def Combiner.reduce (c : Combiner K) (length : K) : Combiner K :=
  if c.cls = .E ∨ c.cls = .other then c
  else { c with Q := c.Q.map (fun e =>
    if e.load.kind = .imposed then
      { e with load := { e.load with value := e.load.value * min (max (5 / 7 * e.load.psi.1 + 10 / (c.kk * length)) (7 / 10)) 1 } }
    else e) }

/-- A combination: the value by which combinations are compared and the loads with their factors. -/
structure Comb (K : Type) where
  value : K
  terms : List (Entry K × K)

/-- `max(vals, key=value)`, en1991.py 335, 414-416, 482: the first of the largest; ValueError for an empty list. -/
def firstMax : List (Comb K) → Except PyErr (Comb K)
  | [] => .error .valueError
  | c :: l => .ok (l.foldl (fun r d => if r.value < d.value then d else r) c)

/-- Sum of `combined(i)` over the loads except one, en1991.py 188-192. -/
def sumExcluding (Q : List (Entry K)) (i : ℕ) (psi : K × K × K → K) : K := ((Q.eraseIdx i).map (fun e => e.load.value * psi e.load.psi)).sum

/-- `ULSCombiner.combine`: the list `vals`, en1991.py 314-333. -/
def Combiner.ulsVals (c : Combiner K) (k : K) : List (Comb K) :=
  { value := 135 / 100 * k * c.sumG, terms := c.G.map (fun e => (e, 135 / 100 * k)) } ::
    c.Q.mapIdx (fun i l =>
      { value := 115 / 100 * k * c.sumG + 15 / 10 * k * l.load.value + 15 / 10 * k * sumExcluding c.Q i (·.1)
        terms := c.G.map (fun e => (e, 115 / 100 * k)) ++ [(l, 15 / 10 * k)] ++ (c.Q.eraseIdx i).map (fun e => (e, 15 / 10 * k * e.load.psi.1)) })

/-- Characteristic combinations of `SLSCombiner.combine`, en1991.py 353-377: compared with the factor ψ2 of the accompanying loads although they enter with ψ0. -/
def Combiner.charVals (c : Combiner K) : List (Comb K) :=
  if c.Q = [] then [{ value := c.sumG, terms := c.G.map (fun e => (e, 1)) }]
  else c.Q.mapIdx (fun i l =>
    { value := c.sumG + l.load.value + sumExcluding c.Q i (·.2.2)
      terms := c.G.map (fun e => (e, 1)) ++ [(l, 1)] ++ (c.Q.eraseIdx i).map (fun e => (e, e.load.psi.1)) })

/-- Frequent combinations of `SLSCombiner.combine`, en1991.py 353-379. -/
def Combiner.freqVals (c : Combiner K) : List (Comb K) :=
  if c.Q = [] then [{ value := c.sumG, terms := c.G.map (fun e => (e, 1)) }]
  else c.Q.mapIdx (fun i l =>
    { value := c.sumG + l.load.value * l.load.psi.2.1 + sumExcluding c.Q i (·.2.2)
      terms := c.G.map (fun e => (e, 1)) ++ [(l, l.load.psi.2.1)] ++ (c.Q.eraseIdx i).map (fun e => (e, e.load.psi.2.2)) })

/-- The quasi-permanent combination, en1991.py 362, 370, 381-382. -/
def Combiner.quasiVals (c : Combiner K) : List (Comb K) :=
  [{ value := c.sumG + (c.Q.map (fun e => e.load.value * e.load.psi.2.2)).sum
     terms := c.G.map (fun e => (e, 1)) ++ c.Q.map (fun e => (e, e.load.psi.2.2)) }]

/-- `ACCCombiner.combine`, en1991.py 445-469: ψ1 for leading wind or snow, ψ2 otherwise; the permanent loads alone come last. -/
def Combiner.accVals (c : Combiner K) : List (Comb K) :=
  c.Q.mapIdx (fun i l =>
      let f := if l.load.kind = .wind ∨ l.load.kind = .snow then l.load.psi.2.1 else l.load.psi.2.2
      { value := c.sumG + l.load.value * f + sumExcluding c.Q i (·.2.2)
        terms := c.G.map (fun e => (e, 1)) ++ [(l, f)] ++ (c.Q.eraseIdx i).map (fun e => (e, e.load.psi.2.2)) }) ++
    [{ value := c.sumG, terms := c.G.map (fun e => (e, 1)) }]

variable [FloorRing K]

/-- `round(x, 2)`, en1991.py 248, 250: to the nearest hundredth, ties to even. -/
def round2 (x : K) : K :=
  let f := ⌊x * 100⌋
  let d := x * 100 - f
  let n := if d < 1 / 2 then f else if 1 / 2 < d then f + 1 else if f % 2 = 0 then f else f + 1
  (n : K) / 100

/-- Sum of the rounded values of the loads of one direction on one identifier, en1991.py 234-252; an identifier listed twice counts twice. -/
def lineLoad (terms : List (Entry K × K)) (d : Dir) (i : ℕ) : K :=
  (terms.map (fun t => if t.1.dir = d then (t.1.ids.count i : K) * round2 (t.1.load.value * t.2) else 0)).sum

/-- `get_single_result`, en1991.py 207-253: entries for the identifiers 0 to the largest one, in x and y direction; without loads `None + 1` raises TypeError; a load without identifiers raises ValueError. -/
def singleResult (c : Comb K) : Except PyErr (List (Option (K × K))) :=
  if c.terms = [] then .error .typeError
  else if c.terms.any (fun t => t.1.ids = []) then .error .valueError
  else
    let m := (c.terms.map (fun t => t.1.ids.foldl max 0)).foldl max 0
    .ok ((List.range (m + 1)).map (fun i => if c.terms.any (fun t => t.1.ids.contains i) then some (lineLoad c.terms .x i, lineLoad c.terms .y i) else none))

/-- `ULSCombiner.get_result`, en1991.py 337-345. `raise Exception` (modelled as `assertion`) without loads. -/
def Combiner.uls (c : Combiner K) : Except PyErr (List (Option (K × K))) :=
  if c.Q.length + c.G.length ≤ 0 then .error .assertion
  else match c.kfi with
    | none => .error .attributeError
    | some k => do
      let r ← firstMax (c.ulsVals k)
      singleResult r

/-- `SLSCombiner.get_result`, en1991.py 418-441 without `split_result`: characteristic, frequent and quasi-permanent. -/
def Combiner.sls (c : Combiner K) : Except PyErr (List (Option (K × K)) × List (Option (K × K)) × List (Option (K × K))) :=
  if c.Q.length + c.G.length ≤ 0 then .error .assertion
  else do
    let r1 ← firstMax c.charVals
    let r2 ← firstMax c.freqVals
    let r3 ← firstMax c.quasiVals
    let s1 ← singleResult r1
    let s2 ← singleResult r2
    let s3 ← singleResult r3
    pure (s1, s2, s3)

/-- `ACCCombiner.get_result`, en1991.py 484-492. -/
def Combiner.acc (c : Combiner K) : Except PyErr (List (Option (K × K))) :=
  if c.Q.length + c.G.length ≤ 0 then .error .assertion
  else do
    let r ← firstMax c.accVals
    singleResult r

end Metku.Loads
