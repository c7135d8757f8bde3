import Mathlib.Algebra.Order.Floor.Ring
import Mathlib.Algebra.Order.Field.Basic
import Mathlib.Algebra.Order.Archimedean.Basic
import Verif.Model.PyErr

/-!
Model of `metku/optimization/variables.py`: design variables and substitution of values into the structure.

Simplifications: attribute values (numbers, profiles, sections) are elements of one ordered field `K`;
a Python object of the structure is a number and its attributes are named by strings; `Struct` gives the current
value of every attribute.  `obj.cross_section.__setattr__(p, ..)` writes attribute `"cross_section." ++ p`.
-/
namespace Metku.Opt

open Metku

/-- Variable classes, variables.py 16, 213, 259, 277, 296, 343, 418.
    `binary` carries the attribute `section` (line 292), `index`/`discrete` the list `values`. -/
inductive VKind (K : Type)
  | cont | integer | boolean
  | binary (sec : K)
  | index (values : List K)
  | discrete (values : List K)
  | crossSection

/-- `target['property']`: one name or a list of names (variables.py 43-47). -/
inductive PropSpec
  | one (p : String)
  | many (ps : List String)

/-- The `target` dictionary, variables.py 43-49. -/
structure Target where
  prop : PropSpec
  objects : List Nat

/-- State of a variable, variables.py 74-107.  `targetFun` is the dictionary `target_fun`
    (`none` = not given, inner `none` = missing key). -/
structure Var (K : Type) where
  kind : VKind K
  lb : K
  ub : K
  value : Option K
  target : Option Target
  targetFun : Option (String → Option (K → K))
  locked : Bool
  scaling : K
  lbMult : K
  ubMult : K

/-- Attributes of the objects of the structure. -/
abbrev Struct (K : Type) := Nat → String → K

/-- A newly constructed variable, variables.py 74-107 (bounds of an index variable: 308-314). -/
def newVar {K : Type} [One K] (kind : VKind K) (lb ub : K) (value : Option K) (target : Option Target) : Var K :=
  ⟨kind, lb, ub, value, target, none, false, 1, 1, 1⟩

/-- `obj.__setattr__(p, v)`. -/
def setAttr {K : Type} (s : Struct K) (o : Nat) (p : String) (v : K) : Struct K :=
  fun o' p' => if o' = o ∧ p' = p then v else s o' p'

variable {K : Type} [Field K] [LinearOrder K] [FloorRing K]

/-- Attribute assignments made for one object by `Variable.substitute`, variables.py 161-202. -/
def writeObj (v : Var K) (t : Target) (x : K) (s : Struct K) (o : Nat) : Struct K :=
  match t.prop with
  | .many ps =>
    ps.foldl (fun s p =>
      match v.targetFun with
      | some f =>
        match f p with
        | some g => setAttr s o p (g (x * v.scaling))
        | none => setAttr s o p (x * v.scaling)
      | none => setAttr s o p x) s
  | .one p =>
    match v.kind with
    | .index _ => setAttr s o p x
    | .binary sec =>
      if x = 1 then (if p = "profile" ∨ p = "cross_section" then setAttr s o p sec else s)
      else (if p = "member" then setAttr s o "active" 0 else s)
    | _ => setAttr s o p (x * v.scaling)

/-- Attribute assignments made for one object by `CrossSectionVariable.substitute`, variables.py 435-458. -/
def writeCross (v : Var K) (t : Target) (x : K) (s : Struct K) (o : Nat) : Struct K :=
  match t.prop with
  | .many ps =>
    ps.foldl (fun s p =>
      match v.targetFun with
      | some f =>
        match f p with
        | some g => setAttr s o p (g (x * v.scaling))
        | none => setAttr s o p (x * v.scaling)
      | none => setAttr s o p x) s
  | .one p => setAttr s o ("cross_section." ++ p) (x * v.scaling)

/-- `Variable.substitute`, variables.py 149-202. -/
def substBase (v : Var K) (x : K) (s : Struct K) : Var K × Struct K :=
  if v.locked then (v, s)
  else
    ({ v with value := some x },
     match v.target with
     | none => s
     | some t => t.objects.foldl (writeObj v t x) s)

/-- `int(x)`: truncation towards zero. -/
def pyInt (x : K) : Int := if 0 ≤ x then ⌊x⌋ else ⌈x⌉

/-- `values[i]` with Python's negative indices. -/
def pyIndex {α : Type} (l : List α) (i : Int) : Option α :=
  if 0 ≤ i then l[i.toNat]?
  else if 0 ≤ i + l.length then l[(i + l.length).toNat]? else none

/-- `var.substitute(x)` for every class: `Variable` (149-202), `IndexVariable` (320-334),
    `CrossSectionVariable` (425-458); the other classes inherit `Variable.substitute`. -/
def substVar (v : Var K) (x : K) (s : Struct K) : Except PyErr (Var K × Struct K) :=
  match v.kind with
  | .index values =>
    match pyIndex values (pyInt x) with
    | none => .error .valueError
    | some y =>
      let r := substBase v y s
      .ok ({ r.1 with value := some ((pyInt x : Int) : K) }, r.2)
  | .crossSection =>
    if v.locked then .ok (v, s)
    else
      match v.target with
      | none => .error .typeError
      | some t => .ok ({ v with value := some x }, t.objects.foldl (writeCross v t x) s)
  | _ => .ok (substBase v x s)

/-- `var.lock(val)`, variables.py 119-130. -/
def lockVar (v : Var K) (val : Option K) (s : Struct K) : Except PyErr (Var K × Struct K) :=
  match val with
  | none => .ok ({ v with locked := true }, s)
  | some x =>
    match substVar v x s with
    | .error e => .error e
    | .ok (v', s') => .ok ({ v' with locked := true }, s')

/-- `var.unlock()`, variables.py 132-136. -/
def unlockVar (v : Var K) : Var K := { v with locked := false }

/-- `var.scale(f)`, variables.py 138-147 (`ZeroDivisionError` for `f = 0`). -/
def scaleVar (v : Var K) (f : K) : Except PyErr (Var K) :=
  if f = 0 then .error .zeroDivision
  else .ok { v with scaling := f, lb := v.lb / f, ub := v.ub / f }

/-- `max` / `min` of a Python list; `ValueError` when empty. -/
def pyMax : List K → Except PyErr K
  | [] => .error .valueError
  | x :: xs => .ok (xs.foldl max x)

/-- See `pyMax`. -/
def pyMin : List K → Except PyErr K
  | [] => .error .valueError
  | x :: xs => .ok (xs.foldl min x)

/-- `DiscreteVariable.smaller_discrete_value`, variables.py 405-408. -/
def smallerDiscrete (values : List K) (x : K) : Except PyErr K :=
  pyMax (values.filter fun val => val - x < 0)

/-- `DiscreteVariable.larger_discrete_value`, variables.py 412-415. -/
def largerDiscrete (values : List K) (x : K) : Except PyErr K :=
  pyMin (values.filter fun val => val - x > 0)

/-- `DiscreteVariable.discrete_violation`, variables.py 393-403; `DISC_TOL = 1e-3`. -/
def discreteViolation (values : List K) (x : K) : Except PyErr K :=
  match pyMin (values.map fun val => |val - x|) with
  | .error e => .error e
  | .ok v => .ok (if v ≤ 1 / 1000 then 0 else v)

/-- `DiscreteVariable.is_allowed_value`, variables.py 372-391; `INT_TOL = 1e-4`. -/
def discreteAllowed (v : Var K) (values : List K) (x : K) : Except PyErr Bool :=
  if v.lb ≤ x ∧ x ≤ v.ub then
    match pyMin (values.map fun val => |val - x|) with
    | .error e => .error e
    | .ok d => .ok (d < 1 / 10000)
  else .ok false

/-- Python's `round(x, 0)` for a float: nearest integer, ties to even. -/
def pyRound (x : K) : Int :=
  if x - ⌊x⌋ < 1 / 2 then ⌊x⌋
  else if 1 / 2 < x - ⌊x⌋ then ⌊x⌋ + 1
  else if ⌊x⌋ % 2 = 0 then ⌊x⌋ else ⌊x⌋ + 1

/-- `IntegerVariable.discrete_violation`, variables.py 248-256. -/
def integerViolation (x : K) : K :=
  let v := |x - (pyRound x : K)|
  if v ≤ 1 / 10000 then 0 else v

/-- `IntegerVariable.is_allowed_value`, variables.py 234-246: `math.isclose` with `rel_tol = 1e-9`. -/
def integerAllowed (v : Var K) (x : K) : Bool :=
  if v.lb ≤ x ∧ x ≤ v.ub then
    decide (|x - (pyRound x : K)| ≤ max (1 / 10 ^ 9 * max |x| |(pyRound x : K)|) (1 / 10000))
  else false

end Metku.Opt
