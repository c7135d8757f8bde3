import Verif.Model.OptVars

/-!
Model of `metku/optimization/variable_group.py`: groups of design variables made for several attributes and objects at once.

Simplifications: objects are numbers and attribute values are elements of an ordered field, as in `Model/OptVars`. The argument `values` is a list of lists for discrete variables
(`valueLists`) and a list for index variables (`values`). The names of the variables are left out.
-/
namespace Metku.Grp

open Metku Metku.Opt

/-- `VariableTypeEnum`, variable_group.py 8-13; `other` is any other object. -/
inductive VType
  | continuous | discrete | index | binary | boolean | other
  deriving DecidableEq

/-- Exceptions: those of `PyErr`, or `NotImplementedError`. -/
inductive Err
  | py (e : PyErr)
  | notImplemented
  deriving DecidableEq

/-- The argument `value`: a number or a list. -/
inductive Start (K : Type)
  | num (x : K)
  | list (l : List K)

/-- The arguments of `VariableGroup`, variable_group.py 27-38; an empty list of objects or attributes counts as not given. -/
structure Spec (K : Type) where
  vtype : VType
  object : Option Nat
  objects : List Nat
  attr : Option PropSpec
  attributes : List PropSpec
  value : Option (Start K)
  values : Option (List K)
  valueLists : Option (List (List K))
  lower : Option (List K)
  upper : Option (List K)

/-- A variable of a group: `target['property']` may be `None`, bounds may be `None`, and `value` may be a list. -/
structure GVar (K : Type) where
  prop : Option PropSpec
  objects : List Nat
  kind : VKind K
  bounds : Option (K × K)
  start : Start K

/-- `has_attribute`, variable_group.py 16-24. -/
def hasAttribute (has : Nat → String → Bool) (o : Nat) : PropSpec → Bool
  | .one p => has o p
  | .many ps => ps.all (has o)

variable {K : Type} [Field K] [LinearOrder K]

namespace Spec

/-- `self.objects` after lines 42-43. -/
def objs (G : Spec K) : List (Option Nat) := if G.objects = [] then [G.object] else G.objects.map some

/-- The objects that are not `None`. -/
def targets (G : Spec K) : List Nat := G.objs.filterMap id

/-- `self.attributes` after lines 44-45. -/
def attrs (G : Spec K) : List (Option PropSpec) := match G.attributes with
  | [] => [G.attr]
  | l => l.map some

/-- `self.value` after lines 46-47. -/
def startValue (G : Spec K) : Start K := match G.value with
  | none => .list (List.replicate G.attrs.length 0)
  | some v => v

/-- One test of lines 50-53: `None` has no attributes, `hasattr(obj, None)` raises `TypeError`. -/
def accepts (has : Nat → String → Bool) : Option PropSpec → Option Nat → Bool
  | some a, some o => hasAttribute has o a
  | some (.many ps), none => ps.isEmpty
  | _, _ => false

/-- Lines 50-53. -/
def attributesOk (G : Spec K) (has : Nat → String → Bool) : Bool := G.attrs.all fun a => G.objs.all (accepts has a)

/-- The loop over `zip(attributes, lower_bounds, upper_bounds, value)`, lines 59-71. -/
def continuousVars (objs : List Nat) : List (Option PropSpec) → List K → List K → List K → List (GVar K)
  | a :: as, l :: ls, u :: us, v :: vs => ⟨a, objs, .cont, some (l, u), .num v⟩ :: continuousVars objs as ls us vs
  | _, _, _, _ => []

/-- The loop over `zip(attributes, value, values)`, lines 73-83, with the constructor of `DiscreteVariable`, variables.py 343-370. -/
def discreteVars (objs : List Nat) : List (Option PropSpec) → List K → List (List K) → Except Err (List (GVar K))
  | a :: as, v :: vs, w :: ws =>
    match w with
    | [] => .error (.py .valueError)
    | x :: xs => do
      let r ← discreteVars objs as vs ws
      .ok (⟨a, objs, .discrete w, some (xs.foldl min x, xs.foldl max x), .num v⟩ :: r)
  | _, _, _ => .ok []

/-- `IndexVariable(...)`, lines 85-92 and variables.py 296-316. -/
def indexVar (G : Spec K) : GVar K :=
  ⟨G.attr, G.targets, .index (G.values.getD []), G.values.map fun l => (0, (l.length : K) - 1), G.startValue⟩

/-- `VariableGroup.__post_init__`, lines 40-102. -/
def make (G : Spec K) (has : Nat → String → Bool) : Except Err (List (GVar K)) :=
  if G.attributesOk has = false then .error (.py .typeError)
  else
    match G.vtype with
    | .continuous =>
      match G.lower, G.upper, G.startValue with
      | some l, some u, .list v => .ok (continuousVars G.targets G.attrs l u v)
      | _, _, _ => .error (.py .typeError)
    | .discrete =>
      match G.startValue, G.valueLists with
      | .list v, some w => discreteVars G.targets G.attrs v w
      | _, _ => .error (.py .typeError)
    | .index => .ok [G.indexVar]
    | .binary => .error .notImplemented
    | .boolean => .error .notImplemented
    | .other => .error (.py .valueError)

end Spec

/-- `variable.substitute(x)` for a variable of a group, variables.py 149-202, 320-334: a property `None` makes `setattr` fail; the index variable turns every exception into `ValueError`. -/
def GVar.substitute [FloorRing K] (g : GVar K) (x : K) (s : Struct K) : Except PyErr (Struct K) :=
  match g.prop with
  | none => match g.kind with
    | .index _ => .error .valueError
    | _ => .error .typeError
  | some p => do
    let r ← substVar (newVar g.kind 0 0 none (some ⟨p, g.objects⟩)) x s
    .ok r.2

end Metku.Grp
