import Mathlib.Algebra.Order.Field.Basic
import Verif.Model.FrameGeom

/-!
Loads, load cases and load combinations of a `Raami` frame.

Source: metku/raami/frame_loads.py 28-205 (`LoadCase`, `LoadCombination`, `Load`) and
metku/raami/raami.py 58-74, 115-200, 251-274, 303-309 (the registers of the frame).

Simplifications: loads and load cases are Python objects compared by identity, so they
live in two lists of the `World` and are referred to by their index; floats are elements of
an ordered field; what a load acts on and its vector or values are kept as one value
(`Action`), which the code below copies without looking into it; load ids are naturals.
-/
namespace Metku.Raami

open Metku.Frame2D (dictSet freshName)

variable {K : Type} [Field K]

/-- `ltype.upper()`, frame_loads.py 177: the names the code knows, and any other name. -/
inductive LType
  | live
  | dead
  | wind
  | snow
  | other
deriving DecidableEq, Repr

/-- The names of combination types, frame_loads.py 91-105. -/
inductive CombType
  | uls
  | sls
  | acc
deriving DecidableEq, Repr

/-- What a load does before its factor: `PointLoad(node, v)`, frame_loads.py 210-240, or
`LineLoad(member, values)` / `PWLineLoad`, 250-330. -/
inductive Action (K : Type)
  | point (node : ℕ) (v : List K)
  | line (member : ℕ) (v0 v1 : K)
deriving DecidableEq, Repr

/-- Is it a `PointLoad`? (`Raami.add`, raami.py 240-244). -/
def Action.isPoint : Action K → Bool
  | .point _ _ => true
  | .line _ _ _ => false

/-- `Load`, frame_loads.py 158-178. -/
structure Load (K : Type) where
  act : Action K
  loadId : ℕ
  ltype : LType
  name : String
  f : K
deriving DecidableEq, Repr

/-- `LoadCase`, frame_loads.py 28-60: its id and its loads. -/
structure Case where
  id : ℕ
  loads : List ℕ
deriving DecidableEq, Repr

/-- The objects of a program: loads, load cases, and the registers of one frame
(raami.py 58-74): `loads` (name → load), `load_ids`, `load_cases` (id → load case), and for
each member its weight per length and its `self_weight` flag. -/
structure World (K : Type) where
  heap : List (Load K)
  cases : List Case
  dict : List (String × ℕ)
  loadIds : List ℕ
  caseOf : List (ℕ × ℕ)
  selfWeight : Bool
  members : List (K × Bool)
deriving DecidableEq, Repr

/-- A new program: no objects, an empty frame with the given members. -/
def World.empty (members : List K) : World K := ⟨[], [], [], [], [], false, members.map (fun w => (w, false))⟩

/-- The factor set by `Load.factored`, frame_loads.py 180-205. -/
def factor (t : LType) (c : CombType) (lead : Bool) : K :=
  match t with
  | .live => (if c = .uls then 3 / 2 else 1) * (if lead then 1 else 7 / 10)
  | .snow => (if c = .uls then 3 / 2 else 1) * (if lead then 1 else 7 / 10)
  | .wind => (if c = .uls then 3 / 2 else 1) * (if lead then 1 else 6 / 10)
  | .dead => if c = .uls then 115 / 100 else 1
  | .other => 1

/-- `Load.factored`: the load's own factor is replaced, frame_loads.py 205. -/
def Load.factored (l : Load K) (c : CombType) (lead : Bool) : Load K := { l with f := factor l.ltype c lead }

/-- A new load object. -/
def World.newLoad (w : World K) (l : Load K) : World K × ℕ := ({ w with heap := w.heap ++ [l] }, w.heap.length)

/-- Changing a load object. -/
def World.modify (w : World K) (r : ℕ) (g : Load K → Load K) : World K := { w with heap := w.heap.modify r g }

/-- `LoadCase.add`, frame_loads.py 73-77. -/
def World.caseAdd (w : World K) (c r : ℕ) : World K :=
  match w.cases[c]? with
  | none => w
  | some k =>
    if r ∈ k.loads then w
    else { w.modify r (fun l => { l with loadId := k.id }) with cases := w.cases.modify c (fun k => { k with loads := k.loads ++ [r] }) }

/-- `LoadCase(load_id, loads)`, frame_loads.py 35-58. -/
def World.newCase (w : World K) (id : ℕ) (refs : List ℕ) : World K × ℕ :=
  (refs.foldl (fun v r => v.caseAdd w.cases.length r) { w with cases := w.cases ++ [⟨id, []⟩] }, w.cases.length)

/-- `self.load_cases[id] = case` and `load_ids`, raami.py 125-127. -/
def World.register (w : World K) (id c : ℕ) : World K :=
  { w with
    caseOf := if id ∈ w.caseOf.map Prod.fst then w.caseOf.map (fun e => if e.1 = id then (id, c) else e) else w.caseOf ++ [(id, c)]
    loadIds := if id ∈ w.loadIds then w.loadIds else w.loadIds ++ [id] }

/-- `add_pointload` and `add_lineload`, raami.py 139-200. A load with a new id gets a load case of
its own, which is added to the frame (and its id is then noted a second time, 167, 195); adding
that load case adds no load, as the name of its only load is already a key (or, for a point load
that is already in the frame, nothing is stored). -/
def World.addLoad (w : World K) (r : ℕ) : Except PyErr (World K) :=
  match w.heap[r]? with
  | none => .error .nameError
  | some l =>
    let w1 := w.modify r (fun l => { l with name := freshName w.dict l.name })
    let w2 := if l.act.isPoint ∧ r ∈ w.dict.map Prod.snd then w1 else { w1 with dict := dictSet w.dict (freshName w.dict l.name) r }
    if l.loadId ∈ w.loadIds then
      match w.caseOf.lookup l.loadId with
      | none => .error .keyError
      | some c => .ok (w2.caseAdd c r)
    else
      let (w3, c) := w2.newCase l.loadId [r]
      let w4 := w3.register l.loadId c
      .ok { w4 with loadIds := w4.loadIds ++ [l.loadId] }

/-- `if load.name not in self.loads: self.add(load)`, raami.py 129-131. -/
def World.addUnnamed (w : World K) (r : ℕ) : Except PyErr (World K) :=
  match w.heap[r]? with
  | none => .error .nameError
  | some l => if l.name ∈ w.dict.map Prod.fst then .ok w else w.addLoad r

/-- `add_loadcase`, raami.py 115-131. -/
def World.addCase (w : World K) (c : ℕ) : Except PyErr (World K) :=
  match w.cases[c]? with
  | none => .error .nameError
  | some k => k.loads.foldlM (fun w r => w.addUnnamed r) (w.register k.id c)

/-- `LoadCombination`, frame_loads.py 91-125. -/
structure Comb where
  id : ℕ
  type : CombType
  cases : List ℕ
  lead : Option ℕ
deriving DecidableEq, Repr

/-- `LoadCase.load_type`, frame_loads.py 65-71. -/
def World.caseType (w : World K) (c : ℕ) : Option LType :=
  match w.cases[c]? with
  | none => none
  | some k => match k.loads with
    | [] => none
    | r :: _ => (w.heap[r]?).map Load.ltype

/-- The constructor of a load combination: the first load case whose type is not `'DEAD'`
leads, frame_loads.py 113-123. -/
def World.newComb (w : World K) (id : ℕ) (type : CombType) (cases : List ℕ) : Comb :=
  ⟨id, type, cases, cases.find? (fun c => decide (w.caseType c ≠ some LType.dead))⟩

/-- `clear_loads`, frame_loads.py 127-134. -/
def World.clear (w : World K) (id : ℕ) : World K :=
  { w with dict := w.dict.filter (fun e => decide ((w.heap[e.2]?).map Load.loadId ≠ some id)) }

/-- A factored copy of a load with the id of the combination goes to the frame,
frame_loads.py 84-86, 152-154. -/
def World.addCopy (w : World K) (id : ℕ) (t : CombType) (lead : Bool) (r : ℕ) : Except PyErr (World K) :=
  match w.heap[r]? with
  | none => .error .nameError
  | some l =>
    let (w1, r1) := w.newLoad { l.factored t lead with loadId := id }
    w1.addLoad r1

/-- The loop body of `combine_loads`, frame_loads.py 144-154. -/
def World.combineCase (w : World K) (b : Comb) (c : ℕ) : Except PyErr (World K) :=
  match w.cases[c]? with
  | none => .error .nameError
  | some k => k.loads.foldlM (fun w r => w.addCopy b.id b.type (decide (b.lead = some c)) r) w

/-- `combine_loads`, frame_loads.py 136-154, called by `add_loadcombination`, raami.py 133-137. -/
def World.combine (w : World K) (b : Comb) : Except PyErr (World K) :=
  b.cases.foldlM (fun w c => w.combineCase b c) (w.clear b.id)

/-- The load id of self weight, frame_loads.py 26. -/
def selfWeightId : ℕ := 100

/-- `FrameMember.add_self_weight`, frame_member.py 317-327. -/
def World.addMemberWeight (w : World K) (m : ℕ) : Except PyErr (World K) :=
  match w.members[m]? with
  | none => .error .keyError
  | some (v, flag) =>
    if flag then .ok w
    else
      let (w1, r) := { w with members := w.members.set m (v, true) }.newLoad ⟨.line m (-v) (-v), selfWeightId, .dead, "self-weight", 1⟩
      w1.addLoad r

/-- The loop of `add_self_weight`, raami.py 254-257. -/
def World.addWeights (w : World K) : Except PyErr (World K) :=
  (List.range w.members.length).foldlM (fun w m => w.addMemberWeight m) { w with selfWeight := true }

/-- `remove_self_weight`, raami.py 264-271 and frame_member.py 329-333: only flags change. -/
def World.removeWeights (w : World K) : World K := { w with selfWeight := false, members := w.members.map (fun e => (e.1, false)) }

/-- `add_self_weight`, raami.py 251-262: if it was there, it is removed and added again. -/
def World.addSelfWeight (w : World K) : Except PyErr (World K) :=
  if w.selfWeight then w.removeWeights.addWeights else w.addWeights

/-- The loads a FEM model gets in `generate_fem`, raami.py 303-309, in load case `id`, each with its
factor (frame_loads.py 245, 292). -/
def World.acting (w : World K) (id : ℕ) : List (Action K × K) :=
  w.dict.filterMap (fun e => (w.heap[e.2]?).bind (fun l => if l.loadId = id then some (l.act, l.f) else none))

end Metku.Raami
