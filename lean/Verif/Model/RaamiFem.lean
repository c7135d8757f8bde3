import Mathlib.Algebra.Order.Floor.Ring
import Mathlib.Algebra.Order.Field.Basic
import Verif.Model.FrameGeom

/-!
Nodes and members of a `Raami` frame, and the FEM model they generate.

Source: metku/raami/frame_node.py 15-95 (`FrameNode`), metku/raami/frame_member.py 103-178, 265-290,
335-355, 573-642, 814-823 (`FrameMember`), metku/raami/frame_supports.py 12-50 (`Support`),
metku/raami/raami.py 276-322 (`generate_fem`, `clear_fem`), metku/raami/frame_loads.py 280-388
(line loads on the elements of a member).

Simplifications: plane frames; floats are elements of an ordered field; the point at the local
coordinate `t` of a member, `start + (length * t) * (end - start) / length`, is written
`start + t * (end - start)` (the same for a member of positive length); nodes, members and finite
elements are referred to by their index; a list given for `hinges` is an object too, and
members made without it share the default object of their class (index 0).
-/
namespace Metku.Raami

variable {K : Type} [Field K] [LinearOrder K] [IsStrictOrderedRing K] [FloorRing K]

/-- `np.asarray(coordinates)`, frame_node.py 35: an array of integers if all coordinates are integers, and
an array of floats otherwise. -/
inductive Coords (K : Type)
  | ints (x y : ℤ)
  | floats (x y : K)
deriving DecidableEq, Repr

/-- Assignment of a float to an element of an array of integers: the fraction is cut off. -/
def trunc (v : K) : ℤ := if 0 ≤ v then ⌊v⌋ else ⌈v⌉

/-- `FrameNode.x`, frame_node.py 49-51. -/
def Coords.x : Coords K → K
  | .ints x _ => x
  | .floats x _ => x

/-- `FrameNode.y`, frame_node.py 67-69. -/
def Coords.y : Coords K → K
  | .ints _ y => y
  | .floats _ y => y

/-- `self.coords[0] = val`, frame_node.py 56. -/
def Coords.setX (c : Coords K) (v : K) : Coords K :=
  match c with
  | .ints _ y => .ints (trunc v) y
  | .floats _ y => .floats v y

/-- `self.coords[1] = val`, frame_node.py 74. -/
def Coords.setY (c : Coords K) (v : K) : Coords K :=
  match c with
  | .ints x _ => .ints x (trunc v)
  | .floats x _ => .floats x v

/-- The position of a node. -/
def Coords.pos (c : Coords K) : K × K := (c.x, c.y)

/-- `FrameNode`: coordinates and `fem_node`. -/
structure FNode (K : Type) where
  coords : Coords K
  femNode : Option ℕ
deriving DecidableEq, Repr

/-- `mem_type`, frame_member.py 599-619. -/
inductive MType
  | beam
  | column
  | bar
  | brace
  | topChord
  | bottomChord
  | other
deriving DecidableEq, Repr

/-- `FrameMember`, frame_member.py 103-178. `steel` tells whether `self.member` exists, as in
`SteelFrameMember` (1136). -/
structure FMember (K : Type) where
  n1 : ℕ
  n2 : ℕ
  nel : ℕ
  mtype : MType
  hinges : ℕ
  coords : List (K × K)
  femNodes : List ℕ
  femElements : List ℕ
  steel : Bool
deriving DecidableEq, Repr

/-- A finite element: its nodes, whether it is a beam (or a rod), and `releases`. -/
structure Elem where
  n1 : ℕ
  n2 : ℕ
  beam : Bool
  releases : List ℕ
deriving DecidableEq, Repr

/-- A FEM model: nodes, elements, and supports (node and dofs). -/
structure Fem (K : Type) where
  nodes : List (K × K)
  elements : List Elem
  supports : List (ℕ × List ℕ)
deriving DecidableEq, Repr

/-- A frame, with the lists of hinge flags (`hinges`) of its members. -/
structure Frame (K : Type) where
  nodes : List (FNode K)
  members : List (FMember K)
  supports : List (ℕ × List ℕ)
  hinges : List (Bool × Bool)
  fem : Fem K
deriving DecidableEq, Repr

/-- A new frame; the default list of hinges exists from the start. -/
def Frame.empty : Frame K := ⟨[], [], [], [(false, false)], ⟨[], [], []⟩⟩

/-- `add_node`, raami.py 92-103. -/
def Frame.addNode (f : Frame K) (c : Coords K) : Frame K := { f with nodes := f.nodes ++ [⟨c, none⟩] }

/-- `local_to_global`, frame_member.py 265-272. -/
def along (p q : K × K) (t : K) : K × K := (p.1 + t * (q.1 - p.1), p.2 + t * (q.2 - p.2))

/-- `calc_nodal_coordinates`, frame_member.py 340-354: points at equal distances. -/
def nodalCoords (p q : K × K) (nel : ℕ) : List (K × K) := (List.range (nel + 1)).map (fun i : ℕ => along p q ((i : K) / (nel : K)))

/-- The position of a node of the frame. -/
def Frame.posOf (f : Frame K) (i : ℕ) : Option (K × K) := (f.nodes[i]?).map (fun n => n.coords.pos)

/-- `FrameMember(nodes, section, mem_type, nel=nel, hinges=hinges)` and `frame.add`, frame_member.py 103-178,
raami.py 104-118. `hinges = none` means that the argument is left out. -/
def Frame.addMember (f : Frame K) (n1 n2 nel : ℕ) (mtype : MType) (hinges : Option (Bool × Bool)) (steel : Bool) : Except PyErr (Frame K) :=
  match f.posOf n1, f.posOf n2 with
  | some p, some q =>
    match hinges with
    | none => .ok { f with members := f.members ++ [⟨n1, n2, nel, mtype, 0, nodalCoords p q nel, [], [], steel⟩] }
    | some h => .ok { f with
        hinges := f.hinges ++ [h]
        members := f.members ++ [⟨n1, n2, nel, mtype, f.hinges.length, nodalCoords p q nel, [], [], steel⟩] }
  | _, _ => .error .nameError

/-- `add_hinge`, frame_member.py 814-823: the list itself is changed. -/
def Frame.addHinge (f : Frame K) (m loc : ℕ) : Frame K :=
  match f.members[m]? with
  | none => f
  | some mem => { f with hinges := f.hinges.modify mem.hinges (fun h => if loc = 0 then (true, h.2) else (h.1, true)) }

/-- `add_support`, raami.py 202-213. -/
def Frame.addSupport (f : Frame K) (node : ℕ) (dofs : List ℕ) : Frame K := { f with supports := f.supports ++ [(node, dofs)] }

/-- The kind of finite elements of a member, frame_member.py 599-619: `none` for types without elements
(`newElement` is then unbound). -/
def MType.beam? : MType → Option Bool
  | .beam => some true
  | .column => some true
  | .topChord => some true
  | .bottomChord => some true
  | .bar => some false
  | .brace => some false
  | .other => none

/-- The hinges of a member. -/
def Frame.hingesOf (f : Frame K) (m : FMember K) : Bool × Bool := (f.hinges[m.hinges]?).getD (false, false)

/-- Setting `releases` of the first and the last element of a member, frame_member.py 624-631. -/
def release (es : List Elem) (h : Bool × Bool) : List Elem :=
  let es1 := if h.1 then es.modify 0 (fun e => { e with releases := [2] }) else es
  if h.2 then es1.modify (es1.length - 1) (fun e => { e with releases := [5] }) else es1

/-- `generate_elements`, frame_member.py 573-631, of the member `j`. It is called when the lists of the member are
empty (`clear_fem`), so the first and the last element of the member are those made here. -/
def Frame.generateElements (f : Frame K) (j : ℕ) : Except PyErr (Frame K) :=
  match f.members[j]? with
  | none => .error .keyError
  | some m =>
    match (f.nodes[m.n1]?).bind FNode.femNode, (f.nodes[m.n2]?).bind FNode.femNode with
    | some a, some b =>
      let inner := (m.coords.drop 1).dropLast
      let nodes := m.femNodes ++ [a] ++ List.range' f.fem.nodes.length inner.length ++ [b]
      match m.mtype.beam? with
      | none => .error .unboundLocal
      | some beam =>
        let es := (nodes.zip (nodes.drop 1)).map (fun p => (⟨p.1, p.2, beam, []⟩ : Elem))
        .ok { f with
          fem := { f.fem with
            nodes := f.fem.nodes ++ inner
            elements := f.fem.elements ++ release es (f.hingesOf m) }
          members := f.members.set j { m with femNodes := nodes, femElements := m.femElements ++ List.range' f.fem.elements.length es.length } }
    | _, _ => .error .attributeError

/-- `clear_fem`, raami.py 314-320 and frame_member.py 633-636. -/
def Frame.clearFem (f : Frame K) : Frame K :=
  { f with
    fem := ⟨[], [], []⟩
    members := f.members.map (fun m : FMember K => { m with femNodes := [], femElements := [] }) }

/-- New FEM nodes at the nodes of the frame, raami.py 287-293. -/
def Frame.makeNodes (f : Frame K) : Frame K :=
  { f with
    fem := { f.fem with nodes := f.fem.nodes ++ f.nodes.map (fun n => n.coords.pos) }
    nodes := f.nodes.mapIdx (fun i n => { n with femNode := some (f.fem.nodes.length + i) }) }

/-- `add_support` of a support, frame_supports.py 43-50; a node without FEM node gives a message only. -/
def Frame.makeSupports (f : Frame K) : Frame K :=
  { f with fem := { f.fem with supports := f.fem.supports ++ f.supports.filterMap (fun s => ((f.nodes[s.1]?).bind FNode.femNode).map (fun n => (n, s.2))) } }

/-- `generate_fem` up to the loads, raami.py 276-301. -/
def Frame.generateFem (f : Frame K) : Except PyErr (Frame K) :=
  let f1 := f.clearFem.makeNodes
  match (List.range f.members.length).foldlM (fun g j => g.generateElements j) f1 with
  | .error e => .error e
  | .ok f2 => .ok f2.makeSupports

/-- `recalculate_coordinates`, frame_member.py 335-338. -/
def Frame.recalculate (f : Frame K) (m : FMember K) : FMember K :=
  match f.posOf m.n1, f.posOf m.n2 with
  | some p, some q => { m with coords := nodalCoords p q m.nel }
  | _, _ => m

/-- `node.members`: the members made with this node, frame_member.py 141-142. -/
def Frame.membersAt (f : Frame K) (i : ℕ) : List ℕ :=
  (List.range f.members.length).flatMap (fun j => match f.members[j]? with
    | none => []
    | some m => (if m.n1 = i then [j] else []) ++ (if m.n2 = i then [j] else []))

/-- The loop of the setters of `x` and `y`, frame_node.py 61-64: `mem.member.length` is set after the
coordinates; `mem.member` is `None` for a plain `FrameMember`. -/
def Frame.updateMembers (f : Frame K) (i : ℕ) : Except PyErr (Frame K) :=
  (f.membersAt i).foldlM (fun g j => match g.members[j]? with
    | none => .error .keyError
    | some m => if m.steel then .ok { g with members := g.members.set j (g.recalculate m) } else .error .attributeError) f

/-- `node.x = v`, frame_node.py 53-64. -/
def Frame.setX (f : Frame K) (i : ℕ) (v : K) : Except PyErr (Frame K) :=
  match f.nodes[i]? with
  | none => .error .nameError
  | some n =>
    Frame.updateMembers { f with
      nodes := f.nodes.set i { n with coords := n.coords.setX v }
      fem := match n.femNode with
        | none => f.fem
        | some k => { f.fem with nodes := f.fem.nodes.modify k (fun p => (v, p.2)) } } i

/-- `node.y = v`, frame_node.py 71-82. -/
def Frame.setY (f : Frame K) (i : ℕ) (v : K) : Except PyErr (Frame K) :=
  match f.nodes[i]? with
  | none => .error .nameError
  | some n =>
    Frame.updateMembers { f with
      nodes := f.nodes.set i { n with coords := n.coords.setY v }
      fem := match n.femNode with
        | none => f.fem
        | some k => { f.fem with nodes := f.fem.nodes.modify k (fun p => (p.1, v)) } } i

/-- `LineLoad.add_load`, frame_loads.py 286-299: for each element of the member its number and the values at
its ends. -/
def lineValues (fac v0 v1 : K) (elems : List ℕ) : List (ℕ × K × K) :=
  elems.mapIdx (fun (i : ℕ) e => (e, fac * (v0 + ((i : K) / (elems.length : K)) * (v1 - v0)), fac * (v0 + (((i + 1 : ℕ) : K) / (elems.length : K)) * (v1 - v0))))

/-- `PWLineLoad.add_load`, frame_loads.py 361-388: the value on an element from `x1` to `x2`, for a step at the
global `x` coordinate `xd`. `np.argmax(abs(qval))` is the first of the two if they are equal. -/
def stepValue (fac v0 v1 xd x1 x2 : K) : K :=
  if max x1 x2 ≤ xd then fac * v0
  else if xd ≤ min x1 x2 then fac * v1
  else if |fac * v1| ≤ |fac * v0| then fac * v0 else fac * v1

/-- The values of a piecewise constant load on the elements of a member from `p` to `q`, the step at the local
coordinate `t`. -/
def stepValues (fac v0 v1 : K) (p q : K × K) (nel : ℕ) (t : K) : List K :=
  (List.range nel).map (fun i : ℕ => stepValue fac v0 v1 (along p q t).1 (along p q ((i : K) / nel)).1 (along p q (((i + 1 : ℕ) : K) / nel)).1)

end Metku.Raami
