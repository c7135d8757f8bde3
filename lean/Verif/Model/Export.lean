import Mathlib.Data.Real.Basic
import Mathlib.Data.List.Sort
import Verif.Model.PyErr

/-!
Model of the export of frames to Robot (`Raami.to_robot`, raami/raami.py 861-994) and Abaqus (`Raami.to_abaqus`, 996-1320, raami/exports.py,
`PlaneTruss.to_abaqus`, raami/raami_plane_truss.py 362-425), with `add_node`, `add_member`, `add_support` (96-122, 208-213).

Simplifications: a file is the list of its records, without headings, comments, widths and decimals; numbers are exact reals; node objects are positions
in a list; texts of sections that are formatted numbers are arguments; every member and support is added once.
-/
namespace Metku.Export

open Metku

/-! ## Frames -/

/-- `FrameNode` (frame_node.py 15-45): `node_id` is an empty text until the node is added to a frame. -/
structure NodeO where
  id : Option ℕ
  x : ℝ
  y : ℝ
  z : ℝ

/-- Classes of supports, frame_supports.py 13-81. -/
inductive Supp
  | fixed
  | xy
  | x
  | y
  | other (dofs : List ℕ)
  deriving DecidableEq

/-- `dofs` of the supports, frame_supports.py 53-81. -/
def Supp.dofs : Supp → List ℕ
  | .fixed => [0, 1, 2]
  | .xy => [0, 1]
  | .x => [0]
  | .y => [1]
  | .other l => l

/-- Sections by their method `robot`: `ISection` 94-96 (class and height), HEA 551-553 and HEB 627-629 (from the name), `RHS` 88-90, all others
(`SteelSection`, steel_section.py 414-416) nothing. -/
inductive Sec
  | isec (repr : List Char)
  | heab (name : List Char)
  | rhs (text : List Char)
  | other

/-- `name[:2] + name[-1] + name[2:-2]`, ISection.py 553, 629. -/
def heName (name : List Char) : Except PyErr (List Char) := match name.getLast? with
  | some c => .ok (name.take 2 ++ [c] ++ ((name.take (name.length - 2)).drop 2))
  | none => .error .indexError

/-- `cross_section.robot()`. -/
def Sec.robot : Sec → Except PyErr (Option (List Char))
  | .isec r => .ok (some r)
  | .heab n => match heName n with
    | .ok t => .ok (some t)
    | .error e => .error e
  | .rhs t => .ok (some t)
  | .other => .ok none

/-- A member: its nodes, hinges, material and section. -/
structure Mem where
  n1 : ℕ
  n2 : ℕ
  hinges : Bool × Bool
  mat : String
  sec : Sec

/-- A frame: all node objects, the nodes added to it, its members with `mem_id`, supports, and the number of dimensions. -/
structure Fr where
  store : List NodeO
  nodes : List ℕ
  members : List (ℕ × Mem)
  supports : List (ℕ × Supp)
  space : Bool

/-- What is added. -/
inductive Add
  | node (r : ℕ)
  | member (m : Mem)
  | support (r : ℕ) (s : Supp)

/-- `add`, raami.py 96-122, 208-213: the number of a node or member is the number of those before it. -/
def Fr.add (F : Fr) : Add → Fr
  | .node r => { F with store := F.store.modify r (fun o => { o with id := some F.nodes.length }), nodes := F.nodes ++ [r] }
  | .member m => { F with members := F.members ++ [(F.members.length, m)] }
  | .support r s => { F with supports := F.supports ++ [(r, s)] }

/-- An empty frame with node objects that belong to no frame. -/
def Fr.empty (objs : List (ℝ × ℝ × ℝ)) (space : Bool) : Fr :=
  { store := objs.map (fun c => ⟨none, c.1, c.2.1, c.2.2⟩), nodes := [], members := [], supports := [], space := space }

/-! ## Robot -/

/-- Directions in Robot: the plane of a plane frame is x-z. -/
inductive Dof
  | UX
  | UY
  | UZ
  | RX
  | RY
  | RZ
  deriving DecidableEq

/-- Directions that are not held, lines 937-961. -/
def freeDofs (space : Bool) : Supp → Except PyErr (List Dof)
  | .fixed => .ok []
  | .xy => .ok (if space then [.RY, .RZ, .RX] else [.RY])
  | .x => .ok (if space then [.UY, .UX, .RX, .RY, .RZ] else [.UZ, .RY])
  | .y => .ok (if space then [.UX, .UZ, .RX, .RY, .RZ] else [.UX, .RY])
  | .other _ => .error .valueError

/-- The records of the file. -/
structure RobotFile where
  counts : ℕ × ℕ
  space : Bool
  nodes : List (ℕ × ℝ × ℝ)
  elems : List (ℕ × ℕ × ℕ)
  props : List (ℕ × String × Option (List Char))
  supports : List (ℕ × List Dof)
  releases : List (ℕ × Bool × Bool)

/-- `node.node_id + 1`. -/
def number (F : Fr) (r : ℕ) : Except PyErr ℕ := match F.store[r]? with
  | some o => match o.id with
    | some k => .ok (k + 1)
    | none => .error .typeError
  | none => .error .attributeError

/-- Row of a node, lines 903-905: two coordinates in all cases. -/
def nodeRow (F : Fr) (r : ℕ) : Except PyErr (ℕ × ℝ × ℝ) := match number F r, F.store[r]? with
  | .ok k, some o => .ok (k, o.x, o.y)
  | .error e, _ => .error e
  | _, none => .error .attributeError

/-- Row of a member, lines 913-914. -/
def elemRow (F : Fr) (p : ℕ × Mem) : Except PyErr (ℕ × ℕ × ℕ) := match number F p.2.n1, number F p.2.n2 with
  | .ok a, .ok b => .ok (p.1 + 1, a, b)
  | .error e, _ => .error e
  | _, .error e => .error e

/-- Material and section of a member, lines 920-923. -/
def propRow (p : ℕ × Mem) : Except PyErr (ℕ × String × Option (List Char)) := match p.2.sec.robot with
  | .ok t => .ok (p.1 + 1, p.2.mat, t)
  | .error e => .error e

/-- Row of a support, lines 931-963. -/
def suppRow (F : Fr) (p : ℕ × Supp) : Except PyErr (ℕ × List Dof) := match number F p.1, freeDofs F.space p.2 with
  | .ok k, .ok l => .ok (k, l)
  | .error e, _ => .error e
  | _, .error e => .error e

/-- Releases of a member, frame_member.py 824-836: ends `ORIgin` and `END`. -/
def relRow (p : ℕ × Mem) : Option (ℕ × Bool × Bool) := match p.2.hinges with
  | (true, true) => some (p.1 + 1, true, true)
  | (true, false) => some (p.1 + 1, true, false)
  | (false, true) => some (p.1 + 1, false, true)
  | (false, false) => none

/-- All rows or the first error. -/
def rows {α β : Type} (f : α → Except PyErr β) : List α → Except PyErr (List β)
  | [] => .ok []
  | a :: l => match f a, rows f l with
    | .ok b, .ok r => .ok (b :: r)
    | .error e, _ => .error e
    | _, .error e => .error e

/-- `to_robot`, lines 861-994 (loads are in a comment, 974-1009 of the file). -/
def toRobot (F : Fr) : Except PyErr RobotFile := match rows (nodeRow F) F.nodes, rows (elemRow F) F.members, rows propRow F.members, rows (suppRow F) F.supports with
  | .ok ns, .ok es, .ok ps, .ok ss =>
    .ok { counts := (F.nodes.length, F.members.length), space := F.space, nodes := ns, elems := es, props := ps, supports := ss, releases := F.members.filterMap relRow }
  | .error e, _, _, _ => .error e
  | _, .error e, _, _ => .error e
  | _, _, .error e, _ => .error e
  | _, _, _, .error e => .error e

/-- Name of the file, lines 875-878: `if filename[1] != '.': filename += '.'`, then `str`. -/
def robotName (name : List Char) : Except PyErr (List Char) := match name[1]? with
  | none => .error .indexError
  | some c => .ok ((if c ≠ '.' then name ++ ['.'] else name) ++ ['s', 't', 'r'])

/-! ## Abaqus -/

/-- Lines of `write_elset` and `write_nset`, exports.py 22-26, 39-43: sixteen numbers each. -/
def chunks {α : Type} (l : List α) : List (List α) :=
  if h : l = [] then [] else l.take 16 :: chunks (l.drop 16)
termination_by l.length
decreasing_by
  have := List.length_pos_iff.2 h
  rw [List.length_drop]
  omega

/-- An element of the model: end nodes, releases, whether its section can be written (`RHS.abaqus`; `SteelSection.abaqus` takes no arguments, steel_section.py 418). -/
structure El where
  n1 : ℕ
  n2 : ℕ
  releases : List ℕ
  rhs : Bool

/-- Key of a member in `members`: a number in a frame, a text in a truss. -/
inductive Key
  | num (n : ℕ)
  | text (s : String)
  deriving DecidableEq

/-- A member: key, section can be written, its elements. -/
structure AMem where
  key : Key
  rhs : Bool
  elems : List ℕ

/-- The finite element model (`nid` is the position of a node), members, supports by the `nid` of their nodes. -/
structure Model where
  nodes : List (ℝ × ℝ)
  els : List El
  members : List AMem
  supports : List (ℕ × Supp)

/-- `AbaqusOptions`, exports.py 45-81. -/
structure Opts where
  xMonitor : ℝ
  nMonitored : ℕ
  mpc : List (ℕ × ℕ)
  ecc : List ℕ
  elsets : List (String × List ℕ)
  included : List Key

/-- Kinds of supports in the file, line 1236. -/
inductive SetName
  | fixed
  | hinged
  | ySupp
  | xSupp
  deriving DecidableEq

/-- Codes of boundary conditions, lines 1279-1287. -/
inductive Code
  | pinned
  | encastre
  | three
  | xsymm
  deriving DecidableEq

/-- The records of the input file. -/
structure AbFile where
  nodes : List (ℕ × ℝ × ℝ × ℝ)
  els : List (ℕ × ℕ × ℕ)
  memberSets : List (Key × List (List ℕ))
  otherSets : List (String × List (List ℕ))
  sections : List (Key ⊕ String)
  s1 : List (List ℕ)
  s2 : List (List ℕ)
  symm : List (List ℕ)
  monitored : List ℕ
  suppSets : List (SetName × List ℕ)
  boundary : List (SetName × Code)

/-- Whether a member is written, lines 1032, 1055, 1119. -/
def Opts.has (o : Opts) (m : AMem) : Bool := decide (0 < o.included.length) && decide (m.key ∈ o.included)

/-- Section of a member, lines 1053-1068: the name of the file joins texts with the key. -/
def secMember (m : AMem) : Except PyErr (Key ⊕ String) := match m.key with
  | .num _ => .error .typeError
  | .text _ => if m.rhs then .ok (.inl m.key) else .error .typeError

/-- Section of a set of elements, lines 1070-1082: that of the first element. -/
def secSet (els : List El) (s : String × List ℕ) : Except PyErr (Key ⊕ String) := match s.2.head? with
  | none => .error .indexError
  | some i => match els[i]? with
    | some e => if e.rhs then .ok (.inr s.1) else .error .typeError
    | none => .error .valueError

/-- Rows of nodes, lines 1100-1101: metres, the plane is x-z. -/
noncomputable def nodeRows (M : Model) : List (ℕ × ℝ × ℝ × ℝ) := M.nodes.zipIdx.map (fun p => (p.2 + 1, p.1.1 / 1000, 0, p.1.2 / 1000))

/-- Rows of elements, lines 1106-1109. -/
def elRows (M : Model) (o : Opts) : List (ℕ × ℕ × ℕ) :=
  (M.els.zipIdx.filter (fun p => decide (p.2 ∉ o.ecc))).map (fun p => (p.2 + 1, p.1.n1 + 1, p.1.n2 + 1))

/-- Set of a member, lines 1122-1151: all numbers in one line. -/
def memberSet (m : AMem) : Except PyErr (Key × List (List ℕ)) :=
  if m.elems.length > 1 then .ok (m.key, [m.elems.map (· + 1)])
  else match m.elems with
    | i :: _ => .ok (m.key, [[i + 1]])
    | [] => .error .indexError

/-- Released elements of a member, lines 1126-1144: first end, second end. -/
def relSets (els : List El) (st : List ℕ × List ℕ) (m : AMem) : List ℕ × List ℕ :=
  if m.elems.length > 1 then
    m.elems.foldl (fun st i => match els[i]? with
      | some e => if 2 ∈ e.releases then (st.1 ++ [i + 1], st.2) else if 5 ∈ e.releases then (st.1, st.2 ++ [i + 1]) else st
      | none => st) st
  else st

/-- `y_symm_nodes.remove(mpc[0])` for all constraints, lines 1207-1213. -/
def symmNodes : List (ℕ × ℕ) → List ℕ → Except PyErr (List ℕ)
  | [], l => .ok l
  | p :: r, l => if p.1 ∈ l then symmNodes r (l.erase p.1) else .error .valueError

/-- Insertion of a node by its distance from the monitored position. -/
noncomputable def insDist (d : ℕ → ℝ) (a : ℕ) : List ℕ → List ℕ
  | [] => [a]
  | b :: l => if d a ≤ d b then a :: b :: l else b :: insDist d a l

/-- `np.argsort` of the distances. -/
noncomputable def argsort (d : ℕ → ℝ) (n : ℕ) : List ℕ := (List.range n).foldr (insDist d) []

/-- Distance of node `i` from the monitored position. -/
noncomputable def monDist (M : Model) (x : ℝ) (i : ℕ) : ℝ := match M.nodes[i]? with
  | some p => |p.1 - x|
  | none => 0

/-- Monitored nodes, lines 1225-1228: the positions are written as they are. -/
noncomputable def monitored (M : Model) (o : Opts) : List ℕ := (argsort (monDist M o.xMonitor) M.nodes.length).take o.nMonitored

/-- The set of a support, lines 1237-1245. -/
def suppSet : Supp → Option SetName
  | .xy => some .hinged
  | .y => some .ySupp
  | .x => some .xSupp
  | .fixed => some .fixed
  | .other _ => none

/-- Numbers of the nodes of one kind of support, lines 1249-1258. -/
def suppNodes (M : Model) (k : SetName) : List ℕ := (M.supports.filter (fun p => decide (suppSet p.2 = some k))).map (fun p => p.1 + 1)

/-- Code of a kind of support, lines 1279-1287. -/
def code : SetName → Code
  | .hinged => .pinned
  | .fixed => .encastre
  | .ySupp => .three
  | .xSupp => .xsymm

/-- Kinds of supports that occur, in the order of the dictionary. -/
def kinds (M : Model) : List SetName := [SetName.fixed, .hinged, .ySupp, .xSupp].filter (fun k => decide (0 < (suppNodes M k).length))

/-- `to_abaqus`, lines 996-1320. -/
noncomputable def toAbaqus (M : Model) (o : Opts) : Except PyErr AbFile :=
  let inc := M.members.filter o.has
  match rows secMember inc, rows (secSet M.els) o.elsets, rows memberSet inc, symmNodes o.mpc ((List.range M.nodes.length).map (· + 1)) with
  | .ok sm, .ok ss, .ok ms, .ok sy =>
    let rel := inc.foldl (relSets M.els) ([], [])
    .ok { nodes := nodeRows M, els := elRows M o, memberSets := ms, otherSets := o.elsets.map (fun s => (s.1, chunks (s.2.map (· + 1)))),
          sections := sm ++ ss, s1 := chunks rel.1, s2 := chunks rel.2, symm := chunks sy, monitored := monitored M o,
          suppSets := (kinds M).map (fun k => (k, suppNodes M k)), boundary := (kinds M).map (fun k => (k, code k)) }
  | .error e, _, _, _ => .error e
  | _, .error e, _, _ => .error e
  | _, _, .error e, _ => .error e
  | _, _, _, .error e => .error e

/-- `PlaneTruss.to_abaqus`, raami_plane_truss.py 362-425: the constraints of the joints are appended to the options, which by default are one object for
all calls; the result has the options after the call. -/
noncomputable def trussAbaqus (M : Model) (sets : List (String × List ℕ)) (braces : List Key) (mpcs : List (ℕ × ℕ)) (ecc : List ℕ) (o : Opts) : Opts × Except PyErr AbFile :=
  let o' := { o with elsets := sets, included := o.included ++ braces, mpc := o.mpc ++ mpcs, ecc := o.ecc ++ ecc }
  (o', toAbaqus M o')

end Metku.Export
