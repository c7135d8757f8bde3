import Mathlib.Algebra.Order.Floor.Ring
import Mathlib.Algebra.Order.Field.Basic
import Mathlib.Data.List.Sort
import Verif.Model.PyErr

/-!
Model of the geometry of `metku/frame2d/frame2d.py`: where the members of a frame get their nodes while members, supports and loads are added. Over an ordered field with floor.

Simplifications: floats are exact; a coordinate list `[x, y]` is a pair; the norm that orders the nodes is compared through its square; `to_global` multiplies by the length and by the unit vector, which divides by it, so for a member of positive length the two cancel; a member of length zero has `nan` nodes in the code and no theorem speaks about it. The list `loc`, materials, profiles and the design member are left out; trusses (lines 310-420) are not modelled. Numbers of elements are natural.
-/
namespace Metku.Frame2D

variable {K : Type} [Field K] [LinearOrder K] [IsStrictOrderedRing K] [FloorRing K]

/-- A coordinate `[x, y]`. -/
abbrev Pt (K : Type) := K × K

/-- `round(x, n)`: to the nearest multiple of `10⁻ⁿ`, ties to even. -/
def roundTo (n : ℕ) (x : K) : K :=
  let s : K := 10 ^ n
  let f := ⌊x * s⌋
  let d := x * s - f
  let k := if d < 1 / 2 then f else if 1 / 2 < d then f + 1 else if f % 2 = 0 then f else f + 1
  (k : K) / s

/-- `[round(c, n) for c in coord]`. -/
def roundPt (n : ℕ) (p : Pt K) : Pt K := (roundTo n p.1, roundTo n p.2)

/-- `PREC`, frame2d.py 41. -/
def prec : ℕ := 3

/-- Square of the distance of two points. -/
def dist2 (a b : Pt K) : K := (b.1 - a.1) ^ 2 + (b.2 - a.2) ^ 2

/-- `mtype`: the branches of `generate_elements`, frame2d.py 2199-2341. -/
inductive MType
  | beam | column | bar | other
  deriving DecidableEq

/-- The fields of `FrameMember` that concern its geometry, frame2d.py 1503-1560. -/
structure Member (K : Type) where
  /-- `coordinates[0]` -/
  start : Pt K
  /-- `coordinates[1]` -/
  stop : Pt K
  /-- `added_coordinates` -/
  added : List (Pt K) := []
  /-- `nodal_coordinates` -/
  nodal : List (Pt K) := []
  /-- `num_elements` -/
  num : ℕ
  mtype : MType
  /-- `Sj1`, `Sj2` as the setters leave them -/
  sj1 : K
  sj2 : K
  /-- `hinges` -/
  hinge1 : Bool := false
  hinge2 : Bool := false
  /-- `isinstance(cross_section, TaperedSection)` -/
  tapered : Bool := false
  /-- area times density, kg per unit length -/
  unitWeight : K
  selfWeight : Bool := false
  /-- keys of `nodes` in insertion order -/
  nodes : List ℕ := []
  /-- numbers of the FEM nodes `n1`, `n2` -/
  n1 : Option ℕ := none
  n2 : Option ℕ := none
  /-- `element_ids`, also the keys of `elements` -/
  elems : List ℕ := []
  /-- `is_generated` -/
  built : Bool := false

/-- The setters of `Sj1` and `Sj2`, frame2d.py 1992-2021, before elements exist; `None` stands for `np.inf`. -/
def clampSj : Option K → K
  | none => 10 ^ 20
  | some v => if v < 1 / 10 ^ 4 then 1 / 10 ^ 4 else if 10 ^ 20 < v then 10 ^ 20 else v

/-- `FrameMember.__init__`, frame2d.py 1503-1560: the coordinates are rounded. -/
def Member.new (start stop : Pt K) (num : ℕ) (mtype : MType) (s1 s2 : Option K) (unitWeight : K) : Member K :=
  { start := roundPt prec start, stop := roundPt prec stop, num := num, mtype := mtype, sj1 := clampSj s1, sj2 := clampSj s2, unitWeight := unitWeight }

/-- `to_global`, frame2d.py 1592-1599: start + length·loc·unit. -/
def Member.toGlobal (m : Member K) (loc : K) : Pt K :=
  (m.start.1 + loc * (m.stop.1 - m.start.1), m.start.2 + loc * (m.stop.2 - m.start.2))

/-- The locations of the loop, frame2d.py 2124-2126: `round(loc, PREC) for loc in np.linspace(0, 1, n + 1)`. -/
def locs (n : ℕ) : List K := (List.range (n + 1)).map (fun i : ℕ => roundTo prec ((i : K) / n))

/-- `nodal_coordinates.sort(key=distance from the start)`, frame2d.py 2138-2139, 2161-2162; the sort is stable. -/
def sortFrom (c : Pt K) (l : List (Pt K)) : List (Pt K) := l.insertionSort (fun a b => dist2 c a ≤ dist2 c b)

/-- `calc_nodal_coordinates`, frame2d.py 2070-2139, before the model is generated; the part that moves FEM nodes is `updateNodes`. A number of elements zero divides by zero (line 2123); the argument zero keeps the number of the member. -/
def Member.calcNodal (m : Member K) (n : ℕ) : Except PyErr (Member K) :=
  let k := if 0 < n then n else m.num
  if k = 0 then .error .zeroDivision
  else .ok { m with num := k, nodal := sortFrom m.start (m.added ++ (locs k).map m.toGlobal) }

/-- `point_intersection`, frame2d.py 2703-2733. -/
def Member.pointIntersection (m : Member K) (p : Pt K) : Except PyErr Bool :=
  if 1 / 10 ^ 8 < |m.stop.1 - m.start.1| then
    let t := (p.1 - m.start.1) / (m.stop.1 - m.start.1)
    .ok (decide (0 ≤ t ∧ t ≤ 1 ∧ |m.start.2 + t * (m.stop.2 - m.start.2) - p.2| < 1 / 10 ^ 8))
  else if m.stop.2 - m.start.2 = 0 then .error .zeroDivision
  else
    let t := (p.2 - m.start.2) / (m.stop.2 - m.start.2)
    .ok (decide (0 ≤ t ∧ t ≤ 1 ∧ |m.start.1 - p.1| < 1 / 10 ^ 8))

/-- The determinant of `line_intersection`, frame2d.py 2690. -/
def det (a b c d : Pt K) : K := (a.1 - b.1) * (c.2 - d.2) - (a.2 - b.2) * (c.1 - d.1)

/-- `line_intersection`, frame2d.py 2676-2701: the point of both lines, rounded to five decimals, or `None` when they are parallel. -/
def lineIntersection (a b c d : Pt K) : Option (Pt K) :=
  if det a b c d = 0 then none
  else
    some (roundPt 5
      (((a.1 * b.2 - a.2 * b.1) * (c.1 - d.1) - (a.1 - b.1) * (c.1 * d.2 - c.2 * d.1)) / det a b c d,
       ((a.1 * b.2 - a.2 * b.1) * (c.2 - d.2) - (a.2 - b.2) * (c.1 * d.2 - c.2 * d.1)) / det a b c d))

/-- `add_node_coord`, frame2d.py 2147-2176, without `loc`. -/
def Member.addNodeCoord (m : Member K) (p : Pt K) : Except PyErr (Member K) :=
  if p ∈ m.added then .ok m
  else do
    let on ← m.pointIntersection p
    if on then .ok { m with added := m.added ++ [p], nodal := sortFrom m.start (m.nodal ++ [p]) } else .ok m

/-- `if member.point_intersection(c): member.add_node_coord(c)`, frame2d.py 234-236, 274-277. -/
def Member.offer (m : Member K) (p : Pt K) : Except PyErr (Member K) := do
  let on ← m.pointIntersection p
  if on then m.addNodeCoord p else .ok m

/-- `Support` with its subclasses, frame2d.py 3700-3785: the coordinate is rounded by the constructor. -/
structure Support (K : Type) where
  coord : Pt K
  dofs : List ℕ
  suppId : ℕ := 1

/-- `Support.__init__`, frame2d.py 3701-3713. -/
def Support.new (c : Pt K) (dofs : List ℕ) (suppId : ℕ) : Support K := { coord := roundPt prec c, dofs := dofs, suppId := suppId }

/-- `PointLoad`, frame2d.py 3588-3621: the coordinate is kept as given. -/
structure PointLoad (K : Type) where
  coord : Pt K
  v : List K
  f : K
  loadId : ℕ
  name : String := "PointLoad"

/-- `LineLoad` on a member, frame2d.py 3624-3690; the member is its number in the frame, direction and coordinate system are left out. -/
structure LineLoad (K : Type) where
  mem : ℕ
  v0 : K
  v1 : K
  f : K
  loadId : ℕ
  name : String := "LineLoad"

/-- The fields of `Frame2D` while it is put together, frame2d.py 117-160; the dictionaries in insertion order, `supports` and `members` numbered by their position. -/
structure Frame (K : Type) where
  members : List (Member K) := []
  supports : List (Support K) := []
  pointLoads : List (String × PointLoad K) := []
  lineLoads : List (String × LineLoad K) := []
  loadIds : List ℕ := []
  /-- `num_elements`, 0 for `None` -/
  num : ℕ := 0
  /-- `nodal_coordinates` -/
  coords : List (Pt K) := []

/-- The loop of `add_member` over the members that are already there, frame2d.py 250-256: `this` and each of them get the intersection. The loop also meets `this` itself, which is parallel to itself (`lineIntersection_self`). -/
def meetAll : Member K → List (Member K) → Except PyErr (Member K × List (Member K))
  | this, [] => .ok (this, [])
  | this, m :: l =>
    match lineIntersection this.start this.stop m.start m.stop with
    | none => do
      let r ← meetAll this l
      .ok (r.1, m :: r.2)
    | some p => do
      let this' ← this.addNodeCoord p
      let m' ← m.addNodeCoord p
      let r ← meetAll this' l
      .ok (r.1, m' :: r.2)

/-- Lexicographic comparison of coordinate lists, as `list.sort` without a key uses it. -/
def lexLe (a b : Pt K) : Prop := a.1 < b.1 ∨ (a.1 = b.1 ∧ a.2 ≤ b.2)

instance : DecidableRel (lexLe : Pt K → Pt K → Prop) := fun a b => by unfold lexLe; infer_instance

/-- `add_member`, frame2d.py 238-261. The test of line 258 compares the text of a list of points with texts of points, so it always succeeds. -/
def Frame.addMember (f : Frame K) (m : Member K) : Except PyErr (Frame K) := do
  let m ← m.calcNodal f.num
  let r ← meetAll m f.members
  .ok { f with members := r.2 ++ [r.1], coords := (f.coords ++ r.1.nodal).insertionSort lexLe }

/-- `add_support`, frame2d.py 263-277. -/
def Frame.addSupport (f : Frame K) (s : Support K) : Except PyErr (Frame K) := do
  let ms ← f.members.mapM (fun m => m.offer s.coord)
  .ok { f with supports := f.supports ++ [s], members := ms }

/-- `if not (load_id in load_ids): load_ids.append(load_id)`, frame2d.py 206-207, 224-225. -/
def noteId (ids : List ℕ) (i : ℕ) : List ℕ := if i ∈ ids then ids else ids ++ [i]

/-- `d[name] = x` on a dictionary in insertion order. -/
def dictSet {α : Type} (d : List (String × α)) (k : String) (x : α) : List (String × α) :=
  if k ∈ d.map Prod.fst then d.map (fun e => if e.1 = k then (k, x) else e) else d ++ [(k, x)]

/-- The name a load gets, frame2d.py 209-210, 227-228. -/
def freshName {α : Type} (d : List (String × α)) (name : String) : String :=
  if name ∈ d.map Prod.fst then name ++ toString d.length else name

/-- `add_lineload`, frame2d.py 204-211. -/
def Frame.addLineLoad (f : Frame K) (l : LineLoad K) : Frame K :=
  { f with
    loadIds := noteId f.loadIds l.loadId
    lineLoads := dictSet f.lineLoads (freshName f.lineLoads l.name) { l with name := freshName f.lineLoads l.name } }

/-- `add_pointload`, frame2d.py 213-236. -/
def Frame.addPointLoad (f : Frame K) (l : PointLoad K) : Except PyErr (Frame K) := do
  let ms ← f.members.mapM (fun m => m.offer l.coord)
  .ok { f with
    loadIds := noteId f.loadIds l.loadId
    pointLoads := dictSet f.pointLoads (freshName f.pointLoads l.name) { l with name := freshName f.pointLoads l.name }
    members := ms }

/-- What a user may add to a frame, frame2d.py 279-307. -/
inductive Item (K : Type)
  | member (m : Member K)
  | support (s : Support K)
  | pointLoad (l : PointLoad K)
  | lineLoad (l : LineLoad K)

/-- `Frame2D.add`, frame2d.py 279-307. -/
def Frame.add (f : Frame K) : Item K → Except PyErr (Frame K)
  | .member m => f.addMember m
  | .support s => f.addSupport s
  | .pointLoad l => f.addPointLoad l
  | .lineLoad l => .ok (f.addLineLoad l)

/-- A script that adds one item after the other. -/
def Frame.addAll (f : Frame K) (l : List (Item K)) : Except PyErr (Frame K) := l.foldlM Frame.add f

end Metku.Frame2D
