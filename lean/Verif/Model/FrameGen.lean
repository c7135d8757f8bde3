import Verif.Model.FrameGeom

/-!
Model of `Frame2D.generate` (`metku/frame2d/frame2d.py` 679-740) and of the methods it calls: the FEM nodes, elements, supports, loads and load cases that a frame hands to the solver, and what happens when it runs again.

Simplifications: those of `Verif.Model.FrameGeom`; items are added before the first generation; a FEM node is its number, `coords` are the entries of `nodal_coords` and `place` the current `coord` of the nodes; materials, sections, parents of nodes, the list `nodes` of the frame, trusses and eccentricity elements are left out (without a truss `ecc_coordinates` is empty); `np.inf` as stiffness of an element end is `none`; load identifiers are natural numbers, `LoadIDs.ULS` is 0 (line 32).
-/
namespace Metku.Frame2D

variable {K : Type} [Field K] [LinearOrder K] [IsStrictOrderedRing K] [FloorRing K]

/-- The classes of elements `EBBeam`, `Rod` and `EBSemiRigidBeam` with its two rotational stiffnesses. -/
inductive ElemKind (K : Type)
  | beam
  | rod
  | semi (k1 k2 : Option K)

/-- An element of the FEM model with its released degrees of freedom. -/
structure Elem (K : Type) where
  n1 : ℕ
  n2 : ℕ
  kind : ElemKind K
  release : List ℕ := []

/-- The parts of `FrameFEM` that `generate` writes. -/
structure Fem (K : Type) where
  coords : List (Pt K) := []
  place : List (Pt K) := []
  elems : List (Elem K) := []
  /-- support number, node, degrees of freedom -/
  supports : List (ℕ × ℕ × List ℕ) := []
  /-- load number, node, vector, factor -/
  pointLoads : List (ℕ × ℕ × List K × K) := []
  /-- load number, element, values at its ends -/
  lineLoads : List (ℕ × ℕ × K × K) := []
  /-- keys of `loadcases`; `add_loadcase` is called with support number 1 -/
  cases : List ℕ := []

/-- `FrameFEM.add_node`, framefem.py 158-188, in the plane. -/
def Fem.addNode (g : Fem K) (p : Pt K) : Fem K := { g with coords := g.coords ++ [p], place := g.place ++ [p] }

/-- The number of the FEM node of a coordinate, made if there is none, frame2d.py 2183-2194. -/
def Fem.nodeAt (g : Fem K) (p : Pt K) : ℕ × Fem K :=
  if p ∈ g.coords then (g.coords.idxOf p, g) else (g.coords.length, g.addNode p)

/-- `nodes[idx] = …` on a dictionary in insertion order. -/
def noteNode (l : List ℕ) (i : ℕ) : List ℕ := if i ∈ l then l else l ++ [i]

/-- The loop of `add_nodes`, frame2d.py 2182-2196: nodes of the member, last number, FEM model. -/
def addNodesLoop : List (Pt K) → List ℕ → Option ℕ → Fem K → List ℕ × Option ℕ × Fem K
  | [], ns, idx, g => (ns, idx, g)
  | p :: l, ns, _, g => addNodesLoop l (noteNode ns (g.nodeAt p).1) (some (g.nodeAt p).1) (g.nodeAt p).2

/-- The last node, frame2d.py 2196-2197: `if not self.n2 and idx` also skips the number zero. -/
def lastNode : Option ℕ → Option ℕ
  | some 0 => none
  | o => o

/-- `add_nodes`, frame2d.py 2178-2197, for a member that has no nodes yet. -/
def Member.addNodes (m : Member K) (g : Fem K) : Member K × Fem K :=
  let r := addNodesLoop m.nodal m.nodes none g
  ({ m with nodes := r.1, n1 := r.1.head?, n2 := lastNode r.2.1 }, r.2.2)

/-- The element between the nodes number `i` and `i + 1` of a member with `n` nodes, frame2d.py 2209-2341 except bars. -/
def Member.elemKind (m : Member K) (n i : ℕ) : ElemKind K :=
  match m.mtype with
  | .beam =>
    if n = 2 then (if m.tapered then .semi none (some m.sj2) else .semi (some m.sj1) (some m.sj2))
    else if i = 0 then .semi (some m.sj1) none
    else if i = n - 2 then .semi none (some m.sj2)
    else .beam
  | _ => .beam

/-- The releases of an element, frame2d.py 2330-2338: only members that are neither column, bar nor beam; the second assignment replaces the first. -/
def Member.releases (m : Member K) (n i : ℕ) : List ℕ :=
  match m.mtype with
  | .other => if i = n - 2 ∧ m.hinge2 then [5] else if i = 0 ∧ m.hinge1 then [2] else []
  | _ => []

/-- Consecutive pairs of node numbers, with their position. -/
def pairs : ℕ → List ℕ → List (ℕ × ℕ × ℕ)
  | i, a :: b :: l => (i, a, b) :: pairs (i + 1) (b :: l)
  | _, _ => []

/-- `generate_elements`, frame2d.py 2199-2341. A bar gets one element between its first two nodes; `small_elements` of a tapered section has `num_elements` entries (timber_section.py 256-266). -/
def Member.generateElements (m : Member K) (g : Fem K) : Except PyErr (Member K × Fem K) :=
  match m.mtype with
  | .bar =>
    match m.nodes with
    | a :: b :: _ => .ok ({ m with elems := m.elems ++ [g.elems.length] }, { g with elems := g.elems ++ [{ n1 := a, n2 := b, kind := .rod }] })
    | _ => .error .indexError
  | _ =>
    let ps := pairs 0 m.nodes
    if m.tapered ∧ m.num < ps.length then .error .indexError
    else .ok
      ({ m with elems := m.elems ++ (List.range ps.length).map (fun i => g.elems.length + i) },
       { g with elems := g.elems ++ ps.map (fun t => { n1 := t.2.1, n2 := t.2.2, kind := m.elemKind m.nodes.length t.1, release := m.releases m.nodes.length t.1 }) })

/-- The getter of `coordinates`, frame2d.py 1719-1724: once both end nodes are known, their places. -/
def Member.refresh (m : Member K) (g : Fem K) : Member K :=
  match m.n1, m.n2 with
  | some a, some b => { m with start := g.place.getD a m.start, stop := g.place.getD b m.stop }
  | _, _ => m

/-- The last lines of `calc_nodal_coordinates`, frame2d.py 2141-2143: the nodes of a generated member move to the coordinates of the same position in the list. -/
def moveNodes : List ℕ → List (Pt K) → List (Pt K) → Except PyErr (List (Pt K))
  | [], _, place => .ok place
  | _ :: _, [], _ => .error .indexError
  | n :: ns, p :: ps, place => moveNodes ns ps (place.set n p)

/-- `calc_nodal_coordinates` on a member of a frame, frame2d.py 2070-2143. -/
def Member.recalc (m : Member K) (g : Fem K) : Except PyErr (Member K × Fem K) := do
  let m ← (m.refresh g).calcNodal 0
  if m.built then
    let pl ← moveNodes m.nodes m.nodal g.place
    .ok (m, { g with place := pl })
  else .ok (m, g)

/-- The first loop of `Frame2D.generate` for one member, frame2d.py 686-689, with `FrameMember.generate`, 2057-2068, and `round_coordinates`, 2968-2974. -/
def Member.generate (m : Member K) (g : Fem K) : Except PyErr (Member K × Fem K) := do
  let r ← m.recalc g
  let m := { r.1 with nodal := r.1.nodal.map (roundPt prec) }
  if m.built then .ok (m, r.2)
  else
    let q := m.addNodes r.2
    let e ← q.1.generateElements q.2
    .ok ({ e.1 with built := true }, e.2)

/-- The loop over the members. -/
def generateMembers : List (Member K) → Fem K → Except PyErr (List (Member K) × Fem K)
  | [], g => .ok ([], g)
  | m :: l, g => do
    let r ← m.generate g
    let q ← generateMembers l r.2
    .ok (r.1 :: q.1, q.2)

/-- `Support.add_support`, frame2d.py 3727-3735: a coordinate without a node is passed over. -/
def Fem.addSupport (g : Fem K) (s : Support K) : Fem K :=
  if s.coord ∈ g.coords then { g with supports := g.supports ++ [(s.suppId, g.coords.idxOf s.coord, s.dofs)] } else g

/-- `PointLoad.add_load`, frame2d.py 3613-3621: a coordinate without a node is passed over. -/
def Fem.addPointLoad (g : Fem K) (l : PointLoad K) : Fem K :=
  if l.coord ∈ g.coords then { g with pointLoads := g.pointLoads ++ [(l.loadId, g.coords.idxOf l.coord, l.v, l.f)] } else g

/-- `np.linspace(v0, v1, n + 1)[i]`, frame2d.py 3676. -/
def linspaceAt (v0 v1 : K) (n i : ℕ) : K := v0 + (i : K) * ((v1 - v0) / n)

/-- `LineLoad.add_load`, frame2d.py 3671-3690: the factor `f` is not used. -/
def Fem.addLineLoad (g : Fem K) (l : LineLoad K) (elems : List ℕ) : Fem K :=
  { g with
    lineLoads := g.lineLoads ++ (List.range elems.length).map (fun i =>
      (l.loadId, elems.getD i 0, linspaceAt l.v0 l.v1 elems.length i, linspaceAt l.v0 l.v1 elems.length (i + 1))) }

/-- `if load_id not in lcase_ids: add_loadcase(1, load_id)`, frame2d.py 716-720, 732-736. -/
def Fem.noteCase (g : Fem K) (i : ℕ) : Fem K := if i ∈ g.cases then g else { g with cases := g.cases ++ [i] }

/-- One round of the loop over point loads, frame2d.py 713-720. -/
def pointStep (g : Fem K) (e : String × PointLoad K) : Fem K := (g.addPointLoad e.2).noteCase e.2.loadId

/-- One round of the last loop of `generate`, frame2d.py 726-736; `lineload_elements`, 2953-2966, looks the rounded ends of the member up in its nodal coordinates. A load on something that is no member of the frame raises AttributeError. -/
def lineLoadStep (ms : List (Member K)) (g : Fem K) (l : LineLoad K) : Except PyErr (Fem K) :=
  match ms[l.mem]? with
  | none => .error .attributeError
  | some m =>
    let m' := m.refresh g
    if roundPt prec m'.start ∈ m.nodal ∧ roundPt prec m'.stop ∈ m.nodal then .ok ((g.addLineLoad l m.elems).noteCase l.loadId)
    else .error .valueError

/-- `FrameMember.add_self_weight`, frame2d.py 2479-2488: ten times the weight per length, as a line load of the ultimate limit state. -/
def selfWeightLoads : ℕ → List (Member K) → List (LineLoad K)
  | _, [] => []
  | i, m :: l => (if m.selfWeight then [] else [{ mem := i, v0 := -10 * m.unitWeight, v1 := -10 * m.unitWeight, f := 1, loadId := 0 }]) ++ selfWeightLoads (i + 1) l

/-- `Frame2D.add_self_weight`, frame2d.py 1380-1391; a second call looks up a key that nothing ever stores (line 1397). -/
def Frame.addSelfWeight (f : Frame K) (done : Bool) : Except PyErr (Frame K) :=
  if done then .error .keyError
  else
    let f' := (selfWeightLoads 0 f.members).foldl Frame.addLineLoad f
    .ok { f' with members := f'.members.map (fun m => { m with selfWeight := true }) }

/-- `Frame2D.generate`, frame2d.py 679-740, on a frame that has not been generated. -/
def Frame.generate (f : Frame K) (selfWeight : Bool) : Except PyErr (Frame K × Fem K) := do
  let r ← generateMembers f.members {}
  let f := { f with members := r.1 }
  let g := f.supports.foldl Fem.addSupport r.2
  let g := f.pointLoads.foldl pointStep g
  let f ← if selfWeight then f.addSelfWeight false else .ok f
  let g ← (f.lineLoads.map Prod.snd).foldlM (lineLoadStep f.members) g
  .ok (f, g)

/-- `update_model`, frame2d.py 486-495, without trusses; also what the first loop of a second `generate` does to the nodes. -/
def updateModel : List (Member K) → Fem K → Except PyErr (List (Member K) × Fem K)
  | [], g => .ok ([], g)
  | m :: l, g => do
    let r ← m.recalc g
    let q ← updateModel l r.2
    .ok (r.1 :: q.1, q.2)

/-- The first loop of a second `generate`, frame2d.py 686-689: as `updateModel`, and the lists are rounded. -/
def regenerateMembers (ms : List (Member K)) (g : Fem K) : Except PyErr (List (Member K) × Fem K) := do
  let r ← updateModel ms g
  .ok (r.1.map (fun m : Member K => { m with nodal := m.nodal.map (roundPt prec) }), r.2)

/-- `Support.coordinate`, frame2d.py 3715-3719, after `add_support` has found the node. -/
def Support.follow (g : Fem K) (s : Support K) : Support K :=
  if s.coord ∈ g.coords then { s with coord := g.place.getD (g.coords.idxOf s.coord) s.coord } else s

/-- A second call of `Frame2D.generate` without self weight, frame2d.py 679-740. A point load that has found its node (3613-3621) now has an array as coordinate, and `array in list` of more than zero lists raises ValueError; the nodes added to the lists of the frame are left out. -/
def Frame.generateAgain (f : Frame K) (g : Fem K) : Except PyErr (Frame K × Fem K) := do
  let r ← regenerateMembers f.members g
  let g' := (f.supports.map (Support.follow r.2)).foldl Fem.addSupport r.2
  if ∃ e ∈ f.pointLoads, e.2.coord ∈ g.coords then .error .valueError
  else
    let h ← (f.lineLoads.map Prod.snd).foldlM (lineLoadStep r.1) g'
    .ok ({ f with members := r.1 }, h)

end Metku.Frame2D
