import Verif.Model.PyErr
import Mathlib.Algebra.Order.Field.Basic
import Mathlib.Algebra.BigOperators.Group.List.Basic

/-!
Model of `VierendeelTruss`, metku/raami/raami_vierendeel.py 44-290, with the parts of `PlaneTruss` (raami_plane_truss.py 138-275) and `TubularYJoint` (2506-2800) it uses.

Simplifications: coordinates are numbers of an ordered field. A node is named by its place in the list of nodes of the frame, a member by the number that `add` gives it. Sections, numbers of elements and hinges are left out; a weight is any function of the member. `generate_topology` is modelled for a truss without nodes and members. The number of panels is an integer. Load cases are left out: see `Verif.Model.RaamiLoads`.
-/
namespace Metku.Vier

open Metku

variable {K : Type} [Field K] [LinearOrder K] [IsStrictOrderedRing K]

/-- The truss before its nodes are generated: `origin`, `span`, `_H`, `_npanels`, raami_vierendeel.py 46-93. -/
structure Truss (K : Type) where
  ox : K
  oy : K
  span : K
  H : K
  panels : ℤ

/-- Kinds of members. -/
inductive Kind
  | top
  | bottom
  | brace
deriving DecidableEq

/-- A member: `mem_id`, its class and its end nodes. -/
structure Mem where
  id : ℕ
  kind : Kind
  a : ℕ
  b : ℕ
deriving DecidableEq

/-- What `generate_topology` leaves: `nodes`, `top_nodes`, `bottom_nodes`, `members`. -/
structure Built (K : Type) where
  nodes : List (K × K)
  topN : List ℕ
  botN : List ℕ
  mems : List Mem

/-- `np.linspace(0, 1, num)`. -/
def linspace (num : ℕ) : List K := (List.range num).map fun i : ℕ => (i : K) / ((num : K) - 1)

/-- Points `X0 + s * (X1 - X0)`, raami_vierendeel.py 145-155. -/
def points (x0 x1 : K × K) (S : List K) : List (K × K) :=
  S.map fun s => (x0.1 + s * (x1.1 - x0.1), x0.2 + s * (x1.2 - x0.2))

/-- `PlaneTruss.add` of a member, raami_plane_truss.py 220-262. -/
def addMem (k : Kind) (ms : List Mem) (e : ℕ × ℕ) : List Mem := ms ++ [⟨ms.length, k, e.1, e.2⟩]

/-- Neighbours in a list of nodes: `[X[i], X[i+1]]` for `i in range(len(X)-1)`. -/
def steps : List ℕ → List (ℕ × ℕ)
  | a :: b :: l => (a, b) :: steps (b :: l)
  | _ => []

/-- Members of both chords and the braces, raami_vierendeel.py 166-176. -/
def members (topN botN : List ℕ) : List Mem :=
  (topN.zip botN).foldl (addMem .brace) ((steps botN).foldl (addMem .bottom) ((steps topN).foldl (addMem .top) []))

/-- `generate_topology`, raami_vierendeel.py 123-181: `span / _npanels` is computed (line 139) though not used, and `linspace` refuses a negative number of points. The nodes of the top chord are added first. -/
def generate (v : Truss K) : Except PyErr (Built K) :=
  if v.panels = 0 then .error .zeroDivision
  else if v.panels + 1 < 0 then .error .valueError
  else
    let num := (v.panels + 1).toNat
    let S := linspace num
    let bot := points (v.ox, v.oy) (v.ox + v.span, v.oy) S
    let top := points (v.ox, v.oy + v.H) (v.ox + v.span, v.oy + v.H) S
    let topN := List.range' 0 num
    let botN := List.range' num num
    .ok ⟨top ++ bot, topN, botN, members topN botN⟩

/-- Members of one kind, in the order of `top_chord`, `bottom_chord` and `braces`. -/
def Built.ofKind (m : Built K) (k : Kind) : List Mem := m.mems.filter fun e => e.kind = k

/-- Kinds of supports. -/
inductive Supp
  | xy
  | y
deriving DecidableEq

/-- First and last entry of a list. -/
def firstLast (l : List ℕ) : Except PyErr (ℕ × ℕ) :=
  match l.head?, l.getLast? with
  | some a, some b => .ok (a, b)
  | _, _ => .error .indexError

/-- `generate_supports`, raami_vierendeel.py 183-187. -/
def supports (m : Built K) : Except PyErr (List (ℕ × Supp)) := do
  let e ← firstLast m.botN
  return [(e.1, .xy), (e.2, .y)]

/-- The loop over chord members: members at the node are collected until there are two, raami_vierendeel.py 198-208. -/
def collect (x : ℕ) : List Mem → List Mem → List Mem
  | acc, [] => acc
  | acc, m :: ms =>
    if m.a = x ∨ m.b = x then
      if acc.length = 1 then acc ++ [m] else collect x (acc ++ [m]) ms
    else collect x acc ms

/-- A joint: its node, chord members and braces. -/
structure Joint where
  node : ℕ
  chords : List Mem
  braces : List Mem

/-- The joints that `generate_joints` adds to the truss: nodes with one brace, raami_vierendeel.py 189-243. -/
def jointsOf (m : Built K) : List Joint :=
  (List.range m.nodes.length).filterMap fun x =>
    let bs := (m.ofKind .brace).filter fun e => e.a = x ∨ e.b = x
    if bs.length = 1 then some ⟨x, collect x (collect x [] (m.ofKind .top)) (m.ofKind .bottom), bs⟩ else none

/-- `generate_joints`, raami_vierendeel.py 189-257. The last loop sets `joint.joint.angle`, but `joint.joint` of a `TubularYJoint` is `None` (raami_plane_truss.py 2533, 2780-2786). -/
def generateJoints (m : Built K) : Except PyErr (List Joint) :=
  if jointsOf m = [] then .ok [] else .error .attributeError

/-- The names of a chord in `generate_uniform_load` and `generate_chord_point_load`. -/
inductive Chord
  | top
  | bottom
  | other

/-- `generate_uniform_load`, raami_vierendeel.py 259-271: loaded members and the value of the load. -/
def uniformLoad (m : Built K) (q : K) : Chord → List (Mem × K)
  | .top => (m.ofKind .top).map fun e => (e, q)
  | .bottom => (m.ofKind .bottom).map fun e => (e, q)
  | .other => []

/-- `generate_chord_point_load`, raami_vierendeel.py 273-290, with `p = [p0, p1]`: loaded nodes and vertical loads. -/
def pointLoad (m : Built K) (p0 p1 : K) : Chord → Except PyErr (List (ℕ × K))
  | .top => do
    let e ← firstLast m.topN
    return (e.1, p0) :: (e.2, p0) :: (m.topN.tail.dropLast.map fun x => (x, p1))
  | .bottom => .ok (m.botN.tail.dropLast.map fun x => (x, p1))
  | .other => .ok []

/-- One step of the loop of `weight_detailed`, raami_vierendeel.py 103-111. -/
def weightStep (w : Mem → K) (s : K × K × K) (e : Mem) : K × K × K :=
  match e.kind with
  | .top => (s.1 + w e, s.2.1, s.2.2)
  | .bottom => (s.1, s.2.1 + w e, s.2.2)
  | .brace => (s.1, s.2.1, s.2.2 + w e)

/-- `weight_detailed`, raami_vierendeel.py 95-121. -/
def weightDetailed (m : Built K) (w : Mem → K) : K × K × K := m.mems.foldl (weightStep w) (0, 0, 0)

/-- `xend` inherited from `PlaneTruss`, raami_plane_truss.py 187-189, with `Hright = Hleft = height`. -/
def xend (v : Truss K) : K × K := (v.ox + v.span, v.oy + v.H - v.H)
/-- `xbottom_left`, raami_plane_truss.py 191-193, with `_dx_left = 0`. -/
def xbottomLeft (v : Truss K) : K × K := (v.ox + 0, v.oy - v.H)
/-- `xbottom_right`, raami_plane_truss.py 195-197. -/
def xbottomRight (v : Truss K) : K × K := (v.ox + v.span - 0, v.oy - v.H)

end Metku.Vier
