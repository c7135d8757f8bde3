import Verif.Model.PlaneTruss
import Mathlib.Algebra.BigOperators.Group.List.Basic

/-!
Model of `PortalTruss`, metku/raami/raami_portal_truss.py 61-612: two columns and a roof truss.

Simplifications: the truss is the model of `Verif.Model.PlaneTruss`, moved to the origin `(0, height)` (raami_portal_truss.py 220; every node of `generate_topology` is counted from `self.origin`). Sections,
hinges, joints (`generate_joints` in `create_truss`, 222), eccentricity elements, member groups and the names of loads are left out: `add_lineload` gives every load a name of its own. A column is the list of its
nodes, from the base. Loads are kept as their target member, value and load id. Load types are left out.
-/
namespace Metku.Portal

open Metku Metku.Steel Metku.Rhs Metku.Truss

noncomputable section

/-! ### Geometry -/

/-- `L`, `height`, `bottom_chord_to_column`, `truss` and `columns`, raami_portal_truss.py 65-81. -/
structure Frame where
  L : ℝ
  height : ℝ
  connected : Bool
  truss : Option (Sloped × Gen)
  columns : List (List Pt)

/-- `PortalTruss(span, height_eaves)`, raami_portal_truss.py 65-81. -/
def Frame.new (L height : ℝ) : Frame := ⟨L, height, false, none, []⟩

/-- `dx1` and `dx2`: the given distance or 1500 of a simple truss, zero otherwise, raami_portal_truss.py 182-194. -/
def offset (simple : Bool) (dx : Option ℝ) : ℝ := if simple then dx.getD 1500 else 0

/-- `create_truss`, raami_portal_truss.py 179-237. -/
def createTruss (p : Frame) (top : Topology) (n : ℕ) (simple : Bool) (dx : Option ℝ) (h1 h2 slope : ℝ) (up : Bool) :
    Except PyErr Frame := do
  let T ← Sloped.new (1 / 2 * p.L) (1 / 2 * p.L) (offset simple dx) (offset simple dx) h1 h2 slope
  let g ← T.generate top n up false
  .ok { p with connected := p.connected || decide (offset simple dx = 0), truss := some (T, g) }

/-- A point of the truss in the frame: `origin = (0, height)`, raami_portal_truss.py 220. -/
def shift (p : Frame) (P : Pt) : Pt := (P.1, p.height + P.2)

/-- `nodes[0]`. -/
def first (l : List Pt) : Except PyErr Pt := match l.head? with
  | some P => .ok P
  | none => .error .indexError

/-- `nodes[-1]`. -/
def last (l : List Pt) : Except PyErr Pt := match l.getLast? with
  | some P => .ok P
  | none => .error .indexError

/-- The two columns of `create_columns` for a truss, raami_portal_truss.py 160-173. -/
def columnsOf (p : Frame) (g : Gen) : Except PyErr (List (List Pt)) :=
  if p.connected then do
    let b0 ← first g.bot
    let t0 ← first g.top
    let b1 ← last g.bot
    let t1 ← last g.top
    .ok [[(0, 0), shift p b0, shift p t0], [(p.L, 0), shift p b1, shift p t1]]
  else do
    let t0 ← first g.top
    let t1 ← last g.top
    .ok [[(0, 0), shift p t0], [(p.L, 0), shift p t1]]

/-- `create_columns`, raami_portal_truss.py 154-176. -/
def createColumns (p : Frame) : Except PyErr Frame := match p.truss with
  | none => .ok p
  | some (_, g) => do
    let cs ← columnsOf p g
    .ok { p with columns := p.columns ++ cs }

/-- `ridge_height`, raami_portal_truss.py 131-133. -/
def ridgeHeight (p : Frame) : Except PyErr ℝ := match p.truss with
  | none => .error .attributeError
  | some (T, _) => .ok (p.height + slopeHeight T.L1 T.slope)

/-! ### Weight -/

/-- `weight_detailed` for the weights of the chords and braces and of each column, raami_portal_truss.py 109-129. -/
def weightDetailed (wt wb wd : ℝ) (cols : List ℝ) : Except PyErr (ℝ × ℝ × ℝ) := match cols with
  | [] => .error .indexError
  | _ :: _ => .ok (wt, wb, wd)

/-! ### Loads -/

/-- The member that a line load acts on. -/
inductive Target
  | top (k : ℕ)
  | bottom (k : ℕ)
  | left
  | right
deriving DecidableEq

/-- A line load: its member, value and load id. -/
structure Ld where
  target : Target
  q : ℝ
  id : ℕ

/-- Chord names: `"top"`, `"bottom"` and any other. -/
inductive Chord
  | top
  | bottom
  | other
deriving DecidableEq

/-- The numbers of members of the chords and of columns, `truss.loads`, `loads`, `load_ids` and the keys of `load_cases` of the frame. -/
structure St where
  top : ℕ
  bot : ℕ
  cols : ℕ
  truss : List Ld
  frame : List Ld
  ids : List ℕ
  cases : List ℕ

/-- A frame without loads. -/
def St.fresh (top bot cols : ℕ) : St := ⟨top, bot, cols, [], [], [], []⟩

/-- A call of `generate_uniform_load` for the truss or for a column (`member == 'left'` or not). -/
inductive Req
  | truss (q : ℝ) (chord : Chord) (id : ℕ)
  | column (q : ℝ) (left : Bool) (id : ℕ)

/-- The loads of `SlopedTruss.generate_uniform_load`, raami_plane_truss.py 1082-1094. -/
def chordLoads (s : St) (q : ℝ) (c : Chord) (id : ℕ) : List Ld := match c with
  | .top => (List.range s.top).map fun k => ⟨.top k, q, id⟩
  | .bottom => (List.range s.bot).map fun k => ⟨.bottom k, q, id⟩
  | .other => []

/-- `part='truss'`, raami_portal_truss.py 575-579: the truss gets the loads; a load id that is new to the frame brings the load case of the truss, with the loads in it (`add_loadcase`, raami.py 124-140). No load
of a column is in that case, because the columns can use only ids the frame knows. -/
def trussReq (s : St) (q : ℝ) (c : Chord) (id : ℕ) : Except PyErr St :=
  if id ∈ s.ids then .ok { s with truss := s.truss ++ chordLoads s q c id }
  else if ∃ l ∈ s.truss ++ chordLoads s q c id, l.id = id then
    .ok { s with truss := s.truss ++ chordLoads s q c id, ids := s.ids ++ [id], cases := s.cases ++ [id],
                 frame := s.frame ++ (s.truss ++ chordLoads s q c id).filter fun l => l.id = id }
  else .error .keyError

/-- `part='column'`, raami_portal_truss.py 598-612, with `add_lineload`, raami.py 187-204. -/
def columnReq (s : St) (q : ℝ) (left : Bool) (id : ℕ) : Except PyErr St :=
  if s.cols ≤ (if left then 0 else 1) then .error .indexError
  else if id ∈ s.cases then
    .ok { s with frame := s.frame ++ [⟨if left then .left else .right, q, id⟩], ids := if id ∈ s.ids then s.ids else s.ids ++ [id] }
  else .error .keyError

/-- One request. -/
def step (s : St) : Req → Except PyErr St
  | .truss q c id => trussReq s q c id
  | .column q left id => columnReq s q left id

/-- Requests one after the other. -/
def run (s : St) : List Req → Except PyErr St
  | [] => .ok s
  | r :: rs => do
    let s' ← step s r
    run s' rs

/-- The line loads of the finite element model: those of the truss (raami_plane_truss.py 1491-1498), then those of the frame, raami_portal_truss.py 472-478. `add_load` appends, framefem.py 276-285. -/
def femLoads (s : St) : List Ld := s.truss ++ s.frame

end

end Metku.Portal
