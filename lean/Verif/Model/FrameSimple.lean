import Verif.Model.FrameGeom

/-!
Model of the regular frame that `Frame2D(simple=[storeys, bays, storey_height, bay_length], supports=…)` builds: `metku/frame2d/frame2d.py` 120-160 and 598-677, and the choice between beam and column, 3464-3508.

Simplifications: those of `Verif.Model.FrameGeom`; sums of heights are exact, in the code the comparison with the height of the frame (613, 640) is one of floats.
-/
namespace Metku.Frame2D

variable {K : Type} [Field K] [LinearOrder K] [IsStrictOrderedRing K] [FloorRing K]

/-- `SteelBeam.check_mtype`, frame2d.py 3475-3486. -/
def beamType (a b : Pt K) : MType :=
  if |b.1 - a.1| = 0 then .column
  else if 8 / 10 ≤ |b.2 - a.2| / |b.1 - a.1| then .column
  else .beam

/-- `SteelColumn.check_mtype`, frame2d.py 3498-3508. -/
def columnType (a b : Pt K) : MType :=
  if |b.1 - a.1| = 0 then .column
  else if |b.2 - a.2| / |b.1 - a.1| < 8 / 10 then .beam
  else .column

/-- `SteelBeam(coords)`, frame2d.py 3464-3473, four elements; the ends are rounded before the type is chosen. -/
def steelBeam (a b : Pt K) (w : K) : Member K := Member.new a b 4 (beamType (roundPt prec a) (roundPt prec b)) none none w

/-- `SteelColumn(coords)`, frame2d.py 3489-3496. -/
def steelColumn (a b : Pt K) (w : K) : Member K := Member.new a b 4 (columnType (roundPt prec a) (roundPt prec b)) none none w

/-- The loop of `generate_columns`, frame2d.py 598-620: what is left to do, `x`, `y1`, `y2`. -/
def columnsLoop (storeys : ℕ) (h l w : K) : ℕ → K → K → K → List (Member K)
  | 0, _, _, _ => []
  | k + 1, x, y1, y2 =>
    steelColumn (x, y1) (x, y2) w ::
      (if y2 = storeys * h then columnsLoop storeys h l w k (x + l) 0 h else columnsLoop storeys h l w k x y2 (y2 + h))

/-- The loop of `generate_beams`, frame2d.py 622-645: what is left to do, `x1`, `x2`, `y`. -/
def beamsLoop (storeys : ℕ) (h l w : K) : ℕ → K → K → K → List (Member K)
  | 0, _, _, _ => []
  | k + 1, x1, x2, y =>
    steelBeam (x1, y) (x2, y) w ::
      (if y = storeys * h then beamsLoop storeys h l w k x2 (x2 + l) h else beamsLoop storeys h l w k x1 x2 (y + h))

/-- `generate_members`, frame2d.py 647-653. -/
def simpleMembers (storeys bays : ℕ) (h l w : K) (beams : Bool) : List (Member K) :=
  columnsLoop storeys h l w ((bays + 1) * storeys) 0 0 h ++ (if beams then beamsLoop storeys h l w (bays * storeys) 0 l h else [])

/-- The degrees of freedom of the support types of `generate_supports`, frame2d.py 655-677, 3738-3775. Any other text adds no support. -/
def supportDofs (s : String) : Option (List ℕ) :=
  match s.toUpper with
  | "FIXED" => some [0, 1, 2]
  | "YHINGED" => some [1]
  | "XHINGED" => some [0]
  | "XYHINGED" => some [0, 1]
  | _ => none

/-- `generate_supports`, frame2d.py 655-677: at each coordinate of the frame on the ground. -/
def Frame.groundSupports (f : Frame K) (dofs : List ℕ) : Except PyErr (Frame K) :=
  f.addAll ((f.coords.filter (fun c => c.2 = 0)).map (fun c => .support (Support.new c dofs 1)))

/-- `Frame2D.__init__`, frame2d.py 117-160, with `simple` and `supports`; `num` is `num_elements`, 0 for `None`. -/
def Frame.simple (num storeys bays : ℕ) (h l w : K) (beams : Bool) (supp : String) : Except PyErr (Frame K) := do
  let f ← ({ num := num } : Frame K).addAll ((simpleMembers storeys bays h l w beams).map .member)
  match supportDofs supp with
  | none => .ok f
  | some d => f.groundSupports d

/-- `Frame2D.L`, frame2d.py 163-173; the minimum of an empty list raises ValueError. -/
def Frame.width (f : Frame K) : Except PyErr K :=
  match f.members.map (fun m : Member K => m.start.1) ++ f.members.map (fun m : Member K => m.stop.1) with
  | [] => .error .valueError
  | x :: l => .ok (l.foldl max x - l.foldl min x)

/-- `Frame2D.H`, frame2d.py 175-185. -/
def Frame.height (f : Frame K) : Except PyErr K :=
  match f.members.map (fun m : Member K => m.start.2) ++ f.members.map (fun m : Member K => m.stop.2) with
  | [] => .error .valueError
  | x :: l => .ok (l.foldl max x - l.foldl min x)

end Metku.Frame2D
