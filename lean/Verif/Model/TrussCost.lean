import Verif.Model.JointCost
import Verif.Model.RhsJoint

/-!
Costs of roof trusses: `PlaneTruss.cost` (metku/raami/raami_plane_truss.py 275-330), the costs of chords (1771-1783, 1957-1970), braces (2122-2160) and welded joints (2681-2730), `SteelFrameMember` (metku/raami/frame_member.py
1145-1156), `SteelMember.cost` (metku/structures/steel/steel_member.py 392-400), `SteelSection.cost` (metku/sections/steel/steel_section.py 141-143, 422-425) and `full_strength_weld_tube` (en1993_1_8.py 2251-2260).

Simplifications: those of `Model/Workshop`; members are rectangular hollow sections with the attributes used here, the angle of a brace at a joint is given, in degrees. The dictionaries of costs are lists of keys and values,
the dictionary of the truss a function. Printing is left out; an exception leaves no new state.
-/
namespace Metku.Shop

open Metku.Steel Metku.Rhs

noncomputable section

/-- The steels of `steels` (steel_data.py 16-33) that appear in one of the tables below, and one for the others. -/
inductive TubeGrade
  | S235 | S275 | S355 | S420 | S460M | S460Q | S500 | S700 | other

/-- The name of the material as a key of `sawing_parameters`, raami_plane_truss.py 2149, workshop.py 153-159. -/
def TubeGrade.saw : TubeGrade → SawGrade
  | .S235 => .S235
  | .S355 => .S355
  | .S420 => .S420
  | .S500 => .S500
  | .S700 => .S700
  | _ => .other

/-- `correlation_coefficient[mat.name]`, en1993_1_8.py 78-82: `S460` is not the name of a material. -/
def TubeGrade.corr : TubeGrade → Except PyErr ℝ
  | .S235 => .ok (8 / 10)
  | .S275 => .ok (85 / 100)
  | .S355 => .ok (9 / 10)
  | .S420 => .ok 1
  | _ => .error .keyError

/-- `fy` and `fu`, steel_data.py 16-33; only those of the grades with a correlation coefficient are used. -/
def TubeGrade.fy : TubeGrade → ℝ
  | .S235 => 235
  | .S275 => 275
  | .S355 => 355
  | .S420 => 420
  | .S460M => 460
  | .S460Q => 460
  | .S500 => 500
  | .S700 => 700
  | .other => 220
def TubeGrade.fu : TubeGrade → ℝ
  | .S235 => 360
  | .S275 => 430
  | .S355 => 510
  | .S420 => 500
  | .S460M => 540
  | .S460Q => 570
  | .S500 => 550
  | .S700 => 750
  | .other => 300

/-- A truss member: dimensions, outer radius, area and circumference of its section, steel, price per kilogram, its length and the length stored in its `SteelMember`. -/
structure TubeMem where
  H : ℝ
  B : ℝ
  T : ℝ
  R : ℝ
  A : ℝ
  Au : ℝ
  grade : TubeGrade
  price : ℝ
  L : ℝ
  Lm : ℝ

/-- Keys of the dictionaries of costs. -/
inductive Kind
  | material | blasting | painting | welding | sawing
  deriving DecidableEq

/-- `material_cost`: the weight per length times the price of a kilogram times the stored length. -/
def TubeMem.material (m : TubeMem) : ℝ := m.A * (7850 / 10 ^ 9) * m.price * m.Lm

/-- `sawing_cost` of a brace, raami_plane_truss.py 2145-2160: the arguments of the cost centre. -/
def TubeMem.sawJob (m : TubeMem) : Job := .saw m.L 0 m.grade.saw [⟨m.T, m.B, 2 * m.H * m.T, m.A⟩, ⟨m.T, m.B, 2 * m.H * m.T, m.A⟩]

/-- `cost` of a chord member, raami_plane_truss.py 1771-1783, 1957-1970. -/
def TubeMem.chordCost (m : TubeMem) (w : Workshop) : Except PyErr (Workshop × List (Kind × ℝ)) := do
  let (w, b) ← runJob w (.blast m.L)
  let (w, p) ← runJob w (.paint (m.L * m.Au))
  .ok (w, [(.material, m.material), (.blasting, b), (.painting, p)])

/-- `cost` of a brace, raami_plane_truss.py 2122-2143. -/
def TubeMem.braceCost (m : TubeMem) (w : Workshop) : Except PyErr (Workshop × List (Kind × ℝ)) := do
  let (w, b) ← runJob w (.blast m.L)
  let (w, p) ← runJob w (.paint (m.L * m.Au))
  let (w, s) ← runJob w m.sawJob
  .ok (w, [(.material, m.material), (.blasting, b), (.painting, p), (.sawing, s)])

/-- `weld_size`: `full_strength_weld_tube` times the wall thickness, raami_plane_truss.py 2681-2684, en1993_1_8.py 2251-2260. -/
def TubeMem.weldSize (m : TubeMem) : Except PyErr ℝ := do
  let b ← m.grade.corr
  .ok (2 * b / √2 * (125 / 100) / 1 * m.grade.fy / m.grade.fu * m.T)

/-- `weld_length`, raami_plane_truss.py 2721-2724. -/
def TubeMem.weldLength (m : TubeMem) (angle : ℝ) : ℝ := 2 * (m.H / Real.sin (rad angle) + m.B) - 8 * m.R + 2 * Real.pi * m.R

/-- `cost` of a joint, raami_plane_truss.py 2716-2730: its braces with their angles. -/
def weldCosts : List (TubeMem × ℝ) → Workshop × ℝ → Except PyErr (Workshop × ℝ)
  | [], s => .ok s
  | (m, a) :: r, (w, c) => do
    let size ← m.weldSize
    let (w, d) ← runJob w (.weld size (m.weldLength a) .fillet)
    weldCosts r (w, c + d)

/-- `costs[key] += value` for the items of a dictionary. -/
def addItems (f : Kind → ℝ) (l : List (Kind × ℝ)) : Kind → ℝ := l.foldl (fun f p k => if k = p.1 then f k + p.2 else f k) f

/-- A loop over members, raami_plane_truss.py 285-305: workshop, sum and dictionary. -/
def memLoop (cost : TubeMem → Workshop → Except PyErr (Workshop × List (Kind × ℝ))) : List TubeMem → Workshop × ℝ × (Kind → ℝ) → Except PyErr (Workshop × ℝ × (Kind → ℝ))
  | [], s => .ok s
  | m :: r, (w, c, f) => do
    let (w, l) ← cost m w
    memLoop cost r (w, c + (l.map Prod.snd).sum, addItems f l)

/-- The loop over joints, raami_plane_truss.py 307-311. -/
def jointLoop : List (List (TubeMem × ℝ)) → Workshop × ℝ × (Kind → ℝ) → Except PyErr (Workshop × ℝ × (Kind → ℝ))
  | [], s => .ok s
  | j :: r, (w, c, f) => do
    let (w, d) ← weldCosts j (w, 0)
    jointLoop r (w, c + d, addItems f [(.welding, d)])

/-- Members and joints of a truss. -/
structure CTruss where
  braces : List TubeMem
  top : List TubeMem
  bottom : List TubeMem
  joints : List (List (TubeMem × ℝ))

/-- `PlaneTruss.cost`, raami_plane_truss.py 275-330: the workshop afterwards, the returned total and the attribute `costs`. -/
def CTruss.cost (t : CTruss) (w : Workshop) : Except PyErr (Workshop × ℝ × (Kind → ℝ)) := do
  let (w, cb, f) ← memLoop TubeMem.braceCost t.braces (w, 0, fun _ => 0)
  let (w, ct, f) ← memLoop TubeMem.chordCost t.top (w, 0, f)
  let (w, cc, f) ← memLoop TubeMem.chordCost t.bottom (w, 0, f)
  let (w, cj, f) ← jointLoop t.joints (w, 0, f)
  .ok (w, cb + ct + cc + cj, f)

/-- `weight` of a member, frame_member.py 234-240. -/
def TubeMem.weight (m : TubeMem) : ℝ := m.A * m.L * (7850 / 10 ^ 9)

/-- The classes of truss members. -/
inductive TrussPart
  | top | bottom | brace
  deriving DecidableEq

/-- One step of the loop of `weight_detailed`, raami_plane_truss.py 533-541. -/
def addWeight (s : ℝ × ℝ × ℝ) : TrussPart × TubeMem → ℝ × ℝ × ℝ
  | (.top, m) => (s.1 + m.weight, s.2.1, s.2.2)
  | (.bottom, m) => (s.1, s.2.1 + m.weight, s.2.2)
  | (.brace, m) => (s.1, s.2.1, s.2.2 + m.weight)

/-- `weight_detailed`, raami_plane_truss.py 525-552: weights of top chord, bottom chord and braces; the argument are all members in the order in which they were added, with their classes. -/
def weightDetailed (l : List (TrussPart × TubeMem)) : ℝ × ℝ × ℝ := l.foldl addWeight (0, 0, 0)

end

end Metku.Shop
