import Mathlib.Analysis.SpecialFunctions.Pow.Real
import Verif.Model.SteelMember

/-!
Model of the joints between hollow sections, `metku/eurocodes/en1993/en1993_1_8/rhs_joints.py`, function by function, over the reals.

Simplifications: floats are exact; chord and braces are rectangular hollow sections (`tube`); a member is its profile and the list of the axial forces of its sections
(steel_member.py 78-81, 180-187); printing, drawing and `info` are left out, `validity` only prints and returns `None` (518-562, 887-918); the divisions by sines and by
dimensions are total and the theorems assume angles strictly between 0 and 180 degrees and positive dimensions; `chord_web_plate` is never read. The class for KT joints (737-751) has no methods.
-/
namespace Metku.Rhs

open Real Steel Ec3

noncomputable section

/-- `math.radians`. -/
def rad (a : ℝ) : ℝ := a * π / 180

/-- A hollow section with the attributes the joints read: outer dimensions and the profile data. -/
structure Tube where
  H : ℝ
  B : ℝ
  T : ℝ
  P : Profile

/-- `RHS(H, B, T, fy)`, RHS.py 27-68. -/
def tube (H B T fy : ℝ) : Tube := { H := H, B := B, T := T, P := rhsProfile H B T fy }

/-- `gammaM5`, constants.py 32. -/
def gammaM5 : ℝ := 1

/-- `RHSJoint`, rhs_joints.py 125-150. -/
structure Joint where
  chord : Tube
  N0 : ℝ
  V0 : ℝ
  M0 : ℝ
  r : ℝ

/-- `gamma`, rhs_joints.py 173-174. -/
def Joint.gamma (j : Joint) : ℝ := 1 / 2 * j.chord.B / j.chord.T

/-- `chord_stress`, rhs_joints.py 222-231. -/
def Joint.chordStress (j : Joint) : ℝ := -j.N0 / j.chord.P.sec.A + j.M0 / j.chord.P.sec.Wel.1

/-- `eval_N`, rhs_joints.py 214-219. -/
def Joint.evalN (j : Joint) : ℝ := j.chordStress / j.chord.P.fy / gammaM5

/-- `eval_KN`, rhs_joints.py 184-193, with the value of `beta()` passed. -/
def Joint.evalKN (j : Joint) (b : ℝ) : ℝ := if j.evalN > 0 then min (13 / 10 - 4 / 10 * j.evalN / b) 1 else 1

/-- `strength_reduction`, rhs_joints.py 195-212. -/
def Joint.reduction (j : Joint) : ℝ :=
  if j.r = 0 then (if j.chord.P.fy ≤ 355 then 1 else if j.chord.P.fy ≤ 460 then 9 / 10 else 8 / 10) else j.r

/-- A brace: profile and axial forces of its sections. -/
structure Brace where
  sec : Tube
  ned : List ℝ

/-- `RHSKGapJoint`, rhs_joints.py 289-307; `tp` is the thickness in `chord_face_plate`. -/
structure KGap extends Joint where
  braces : Fin 2 → Brace
  angles : Fin 2 → ℝ
  gap : ℝ
  tp : ℝ

namespace KGap

/-- `NEd`, rhs_joints.py 309-312. -/
def NEd (j : KGap) : Except PyErr (Fin 2 → ℝ) := do
  let a ← maxAbs (j.braces 0).ned
  let b ← maxAbs (j.braces 1).ned
  pure ![a, b]

/-- `N1`, rhs_joints.py 314-320. -/
def N1 (j : KGap) : Except PyErr ℝ := do
  let c ← minClip (j.braces 0).ned
  if c < 0 then pure |c| else maxAbs (j.braces 1).ned

/-- `angle1`, rhs_joints.py 322-328. -/
def angle1 (j : KGap) : Except PyErr ℝ := do
  let c ← minClip (j.braces 0).ned
  pure (if c < 0 then j.angles 0 else j.angles 1)

/-- `N2`, rhs_joints.py 330-336. -/
def N2 (j : KGap) : Except PyErr ℝ := do
  let c ← minClip (j.braces 0).ned
  if c ≤ 0 then do
    let d ← minClip (j.braces 1).ned
    pure |d|
  else maxAbs (j.braces 0).ned

/-- `angle2`, rhs_joints.py 338-344: a `SteelMember` has no attribute `Ned`. -/
def angle2 (_ : KGap) : Except PyErr ℝ := .error .attributeError

/-- `N0gap`, rhs_joints.py 346-364. -/
def N0gap (j : KGap) : Except PyErr ℝ :=
  if j.N0 < 0 then do
    let n ← j.N2
    let a ← j.angle2
    pure (j.N0 + n * cos (rad a))
  else do
    let n ← j.N1
    let a ← j.angle1
    pure (j.N0 + n * cos (rad a))

/-- `V0gap`, rhs_joints.py 366-374. -/
def V0gap (j : KGap) : Except PyErr ℝ := do
  let n ← j.N1
  let a ← j.angle1
  pure |n * sin (rad a)|

/-- Brace dimensions and strengths, rhs_joints.py 376-394. -/
def h (j : KGap) (i : Fin 2) : ℝ := (j.braces i).sec.H
def b (j : KGap) (i : Fin 2) : ℝ := (j.braces i).sec.B
def t (j : KGap) (i : Fin 2) : ℝ := (j.braces i).sec.T
def fy (j : KGap) (i : Fin 2) : ℝ := (j.braces i).sec.P.fy

/-- `beta`, rhs_joints.py 396-397. -/
def beta (j : KGap) : ℝ := ((j.b 0 + j.b 1) + (j.h 0 + j.h 1)) / (4 * j.chord.B)

/-- `eccentricity`, rhs_joints.py 400-405. -/
def eccentricity (j : KGap) : ℝ :=
  let e0 := 1 / 2 * j.h 0 / sin (rad (j.angles 0)) + 1 / 2 * j.h 1 / sin (rad (j.angles 1)) + j.gap
  e0 * sin (rad (j.angles 0)) * sin (rad (j.angles 1)) / sin (rad (j.angles 0 + j.angles 1)) - 1 / 2 * j.chord.H

/-- Thickness of the chord face: of the plate if there is one, rhs_joints.py 415-418, 461-464, 474-477. -/
def face (j : KGap) : ℝ := if j.tp = 0 then j.chord.T else j.tp

/-- `chord_face_failure`, rhs_joints.py 408-426. -/
def chordFace (j : KGap) (i : Fin 2) : ℝ :=
  let NRd0 := j.reduction * (89 / 10) * j.evalKN j.beta * j.chord.P.fy * j.face ^ 2 * √j.gamma * j.beta / gammaM5
  NRd0 / sin (rad (j.angles i))

/-- `a_eta`, rhs_joints.py 450-452. -/
def aEta (j : KGap) : ℝ := (2 * j.chord.H + √(1 / (1 + 4 * j.gap ^ 2 / 3 / j.chord.T ^ 2)) * j.chord.B) * j.chord.T

/-- `chord_shear`, rhs_joints.py 428-448: the resistances of the braces and of the chord. `shear_force_resistance()` and `VRd` are the same value (steel_section.py 289-293, 567-587); a zero value raises ZeroDivisionError. -/
def chordShear (j : KGap) : Except PyErr ((Fin 2 → ℝ) × ℝ) := do
  let V ← j.V0gap
  let VRd := shearResistance j.chord.P.sec.Ashear.2 j.chord.P.fy
  let u ← pyDiv V VRd
  let N0Rd := if u > 1 then 0 else j.chord.P.fy * ((j.chord.P.sec.A - j.aEta) + j.aEta * √(1 - u ^ 2)) / gammaM5
  pure (fun i => j.reduction * (j.chord.P.fy * j.aEta / √3 / sin (rad (j.angles i)) / gammaM5), j.reduction * N0Rd)

/-- `brace_failure`, rhs_joints.py 454-469. -/
def braceFailure (j : KGap) (i : Fin 2) : ℝ :=
  let beff := min (10 / (j.chord.B / j.face) * j.chord.P.fy * j.face / (j.fy i * j.t i)) 1 * j.b i
  j.reduction * j.fy i * j.t i * (2 * j.h i - 4 * j.t i + j.b i + beff) / gammaM5

/-- `punching_shear`, rhs_joints.py 471-484. -/
def punching (j : KGap) (i : Fin 2) : ℝ :=
  let bep := min (10 / (j.chord.B / j.face)) 1 * j.b i
  j.reduction * j.chord.P.fy * j.face / √3 / sin (rad (j.angles i)) * (2 * j.h i / sin (rad (j.angles i)) + j.b i + bep) / gammaM5

/-- `add_chord_face_plate`, rhs_joints.py 486-514: reads `braces[0].h`, which a `SteelMember` does not have. -/
def addChordFacePlate (_ : KGap) (_lp _bp _tp : ℝ) : Except PyErr KGap := .error .attributeError

/-- The array `NjRd` of `design`, rhs_joints.py 718-731. -/
def jointResistance (j : KGap) : Except PyErr (Fin 2 → ℝ) := do
  let cs ← j.chordShear
  pure (fun i =>
    let n := min (min (j.chordFace i) (cs.1 i)) (j.braceFailure i)
    if j.beta ≤ 1 - 1 / j.gamma then min n (j.punching i) else n)

/-- `design`, rhs_joints.py 708-735: the second argument of `np.array` is the type of the entries, a number there raises TypeError; the ratio of the chord is evaluated before. -/
def design (j : KGap) : Except PyErr (Fin 2 → ℝ) := do
  let _ ← j.NEd
  let cs ← j.chordShear
  let _ ← j.jointResistance
  let _ ← pyDiv j.N0 cs.2
  .error .typeError

end KGap

/-- The function `eccentricity`, rhs_joints.py 25-32. -/
def eccentricity (h0 h1 h2 t1 t2 g : ℝ) : ℝ :=
  (1 / 2 * h1 / sin (rad t1) + 1 / 2 * h2 / sin (rad t2) + g) * sin (rad t1) * sin (rad t2) / sin (rad t1 + rad t2) - 1 / 2 * h0

/-- `RHSYJoint`, rhs_joints.py 756-779: `N1` is the stored force of the brace. -/
structure YJoint extends Joint where
  brace : Tube
  angle : ℝ
  N1 : ℝ

/-- Constructor, rhs_joints.py 756-768: the stored force is the largest absolute value of the forces of the brace. -/
def YJoint.new (j : Joint) (b : Brace) (angle : ℝ) : Except PyErr YJoint := do
  let n ← maxAbs b.ned
  pure { j with brace := b.sec, angle := angle, N1 := n }

namespace YJoint

/-- `beta`, `eta`, rhs_joints.py 801-806. -/
def beta (j : YJoint) : ℝ := j.brace.B / j.chord.B
def eta (j : YJoint) : ℝ := j.brace.H / j.chord.B

/-- `slend`, rhs_joints.py 842-846, with E = 210000 (constants.py 17). -/
def slend (j : YJoint) : ℝ :=
  346 / 100 * (j.chord.H / j.chord.T - 2) * √(1 / sin (rad j.angle)) / (π * √(210000 / j.chord.P.fy))

/-- The reduction factor of `fb`, rhs_joints.py 812-816, and rhs_joints.py 1017-1020. -/
def chi (j : YJoint) : ℝ :=
  let phi := 1 / 2 * (1 + j.chord.P.imp.1 * (j.slend - 2 / 10) + j.slend ^ 2)
  1 / (phi + √(phi ^ 2 - j.slend ^ 2))

/-- `fb`, rhs_joints.py 808-822. -/
def fb (j : YJoint) : ℝ := if j.N1 < 0 then j.chi * j.chord.P.fy else j.chord.P.fy

/-- `chord_face_failure`, rhs_joints.py 824-840: `r**kn`. -/
def chordFace (j : YJoint) : ℝ :=
  let b := if j.beta ≥ 1 then 99 / 100 else j.beta
  let NRd := j.reduction ^ j.evalKN j.beta * j.chord.P.fy * j.chord.T ^ 2 / ((1 - b) * sin (rad j.angle))
  NRd * (2 * j.eta / sin (rad j.angle) + 4 * √(1 - b)) / gammaM5

/-- `chord_web_buckling`, rhs_joints.py 848-860. -/
def chordWeb (j : YJoint) : ℝ :=
  j.reduction ^ j.evalKN j.beta * j.fb * j.chord.T / sin (rad j.angle) * (2 * j.brace.H / sin (rad j.angle) + 10 * j.chord.T) / gammaM5

/-- `brace_failure`, rhs_joints.py 862-873. -/
def braceFailure (j : YJoint) : ℝ :=
  let beff := min (10 / (j.chord.B / j.chord.T) * j.chord.P.fy * j.chord.T / (j.brace.P.fy * j.brace.T)) 1 * j.brace.B
  j.reduction * j.brace.P.fy * j.brace.T * (2 * j.brace.H - 4 * j.brace.T + 2 * beff) / gammaM5

/-- `punching_shear`, rhs_joints.py 875-885. -/
def punching (j : YJoint) : ℝ :=
  let bep := min (10 / (j.chord.B / j.chord.T)) 1 * j.brace.B
  j.reduction * j.chord.P.fy * j.chord.T / √3 / sin (rad j.angle) * (2 * j.brace.H / sin (rad j.angle) + 2 * bep) / gammaM5

/-- The resistance `NjRd` of `design`, rhs_joints.py 975-1000. -/
def jointResistance (j : YJoint) : ℝ :=
  if j.beta < 85 / 100 then j.chordFace
  else
    let interp := j.chordFace + (j.beta - 85 / 100) / (15 / 100) * (j.chordWeb - j.chordFace)
    let n := min interp j.braceFailure
    if j.beta ≤ 1 - 1 / j.gamma then min n j.punching else n

/-- `design`, rhs_joints.py 965-1004. -/
def design (j : YJoint) : ℝ := |j.N1| / j.jointResistance

end YJoint

/-- `fb` of `RHSXJoint`, rhs_joints.py 1012-1026: a `SteelMember` has no attribute `imp_factor`. -/
def xFb (j : YJoint) : Except PyErr ℝ := if j.N1 < 0 then .error .attributeError else .ok j.chord.P.fy

/-- `chord_web_buckling` of `RHSXJoint`, rhs_joints.py 1028-1046: a `SteelMember` has no attribute `Ashear`. -/
def xChordWeb (j : YJoint) : Except PyErr ℝ := do
  let f ← xFb j
  let NRd := j.reduction ^ j.evalKN j.beta * f * j.chord.T / sin (rad j.angle) * (2 * j.brace.H / sin (rad j.angle) + 10 * j.chord.T) / gammaM5
  if cos (rad j.angle) > j.brace.H / j.chord.H then .error .attributeError
  else pure (NRd / gammaM5)

/-! ### Lines in the plane -/

/-- A point or vector of the plane. -/
abbrev Pt := ℝ × ℝ

/-- `Line`, rhs_joints.py 51-80. -/
structure Line where
  p : Pt
  v : Pt

/-- `Line(p1, p2)`, rhs_joints.py 76-80: the direction is divided by its length (numpy: no exception for coinciding points). -/
def Line.ofPoints (p q : Pt) : Line :=
  let n := √((q.1 - p.1) ^ 2 + (q.2 - p.2) ^ 2)
  { p := p, v := ((q.1 - p.1) / n, (q.2 - p.2) / n) }

/-- `Line(p1, v)`, rhs_joints.py 76-77: the direction is stored as given. -/
def Line.ofDir (p v : Pt) : Line := { p := p, v := v }

/-- `__call__`, rhs_joints.py 82-85. -/
def Line.at (l : Line) (t : ℝ) : Pt := (l.p.1 + t * l.v.1, l.p.2 + t * l.v.2)

/-- `intersect`, rhs_joints.py 91-106: `solve` raises LinAlgError for a singular matrix, otherwise its solution by Cramer's rule; the parameters on both lines and the point. -/
def Line.intersect (l m : Line) : Except PyErr ((ℝ × ℝ) × Pt) :=
  let d := l.v.1 * (-m.v.2) - (-m.v.1) * l.v.2
  if d = 0 then .error .linAlgError
  else
    let b : Pt := (m.p.1 - l.p.1, m.p.2 - l.p.2)
    let t : ℝ × ℝ := ((b.1 * (-m.v.2) - (-m.v.1) * b.2) / d, (l.v.1 * b.2 - b.1 * l.v.2) / d)
    .ok (t, l.at t.1)

/-- `distance`, rhs_joints.py 108-120: distance and nearest point. -/
def Line.distance (l : Line) (x : Pt) : ℝ × Pt :=
  let t := -(l.v.1 * (l.p.1 - x.1) + l.v.2 * (l.p.2 - x.2))
  let c := l.at t
  (√((c.1 - x.1) ^ 2 + (c.2 - x.2) ^ 2), c)

end

end Metku.Rhs
