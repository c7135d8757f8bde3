import Verif.Model.Bolt
import Verif.Model.Ec3

/-!
Model of plates with a regular pattern of holes (`metku/structures/steel/plates.py` 155-236) and of fin plate joints (`metku/structures/steel/fin_plate_joint.py`), function by function, over the reals.

Simplifications: floats are exact; printing, drawing and costs are left out; the numbers of bolts are natural numbers; thickness and strengths are taken to be nonzero, so that the only divisors tested for zero are
distances of bolts, the second moment of the bolt group and the number of bolts.
-/
namespace Metku.FinPlates

open Real Bolts

noncomputable section

/-- A `RectPlateWithHoles`, plates.py 155-198: width, height, thickness, strengths, location of the first hole, distances and numbers of holes. -/
structure Plate where
  b : ℝ
  h : ℝ
  t : ℝ
  fy : ℝ
  fu : ℝ
  E : ℝ
  x0 : ℝ
  y0 : ℝ
  px : ℝ
  py : ℝ
  n1 : ℕ
  n2 : ℕ

/-- `n`, plates.py 202-205. -/
def Plate.n (p : Plate) : ℕ := p.n1 * p.n2

/-- `eLeft`, plates.py 208-210. -/
def Plate.eLeft (p : Plate) : ℝ := p.x0

/-- `eRight`, plates.py 212-214. -/
def Plate.eRight (p : Plate) : ℝ := p.b - p.x0 - ((p.n2 : ℝ) - 1) * p.px

/-- `eTop`, plates.py 215-217. -/
def Plate.eTop (p : Plate) : ℝ := p.h - p.y0 - ((p.n1 : ℝ) - 1) * p.py

/-- A `FinPlateJoint`, fin_plate_joint.py 30-67; of the beam height, web thickness, strengths, shear area and shear resistance. -/
structure Joint where
  hb : ℝ
  twb : ℝ
  fyb : ℝ
  fub : ℝ
  Avb : ℝ
  Vb : ℝ
  plate : Plate
  bolt : Bolt
  posY : ℝ
  gh : ℝ
  symm : Bool

/-- What reading `e1` does to the plate, fin_plate_joint.py 72-75. -/
def Joint.centred (j : Joint) : Joint :=
  if j.symm then { j with plate := { j.plate with y0 := 1 / 2 * j.plate.h - 1 / 2 * ((j.plate.n1 : ℝ) - 1) * j.plate.py } } else j

/-- `e1`, fin_plate_joint.py 69-76. -/
def Joint.e1 (j : Joint) : ℝ := j.centred.plate.eTop

/-- `e2`, fin_plate_joint.py 78-81. -/
def Joint.e2 (j : Joint) : ℝ := j.plate.eRight

/-- `e1b`, fin_plate_joint.py 83-86. -/
def Joint.e1b (j : Joint) : ℝ := 1 / 2 * j.hb - (j.posY + 1 / 2 * j.plate.h - j.e1)

/-- `e2b`, fin_plate_joint.py 88-91. -/
def Joint.e2b (j : Joint) : ℝ := j.plate.eLeft - j.gh

/-- `z`, fin_plate_joint.py 93-96. -/
def Joint.z (j : Joint) : ℝ := j.plate.eLeft + 1 / 2 * ((j.plate.n2 : ℝ) - 1) * j.plate.px

/-- `I`, fin_plate_joint.py 157-160. -/
def Joint.I (j : Joint) : ℝ := 1 / 2 * (j.plate.n1 : ℝ) * j.plate.px ^ 2 + 1 / 6 * (j.plate.n1 : ℝ) * ((j.plate.n1 : ℝ) ^ 2 - 1) * j.plate.py ^ 2

/-- `bolt_shear`, fin_plate_joint.py 162-183. -/
def Joint.boltShear (j : Joint) : Except PyErr ℝ := do
  let F ← j.bolt.shear true
  let n : ℝ := j.plate.n
  if j.plate.n2 = 1 then
    if j.plate.py = 0 then .error .zeroDivision
    else pure (n / √(1 + (6 * j.z / (n + 1) / j.plate.py) ^ 2) * F)
  else if j.I = 0 ∨ j.plate.n = 0 then .error .zeroDivision
  else pure (1 / √((1 / 2 * j.z * j.plate.px / j.I + 1 / n) ^ 2 + (1 / 2 * j.z * j.plate.py / j.I * ((j.plate.n1 : ℝ) - 1)) ^ 2) * F)

/-- The factors `a` and `b` and the distance `p2` of the bearing resistances, fin_plate_joint.py 187-195, 309-317. -/
def Joint.factors (j : Joint) : Except PyErr (ℝ × ℝ × ℝ) :=
  if j.plate.n2 = 1 then
    if j.plate.n1 = 0 ∨ j.plate.py = 0 then .error .zeroDivision
    else .ok (0, 6 * j.z / (j.plate.n1 : ℝ) / ((j.plate.n1 : ℝ) + 1) / j.plate.py, 10 ^ 5)
  else if j.I = 0 then .error .zeroDivision
  else .ok (1 / 2 * j.z * j.plate.px / j.I, 1 / 2 * j.z * j.plate.py / j.I * ((j.plate.n1 : ℝ) - 1), j.plate.px)

/-- Bearing of a group of bolts, fin_plate_joint.py 197-213, 319-333: strength and thickness of the plate, distances to its edges. -/
def Joint.bearing (j : Joint) (fu t e1 e2 : ℝ) : Except PyErr ℝ := do
  let f ← j.factors
  let ver := j.bolt.bearing fu t e1 e2 j.plate.py f.2.2 .edge .edge
  let hor := j.bolt.bearing fu t e2 e1 f.2.2 j.plate.py .edge .edge
  let n : ℝ := j.plate.n
  if ver = 0 ∨ hor = 0 then .error .zeroDivision
  else pure (n / √(((1 + n * f.1) / ver) ^ 2 + (n * f.2.1 / hor) ^ 2))

/-- `fin_plate_bearing`, fin_plate_joint.py 185-221. -/
def Joint.plateBearing (j : Joint) : Except PyErr ℝ := j.bearing j.plate.fu j.plate.t j.e1 j.e2

/-- `beam_web_bearing`, fin_plate_joint.py 306-343: the vertical distance is that of the plate. -/
def Joint.webBearing (j : Joint) : Except PyErr ℝ := j.bearing j.fub j.twb j.e1 j.e2b

/-- `fin_plate_shear_gross`, fin_plate_joint.py 223-231. -/
def Joint.shearGross (j : Joint) : ℝ := j.plate.h * j.plate.t * j.plate.fy / (127 / 100) / √3 / Bolts.gammaM0

/-- `fin_plate_shear_net`, fin_plate_joint.py 233-242. -/
def Joint.shearNet (j : Joint) : ℝ := j.plate.t * (j.plate.h - (j.plate.n1 : ℝ) * (j.bolt.d0 : ℝ)) * j.plate.fu / √3 / Bolts.gammaM2

/-- `fin_plate_block_tearing`, fin_plate_joint.py 244-254. -/
def Joint.blockTearing (j : Joint) : ℝ :=
  let Ant := j.plate.t * (j.e2 + j.plate.px - (2 * (j.plate.n2 : ℝ) - 1) * (1 / 2) * (j.bolt.d0 : ℝ))
  let Anv := j.plate.t * (j.plate.h - j.e1 - ((j.plate.n1 : ℝ) - 1 / 2) * (j.bolt.d0 : ℝ))
  1 / 2 * j.plate.fu * Ant / Bolts.gammaM2 + j.plate.fy * Anv / √3 / Bolts.gammaM0

/-- `fin_plate_bending`, fin_plate_joint.py 256-270. -/
def Joint.bending (j : Joint) : Except PyErr ℝ :=
  if j.z = 0 then .error .zeroDivision else .ok (j.plate.fy * (j.plate.t * j.plate.h ^ 2 / 6) / j.z / Bolts.gammaM0)

/-- `fin_plate_ltb`, fin_plate_joint.py 272-304. -/
def Joint.ltb (j : Joint) : Except PyErr ℝ :=
  if j.z = 0 then .error .zeroDivision
  else
    let V := j.plate.fy * j.plate.t * j.plate.h ^ 2 / 6 / j.z
    let C :=
      if j.z < j.plate.t / (15 / 100) then 1
      else
        let l1 := π * √(j.plate.E / j.plate.fy)
        let l := 28 / 10 / l1 * √(j.z * j.plate.h / (3 / 2) / j.plate.t ^ 2)
        min (Ec3.bucklingReduction l (76 / 100) / (6 / 10) / Bolts.gammaM1) (1 / Bolts.gammaM0)
    .ok (C * V)

/-- `beam_web_shear_net`, fin_plate_joint.py 355-364. -/
def Joint.webShearNet (j : Joint) : ℝ := (j.Avb - (j.plate.n1 : ℝ) * (j.bolt.d0 : ℝ) * j.twb) * j.fub / √3 / Bolts.gammaM2

/-- `beam_web_block_tearing`, fin_plate_joint.py 366-376. -/
def Joint.webBlockTearing (j : Joint) : ℝ :=
  let Ant := j.twb * (j.e2b + j.plate.px - (2 * (j.plate.n2 : ℝ) - 1) * (1 / 2) * (j.bolt.d0 : ℝ))
  let Anv := j.twb * (j.e1b + ((j.plate.n1 : ℝ) - 1) * j.plate.py - ((j.plate.n1 : ℝ) - 1 / 2) * (j.bolt.d0 : ℝ))
  1 / 2 * j.fub * Ant / Bolts.gammaM2 + j.fyb * Anv / √3 / Bolts.gammaM0

/-- `check_bolt_position`, fin_plate_joint.py 410-430. -/
def Joint.checkPosition (j : Joint) : Bool :=
  let d : ℝ := j.bolt.d0
  if j.e1 < 12 / 10 * d then false
  else if j.e2 < 12 / 10 * d then false
  else if j.e2b < 12 / 10 * d then false
  else if j.plate.py < 22 / 10 * d then false
  else if 0 < j.plate.px ∧ j.plate.px < 24 / 10 * d then false
  else true

end

end Metku.FinPlates
