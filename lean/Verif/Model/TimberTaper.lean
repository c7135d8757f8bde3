import Verif.Model.TimberFire
import Mathlib.Analysis.SpecialFunctions.Trigonometric.Arctan

/-!
Model of tapered and curved timber beams (`metku/sections/timber/timber_section.py` 245-851), function by function, over the reals, and of `alfa` and `V_tot` of timber members
(`metku/structures/timber/timber_member.py` 388-396 and 466-479) for single and double tapers.

Simplifications: floats are exact; a bare `Exception` is represented by `PyErr.assertion`; `parent.length` is a Python float and a field of the shapes that read it; areas by numerical integration (`A_face`) are left out.
-/
namespace Metku.Timber

open Real

noncomputable section

/-- The shapes of timber_section.py: `PulpettiPalkki` 318-352, `HarjaPalkki` 381-415 and `MahaPalkki` 464-500 (with the length of the member). -/
inductive Shape
  | single (h0 hap : ℝ)
  | double (h0 hap xap : ℝ)
  | belly (h0 alpha xap L : ℝ)

/-- `get_unmodified_h` of a `PulpettiPalkki`, timber_section.py 372-375. -/
def singleHeight (h0 hap x : ℝ) : ℝ := h0 + (hap - h0) * x

/-- `get_unmodified_h` of a `HarjaPalkki`, timber_section.py 417-431; the divisions are by `xap` and `1 - xap`. -/
def doubleHeight (h0 hap xap x : ℝ) : ℝ :=
  (hap - h0) / xap * x + h0 - max ((hap - h0) / xap * x + h0 - ((h0 - hap) / (1 - xap) * x + hap + (hap - h0) / (1 - xap) * xap)) 0

/-- The angle `beta` of a `MahaPalkki`, timber_section.py 505-506. -/
def bellyBeta (alpha xap L : ℝ) : ℝ := arctan (L * tan alpha / (L - xap * L))

/-- `get_unmodified_h` of a `MahaPalkki`, timber_section.py 502-510, with the local coordinate from 0 to 1. -/
def bellyHeight (h0 alpha xap L x : ℝ) : ℝ :=
  (tan alpha * (x * L) + h0) / cos alpha - max 0 (x * L * tan (bellyBeta alpha xap L) - xap * L * tan (bellyBeta alpha xap L)) / cos alpha

/-- `get_unmodified_h`, dispatched, with the divisions by zero. -/
def Shape.height (sh : Shape) (x : ℝ) : Except PyErr ℝ :=
  match sh with
  | .single h0 hap => .ok (singleHeight h0 hap x)
  | .double h0 hap xap => if xap = 0 ∨ 1 - xap = 0 then .error .zeroDivision else .ok (doubleHeight h0 hap xap x)
  | .belly h0 alpha xap L => if L - xap * L = 0 then .error .zeroDivision else .ok (bellyHeight h0 alpha xap L x)

/-- The property `H0`, timber_section.py 354-356, 433-435, 512-514. -/
def Shape.h0 : Shape → ℝ
  | .single h0 _ => h0
  | .double h0 _ _ => h0
  | .belly h0 _ _ _ => h0

/-- The shape after `H0` is set, timber_section.py 362-364, 445-447, 528-530. -/
def Shape.withH0 (sh : Shape) (v : ℝ) : Shape :=
  match sh with
  | .single _ hap => .single v hap
  | .double _ hap xap => .double v hap xap
  | .belly _ alpha xap L => .belly v alpha xap L

/-- A `TaperedSection`, timber_section.py 245-254: the section it inherits from, the shape, the small elements (area and second moments) and their number. -/
structure Taper where
  sec : Section
  shape : Shape
  elems : List (ℝ × ℝ × ℝ)
  num : ℤ

/-- The constructor: the inherited section is made with `H0`, timber_section.py 346, 409, 494. -/
def Taper.make (sh : Shape) (B rhok : ℝ) (k : Kind) (right left top bottom generic : Option Protection) (protectThree fourSides : Bool) : Except PyErr Taper := do
  let s ← Section.make B sh.h0 rhok k right left top bottom generic protectThree fourSides
  .ok ⟨s, sh, [], -1⟩

/-- `get_H`, timber_section.py 276-291. -/
def Taper.getH (t : Taper) (x : ℝ) : Except PyErr ℝ := do
  let h ← t.shape.height x
  let d ← t.sec.lossH
  .ok (clampSize (h - d))

/-- `get_A`, timber_section.py 293-305. -/
def Taper.getA (t : Taper) (x : ℝ) : Except PyErr ℝ := do
  let b ← t.sec.B
  let h ← t.getH x
  .ok (if b ≤ 0 ∨ h ≤ 0 then 0.00001 else b * h)

/-- `get_Wel`, timber_section.py 307-308. -/
def Taper.getWel (t : Taper) (x : ℝ) : Except PyErr (ℝ × ℝ) := do
  let b ← t.sec.B
  let h ← t.getH x
  .ok (b * h ^ 2 / 6, h * b ^ 2 / 6)

/-- `get_I`, timber_section.py 310-311. -/
def Taper.getI (t : Taper) (x : ℝ) : Except PyErr (ℝ × ℝ) := do
  let b ← t.sec.B
  let h ← t.getH x
  .ok (b * h ^ 3 / 12, h * b ^ 3 / 12)

/-- The values of a small element at the middle of piece `i`, timber_section.py 264-265 and 271-272. -/
def Taper.piece (t : Taper) (i : ℕ) : Except PyErr (ℝ × ℝ × ℝ) := do
  let a ← t.getA ((i : ℝ) * (1 / (t.num : ℝ)) + 0.5 * (1 / (t.num : ℝ)))
  let iy ← t.getI ((i : ℝ) * (1 / (t.num : ℝ)) + 0.5 * (1 / (t.num : ℝ)))
  .ok (a, iy)

/-- `create_elements`, timber_section.py 256-266. -/
def Taper.create (t : Taper) : Except PyErr Taper :=
  if 0 < t.elems.length then .error .assertion
  else if t.num < 0 then .error .assertion
  else if t.num = 0 then .error .zeroDivision
  else do
    let es ← (List.range t.num.toNat).mapM t.piece
    .ok { t with elems := es }

/-- `update_elements`, timber_section.py 268-274. -/
def Taper.update (t : Taper) : Except PyErr Taper :=
  if t.num = 0 then .error .zeroDivision
  else do
    let es ← (List.range t.elems.length).mapM t.piece
    .ok { t with elems := es }

/-- The setter of `H0`, timber_section.py 362-364, 445-447, 528-530: the inherited `_H` is left alone. -/
def Taper.setH0 (t : Taper) (v : ℝ) : Except PyErr Taper := { t with shape := t.shape.withH0 v }.update

/-- The setter of `B`, timber_section.py 153-155: the small elements are left alone. -/
def Taper.setB (t : Taper) (b : ℝ) : Taper := { t with sec := { t.sec with B0 := b } }

/-- `R` is a plain attribute, timber_section.py 62: the small elements are left alone. -/
def Taper.setR (t : Taper) (R : ℝ) : Taper := { t with sec := { t.sec with R := R } }

/-- `tan(alfa())` of a double taper, timber_member.py 473-474. -/
def doubleSlope (h0 hap L : ℝ) : ℝ := tan (arctan ((hap - h0) / (L / 2)))

/-- `V_tot` of straight tapers, timber_member.py 388-394; `B` is the width at that time. -/
def totalVolume (sh : Shape) (B L : ℝ) : Option ℝ :=
  match sh with
  | .single h0 hap => some ((h0 + hap) / 2 * L * B)
  | .double h0 hap _ => some (B * L * (hap - L * doubleSlope h0 hap L / 4))
  | .belly _ _ _ _ => none

/-! ### Curved beams -/

/-- A `KaarevaPalkki` or a `KaarevaHarjaPalkki`, timber_section.py 568-584 and 721-735: depth at the ends, angles of the upper and lower faces, radius and length of the member. -/
structure Curved where
  h0 : ℝ
  alpha : ℝ
  beta : ℝ
  r : ℝ
  L : ℝ

/-- `L_y`, timber_section.py 587. -/
def Curved.Ly (c : Curved) : ℝ := 0.5 * c.L * tan c.beta

/-- `y_circle_up`, timber_section.py 591-592. -/
def Curved.yUp (c : Curved) : ℝ := -c.r * cos c.alpha + (0.5 * c.L - c.r * sin c.alpha) * tan c.alpha + c.h0

/-- `y_circle_dw`, timber_section.py 593-594. -/
def Curved.yDw (c : Curved) : ℝ := (0.5 * c.L - c.r * sin c.beta) * tan c.beta - c.r * cos c.beta

/-- `up_x1`, timber_section.py 596. -/
def Curved.upX1 (c : Curved) : ℝ := c.L / 2 - c.r * sin c.alpha

/-- `up_x2`, timber_section.py 600. -/
def Curved.upX2 (c : Curved) : ℝ := c.L / 2 - c.r * sin c.alpha + 2 * (c.r * sin c.alpha)

/-- `dwn_x1`, timber_section.py 598. -/
def Curved.dwX1 (c : Curved) : ℝ := c.L / 2 - c.r * sin c.beta

/-- `dwn_x2`, timber_section.py 602 and 753. -/
def Curved.dwX2 (c : Curved) : ℝ := c.L / 2 - c.r * sin c.beta + 2 * (c.r * sin c.beta)

/-- `f1`, timber_section.py 606-607. -/
def Curved.f1 (c : Curved) (x : ℝ) : ℝ := tan c.alpha * x + c.h0

/-- `f2`, timber_section.py 609-610. -/
def Curved.f2 (c : Curved) (x : ℝ) : ℝ := tan c.beta * x

/-- `f3`, timber_section.py 612-613. -/
def Curved.f3 (c : Curved) (x : ℝ) : ℝ := (c.L - x) * tan c.alpha + c.h0

/-- `f4`, timber_section.py 615-616. -/
def Curved.f4 (c : Curved) (x : ℝ) : ℝ := 2 * c.Ly - tan c.beta * x

/-- `f5`, timber_section.py 618-619. -/
def Curved.f5 (c : Curved) (x : ℝ) : ℝ := √(c.r ^ 2 - (c.L / 2 - x) ^ 2) + c.yUp

/-- `f6`, timber_section.py 621-622. -/
def Curved.f6 (c : Curved) (x : ℝ) : ℝ := √(c.r ^ 2 - (c.L / 2 - x) ^ 2) + c.yDw

/-- `get_unmodified_h` of a `KaarevaPalkki`, timber_section.py 668-680, after `x *= parent.length`. -/
def Curved.arcHeight (c : Curved) (x : ℝ) : ℝ :=
  if 0 ≤ x ∧ x < c.upX1 then c.f1 x - c.f2 x
  else if c.upX1 ≤ x ∧ x < c.dwX1 then c.f5 x - c.f2 x
  else if c.dwX1 ≤ x ∧ x < c.dwX2 then c.f5 x - c.f6 x
  else if c.dwX2 ≤ x ∧ x < c.upX2 then c.f5 x - c.f4 x
  else c.f3 x - c.f4 x

/-- `get_unmodified_h` of a `KaarevaHarjaPalkki`, timber_section.py 823-833, after `x *= parent.length`. -/
def Curved.ridgeHeight (c : Curved) (x : ℝ) : ℝ :=
  if 0 ≤ x ∧ x < c.dwX1 then c.f1 x - c.f2 x
  else if c.dwX1 ≤ x ∧ x < c.L / 2 then c.f1 x - c.f6 x
  else if c.L / 2 ≤ x ∧ x < c.dwX2 then c.f3 x - c.f6 x
  else c.f3 x - c.f4 x

end

end Metku.Timber
