import Verif.Model.PyErr
import Mathlib.Analysis.Real.Sqrt

/-!
Model of charring of timber (`metku/eurocodes/en1995/en1995_1_2.py`), of fire protections (`metku/eurocodes/en1995/fire_protection.py`) and of rectangular timber sections under fire
(`metku/sections/timber/timber_section.py` 31-242, with the grades of `metku/materials/timber_data.py`), function by function, over the reals.

Simplifications: floats are exact; of a grade only what fire needs is kept (kind of timber and characteristic density); protections are values, so sharing one object between sides shows only in the writes, which
are the same for every side; densities are positive, and thicknesses below 20 mm are positive.
-/
namespace Metku.Timber

open Real

noncomputable section

/-- `Material.type`, timber_data.py 125-177; `other` stands for any other text. -/
inductive Kind
  | solid | glt | lvl | other
  deriving DecidableEq

/-- `hardness`, timber_data.py 122-124; `other` stands for any other text. -/
inductive Hardness
  | softwood | hardwood | other
  deriving DecidableEq

/-- The rates `[beta_0, beta_n]` before thin panels are treated, en1995_1_2.py 34-55. -/
def baseRates (rhok : ℝ) (k : Kind) (hd : Hardness) : Option (ℝ × ℝ) :=
  match k, hd with
  | .solid, .softwood => if 290 ≤ rhok then some (0.65, 0.8) else none
  | .glt, .softwood => if 290 ≤ rhok then some (0.65, 0.7) else none
  | .solid, .hardwood => if 450 ≤ rhok then some (0.5, 0.55) else if rhok = 290 then some (0.65, 0.7) else none
  | .glt, .hardwood => if 450 ≤ rhok then some (0.5, 0.55) else if rhok = 290 then some (0.65, 0.7) else none
  | .lvl, _ => if 480 ≤ rhok then some (0.65, 0.7) else if 410 ≤ rhok then some (0.7, 0.75) else none
  | .other, _ => some (1.0, 1.0)
  | _, .other => none

/-- `charring_speed`, en1995_1_2.py 22-62, with the unpacking that every caller does (timber_section.py 91, fire_protection.py 36, 120): `None` cannot be indexed or unpacked. -/
def charringRates (rhok : ℝ) (k : Kind) (hd : Hardness) (hp : ℝ) : Except PyErr (ℝ × ℝ) :=
  match baseRates rhok k hd with
  | none => .error .typeError
  | some (b0, bn) => if hp < 20 then .ok (√(450 / rhok) * √(20 / hp) * b0, bn) else .ok (b0, bn)

/-- A `FireProtection`, fire_protection.py 17-33: start of charring, failure, end of the quick charring, thickness, and whether the class is one of the boards F, FF, AF. -/
structure Protection where
  tch : ℝ
  tf : Option ℝ
  ta : Option ℝ
  hp : ℝ
  isF : Bool

/-- The factor `k0`, en1995_1_2.py 74-86. -/
def charK0 (fp : Option Protection) (t : ℝ) : ℝ :=
  match fp with
  | none => if t < 20 then t / 20 else 1
  | some p => if p.tch ≤ 20 then (if t < 20 then t / 20 else 1) else (if t ≤ p.tch then t / p.tch else 1)

/-- The part of `d_char_n` after the start of charring, en1995_1_2.py 93-106. -/
def charAfter (tch tf ta t bn k0 : ℝ) : ℝ :=
  if tch < tf then
    if t < tf then (t - tch) * 0.73 * bn + k0 * 7
    else if tf < t ∧ t < ta then (tf - tch) * 0.73 * bn + (t - tf) * 2 * bn + k0 * 7
    else (tf - tch) * 0.73 * bn + (ta - tf) * 2 * bn + (t - ta) * bn + k0 * 7
  else if t < ta then 2 * bn * (t - tf) + k0 * 7
  else 2 * bn * (ta - tf) + bn * (t - ta) + k0 * 7

/-- `d_char_n`, en1995_1_2.py 65-106.  Comparisons with `None` raise; before the failure of the protection `t_a` is not read. -/
def charDepth (fp : Option Protection) (t bn : ℝ) : Except PyErr ℝ :=
  match fp with
  | none => .ok (t * bn + charK0 none t * 7)
  | some p =>
    if t < p.tch then .ok 0
    else
      match p.tf with
      | none => .error .typeError
      | some tf =>
        match p.ta with
        | some ta => .ok (charAfter p.tch tf ta t bn (charK0 (some p) t))
        | none => if p.tch < tf ∧ t < tf then .ok ((t - p.tch) * 0.73 * bn + charK0 (some p) t * 7) else .error .typeError

/-- `set_ta`, fire_protection.py 41-44. -/
def Protection.setTa (p : Protection) (bn : ℝ) : Except PyErr Protection :=
  match p.tf with
  | none => .error .typeError
  | some tf => .ok { p with ta := some (min (2 * tf) (25 / (2 * bn) + tf)) }

/-- `set_tf_for_gypsumF`, fire_protection.py 46-48. -/
def Protection.setTf (p : Protection) (bn : ℝ) : Protection := { p with tf := some (12.5 / (0.73 * bn) + p.tch) }

/-- What setting the material of a section does to a protection, timber_section.py 103-107: rate of the protected material, failure of the boards F, end of the quick charring. -/
def Protection.prepare (p : Protection) (rhok : ℝ) (k : Kind) (hd : Hardness) : Except PyErr Protection := do
  let (_, bn) ← charringRates rhok k hd p.hp
  (if p.isF then p.setTf bn else p).setTa bn

/-- The boards of fire_protection.py 51-108. -/
inductive Board
  | A | F | H | AA | FF | HH | AF

/-- The constructors of the boards, fire_protection.py 51-108; the argument tells whether the joint is narrower than 2 mm. -/
def Board.make (b : Board) (narrow : Bool) : Protection :=
  match b, narrow with
  | .A, true => ⟨22, some 22, none, 13, false⟩
  | .A, false => ⟨13, some 13, none, 13, false⟩
  | .F, true => ⟨28, none, none, 15, true⟩
  | .F, false => ⟨19, none, none, 15, true⟩
  | .H, true => ⟨11, some 11, none, 9, false⟩
  | .H, false => ⟨2, some 2, none, 9, false⟩
  | .AA, true => ⟨40, some 40, none, 26, false⟩
  | .AA, false => ⟨31, some 31, none, 26, false⟩
  | .FF, true => ⟨61, none, none, 30, true⟩
  | .FF, false => ⟨52, none, none, 30, true⟩
  | .HH, true => ⟨23, some 23, none, 18, false⟩
  | .HH, false => ⟨14, some 14, none, 18, false⟩
  | .AF, true => ⟨46, none, none, 28, true⟩
  | .AF, false => ⟨37, none, none, 28, true⟩

/-- `WoodenFireProtection`, fire_protection.py 110-122. -/
def wooden (rhok : ℝ) (k : Kind) (hd : Hardness) (hp : ℝ) : Except PyErr Protection := do
  let (b0, _) ← charringRates rhok k hd hp
  .ok ⟨hp / b0, some (hp / b0), none, hp, false⟩

/-- A `TimberSection`, timber_section.py 54-79: the sizes given, the protections of the sides, the sides on fire, the fire duration and the charring rate. -/
structure Section where
  B0 : ℝ
  H0 : ℝ
  right : Option Protection
  left : Option Protection
  bottom : Option Protection
  top : Option Protection
  fourSides : Bool
  protectThree : Bool
  R : ℝ
  betaN : ℝ

/-- The loop over a side of the setter of `material`, timber_section.py 103-122. -/
def prepareSide (fp : Option Protection) (rhok : ℝ) (k : Kind) (hd : Hardness) : Except PyErr (Option Protection) :=
  match fp with
  | none => .ok none
  | some p => (p.prepare rhok k hd).map some

/-- The constructor of a section, timber_section.py 54-99.  `Timber(val)` is called without a hardness (line 96), which makes it `'softwood'` (timber_data.py 122). -/
def Section.make (B H rhok : ℝ) (k : Kind) (right left top bottom generic : Option Protection) (protectThree fourSides : Bool) : Except PyErr Section := do
  let (_, bn) ← charringRates rhok k .softwood (min B H)
  let r ← prepareSide (right.orElse fun _ => generic) rhok k .softwood
  let l ← prepareSide (left.orElse fun _ => generic) rhok k .softwood
  let b ← prepareSide (bottom.orElse fun _ => generic) rhok k .softwood
  let t ← prepareSide (if protectThree then top else top.orElse fun _ => generic) rhok k .softwood
  .ok ⟨B, H, r, l, b, t, fourSides, protectThree, 0, bn⟩

/-- The setter of `fire_protection_generic`, timber_section.py 222-233: the protection is stored as it is. -/
def Section.setGeneric (s : Section) (p : Protection) : Section :=
  if s.protectThree then { s with right := some p, left := some p, bottom := some p } else { s with right := some p, left := some p, bottom := some p, top := some p }

/-- What is left of a size, timber_section.py 130-132 and 149-151. -/
def clampSize (x : ℝ) : ℝ := if x ≤ 0 then 0.00001 else x

/-- Depth lost to fire, timber_section.py 127-129 (and 286-288). -/
def Section.lossH (s : Section) : Except PyErr ℝ := do
  let d ← charDepth s.bottom s.R s.betaN
  if s.fourSides then
    let e ← charDepth s.top s.R s.betaN
    .ok (d + e)
  else .ok d

/-- `H`, timber_section.py 124-132. -/
def Section.H (s : Section) : Except PyErr ℝ := do
  let d ← s.lossH
  .ok (clampSize (s.H0 - d))

/-- `B`, timber_section.py 144-151. -/
def Section.B (s : Section) : Except PyErr ℝ := do
  let d ← charDepth s.right s.R s.betaN
  let e ← charDepth s.left s.R s.betaN
  .ok (clampSize (s.B0 - d - e))

/-- `A`, timber_section.py 203-216. -/
def Section.A (s : Section) : Except PyErr ℝ := do
  let b ← s.B
  let h ← s.H
  .ok (if b ≤ 0 ∨ h ≤ 0 then 0 else b * h)

/-- `I`, timber_section.py 157-159. -/
def Section.I (s : Section) : Except PyErr (ℝ × ℝ) := do
  let b ← s.B
  let h ← s.H
  .ok (b * h ^ 3 / 12, h * b ^ 3 / 12)

/-- `Wel`, timber_section.py 164-166. -/
def Section.Wel (s : Section) : Except PyErr (ℝ × ℝ) := do
  let b ← s.B
  let h ← s.H
  .ok (b * h ^ 2 / 6, h * b ^ 2 / 6)

end

end Metku.Timber
