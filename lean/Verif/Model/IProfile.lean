import Mathlib.Analysis.SpecialFunctions.Trigonometric.Basic
import Verif.Model.PyErr
import Verif.Model.Ec3

/-!
Model of the newer description of rolled sections and design: `metku/profiles/steel/isections.py`,
`metku/profiles/steel/isection_formulas.py`, `metku/design/steel_section.py`, `metku/materials/steel.py`,
`metku/settings/settings.py`, `metku/settings/units.py` and `metku/structures/steel/cf_steel_member.py`.

Floats are real numbers (the catalogue is rational).  Printing is left out.
-/
namespace Metku.IProf

open Metku

/-- `ISection`, isections.py 14-20, without the name. -/
structure ISec where
  (h b tw tf r : ℝ)

namespace ISec
variable (s : ISec)

/-- `area`, isection_formulas.py 15-18. -/
noncomputable def A : ℝ := 2 * s.tf * s.b + (s.h - 2 * s.tf) * s.tw + (4 - Real.pi) * s.r ^ 2

/-- `shear_area_z`, 21-25. -/
noncomputable def Avz : ℝ := s.A - 2 * s.b * s.tf + (s.tw + 2 * s.r) * s.tf

/-- `shear_area_y`, 28-31. -/
def Avy : ℝ := 2 * s.b * s.tf

/-- `perimeter`, 34-37. -/
noncomputable def P : ℝ :=
  2 * s.b + 2 * (s.b - 2 * s.r - s.tw) + 2 * (s.h - 2 * s.r) + 2 * Real.pi * s.r

/-- `second_moment_of_area_y`, 40-45. -/
noncomputable def Iy : ℝ :=
  1.0 / 12 * (s.b * s.h ^ 3 - (s.b - s.tw) * (s.h - 2.0 * s.tf) ^ 3) + 0.03 * s.r ^ 4
    + 0.2146 * s.r ^ 2 * (s.h - 2 * s.tf - 0.4468 * s.r) ^ 2

/-- `second_moment_of_area_z`, 48-53. -/
noncomputable def Iz : ℝ :=
  1.0 / 12 * (2.0 * s.tf * s.b ^ 3 + (s.h - 2.0 * s.tf) * s.tw ^ 3) + 0.03 * s.r ^ 4
    + 0.2146 * s.r ^ 2 * (s.tw + 0.4468 * s.r) ^ 2

/-- `torsion_constant`, 56-66. -/
noncomputable def It : ℝ :=
  let a1 := -0.042 + 0.2204 * s.tw / s.tf + 0.1355 * s.r / s.tf - 0.0865 * s.r * s.tw / s.tf ^ 2
    - 0.0725 * s.tw ^ 2 / s.tf ^ 2
  let D1 := ((s.tf + s.r) ^ 2 + s.tw * (s.r + s.tw / 4)) / (2 * s.r + s.tf)
  (2 * s.b * s.tf ^ 3 + (s.h - 2 * s.tf) * s.tw ^ 3) / 3 + 2 * a1 * D1 ^ 4 - 4 * 0.105 * s.tf ^ 4

/-- `warping_constant`, 69-72. -/
noncomputable def Iw : ℝ := (s.tf * s.b ^ 3) / 24.0 * (s.h - s.tf) ^ 2

/-- `plastic_section_modulus_y`, 75-80. -/
noncomputable def Wply : ℝ :=
  (s.tw * s.h ^ 2) / 4.0 + (s.b - s.tw) * (s.h - s.tf) * s.tf + (4.0 - Real.pi) / 2 * s.r ^ 2 * (s.h - 2.0 * s.tf)
    + (3.0 * Real.pi - 10.0) / 3.0 * s.r ^ 3

/-- `plastic_section_modulus_z`, 83-89. -/
noncomputable def Wplz : ℝ :=
  (s.b ^ 2 * s.tf) / 2.0 + (s.h - 2 * s.tf) / 4.0 * s.tw ^ 2 + s.r ^ 3 * (10.0 / 3.0 - Real.pi)
    + (2.0 - Real.pi / 2.0) * s.tw * s.r ^ 2

/-- `elastic_section_modulus_y`, 92-95. -/
noncomputable def Wely : ℝ := s.Iy / (0.5 * s.h)

/-- `elastic_section_modulus_z`, 98-101. -/
noncomputable def Welz : ℝ := s.Iz / (0.5 * s.b)

/-- `iy`, isections.py 83-85. -/
noncomputable def iy : ℝ := √(s.Iy / s.A)

/-- `iz`, isections.py 87-89. -/
noncomputable def iz : ℝ := √(s.Iz / s.A)

end ISec

/-- The class attributes of `ISections`, isections.py 92-193: name, `h`, `b`, `tw`, `tf`, `r`. -/
def catalogue : List (String × ℚ × ℚ × ℚ × ℚ × ℚ) :=
  [("IPE80", 80, 46, 38/10, 52/10, 5),
   ("IPE100", 100, 55, 41/10, 57/10, 7),
   ("IPE120", 120, 64, 44/10, 63/10, 7),
   ("IPE140", 140, 73, 47/10, 69/10, 7),
   ("IPE160", 160, 82, 5, 74/10, 9),
   ("IPE180", 180, 91, 53/10, 8, 9),
   ("IPE200", 200, 100, 56/10, 85/10, 12),
   ("IPE220", 220, 110, 59/10, 92/10, 12),
   ("IPE240", 240, 120, 62/10, 98/10, 15),
   ("IPE270", 270, 135, 66/10, 102/10, 15),
   ("IPE300", 300, 150, 71/10, 107/10, 15),
   ("IPE330", 330, 160, 75/10, 115/10, 18),
   ("IPE360", 360, 170, 8, 127/10, 18),
   ("IPE400", 400, 180, 86/10, 135/10, 21),
   ("IPE450", 450, 190, 94/10, 146/10, 21),
   ("IPE500", 500, 200, 102/10, 16, 21),
   ("IPE550", 550, 210, 111/10, 172/10, 24),
   ("IPE600", 600, 220, 12, 19, 24),
   ("HEA100", 96, 100, 5, 8, 12),
   ("HEA120", 114, 120, 5, 8, 12),
   ("HEA140", 133, 140, 55/10, 85/10, 12),
   ("HEA160", 152, 160, 6, 9, 15),
   ("HEA180", 171, 180, 6, 95/10, 15),
   ("HEA200", 190, 200, 65/10, 10, 18),
   ("HEA220", 210, 220, 7, 11, 18),
   ("HEA240", 230, 240, 75/10, 12, 21),
   ("HEA260", 250, 260, 75/10, 125/10, 24),
   ("HEA280", 270, 280, 8, 13, 24),
   ("HEA300", 290, 300, 85/10, 14, 27),
   ("HEA320", 310, 300, 9, 155/10, 27),
   ("HEA340", 330, 300, 95/10, 165/10, 27),
   ("HEA360", 350, 300, 10, 175/10, 27),
   ("HEA400", 390, 300, 11, 19, 27),
   ("HEA450", 440, 300, 115/10, 21, 27),
   ("HEA500", 490, 300, 12, 23, 27),
   ("HEA550", 540, 300, 125/10, 24, 27),
   ("HEA600", 590, 300, 13, 25, 27),
   ("HEA650", 640, 300, 135/10, 26, 27),
   ("HEA700", 690, 300, 145/10, 27, 27),
   ("HEA800", 790, 300, 15, 28, 30),
   ("HEA900", 890, 300, 16, 30, 30),
   ("HEA1000", 990, 300, 165/10, 31, 30),
   ("HEB100", 100, 100, 6, 10, 12),
   ("HEB120", 120, 120, 65/10, 11, 12),
   ("HEB140", 140, 140, 7, 12, 12),
   ("HEB160", 160, 160, 8, 13, 15),
   ("HEB180", 180, 180, 85/10, 14, 15),
   ("HEB200", 200, 200, 9, 15, 18),
   ("HEB220", 220, 220, 95/10, 16, 18),
   ("HEB240", 240, 240, 10, 17, 21),
   ("HEB260", 260, 260, 10, 175/10, 24),
   ("HEB280", 280, 280, 105/10, 18, 24),
   ("HEB300", 300, 300, 11, 19, 27),
   ("HEB320", 320, 300, 115/10, 205/10, 27),
   ("HEB340", 340, 300, 12, 215/10, 27),
   ("HEB360", 360, 300, 125/10, 225/10, 27),
   ("HEB400", 400, 300, 135/10, 24, 27),
   ("HEB450", 450, 300, 14, 26, 27),
   ("HEB500", 500, 300, 145/10, 28, 27),
   ("HEB550", 550, 300, 15, 29, 27),
   ("HEB600", 600, 300, 155/10, 30, 27),
   ("HEB650", 650, 300, 16, 31, 27),
   ("HEB700", 700, 300, 17, 32, 27),
   ("HEB800", 800, 300, 175/10, 33, 30),
   ("HEB900", 900, 300, 185/10, 35, 30),
   ("HEB1000", 1000, 300, 19, 36, 30),
   ("HEM100", 120, 106, 12, 20, 12),
   ("HEM120", 140, 126, 125/10, 21, 12),
   ("HEM140", 160, 146, 13, 22, 12),
   ("HEM160", 180, 166, 14, 23, 15),
   ("HEM180", 200, 186, 145/10, 24, 15),
   ("HEM200", 220, 206, 15, 25, 18),
   ("HEM220", 240, 226, 155/10, 26, 18),
   ("HEM240", 270, 248, 18, 32, 21),
   ("HEM260", 290, 268, 18, 325/10, 24),
   ("HEM280", 310, 288, 185/10, 33, 24),
   ("HEM300", 340, 310, 21, 39, 27),
   ("HEM320", 359, 309, 21, 40, 27),
   ("HEM340", 377, 309, 21, 40, 27),
   ("HEM360", 395, 308, 21, 40, 27),
   ("HEM400", 432, 307, 21, 40, 27),
   ("HEM450", 478, 307, 21, 40, 27),
   ("HEM500", 524, 306, 21, 40, 27),
   ("HEM550", 572, 306, 21, 40, 27),
   ("HEM600", 620, 305, 21, 40, 27),
   ("HEM650", 668, 305, 21, 40, 27),
   ("HEM700", 716, 304, 21, 40, 27),
   ("HEM800", 814, 303, 21, 40, 30),
   ("HEM900", 910, 302, 21, 40, 30),
   ("HEM1000", 1008, 302, 21, 40, 30)]

/-- An entry of the catalogue as a section. -/
noncomputable def entry (e : String × ℚ × ℚ × ℚ × ℚ × ℚ) : ISec :=
  ⟨e.2.1, e.2.2.1, e.2.2.2.1, e.2.2.2.2.1, e.2.2.2.2.2⟩

/-- `SteelMaterial`, materials/steel.py 10-33, without density. -/
structure Material where
  (fy fu fy40 E : ℝ)

/-- The constructor with `__post_init__`, 24-33; 210e3 MPa is the default for `E`. -/
noncomputable def newMaterial (fy fu : ℝ) (fy40 : Option ℝ := none) (E : ℝ := 210000) : Material :=
  ⟨fy, fu, fy40.getD fy, E⟩

/-- The materials of `Steel`, 35-51. -/
noncomputable def steels : List Material :=
  [newMaterial 235 360, newMaterial 275 430, newMaterial 355 510, newMaterial 355 510, newMaterial 420 500]

/-- The materials of `StainlessSteel`, 54-62. -/
noncomputable def stainless : List Material :=
  [newMaterial 230 540 (E := 200), newMaterial 210 520 (E := 200), newMaterial 210 520 (E := 200),
   newMaterial 190 500 (E := 200)]

/-- `SteelSection`, design/steel_section.py 21-84: material and profile. -/
structure Section where
  material : Material
  profile : ISec

namespace Section
variable (s : Section)

/-- `NcRd`, 24-29; `gammaM0` is 1. -/
noncomputable def NcRd : ℝ := s.profile.A * s.material.fy / 1.0
/-- `NtRd`, 31-37. -/
noncomputable def NtRd : ℝ := s.material.fy * s.profile.A / 1.0
/-- `VyRd`, 39-45. -/
noncomputable def VyRd : ℝ := s.profile.Avy * s.material.fy / √3 / 1.0
/-- `VzRd`, 47-53. -/
noncomputable def VzRd : ℝ := s.profile.Avz * s.material.fy / √3 / 1.0
/-- `MplyRd`, 55-61. -/
noncomputable def MplyRd : ℝ := s.profile.Wply * s.material.fy / 1.0
/-- `MelyRd`, 63-69. -/
noncomputable def MelyRd : ℝ := s.profile.Wely * s.material.fy / 1.0
/-- `MplzRd`, 71-77. -/
noncomputable def MplzRd : ℝ := s.profile.Wplz * s.material.fy / 1.0
/-- `MelzRd`, 79-84. -/
noncomputable def MelzRd : ℝ := s.profile.Welz * s.material.fy / 1.0

end Section

/-- A unit of force or mass, `Unit` of settings.py 45-62: only the factor `base` matters. -/
structure Unit' where
  base : ℝ

/-- `other * unit`, 54-55. -/
def Unit'.rmul (u : Unit') (x : ℝ) : ℝ := x * u.base
/-- `unit * other`, 51-52. -/
def Unit'.mul (u : Unit') (x : ℝ) : ℝ := x * u.base
/-- The number `unit(x)` prints, 60-61 (before it is rounded to two decimals). -/
noncomputable def Unit'.show (u : Unit') (x : ℝ) : ℝ := x / u.base

/-- `Force` and `Mass`, 71-81. -/
noncomputable def N : Unit' := ⟨1⟩
@[inherit_doc N] noncomputable def kN : Unit' := ⟨1000⟩
@[inherit_doc N] noncomputable def MN : Unit' := ⟨1000000⟩
@[inherit_doc N] noncomputable def gram : Unit' := ⟨1 / 1000⟩
@[inherit_doc N] noncomputable def kg : Unit' := ⟨1⟩

/-- A unit of length, `SIBaseUnit` of settings.py 12-42: the field `value` changes; of the seven exponents only `m`
    differs from zero. -/
structure SIUnit where
  (value m : ℝ)

/-- `Length.m` and `Length.mm` as created, 65-68. -/
noncomputable def metre : SIUnit := ⟨1, 1⟩
@[inherit_doc metre] noncomputable def millimetre : SIUnit := ⟨1, 1 / 1000⟩

/-- `other * unit`, 40-42: the entry for metres of the returned array, and the unit afterwards. -/
def SIUnit.rmul (u : SIUnit) (x : ℝ) : ℝ × SIUnit :=
  let u' := { u with value := u.value * x }
  (u'.value * u'.m, u')

/-- Several lengths converted one after another with the same unit. -/
def SIUnit.run (u : SIUnit) : List ℝ → List ℝ
  | [] => []
  | x :: xs => (u.rmul x).1 :: SIUnit.run (u.rmul x).2 xs

/-- Attributes `CFSteelMember` reads from its profile; `none` where the object has no such attribute. -/
structure CFProfile where
  (E G Iw It Iz h : ℝ)
  Aeff : Option ℝ
  fy : Option ℝ
  I : Option (ℝ × ℝ)
  imp : Option (ℝ × ℝ)

/-- What a cold-formed section of `cf_profs.py` offers, 106-296: no `fy`, `I` or `imp_factor`. -/
def coldProfile (E G Iw It Iz h Aeff : ℝ) : CFProfile := ⟨E, G, Iw, It, Iz, h, some Aeff, none, none, none⟩

/-- Reading an attribute. -/
def attr {α : Type} : Option α → Except PyErr α
  | some x => .ok x
  | none => .error .attributeError

/-- `slenderness`, cf_steel_member.py 23-39, with `ncrit` of steel_member.py 220-233. -/
noncomputable def slenderness (p : CFProfile) (L : ℝ) (k : ℝ × ℝ) : Except PyErr (ℝ × ℝ) := do
  let A ← attr p.Aeff
  let fy ← attr p.fy
  let NRd := A * fy
  let I ← attr p.I
  let C := Real.pi ^ 2 * p.E
  pure (√(NRd / (C * I.1 / (L * k.1) ^ 2)), √(NRd / (C * I.2 / (L * k.2) ^ 2)))

/-- `buckling_strength`, cf_steel_member.py 41-69. -/
noncomputable def bucklingStrength (p : CFProfile) (L : ℝ) (k : ℝ × ℝ) : Except PyErr (ℝ × ℝ) := do
  let s ← slenderness p L k
  let A ← attr p.Aeff
  let fy ← attr p.fy
  let a ← attr p.imp
  pure (A * fy * Ec3.bucklingReduction s.1 a.1, A * fy * Ec3.bucklingReduction s.2 a.2)

/-- `Sreq`, cf_steel_member.py 71-80 (the length and height are not zero). -/
noncomputable def Sreq (p : CFProfile) (L : ℝ) : ℝ :=
  let Sw := p.E * p.Iw * Real.pi ^ 2 / L ^ 2
  let St := p.G * p.It
  let Sz := p.E * p.Iz * Real.pi ^ 2 / L ^ 2 * 0.25 * p.h ^ 2
  (Sw + St + Sz) * 70 / p.h ^ 2

end Metku.IProf
