import Verif.Model.SteelGeom
import Verif.Model.Ec3
import Verif.Model.PyErr

/-!
Model of the section checks (metku/sections/steel/steel_section.py, RHS.py, ISection.py) and of `SteelMember` (metku/structures/steel/steel_member.py).

Simplifications: real arithmetic; a profile is the record of the attributes the checks read (`rhsProfile`, `iProfile` build it from dimensions and yield strength as the constructors do);
the forces stored on the profile are passed explicitly; printing (`verb`) and warnings are left out; division of Python floats by zero raises, divisions whose divisor is an entry of a
numpy array (bending resistances, buckling resistances) are total and the theorems assume positive section data.
-/
namespace Metku.Steel

open Real Ec3

noncomputable section

/-- Attributes of a profile that the checks read. `aw` is the ratio of `moment_axial_force_interact` (RHS.py 241, ISection.py 344). -/
structure Profile where
  fy : ℝ
  E : ℝ
  G : ℝ
  sec : SectionProps
  It : ℝ
  Iw : ℝ
  imp : ℝ × ℝ
  impLT : ℝ
  impLTgen : ℝ
  aw : ℝ
  flangeClass : ℕ
  webComp : ℕ
  webBend : ℕ
  webCompBend : ℝ → ℝ → ℕ

/-- Rectangular hollow section as a profile: RHS.py 27-68 (constructor), 173-218 (classes; `web_class_comp_bend` returns 2), 241 (`aw`). Shear modulus from the material, steel_data.py 52 with E = 210000, v = 0.3. -/
def rhsProfile (H B T fy : ℝ) : Profile where
  fy := fy
  E := 210000
  G := 210000 / 2 / (1 + 3 / 10)
  sec := (RHS.new H B T).props
  It := ((RHS.new H B T).It).getD 0
  Iw := 0
  imp := (Curve.c.imp, Curve.c.imp)
  impLT := Curve.c.imp
  impLTgen := Curve.c.imp
  aw := min (((RHS.new H B T).props.A - 2 * B * T) / (RHS.new H B T).props.A) (1 / 2)
  flangeClass := internalCompression ((B - 2 * rhsOuterRadius T) / T) (epsilon fy)
  webComp := internalCompression ((H - 2 * rhsOuterRadius T) / T) (epsilon fy)
  webBend := internalBending ((H - 2 * rhsOuterRadius T) / T) (epsilon fy)
  webCompBend := fun _ _ => 2

/-- Buckling curves of rolled I-sections, ISection.py 47-78. -/
def iCurves (H B tf fy : ℝ) : Curve × Curve :=
  if H / B > 12 / 10 then
    if tf ≤ 40 then (if fy ≤ 420 then (.a, .b) else (.a0, .a0))
    else (if fy ≤ 420 then (.b, .c) else (.a, .a))
  else
    if tf ≤ 100 then (if fy ≤ 420 then (.b, .c) else (.a, .a))
    else (if fy ≤ 420 then (.d, .d) else (.c, .c))

/-- `web_class_comp_bend` with approach 1, ISection.py 222-330; `N` tension positive. -/
def iWebCompBend (b h tf tw r fy N M : ℝ) : ℕ :=
  let sN := N / (iProps b h tf tw r).A
  let sM := M / (iProps b h tf tw r).Wel.1
  let cw := h - 2 * tf - 2 * r
  let NRweb := cw * tw * fy
  let a := if -N ≥ NRweb then 1 else if -N ≤ -NRweb then 0 else 1 / 2 * (1 - N / NRweb)
  let p := if sN > cw / h * |sM| then 1 else (sN + sM) / (sN - sM)
  internalCompBend (cw / tw) (epsilon fy) a p

/-- Rolled I-section as a profile, ISection.py 26-88 (constructor), 142-220 (classes), 344 (`aw`). -/
def iProfile (H B tf tw r fy : ℝ) : Profile where
  fy := fy
  E := 210000
  G := 210000 / 2 / (1 + 3 / 10)
  sec := iProps B H tf tw r
  It := iTorsion B H tf tw r
  Iw := iWarping B H tf
  imp := ((iCurves H B tf fy).1.imp, (iCurves H B tf fy).2.imp)
  impLT := if H / B ≤ 2 then Curve.b.imp else Curve.c.imp
  impLTgen := if H / B ≤ 2 then Curve.a.imp else Curve.b.imp
  aw := min (((iProps B H tf tw r).A - 2 * B * tf) / (iProps B H tf tw r).A) (1 / 2)
  flangeClass := outstandCompression ((1 / 2 * (B - tw) - r) / tf) (epsilon fy)
  webComp := internalCompression ((H - 2 * tf - 2 * r) / tw) (epsilon fy)
  webBend := internalBending ((H - 2 * tf - 2 * r) / tw) (epsilon fy)
  webCompBend := iWebCompBend B H tf tw r fy

/-- `section_class`, steel_section.py 465-511, for axial force `N` (tension positive) and `Med[0] = M`. -/
def sectionClass (P : Profile) (N M : ℝ) : ℕ :=
  if N ≥ 0 ∧ |M| < 1 / 10 ^ 4 then 1
  else if |N| < 1 / 10 ^ 4 ∧ |M| > 1 / 10 ^ 4 then max P.webBend P.flangeClass
  else if N < 0 ∨ M = 0 then
    if |M| < 1 / 10 ^ 4 then max P.webComp P.flangeClass else max (P.webCompBend N M) P.flangeClass
  else 1

/-- The argument `axis`. -/
inductive Axis
  | y | z
  deriving DecidableEq

/-- Entry of a pair for an axis. -/
def Axis.of (a : Axis) (p : ℝ × ℝ) : ℝ := match a with
  | .y => p.1
  | .z => p.2

/-- `bending_resistance(C, axis)` for a given class, steel_section.py 524-550: plastic modulus below class 3, elastic modulus otherwise (class 4 with a warning). -/
def momentResistance (P : Profile) (C : ℕ) (a : Axis) : ℝ :=
  bendingResistance (if C < 3 then a.of P.sec.Wpl else a.of P.sec.Wel) P.fy

/-- `VyRd`, `VzRd`, steel_section.py 287-297: for axis `y` the shear area along the height is used and vice versa. -/
def shearFor (P : Profile) (a : Axis) : ℝ := match a with
  | .y => shearResistance P.sec.Ashear.2 P.fy
  | .z => shearResistance P.sec.Ashear.1 P.fy

/-- `moment_axial_force_interact`, RHS.py 234-248, ISection.py 337-351. -/
def axialInteract (aw UN MRd : ℝ) : ℝ := if UN > 1 then 0 else MRd * min ((1 - UN) / (1 - 1 / 2 * aw)) 1

/-- Utilisation ratios of a section. -/
structure SecUtil where
  n : ℝ
  v : ℝ
  m : ℝ
  mn : ℝ

def SecUtil.toList (u : SecUtil) : List ℝ := [u.n, u.v, u.m, u.mn]

/-- Division of Python floats. -/
def pyDiv (x y : ℝ) : Except PyErr ℝ := if y = 0 then .error .zeroDivision else .ok (x / y)

/-- `section_resistance(axis)`, steel_section.py 623-673; `N`, `Med = (My, Mz)`, `Ved = (Vy, Vz)` are the forces stored on the profile. -/
def sectionResistance (P : Profile) (N : ℝ) (Med Ved : ℝ × ℝ) (a : Axis) : Except PyErr SecUtil := do
  let C := sectionClass P N Med.1
  let MRd := momentResistance P C a
  let M := a.of Med
  let V := match a with
    | .y => Ved.2
    | .z => Ved.1
  let UN ← pyDiv |N| (compressionResistance P.sec.A P.fy)
  let UV ← pyDiv |V| (shearFor P a)
  let UM := |M| / MRd
  let UMN := if C < 3 then
      (if axialInteract P.aw UN MRd > 0 then |M| / axialInteract P.aw UN MRd else UN + UM)
    else UN + UM
  pure { n := UN, v := UV, m := UM, mn := UMN }

/-! ### Member -/

/-- Internal forces of a section of a member, steel_member.py 563-569. -/
structure Forces where
  N : ℝ
  My : ℝ
  Mz : ℝ
  Vy : ℝ
  Vz : ℝ

/-- `SteelMember`, steel_member.py 28-90: profile, length, buckling-length factors, susceptibility to lateral-torsional buckling, stored moment factor `__Cmy`, sections in the order of the dictionary. -/
structure Member where
  P : Profile
  length : ℝ
  lcr : ℝ × ℝ
  LTB : Bool
  cmy : ℝ
  sections : List (ℝ × Forces)

/-- `add_section`: a dictionary entry, replaced in place if the location exists (steel_member.py 563-569). -/
def Member.addSection (m : Member) (loc : ℝ) (f : Forces) : Member :=
  { m with sections := if m.sections.any (fun s => s.1 = loc) then m.sections.map (fun s => if s.1 = loc then (loc, f) else s) else m.sections ++ [(loc, f)] }

/-- `sections[loc]`. -/
def Member.find (m : Member) (loc : ℝ) : Option Forces := (m.sections.find? (fun s => s.1 = loc)).map Prod.snd

/-- `ncrit`, steel_member.py 220-233, one axis. -/
def Member.ncrit (m : Member) (a : Axis) : ℝ := π ^ 2 * m.P.E * a.of m.P.sec.I / (m.length * a.of m.lcr) ^ 2

/-- `slenderness`, steel_member.py 246-263, one axis. -/
def Member.slend (m : Member) (a : Axis) : ℝ := √(m.P.sec.A * m.P.fy / m.ncrit a)

/-- `buckling_strength`, steel_member.py 296-321, one axis. -/
def Member.NbRd (m : Member) (a : Axis) : ℝ :=
  let l := m.slend a
  let p := 1 / 2 * (1 + a.of m.P.imp * (l - 2 / 10) + l ^ 2)
  m.P.sec.A * m.P.fy * min (1 / (p + √(p ^ 2 - l ^ 2))) 1

/-- `i0`² of steel_section.py 257-267 (section not rotated). -/
def Profile.i0sq (P : Profile) : ℝ := √(√(P.sec.I.1 / P.sec.A) ^ 2 + √(P.sec.I.2 / P.sec.A) ^ 2) ^ 2

/-- `ncrit_T`, steel_member.py 235-244. -/
def Member.ncritT (m : Member) : ℝ := 1 / m.P.i0sq * (m.P.G * m.P.It + π ^ 2 * m.P.E * m.P.Iw / m.length ^ 2)

/-- `torsional_buckling_strength`, steel_member.py 323-342. -/
def Member.NbTRd (m : Member) : ℝ :=
  let l := √(m.P.sec.A * m.P.fy / m.ncritT)
  let p := 1 / 2 * (1 + m.P.imp.2 * (l - 2 / 10) + l ^ 2)
  min (1 / (p + √(p ^ 2 - l ^ 2))) 1 * (m.P.sec.A * m.P.fy)

/-- `mcrit` for doubly symmetric profiles, steel_member.py 402-437; `E`, `G` are the constants 210000 and 81000 of constants.py, whatever the profile stores. -/
def Member.mcrit (m : Member) (C1 C2 kz kw za : ℝ) : ℝ :=
  let Iz := m.P.sec.I.2
  let part1 := C1 * (π ^ 2 * 210000 * Iz) / (kz * m.length) ^ 2
  let part2 := √((kz / kw) ^ 2 * m.P.Iw / Iz + (kz * m.length) ^ 2 * 81000 * m.P.It / (π ^ 2 * 210000 * Iz) + (C2 * za) ^ 2)
  part1 * (part2 - C2 * za)

/-- Maximum of the absolute values of a list (`MEdY` and others, steel_member.py 171-187); `max` of an empty array raises ValueError. -/
def maxAbs : List ℝ → Except PyErr ℝ
  | [] => .error .valueError
  | x :: l => .ok (l.foldl (fun r y => max r |y|) |x|)

/-- `NcEd`, steel_member.py 184-187: minimum of the forces clipped at zero from above; ValueError for an empty array. -/
def minClip : List ℝ → Except PyErr ℝ
  | [] => .error .valueError
  | x :: l => .ok (l.foldl (fun r y => min r (min y 0)) (min x 0))

/-- `LT_buckling_strength(Mcr, method)`, steel_member.py 344-378; `MEd` is `MEdY`. -/
def LTStrength (P : Profile) (MRd Mcr MEd : ℝ) (general : Bool) : ℝ :=
  let l := √(MRd / Mcr)
  let alpha := if general then P.impLTgen else P.impLT
  let l0 := if general then 2 / 10 else 4 / 10
  let beta := if general then 1 else 3 / 4
  let cmax := if general then 1 else min 1 (1 / l ^ 2)
  let chi := if l ≤ l0 ∨ MEd / Mcr ≤ l0 ^ 2 then 1 else
    let p := 1 / 2 * (1 + alpha * (l - l0) + beta * l ^ 2)
    min (1 / (p + √(p ^ 2 - beta * l ^ 2))) cmax
  chi * MRd

/-- `Cmy(sway, "uniform")`, steel_member.py 198-218: end moments at the keys 0 and 1, span moment at the key 0.5; without end moments the stored value. -/
def Member.cm (m : Member) (sway : Bool) : ℝ :=
  if sway then 9 / 10
  else match m.find 0, m.find 1 with
    | some f0, some f1 => equivalentMomentFactor f0.My f1.My ((m.find (1 / 2)).map Forces.My) true
    | _, _ => m.cmy

/-- `check_section(loc)`, steel_member.py 597-606: only `N`, `My`, `Vz` are handed to the profile. -/
def checkSection (P : Profile) (f : Forces) : Except PyErr SecUtil := sectionResistance P f.N (f.My, 0) (0, f.Vz) .y

/-- Largest entry. -/
def SecUtil.max (u : SecUtil) : ℝ := Max.max (Max.max (Max.max u.n u.v) u.m) u.mn

/-- `check_sections`, steel_member.py 623-629. -/
def Member.checkSections (m : Member) : Except PyErr ℝ :=
  m.sections.foldlM (fun r s => do
    let u ← checkSection m.P s.2
    pure (max r u.max)) 0

/-- `Med[0]` of the profile after `check_sections`: the moment of the last section. -/
def Member.lastMy (m : Member) : ℝ := match m.sections.getLast? with
  | some s => s.2.My
  | none => 0

/-- `Ned` of the profile after `check_sections`. -/
def Member.lastN (m : Member) : ℝ := match m.sections.getLast? with
  | some s => s.2.N
  | none => 0

/-- `check_buckling`, steel_member.py 636-656, one axis, for the largest compression `NcEd < 0`. -/
def Member.bucklingUtil (m : Member) (NcEd : ℝ) (a : Axis) : ℝ := |NcEd| / m.NbRd a

/-- `check_LT_buckling`, steel_member.py 658-666. -/
def Member.checkLT (m : Member) : Except PyErr ℝ := do
  let MEd ← maxAbs (m.sections.map (·.2.My))
  let MRd := momentResistance m.P (sectionClass m.P m.lastN m.lastMy) .y
  pure (|MEd| / LTStrength m.P MRd (m.mcrit (112 / 100) (45 / 100) 1 1 0) MEd false)

/-- `check_beamcolumn(sway)`, steel_member.py 668-758. With `LTB` the attribute `CmLT` is read, which does not exist (line 707). -/
def Member.checkBeamColumn (m : Member) (sway : Bool) : Except PyErr (ℝ × ℝ) := do
  let MyEd ← maxAbs (m.sections.map (·.2.My))
  if |MyEd| < 1 / 10 ^ 6 then pure (0, 0)
  else do
    let NEd ← minClip (m.sections.map (·.2.N))
    let C := sectionClass m.P NEd m.lastMy
    let ky := kyy (|NEd| / m.NbRd .y) (m.slend .y) (m.cm sway) C
    let kz ← if m.LTB then Except.error PyErr.attributeError
      else do
        let MzEd ← maxAbs (m.sections.map (·.2.Mz))
        if MzEd = 0 then pure 0 else if C < 3 then pure (6 / 10 * ky) else pure (8 / 10 * ky)
    let MRd := momentResistance m.P C .y
    pure (-NEd / m.NbRd .y + ky * MyEd / MRd, -NEd / m.NbRd .z + kz * MyEd / MRd)

/-- `design(sway)`, steel_member.py 772-797. -/
def Member.design (m : Member) (sway : Bool) : Except PyErr ℝ := do
  let r ← m.checkSections
  let r ← if m.LTB then do
      let u ← m.checkLT
      pure (max r u)
    else pure r
  let NcEd ← minClip (m.sections.map (·.2.N))
  if NcEd < 0 then do
    let bc ← m.checkBeamColumn sway
    let r := max r (max (m.bucklingUtil NcEd .y) (m.bucklingUtil NcEd .z))
    pure (max r (max bc.1 bc.2))
  else pure r

end
end Metku.Steel
