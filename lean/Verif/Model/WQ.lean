import Verif.Model.SteelMember
import Verif.Model.Ec3Plate

/-!
WQ sections: welded box beams with a wide bottom flange (metku/sections/steel/wq.py).

Simplifications: floats are real numbers; division by zero is total here (the theorems assume positive dimensions) except in `check`, where Python's exceptions are kept. Drawing is not modelled.
-/
namespace Metku.WQ

open Metku.Ec3 Metku.Plate Metku.Steel

noncomputable section

/-- `WQSection(h, tw, [bt, bb], [tt, tb], fy)`, wq.py 22-39; `h` is the height from the top of the bottom flange to the top of the section. -/
structure Dims where
  h : ℝ
  bt : ℝ
  bb : ℝ
  tt : ℝ
  tb : ℝ
  tw : ℝ
  fy : ℝ

namespace Dims

variable (d : Dims)

/-- `height`, wq.py 55-58. -/
def height : ℝ := d.h + d.tb
/-- `hw`, wq.py 60-63. -/
def hw : ℝ := d.h - d.tt
/-- `Aw`, wq.py 64-67. -/
def Aw : ℝ := d.h * d.tw
/-- `zw`, wq.py 69-72. -/
def zw : ℝ := d.tb + 1 / 2 * d.h
/-- `Ab`, wq.py 84-87. -/
def Ab : ℝ := d.bb * d.tb
/-- `zb`, wq.py 89-92. -/
def zb : ℝ := 1 / 2 * d.tb
/-- `At`, wq.py 104-107. -/
def At : ℝ := d.bt * d.tt
/-- `zt`, wq.py 109-112. -/
def zt : ℝ := d.tb + d.h - 1 / 2 * d.tt
/-- `lip`, wq.py 119-122. -/
def lip : ℝ := 1 / 2 * (d.bb - d.bt) - d.tw

/-- `area`, the attribute `A`, wq.py 204-206. -/
def area : ℝ := 2 * d.Aw + d.At + d.Ab

/-- `shear_area`, wq.py 208-210. -/
def shearArea : ℝ := 2 * shearEta d.fy * d.hw * d.tw

/-- `paint_area`, the attribute `Au`, wq.py 212-214. -/
def paintArea : ℝ := d.bb + 2 * d.tb + 2 * d.lip + 2 * (d.h + d.tw) + d.bt

/-- `elastic_neutral_axis`, wq.py 217-222. -/
def zel : ℝ := (d.zb * d.Ab + d.zw * d.Aw + d.zt * d.At) / d.area

/-- `plastic_neutral_axis`, wq.py 224-230: measured downwards from the bottom of the top flange. -/
def dpl : ℝ := 1 / 2 * (d.hw - d.tt) - 1 / 4 * (d.At - d.Ab) / d.tw

/-- `second_moment()[0]`, wq.py 237-239. -/
def Iy : ℝ :=
  1 / 12 * d.bb * d.tb ^ 3 + (d.zel - d.zb) ^ 2 * d.Ab + 1 / 6 * d.tw * d.h ^ 3 + (d.zel - d.zw) ^ 2 * 2 * d.Aw + 1 / 12 * d.bt * d.tt ^ 3 + (d.zel - d.zt) ^ 2 * d.At

/-- `second_moment()[1]`, wq.py 243-245. -/
def Iz : ℝ := 1 / 12 * d.tb * d.bb ^ 3 + 1 / 12 * d.tt * d.bt ^ 3 + 1 / 6 * d.h * d.tw ^ 3 + (1 / 2 * (d.bt + d.tw)) ^ 2 * 2 * d.Aw

/-- `section_modulus()[0]`, wq.py 255-259. -/
def WelY : ℝ := d.Iy / max d.zel (d.h + d.bb - d.zel)

/-- `section_modulus()[1]`, wq.py 260. -/
def WelZ : ℝ := d.Iz / (1 / 2 * d.bb)

/-- `plastic_section_modulus()[0]`, wq.py 271-291. -/
def WplY : ℝ :=
  if d.dpl < 0 then 0
  else if d.dpl > d.hw then 0
  else
    d.At * (d.dpl + 1 / 2 * d.tt) + 2 * (d.dpl + d.tt) * d.tw * (1 / 2 * (d.dpl + d.tt)) + 2 * (d.hw - d.dpl) * d.tw * (1 / 2 * (d.hw - d.dpl)) +
      d.Ab * (d.hw - d.dpl + 1 / 2 * d.tb)

/-- `plastic_section_modulus()[1]`, wq.py 294-295. -/
def WplZ : ℝ := 1 / 4 * d.Ab * d.bb + 1 / 4 * d.At * d.bt + d.Aw * (d.bt + d.tw)

/-- `flange_class`, wq.py 124-136. -/
def flangeClass : ℕ := internalCompression (d.bt / d.tt) (epsilon d.fy)

/-- `web_class_comp`, wq.py 138-149. -/
def webComp : ℕ := internalCompression (d.hw / d.tw) (epsilon d.fy)

/-- `web_class_bend`, wq.py 151-168. -/
def webBend : ℕ := internalCompBend (d.hw / d.tw) (epsilon d.fy) (d.dpl / d.hw) (d.zel / (d.height - d.zel))

/-- `web_class_comp_bend(Ned)`, wq.py 170-188. -/
def webCompBend (N : ℝ) : ℕ := internalCompBend (d.hw / d.tw) (epsilon d.fy) (1 / 2 * (d.area + N / (d.fy / Ec3.gammaM0)) / d.area) (-1)

end Dims

/-- `moment_axial_force_interact`, wq.py 190-202: `2 * self.b * self.tf` multiplies two lists. -/
def momentAxial (_d : Dims) (_UN _MRd : ℝ) : Except PyErr ℝ := .error .typeError

/-- `section_class`, steel_section.py 465-511, with the classes of the parts of a `WQSection`. -/
def sectionClass (d : Dims) (N M : ℝ) : ℕ :=
  if N ≥ 0 ∧ |M| < 1 / 10 ^ 4 then 1
  else if |N| < 1 / 10 ^ 4 ∧ |M| > 1 / 10 ^ 4 then max d.webBend d.flangeClass
  else if N < 0 ∨ M = 0 then
    if |M| < 1 / 10 ^ 4 then max d.webComp d.flangeClass else max (d.webCompBend N) d.flangeClass
  else 1

/-- `bending_resistance(C, axis)` of the base class, steel_section.py 524-550. -/
def bending (d : Dims) (C : ℕ) (a : Axis) : ℝ :=
  if C < 3 then bendingResistance (a.of (d.WplY, d.WplZ)) d.fy else bendingResistance (a.of (d.WelY, d.WelZ)) d.fy

/-- A `WQSection` object: its dimensions and the attribute `Ashear`, a list or a number. -/
structure Obj where
  d : Dims
  ashear : List ℝ ⊕ ℝ

/-- The constructor, wq.py 22-53: the base class makes the list `[0.0, 1.0]` of the argument `Ashear=1.0` (steel_section.py 108-111), and the number `shear_area()` then replaces it. -/
def Obj.new (d : Dims) : Obj :=
  let o : Obj := ⟨d, .inl [0, 1]⟩
  { o with ashear := .inr d.shearArea }

/-- Indexing the attribute `Ashear`. -/
def Obj.ashearAt (o : Obj) (i : ℕ) : Except PyErr ℝ := match o.ashear with
  | .inl l => match l[i]? with
    | some v => .ok v
    | none => .error .indexError
  | .inr _ => .error .typeError

/-- `section_resistance(axis)`: the list `[UN, UV, UM, UMN]`, steel_section.py 623-666. -/
def check (o : Obj) (N : ℝ) (Med Ved : ℝ × ℝ) (a : Axis) : Except PyErr (ℝ × ℝ × ℝ × ℝ) := do
  let d := o.d
  let C := sectionClass d N Med.1
  let MRd := bending d C a
  let V : ℝ := match a with
    | .y => Ved.2
    | .z => Ved.1
  let Av ← o.ashearAt (match a with | .y => 1 | .z => 0)
  let UN ← pyDiv |N| (compressionResistance d.area d.fy)
  let UV ← pyDiv |V| (shearResistance Av d.fy)
  let UM ← pyDiv |a.of Med| MRd
  if C < 3 then
    let MN ← momentAxial d UN MRd
    .ok (UN, UV, UM, if MN > 0 then |a.of Med| / MN else UN + UM)
  else .ok (UN, UV, UM, UN + UM)

end

end Metku.WQ
