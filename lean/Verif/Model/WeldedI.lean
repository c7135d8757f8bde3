import Verif.Model.Ec3
import Verif.Model.Ec3Plate
import Verif.Model.SteelMember

/-!
Model of `metku/sections/steel/wi.py`: welded I-sections (`WISection`) with flanges of different size, over the reals.

Simplifications: floats are real numbers; division by zero and `math.sqrt` of negative numbers are total here (the theorems assume positive dimensions), except in `sectionCheck`,
where the zero shear area of the weak axis matters. `fy` is the yield strength of the material. Printing, `__repr__` and drawing are not modelled.
-/
namespace Metku.WI

open Metku.Ec3 Metku.Steel Metku.Plate

noncomputable section

/-- Attributes of a `WISection` that hold its dimensions, wi.py 25-54: the attribute access of lines 110-164 maps `b`, `tf` and `hw` to these. -/
structure Dims where
  h : ℝ
  bt : ℝ
  bb : ℝ
  tt : ℝ
  tb : ℝ
  tw : ℝ
  throat : ℝ
  fy : ℝ

namespace Dims

variable (d : Dims)

/-- `hw`, wi.py 147-148. -/
def hw : ℝ := d.h - d.tt - d.tb
/-- `Aw`, wi.py 173-176. -/
def Aw : ℝ := d.hw * d.tw
/-- `Izw`, wi.py 178-181. -/
def Izw : ℝ := d.hw * d.tw ^ 3 / 12
/-- `Iyw`, wi.py 183-186. -/
def Iyw : ℝ := d.tw * d.hw ^ 3 / 12
/-- `zw`, wi.py 188-191. -/
def zw : ℝ := d.tb + 1 / 2 * d.hw
/-- `Ab`, wi.py 203-206. -/
def Ab : ℝ := d.bb * d.tb
/-- `Izb`, wi.py 208-213. -/
def Izb : ℝ := d.tb * d.bb ^ 3 / 12
/-- `Iyb`, wi.py 215-220. -/
def Iyb : ℝ := d.bb * d.tb ^ 3 / 12
/-- `zb`, wi.py 222-225. -/
def zb : ℝ := 1 / 2 * d.tb
/-- `At`, wi.py 237-240. -/
def At : ℝ := d.bt * d.tt
/-- `Izt`, wi.py 242-247. -/
def Izt : ℝ := d.tt * d.bt ^ 3 / 12
/-- `Iyt`, wi.py 249-254. -/
def Iyt : ℝ := d.bt * d.tt ^ 3 / 12
/-- `zt`, wi.py 256-259. -/
def zt : ℝ := d.h - 1 / 2 * d.tt
/-- `cf_top`, wi.py 261-264. -/
def cfTop : ℝ := 1 / 2 * (d.bt - d.tw) - √2 * d.throat
/-- `cf_bottom`, wi.py 266-269. -/
def cfBottom : ℝ := 1 / 2 * (d.bb - d.tw) - √2 * d.throat
/-- `cw`, wi.py 271-274. -/
def cw : ℝ := d.hw - 2 * √2 * d.throat

/-- `area`, the attribute `A`, wi.py 592-594. -/
def area : ℝ := d.Aw + d.At + d.Ab

/-- `shear_area`, wi.py 596-604. -/
def shearArea : ℝ := shearEta d.fy * d.hw * d.tw

/-- The attribute `Ashear`, wi.py 129-130. -/
def ashear : ℝ × ℝ := (0, d.shearArea)

/-- `paint_area`, the attribute `Au`, wi.py 606-609. -/
def paintArea : ℝ := 2 * d.tt + d.bt + 2 * d.hw + 2 * d.tb + 2 * d.bb - 2 * d.tw

/-- `elastic_neutral_axis`, wi.py 611-616. -/
def zel : ℝ := (d.zb * d.Ab + d.zw * d.Aw + d.zt * d.At) / d.area

/-- `plastic_neutral_axis`, wi.py 641-657. -/
def dpl : ℝ :=
  if d.At ≥ d.area / 2 then d.h - d.area / (2 * d.bt)
  else if d.Ab ≥ d.area / 2 then d.area / (2 * d.bb)
  else (d.area / 2 - d.Ab) / d.tw + d.tb

/-- `second_moment()[0]`, wi.py 663-666. -/
def Iy : ℝ :=
  1 / 12 * d.bb * d.tb ^ 3 + (d.zel - d.zb) ^ 2 * d.Ab + 1 / 12 * d.tw * d.hw ^ 3 + (d.zel - d.zw) ^ 2 * d.Aw +
    1 / 12 * d.bt * d.tt ^ 3 + (d.zel - d.zt) ^ 2 * d.At

/-- `second_moment()[1]`, wi.py 669-670. -/
def Iz : ℝ := 1 / 12 * d.tb * d.bb ^ 3 + 1 / 12 * d.tt * d.bt ^ 3 + 1 / 12 * d.hw * d.tw ^ 3

/-- `section_modulus()[0]`, wi.py 677-684. -/
def WelY : ℝ := d.Iy / max d.zel (d.h - d.zel)

/-- `section_modulus()[1]`, wi.py 687. -/
def WelZ : ℝ := d.Iz / (1 / 2 * max d.bt d.bb)

/-- `plastic_section_modulus()[0]`, wi.py 699-724. -/
def WplY : ℝ :=
  if d.At ≥ d.area / 2 then
    d.bt * (d.h - d.dpl) ^ 2 / 2 + d.bt * (d.dpl - d.hw - d.tb) ^ 2 / 2 + d.Aw * (d.dpl - d.hw / 2 - d.tb) + d.Ab * (d.dpl - d.tb / 2)
  else if d.Ab ≥ d.area / 2 then
    d.At * (d.h - d.dpl - d.tt / 2) + d.Aw * (d.h - d.dpl - d.tt - d.hw / 2) + d.bb * (d.h - d.dpl - d.tt - d.hw) ^ 2 / 2 + d.bb * d.dpl ^ 2 / 2
  else
    d.At * (d.h - d.dpl - d.tt / 2) + d.tw * (d.h - d.dpl - d.tt) ^ 2 / 2 + d.tw * (d.dpl - d.tb) ^ 2 / 2 + d.Ab * (d.dpl - d.tb / 2)

/-- `plastic_section_modulus()[1]`, wi.py 727-728. -/
def WplZ : ℝ := 1 / 4 * d.Ab * d.bb + 1 / 4 * d.At * d.bt + 1 / 4 * d.Aw * d.tw

/-- `torsional_constant`, the attribute `It`, wi.py 732-745. -/
def It : ℝ := 1 / 3 * (d.bt * d.tt ^ 3 + d.bb * d.tb ^ 3 + d.hw * d.tw ^ 3)

/-- `warping_constant`, the attribute `Iw`, wi.py 747-754. -/
def Iw : ℝ := d.tt * d.bt ^ 3 / 12 * (1 - d.tt * d.bt ^ 3 / 12 / d.Iz) * (d.h - d.tt / 2 - d.tb / 2) ^ 2

/-- `shear_centre`, the attribute `zs`, wi.py 444-460: position of the shear centre, from the centroid upwards. -/
def zs : ℝ := (d.Izt * (d.zt - d.zel) + d.Izb * (d.zb - d.zel) + d.Izw * (d.zw - d.zel)) / d.Iz

/-- `wagners_factor`, the attribute `zj`, wi.py 462-488. -/
def zj : ℝ :=
  d.zs - 1 / (2 * d.Iy) * (d.zt * (d.Izt + d.At * d.zt ^ 2 + 3 * d.Iyt) + d.zb * (d.Izb + d.Ab * d.zb ^ 2 + 3 * d.Iyb) +
    d.zw * (d.Izw + d.Aw * d.zw ^ 2 + 3 * d.Iyw))

/-- `flange_class`, wi.py 490-506. -/
def flangeClass : ℕ := outstandCompression (d.cfTop / d.tt) (epsilon d.fy)

/-- `web_class_comp`, wi.py 508-522. -/
def webComp : ℕ := internalCompression (d.cw / d.tw) (epsilon d.fy)

/-- The part of the web in compression as `web_class_bend` computes it, wi.py 531-537. -/
def alpha : ℝ :=
  if d.dpl ≤ d.tb + √2 * d.throat then 1
  else if d.dpl ≥ d.h - d.tt - √2 * d.throat then 0
  else (d.h - d.tt - √2 * d.throat - d.dpl) / (d.h - d.tt - d.tb - 2 * √2)

/-- `web_class_bend`, wi.py 524-552. -/
def webBend : ℕ := internalCompBend (d.cw / d.tw) (epsilon d.fy) d.alpha ((-d.zel + d.tb) / (d.h - d.zel - d.tt))

/-- `web_class_comp_bend(Ned)`, wi.py 554-572. -/
def webCompBend (N : ℝ) : ℕ := internalCompBend (d.hw / d.tw) (epsilon d.fy) (1 / 2 * (d.area + N / (d.fy / Ec3.gammaM0)) / d.area) (-1)

/-- The factor `aw` of `moment_axial_force_interact`, wi.py 582-583. -/
def aw : ℝ := min ((d.area - (d.bt * d.tt - d.bb * d.tb)) / d.area) (1 / 2)

/-- `moment_axial_force_interact`, wi.py 574-590. -/
def momentAxial (UN MRd : ℝ) : ℝ := if UN > 1 then 0 else MRd * min ((1 - UN) / (1 - 1 / 2 * d.aw)) 1

/-- `MfRd`, wi.py 276-286. -/
def MfRd : ℝ :=
  let hf := d.h - 1 / 2 * (d.tb + d.tt)
  min (hf * d.At * d.fy) (hf * d.Ab * d.fy)

end Dims

/-! ### Effective cross-section -/

/-- The dictionaries `eff_top`, `eff_bottom` and `eff_web`, wi.py 65-67. -/
structure Eff where
  rhoT : ℝ
  negT : ℝ
  rhoB : ℝ
  negB : ℝ
  rhoW : ℝ
  negW : ℝ
  be0 : ℝ
  be1 : ℝ
  bc : ℝ

/-- Values after construction, wi.py 65-67. -/
def Eff.fresh (d : Dims) : Eff := ⟨1, 0, 1, 0, 1, 0, 1, 1, 1 / 2 * d.cw⟩

/-- `effective_flange('top')`, wi.py 756-796; also returns `rho`. -/
def effTop (d : Dims) (s : Eff) : Eff × ℝ :=
  let rho := reductionOutstand (lambdaP d.cfTop d.tt (epsilon d.fy) (bucklingFactorTip 1))
  ({ s with rhoT := rho, negT := (1 - rho) * d.cfTop }, rho)

/-- `effective_flange('bottom')`, wi.py 756-796. -/
def effBottom (d : Dims) (s : Eff) : Eff × ℝ :=
  let rho := reductionOutstand (lambdaP d.cfBottom d.tb (epsilon d.fy) (bucklingFactorTip 1))
  ({ s with rhoB := rho, negB := (1 - rho) * d.cfBottom }, rho)

/-- `effective_neutral_axis`, wi.py 618-639. -/
def effAxis (d : Dims) (s : Eff) : ℝ :=
  let AnegB := 2 * s.negB * d.tb
  let AnegT := 2 * s.negT * d.tt
  let zneg := d.h - d.tt - d.throat * √2 - s.be0 - 1 / 2 * s.negW
  let AnegW := s.negW * d.tw
  (d.zb * (d.Ab - AnegB) + d.zt * (d.At - AnegT) + d.zw * d.Aw - zneg * AnegW) / (d.area - AnegB - AnegT - AnegW)

/-- `effective_web(psi)`, wi.py 798-837; also returns `beff`. -/
def effWeb (d : Dims) (s : Eff) (psi : Option ℝ) : Except PyErr (Eff × ℝ) := do
  let p := psi.getD ((-(effAxis d s) + d.tb) / (d.h - effAxis d s - d.tt))
  let k ← bucklingFactorInternal p
  let rho := reductionInternal (lambdaP d.cw d.tw (epsilon d.fy) k) p
  let (beff, be0, be1) := effectiveWidthInternal d.cw p rho
  let s := { s with rhoW := rho, be0 := be0, be1 := be1, bc := if p < 0 then d.cw / (1 - p) else d.cw }
  let ec := d.h - effAxis d s
  .ok ({ s with negW := ec - d.tb - √2 * d.throat - beff }, beff)

/-- Area less the non-effective parts, wi.py 311-314, 330-333. -/
def reducedArea (d : Dims) (s : Eff) : ℝ := d.area - 2 * s.negT * d.tt - 2 * s.negB * d.tb - s.negW * d.tw

/-- `effective_area(psi)`, wi.py 300-314. -/
def effArea (d : Dims) (s : Eff) (psi : ℝ) : Except PyErr (Eff × ℝ) := do
  let s := (effTop d s).1
  let s := (effBottom d s).1
  let (s, _) ← effWeb d s (some psi)
  .ok (s, reducedArea d s)

/-- The property `Aeff`, wi.py 316-334. -/
def aeff (d : Dims) (s : Eff) : Except PyErr (Eff × ℝ) := effArea d s 1

/-- The sums `I_tot + Az2 - z0 ** 2 * A` of one pass, wi.py 386-416. -/
def effSums (d : Dims) (s : Eff) : ℝ :=
  let weld := d.throat * √2
  let he1 := s.be0 + weld
  let he2 := d.cw + weld - s.negW - s.be0
  let At := d.bt * d.tt
  let Ab := d.bb * d.tb
  let A1 := he1 * d.tw
  let A2 := he2 * d.tw
  let Itot := d.bt * d.tt ^ 3 / 12 + d.bb * d.tb ^ 3 / 12 + d.tw * he1 ^ 3 / 12 + d.tw * he2 ^ 3 / 12
  let Az2 := At * (d.h - d.tt / 2) ^ 2 + Ab * (d.tb / 2) ^ 2 + A1 * (d.h - d.tt - he1 / 2) ^ 2 + A2 * (d.tb + he2 / 2) ^ 2
  Itot + Az2 - effAxis d s ^ 2 * (At + Ab + A1 + A2)

/-- The loop of `effective_second_moment_area_y`, wi.py 381-417: `n` passes starting with the ratio `psi`; the value `I` of the previous pass. -/
def effLoop (d : Dims) : ℕ → Eff → ℝ → ℝ → Except PyErr (Eff × ℝ)
  | 0, s, _, I => .ok (s, I)
  | n + 1, s, psi, _ => do
    let (s, _) ← effWeb d s (some psi)
    effLoop d n s ((-(effAxis d s) + d.tb) / (d.h - effAxis d s - d.tt)) (effSums d s)

/-- `effective_second_moment_area_y(psi_init)`, wi.py 374-418. -/
def effSecond (d : Dims) (s : Eff) (psi : ℝ) : Except PyErr (Eff × ℝ) :=
  effLoop d 5 (if psi < 0 then (effTop d s).1 else (effBottom d s).1) psi 0

/-- `W_eff_y`, wi.py 340-346. -/
def weffY (d : Dims) (s : Eff) : Except PyErr (Eff × ℝ) := do
  let (s, I) ← effSecond d s (-1)
  let et := effAxis d s
  .ok (s, I / max et (d.h - et))

/-! ### Resistances -/

/-- The argument `axis`. -/
abbrev Ax := Steel.Axis

/-- `bending_resistance(C, axis)`, wi.py 352-372: for class 4 both entries of `Weff` are evaluated (wi.py 348-350), the second one is `NotImplemented`, and `NotImplemented * fy`
    (en1993_1_1.py `bending_resistance`) raises a `TypeError`. -/
def bending (d : Dims) (s : Eff) (C : ℕ) (a : Ax) : Except PyErr (Eff × ℝ) :=
  if C < 3 then .ok (s, bendingResistance (match a with | .y => d.WplY | .z => d.WplZ) d.fy)
  else if C = 3 then .ok (s, bendingResistance (match a with | .y => d.WelY | .z => d.WelZ) d.fy)
  else do
    let (s, W) ← weffY d s
    match a with
    | .y => .ok (s, bendingResistance W d.fy)
    | .z => .error .typeError

/-- `section_class`, steel_section.py 465-511, with the classes of the parts of a `WISection`. -/
def sectionClass (d : Dims) (N M : ℝ) : ℕ :=
  if N ≥ 0 ∧ |M| < 1 / 10 ^ 4 then 1
  else if |N| < 1 / 10 ^ 4 ∧ |M| > 1 / 10 ^ 4 then max d.webBend d.flangeClass
  else if N < 0 ∨ M = 0 then
    if |M| < 1 / 10 ^ 4 then max d.webComp d.flangeClass else max (d.webCompBend N) d.flangeClass
  else 1

/-- `section_resistance(axis)`: the list `[UN, UV, UM, UMN]`, steel_section.py 623-666: for axis `z` the shear resistance is that of `Ashear[0]`. -/
def sectionCheck (d : Dims) (s : Eff) (N : ℝ) (Med Ved : ℝ × ℝ) (a : Ax) : Except PyErr (ℝ × ℝ × ℝ × ℝ) := do
  let (_, MRd) ← bending d s (sectionClass d N Med.1) a
  let UN ← pyDiv |N| (compressionResistance d.area d.fy)
  let UV ← match a with
    | .y => pyDiv |Ved.2| (shearResistance d.ashear.2 d.fy)
    | .z => pyDiv |Ved.1| (shearResistance d.ashear.1 d.fy)
  let UM ← pyDiv |a.of Med| MRd
  let MN := d.momentAxial UN MRd
  .ok (UN, UV, UM, if sectionClass d N Med.1 < 3 ∧ MN > 0 then |a.of Med| / MN else UN + UM)

/-! ### Construction and assignment of attributes -/

/-- A `WISection`: its dimensions and the imperfection factors `imp_factor`, `imp_factor_LT`, which the constructor alone sets (wi.py 83-97). -/
structure Sec where
  d : Dims
  imp : Curve × Curve
  impLT : Curve

/-- `imp_factor`, wi.py 84-89. -/
def curves (d : Dims) : Curve × Curve := if max d.tt d.tb ≤ 40 then (.b, .c) else (.c, .d)

/-- `imp_factor_LT`, `imp_factor_LT_gen`, wi.py 91-96. -/
def curveLT (d : Dims) : Curve := if d.h / min d.bt d.bb ≤ 2 then .c else .d

/-- `WISection(h, tw, [bt, bb], [tt, tb], fy, weld_throat)`, wi.py 25-97. -/
def Sec.new (d : Dims) : Sec := ⟨d, curves d, curveLT d⟩

/-- Assignable attributes. -/
inductive Attr
  | h | bt | bb | tt | tb | tw | throat | b | tf | hw
  deriving DecidableEq

/-- `__setattr__` with a number, wi.py 152-166. -/
def Dims.set (d : Dims) (a : Attr) (v : ℝ) : Dims := match a with
  | .h => { d with h := v }
  | .bt => { d with bt := v }
  | .bb => { d with bb := v }
  | .tt => { d with tt := v }
  | .tb => { d with tb := v }
  | .tw => { d with tw := v }
  | .throat => { d with throat := v }
  | .b => { d with bt := v, bb := v }
  | .tf => { d with tt := v, tb := v }
  | .hw => { d with h := v + d.tt + d.tb }

/-- Assignment to a section. -/
def Sec.set (s : Sec) (a : Attr) (v : ℝ) : Sec := { s with d := s.d.set a v }

/-- Attributes as `__getattribute__` reads them, wi.py 110-150; `b` and `tf` read as pairs (top, bottom). -/
def Dims.get (d : Dims) (a : Attr) : ℝ × ℝ := match a with
  | .h => (d.h, d.h)
  | .bt => (d.bt, d.bt)
  | .bb => (d.bb, d.bb)
  | .tt => (d.tt, d.tt)
  | .tb => (d.tb, d.tb)
  | .tw => (d.tw, d.tw)
  | .throat => (d.throat, d.throat)
  | .b => (d.bt, d.bb)
  | .tf => (d.tt, d.tb)
  | .hw => (d.hw, d.hw)

end

end Metku.WI
