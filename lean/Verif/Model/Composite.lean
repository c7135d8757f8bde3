import Mathlib.Analysis.SpecialFunctions.Pow.Real
import Verif.Model.Ec3
import Verif.Model.Ec3Fire

/-!
Model of composite columns and beams: `metku/sections/composite/composite_column.py`, `composite_beam.py`, the concrete of
`metku/eurocodes/en1992/constants.py`, the rebars of `en1992_1_1.py` and the shear studs of `metku/eurocodes/en1994/en1994_1_1.py`.

Floats are real numbers.  Steel parts are given by the attributes that are read.  Printing and drawing are left out; the
utilisation of a column, which `design` only prints, is a value.
-/
namespace Metku.Comp

open Metku Real

noncomputable section

/-! ### Concrete and rebars -/

/-- `Concrete`: strength from the table and relative humidity, en1992/constants.py 41-55. -/
structure Concrete where
  (fck RH : ℝ)

namespace Concrete
variable (c : Concrete)

/-- `fcm`, line 50. -/
def fcm : ℝ := c.fck + 8
/-- `Ecm`, line 51. -/
def Ecm : ℝ := 22000 * (c.fcm / 10) ^ (0.3 : ℝ)
/-- `fcd(a_cc)`, lines 60-62; `gammaC = 1.5`. -/
def fcd (acc : ℝ := 0.85) : ℝ := acc * c.fck / 1.5

/-- `phiRH`, lines 79-85 (Eq. (B.3)). -/
def phiRH (h0 : ℝ) : ℝ :=
  if c.fcm ≤ 35 then 1 + (1 - c.RH / 100) / 0.1 / h0 ^ ((1 : ℝ) / 3)
  else (1 + (1 - c.RH / 100) / 0.1 / h0 ^ ((1 : ℝ) / 3) * (35 / c.fcm) ^ (0.7 : ℝ)) * (35 / c.fcm) ^ (0.2 : ℝ)

/-- `betaH`, lines 79-85 (Eq. (B.8)). -/
def betaH (h0 : ℝ) : ℝ :=
  if c.fcm ≤ 35 then min (1.5 * (1 + (0.012 * c.RH) ^ 18) * h0 + 250) 1500
  else min (1.5 * (1 + (0.012 * c.RH) ^ 18) * h0 + 250 * (35 / c.fcm) ^ (0.5 : ℝ)) (1500 * (35 / c.fcm) ^ (0.5 : ℝ))

/-- `creep_coefficient(h0, t, t0)`, lines 68-102, for `h0 > 0`.  Without `t0` the power of `None` raises `TypeError`.  Powers of
    negative numbers (`t0 < 0` or `t < t0`) are complex numbers in Python; they are errors here. -/
def creep (h0 t : ℝ) (t0 : Option ℝ) : Except PyErr ℝ :=
  match t0 with
  | none => .error .typeError
  | some t0 =>
    if t0 < 0 ∨ t < t0 then .error .valueError
    else
      let betaCm := 16.8 / √c.fcm
      let betaT0 := 1 / (0.1 + t0 ^ (0.2 : ℝ))
      .ok (c.phiRH h0 * betaCm * betaT0 * ((t - t0) / (c.betaH h0 + t - t0)) ^ (0.3 : ℝ))

end Concrete

/-- `Rebar`: diameter, yield strength and modulus of the material, en1992_1_1.py 33-92. -/
structure Rebar where
  (d fy E : ℝ)

namespace Rebar
variable (b : Rebar)

/-- `r`. -/
def r : ℝ := 0.5 * b.d
/-- `fyd`; `gammaS = 1.15`. -/
def fyd : ℝ := b.fy / 1.15
/-- `A`. -/
def A : ℝ := π * b.d ^ 2 / 4
/-- `I`. -/
def I : ℝ := 0.25 * π * b.r ^ 4

end Rebar

/-! ### Concrete-filled tubes -/

/-- What is read of the tube: outer dimensions, thickness, outer radius of the corners, area, second moment of area and plastic
    modulus about the major axis, yield strength and modulus. -/
structure Tube where
  (H B T R A I Wpl fy E : ℝ)

/-- `ConcreteFilledTube`, composite_column.py 29-70: length, parts, position of the bar in the first quadrant, number of bars, axial
    force, axial force due to dead loads, end moments, buckling length factors. -/
structure Column where
  (length : ℝ)
  (steel : Tube)
  (concrete : Concrete)
  (rebar : Rebar)
  (pos : ℝ × ℝ)
  (nbars ned nged : ℝ)
  (med lcr : ℝ × ℝ)

namespace Column
variable (p : Column)

/-- `u`, 130-135. -/
def u : ℝ := 0.5 * p.steel.H - p.steel.T - (p.pos.2 + p.rebar.r)
/-- The setter of `u`, 137-139. -/
def setU (u : ℝ) : Column := { p with pos := (p.pos.1, 0.5 * p.steel.H - p.steel.T - u - p.rebar.r) }
/-- `v`, 141-146. -/
def v : ℝ := 0.5 * p.steel.B - p.steel.T - p.pos.1 + p.rebar.r
/-- The setter of `v`, 148-150. -/
def setV (v : ℝ) : Column := { p with pos := (0.5 * p.steel.B - p.steel.T - v - p.rebar.r, p.pos.2) }

/-- The constructor, 29-70: without a position the bars get a cover of 30 mm; without bars the setter reads `None.r`.
    (Without bars but with a position an object is made, but its areas raise the same error; it is an error here.) -/
def new (length : ℝ) (steel : Tube) (concrete : Concrete) (rebar : Option Rebar) (pos : Option (ℝ × ℝ)) : Except PyErr Column :=
  match rebar, pos with
  | some b, none =>
    .ok (((⟨length, steel, concrete, b, (0, 0), 4, 0, 0, (0, 0), (1, 1)⟩ : Column).setU 30).setV 30)
  | some b, some q => .ok ⟨length, steel, concrete, b, q, 4, 0, 0, (0, 0), (1, 1)⟩
  | none, none => .error .attributeError
  | none, some _ => .error .attributeError

/-- `NEd`, 83-86. -/
def NEd : ℝ := |p.ned|
/-- `M1`, 88-94. -/
def M1 : ℝ := if |p.med.1| ≤ |p.med.2| then p.med.1 else p.med.2
/-- `M2`, 97-103. -/
def M2 : ℝ := if |p.med.1| ≤ |p.med.2| then p.med.2 else p.med.1
/-- `fcd`, 110-113. -/
def fcd : ℝ := p.concrete.fcd 1
/-- `z_rebar`, 152-155. -/
def z : ℝ := p.pos.2
/-- `As`, 162-166: always four bars. -/
def As : ℝ := 4 * p.rebar.A
/-- `EIa`, 195-200. -/
def EIa : ℝ := p.steel.E * p.steel.I
/-- `Is`, 202-208. -/
def Is : ℝ := p.nbars * (p.rebar.I + p.rebar.A * p.z ^ 2)
/-- `Wps`, 210-213. -/
def Wps : ℝ := p.nbars * p.rebar.A * p.z
/-- `EIs`, 215-218. -/
def EIs : ℝ := p.rebar.E * p.Is
/-- `Ac`, 243-250. -/
def Ac : ℝ :=
  (p.steel.H - 2 * p.steel.R) * (p.steel.B - 2 * p.steel.T) + 2 * (p.steel.B - 2 * p.steel.R) * (p.steel.R - p.steel.T) +
    π * (p.steel.R - p.steel.T) ^ 2 - p.As
/-- `Ic`, 254-269. -/
def Ic : ℝ :=
  let b := p.steel.B
  let h := p.steel.H
  let t := p.steel.T
  let r := p.steel.R - t
  (b - 2 * t) * (h - 2 * t) ^ 3 / 12 - r ^ 4 / 3 - r ^ 2 * (h - 2 * t - r) ^ 2 + r ^ 4 * (9 * π ^ 2 - 64) / 36 / π +
    π * r ^ 2 * (0.5 * h - t + 4 * r / 3 / π) ^ 2 - p.Is
/-- `Wpc`, 272-281. -/
def Wpc : ℝ :=
  let b := p.steel.B
  let h := p.steel.H
  let t := p.steel.T
  let r := p.steel.R - t
  0.25 * (b - 2 * t) * (h - 2 * t) ^ 2 - 2 * r ^ 3 / 3 - r ^ 2 * (4 - π) * (0.5 * h - t - r) - p.Wps

/-- `weight_per_length`, 73-81 (kN/m). -/
def weight : ℝ := p.steel.A * 7850e-9 * 1e3 * 9.81e-3 + p.Ac * 1e-6 * 24 + 7850e-9 * p.rebar.A * 1e3 * p.nbars * 9.81e-3

/-- `Eceff`, 220-228. -/
def Eceff : Except PyErr ℝ := do
  let phi ← p.concrete.creep 1e11 1e11 (some 28)
  let q ← Fire.pdiv p.nged p.ned
  Fire.pdiv (p.concrete.Ecm * 1) (1 + q * phi)

/-- `EIeff(axis)`, 299-308: `Ic` is bound for the axis `y` only. -/
def EIeff (axis : String) : Except PyErr ℝ := do
  let Ec ← p.Eceff
  if axis = "y" then .ok (p.EIa + p.EIs + 0.6 * Ec * p.Ic) else .error .unboundLocal

/-- `EIeffII(axis)`, 311-321. -/
def EIeffII (axis : String) : Except PyErr ℝ := do
  let Ec ← p.Eceff
  if axis = "y" then .ok (0.9 * (p.EIa + p.EIs + 0.5 * Ec * p.Ic)) else .error .unboundLocal

/-- `reinforcement_ratio`, 369-376. -/
def ratio : Except PyErr ℝ := Fire.pdiv p.As p.Ac

/-- `e0`, 323-333. -/
def e0 : Except PyErr ℝ := do
  let rho ← p.ratio
  .ok (p.length / (if rho ≤ 0.03 then 300 else 200))

/-- `NplRd`, 386-392. -/
def NplRd : ℝ := p.steel.fy * p.steel.A + p.rebar.fyd * p.As + p.fcd * p.Ac
/-- `NplRk`, 394-401. -/
def NplRk : ℝ := p.steel.fy * p.steel.A + p.rebar.fy * p.As + p.concrete.fck * p.Ac

/-- `lcry`, `lcrz`, 120-128. -/
def Lcr (axis : String) : ℝ := if axis = "y" then p.length * p.lcr.1 else p.length * p.lcr.2

/-- `Ncr(axis)`, 403-411. -/
def Ncr (axis : String) : Except PyErr ℝ := do
  let EI ← p.EIeff axis
  Fire.pdiv (π ^ 2 * EI) (p.Lcr axis ^ 2)

/-- `Ncreff(axis)`, 413-421. -/
def Ncreff (axis : String) : Except PyErr ℝ := do
  let EI ← p.EIeffII axis
  Fire.pdiv (π ^ 2 * EI) (p.Lcr axis ^ 2)

/-- `slenderness(axis)`, 424-428. -/
def slenderness (axis : String) : Except PyErr ℝ := do
  let N ← p.Ncr axis
  let q ← Fire.pdiv p.NplRk N
  Fire.psqrt q

/-- `NbRd(axis)`, 430-450. -/
def NbRd (axis : String) : Except PyErr ℝ := do
  let l ← p.slenderness axis
  let rho ← p.ratio
  .ok (Ec3.bucklingReduction l (if rho ≤ 0.03 then 0.21 else 0.34) * p.NplRd)

/-- `NpmRd`, 453-455. -/
def NpmRd : ℝ := p.fcd * p.Ac
/-- `Mpl_max_Rd`, 457-460. -/
def MplMax : ℝ := p.steel.fy * p.steel.Wpl + p.rebar.fyd * p.Wps + 0.5 * p.fcd * p.Wpc

/-- The distance of the neutral axis from the centre with bars of area `Asn` between, 473, 483. -/
def hn (Asn : ℝ) : ℝ :=
  (p.NpmRd - Asn * (2 * p.rebar.fyd - p.fcd)) / (2 * p.steel.B * p.fcd + 4 * p.steel.T * (2 * p.steel.fy - p.fcd))

/-- `MplRd`, 462-501: the neutral axis and the resistance (divisors are positive for positive strengths). -/
def mpl : ℝ × ℝ :=
  let between := decide (p.hn 0 < p.z - p.rebar.r)
  let hn := if between then p.hn 0 else p.hn p.As
  let Wpsn := if between then 0 else p.Wps
  let Wpcn := (p.steel.B - 2 * p.steel.T) * hn ^ 2 - Wpsn
  let Wpan := p.steel.B * hn ^ 2 - Wpcn - Wpsn
  (hn, p.MplMax - (p.steel.fy * Wpan + p.rebar.fyd * Wpsn + 0.5 * p.fcd * Wpcn))

/-- `alpha_m`, 503-510. -/
def alphaM : ℝ := if p.steel.fy ≤ 355 then 0.9 else 0.8

/-- The design moment in `design`, 553-592. -/
def MEd : Except PyErr ℝ := do
  let e0 ← p.e0
  let Med0 := p.NEd * e0
  let N ← p.Ncreff "y"
  if N < 10 * p.NEd then
    let bm := if p.M2 > 0 then max (0.66 + 0.44 * p.M1 / p.M2) 0.44 else 0
    let MEdI := bm * p.M2 + Med0
    let q ← Fire.pdiv p.NEd N
    let k ← Fire.pdiv 1 (1 - q)
    .ok (max (max k 1 * MEdI) p.M2)
  else .ok (Med0 + p.M2)

/-- The reduction factor `muD`, 598-600. -/
def muD : Except PyErr ℝ := do
  let c ← Fire.pdiv p.NpmRd p.NplRd
  let d ← Fire.pdiv p.NEd p.NplRd
  let m ← Fire.pdiv (d - 1) (c - 1)
  .ok (min m 1)

/-- The utilisation ratio printed by `design`, 521-613. -/
def utilisation : Except PyErr ℝ := do
  let _ ← p.slenderness "y"
  let M ← p.MEd
  let mu ← p.muD
  let q ← Fire.pdiv M (mu * p.mpl.2)
  Fire.pdiv q p.alphaM

end Column

/-! ### Composite beams -/

/-- What is read of the steel part of a beam; `lists` if flange widths and thicknesses are lists, as in `WISection`. -/
structure Steel where
  (fy E A I h b tf hw tw : ℝ)
  (lists : Bool := false)

/-- `CompositeIBeam` with its slab (`ha = 0` for a concrete slab), composite_beam.py 23-150. -/
structure Beam where
  (length : ℝ)
  (steel : Steel)
  (concrete : Concrete)
  (hc ha b0 t0 : ℝ)

namespace Beam
variable (p : Beam)

/-- `slab.h`, 39-42, 86-89. -/
def hl : ℝ := p.hc + p.ha
/-- `beff`, 174-177. -/
def beff : ℝ := p.b0 + 2 * p.length / 8
/-- `yc`, 179-184. -/
def yc : ℝ := 0.5 * p.hc
/-- `ya`, 186-191. -/
def ya : ℝ := p.hl + 0.5 * p.steel.h
/-- `Ac`, 246-249. -/
def Ac : ℝ := p.hc * p.beff
/-- `Ic`, 251-256. -/
def Ic : ℝ := 1 / 12 * p.beff * p.hc ^ 3
/-- `EAa`, 210-213. -/
def EAa : ℝ := p.steel.E * p.steel.A
/-- `EIa`, 215-220. -/
def EIa : ℝ := p.steel.E * p.steel.I

/-- The modulus of the concrete: `Ecm` or, with creep, `Ecc`, 222-231; other words leave the result unbound. -/
def Ec : Option String → Except PyErr ℝ
  | none => .ok p.concrete.Ecm
  | some s =>
    if s = "creep" then (p.concrete.creep (2 * p.hc) 1e8 (some p.t0)).bind fun phi => Fire.pdiv p.concrete.Ecm (1 + 1.1 * phi)
    else .error .unboundLocal

/-- `EAcom(long_term)`, 287-294. -/
def EAcom (lt : Option String) : Except PyErr ℝ := do
  let E ← p.Ec lt
  .ok (p.EAa + E * p.Ac)

/-- `centroid(long_term)`, 275-285. -/
def centroid (lt : Option String) : Except PyErr ℝ := do
  let E ← p.Ec lt
  let EA ← p.EAcom lt
  Fire.pdiv (p.EAa * p.ya + E * p.Ac * p.yc) EA

/-- `EIcom(long_term)`, 311-318. -/
def EIcom (lt : Option String) : Except PyErr ℝ := do
  let E ← p.Ec lt
  let y ← p.centroid lt
  .ok (p.steel.E * (p.steel.I + |p.ya - y| ^ 2 * p.steel.A) + E * (p.Ic + |p.yc - y| ^ 2 * p.Ac))

/-- `distance_centroids`, 320-322. -/
def ei : ℝ := p.ya - p.yc

/-- `composite_coefficient`, 324-329. -/
def alpha : ℝ :=
  p.ei ^ 2 * p.EAa * (p.concrete.Ecm * p.Ac) / (p.EAa + p.concrete.Ecm * p.Ac) / (p.EIa + p.concrete.Ecm * p.Ic)

/-- `Ra`, 331-334. -/
def Ra : ℝ := p.steel.fy * p.steel.A
/-- `Rc`, 336-339. -/
def Rc : ℝ := 0.85 * p.concrete.fcd * p.Ac
/-- `Rf`, 341-346: lists cannot be multiplied. -/
def Rf : Except PyErr ℝ := if p.steel.lists then .error .typeError else .ok (p.steel.fy * (p.steel.tf * p.steel.b))
/-- `Rw`, 348-353. -/
def Rw : ℝ := p.steel.fy * (p.steel.hw * p.steel.tw)

/-- `plastic_neutral_axis`, 355-378 (divisions by positive forces and dimensions). -/
def pna : Except PyErr ℝ :=
  if p.Ra < p.Rc then .ok (p.Ra / p.Rc * p.hc)
  else do
    let Rf ← p.Rf
    if p.Rc < p.Ra - 2 * Rf then .ok (0.5 * (p.Ra - p.Rc) / p.steel.b / p.steel.fy + p.hl)
    else .ok (0.5 * (p.Ra - p.Rc - 2 * Rf) / p.Rw * p.steel.hw + p.hl + p.steel.tf)

/-- `MplRd`, 381-418. -/
def MplRd : Except PyErr ℝ :=
  if p.Ra < p.Rc then .ok (p.Ra * (p.ei + 0.5 * p.hc - 0.5 * (p.Ra / p.Rc * p.hc)))
  else do
    let Rf ← p.Rf
    if p.Rc < p.Ra - 2 * Rf then
      .ok (p.Ra * (p.ei - p.hl + 0.5 * p.hc) + p.Rc * (p.hl - 0.5 * p.hc) - 0.25 * (p.Ra - p.Rc) ^ 2 / Rf * p.steel.tf)
    else
      .ok (p.Ra * (p.ei - p.hl - p.steel.tf + 0.5 * p.hc) + p.Rc * (p.hl + p.steel.tf - 0.5 * p.hc) + Rf * p.steel.tf -
        0.25 * (p.Ra - p.Rc - 2 * Rf) ^ 2 / p.Rw * p.steel.hw)

end Beam

/-! ### Shear studs -/

/-- `ShearStud`: diameter, length, ultimate strength, en1994_1_1.py 29-40. -/
structure Stud where
  (d length fu : ℝ)

/-- `PRd(fck, Ecm)`, en1994_1_1.py 42-64.  `gammaV` is what the name refers to: the module imports it in the branch that is
    taken when the first import fails, lines 16-20. -/
def Stud.PRd (s : Stud) (gammaV : Option ℝ) (fck Ecm : ℝ) : Except PyErr ℝ :=
  let steel := 0.8 * s.fu * π ^ 2 * s.d ^ 2 / 4
  let alpha := if s.length / s.d > 4 then 1 else 0.2 * (s.length / s.d + 1)
  match gammaV with
  | none => .error .nameError
  | some g => .ok (min steel (0.29 * alpha * s.d ^ 2 * √(fck * Ecm) / g))

/-- `gammaV` in the installed package: the first import succeeds. -/
def installedGammaV : Option ℝ := none

end

end Metku.Comp
