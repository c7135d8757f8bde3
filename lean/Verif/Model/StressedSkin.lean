import Mathlib.Analysis.SpecialFunctions.Pow.Real
import Mathlib.Algebra.BigOperators.Group.Finset.Basic
import Verif.Model.ColdRules
import Verif.Model.OptVars

/-!
Model of `metku/structures/steel/stressed_skin.py`: stressed skin panels with sheeting that spans between rafters.

Floats are real numbers.  Divisions by dimensions, the modulus or an area are real divisions (the properties assume them
positive); divisions by a number of fasteners can raise an error.  Dimensions of the sheet (pitch, width, thickness) are
numbers of the input, see `Model/ColdRules` for the sheet itself.  Printing is left out.
-/
namespace Metku.Skin

open Metku Metku.Cold

noncomputable section

/-- A trapezoidal sheet: thickness, depth, width of the top flange, pitch, width, angle of the webs in degrees, strengths,
    modulus, Poisson's ratio, number of troughs. -/
structure Sheet where
  (t h bt pitch width angle fu fy E nu : ℝ)
  (ntrough : ℕ)

/-- A fastener: diameter and spacing. -/
structure Fastener where
  (d spacing : ℝ)

/-- A member with the attributes that may hold the thickness of its wall. -/
structure Wall where
  (tf T tt : Option ℝ)

/-- `StressedSkinRafters`, lines 93-137 and 238-273: `rule` is `fastener_calc`, `loc` the location of seam fasteners,
    `edgeE`, `edgeA` modulus and area of the edge member. -/
structure Panel where
  (sheet : Sheet)
  (a b n : ℝ)
  (seam edge : Fastener)
  (loc rule : String)
  (rafter edgeWall : Wall)
  (edgeE edgeA : ℝ)

/-- Slips of the fasteners, lines 131-137: `sp`, `ss`, `ssc`. -/
def sp : ℝ := 0.35
/-- See `sp`. -/
def ss : ℝ := 0.25
/-- See `sp`. -/
def ssc : ℝ := 0.35

/-- `Fs()`, lines 139-156. -/
def fs (P : Panel) : ℝ :=
  if P.rule = "en1993" then screwBearing P.sheet.fu P.seam.d P.sheet.t P.sheet.t
  else min (2.9 * √(P.sheet.t / P.seam.d) * P.sheet.fu * P.seam.d * P.sheet.t) 3800

/-- `nf()`, lines 198-205. -/
def nf (P : Panel) : ℕ := P.sheet.ntrough

/-- `beta3()`, lines 158-168: the method `nf` is not called, so that the difference is a `TypeError`. -/
def beta3 (P : Panel) : Except PyErr ℝ := if P.loc = "trough" then .ok 1 else .error .typeError

/-- `beta1()`, lines 170-196, as a function of the number of fasteners. -/
def beta1 (nf : ℕ) (trough : Bool) : ℝ :=
  if nf % 2 = 0 then
    if trough then ∑ i ∈ Finset.range (nf / 2), ((2 * ((i : ℝ) + 1) - 1) / ((nf : ℝ) - 1)) ^ 3
    else ∑ i ∈ Finset.range (nf / 2), ((2 * ((i : ℝ) + 1) - 1) / (nf : ℝ)) ^ 3
  else
    if trough then ∑ i ∈ Finset.range ((nf - 1) / 2), (2 * ((i : ℝ) + 1) / ((nf : ℝ) - 1)) ^ 3
    else ∑ i ∈ Finset.range ((nf - 1) / 2), (2 * ((i : ℝ) + 1) / (nf : ℝ)) ^ 3

/-- `beta1()` of a panel. -/
def Panel.beta1 (P : Panel) : ℝ := Skin.beta1 (nf P) (decide (P.loc = "trough"))

/-- `K1`, lines 21-91, in thousandths. -/
def k1 : List (ℤ × List (List ℕ)) :=
  [(0, [[13, 30, 41, 41, 46, 50, 66, 103, 193],
      [42, 96, 131, 142, 142, 153, 199, 311, 602],
      [86, 194, 264, 285, 283, 302, 388, 601, 1188],
      [144, 323, 438, 473, 468, 494, 629, 972, 1935],
      [216, 438, 654, 703, 695, 729, 922, 1420, 2837],
      [302, 674, 911, 980, 965, 1008, 1266, 1938, 3892],
      [402, 895, 1208, 1300, 1277, 1329, 1661, 2536, 5098],
      [516, 1146, 1546, 1662, 1631, 1692, 2107, 3208, 6453]]),
   (5, [[14, 31, 41, 44, 44, 49, 66, 107, 205],
      [50, 99, 128, 134, 132, 146, 198, 336, 652],
      [107, 202, 253, 260, 254, 280, 386, 681, 1548],
      [188, 338, 413, 417, 404, 448, 629, 1158, 2639],
      [295, 507, 604, 601, 578, 648, 934, 1783],
      [429, 706, 823, 806, 772, 877, 1306, 2586],
      [591, 935, 1066, 1028, 983, 1135, 1756, 3605],
      [780, 1191, 1328, 1264, 1208, 1423, 2299, 4838]]),
   (10, [[16, 31, 40, 42, 42, 48, 65, 111, 221],
      [56, 101, 123, 125, 123, 139, 200, 366, 873],
      [125, 204, 238, 233, 226, 264, 402, 786],
      [222, 338, 375, 356, 345, 418, 689, 1445],
      [349, 494, 526, 486, 473, 605, 1082, 2428],
      [502, 668, 682, 615, 608, 837, 1607],
      [677, 851, 834, 736, 752, 1128, 2308],
      [869, 1035, 975, 844, 907, 1494, 3200]]),
   (15, [[17, 31, 40, 41, 41, 47, 66, 115],
      [62, 102, 118, 115, 113, 134, 209, 403],
      [139, 202, 218, 204, 200, 254, 440, 945],
      [244, 321, 325, 293, 294, 414, 796],
      [370, 448, 426, 371, 396, 636, 1329],
      [506, 568, 508, 434, 513, 941],
      [646, 668, 561, 483, 664, 1349],
      [766, 735, 578, 527, 861]]),
   (20, [[18, 32, 39, 39, 39, 46, 66, 111],
      [68, 101, 111, 106, 104, 131, 221, 452],
      [148, 193, 194, 174, 177, 255, 492],
      [249, 289, 267, 230, 259, 444, 931],
      [356, 372, 315, 270, 364, 725],
      [448, 420, 326, 303, 512],
      [509, 423, 301, 346],
      [521, 372, 259, 413]]),
   (25, [[19, 32, 38, 38, 38, 45, 68, 126],
      [72, 99, 103, 95, 95, 129, 236, 513],
      [151, 178, 166, 144, 160, 268, 557],
      [238, 244, 204, 176, 247, 494],
      [306, 272, 203, 204, 376],
      [333, 248, 172, 241],
      [300, 174, 142],
      [204, 81]]),
   (30, [[20, 32, 37, 36, 36, 44, 70, 133],
      [75, 95, 94, 84, 87, 132, 256],
      [148, 157, 135, 116, 152, 291],
      [208, 186, 139, 139, 253],
      [226, 161, 112, 176],
      [180, 89, 93],
      [77]]),
   (35, [[21, 32, 36, 34, 34, 43, 72, 142],
      [76, 89, 83, 72, 82, 137, 281],
      [137, 130, 102, 93, 151],
      [162, 119, 82, 120],
      [123, 59],
      [32]]),
   (40, [[23, 32, 34, 32, 32, 43, 75, 155],
      [75, 81, 70, 60, 77, 146],
      [116, 96, 68, 78],
      [100, 53, 48],
      [24]]),
   (45, [[24, 31, 32, 29, 30, 43, 79],
      [71, 69, 56, 50, 73],
      [86, 57, 41],
      [32]])]

/-- Look-up in a dict with integer keys. -/
def lookupInt {α : Type} : List (ℤ × α) → ℤ → Option α
  | [], _ => none
  | (k, v) :: l, x => if x = k then some v else lookupInt l x

/-- `K()`, lines 207-236, with fasteners in every trough (the default). -/
def kValue (S : Sheet) : Except PyErr ℝ :=
  let lnd := Opt.pyInt (S.bt / S.pitch / 0.1) - 1
  let hnd := Opt.pyInt (S.h / S.pitch / 0.1) - 1
  match lookupInt k1 (5 * ⌊(90 - S.angle) / 5⌋) with
  | none => .error .keyError
  | some rows =>
    match Opt.pyIndex rows hnd with
    | none => .error .indexError
    | some row =>
      match Opt.pyIndex row lnd with
      | none => .error .indexError
      | some v => .ok ((v : ℝ) / 1000)

/-- `ns`, lines 275-280. -/
def ns (P : Panel) : ℤ := Opt.pyInt (P.b / P.seam.spacing) - 1

/-- `nsc`, lines 282-287. -/
def nsc (P : Panel) : ℤ := Opt.pyInt (P.b / P.edge.spacing)

/-- `nsh`, lines 289-292. -/
def nsh (P : Panel) : ℤ := Opt.pyRound (P.a / P.sheet.width)

/-- `rafter_t` and `edge_member_t`, lines 294-318. -/
def Wall.t (w : Wall) : Except PyErr ℝ :=
  match w.tf, w.T, w.tt with
  | some x, _, _ => .ok x
  | none, some x, _ => .ok x
  | none, none, some x => .ok x
  | none, none, none => .error .unboundLocal

/-- Strength of a fastener of diameter `d` between the sheet and a wall, lines 320-344 and 346-370. -/
def wallFastener (P : Panel) (d : ℝ) (w : Wall) : Except PyErr ℝ :=
  if P.rule = "en1993" then do
    let t1 ← w.t
    return screwBearing P.sheet.fu d P.sheet.t t1
  else if d = 5.5 then .ok (min (1.9 * P.sheet.fu * d * P.sheet.t) 6500)
  else if d = 6.3 then .ok (min (1.9 * P.sheet.fu * d * P.sheet.t) 8000)
  else .error .valueError

/-- `Fp()`, lines 320-344: the diameter is that of the seam fastener. -/
def fp (P : Panel) : Except PyErr ℝ := wallFastener P P.seam.d P.rafter

/-- `Fsc()`, lines 346-370. -/
def fsc (P : Panel) : Except PyErr ℝ := wallFastener P P.edge.d P.edgeWall

/-- `seam_strength()`, lines 372-395. -/
def seamStrength (P : Panel) : Except PyErr ℝ := do
  let Fp ← fp P
  let b3 ← beta3 P
  return P.a / P.b * ((ns P : ℝ) * fs P + P.beta1 / b3 * Fp)

/-- A method that computes a value but has no `return`. -/
def noReturn (x : Except PyErr ℝ) : Except PyErr (Option ℝ) := x.map fun _ => none

/-- `edge_member_fastener_strength()`, lines 397-409. -/
def edgeStrength (P : Panel) : Except PyErr (Option ℝ) :=
  noReturn (do let F ← fsc P; return P.a / P.b * F * (nsc P : ℝ))

/-- `sheet_rafter_fastener_strength()`, lines 411-422. -/
def rafterStrength (P : Panel) : Except PyErr ℝ := do
  let F ← fp P
  return 0.6 * P.a * F / P.sheet.pitch

/-- `end_collapse()`, lines 424-447. -/
def endCollapse (P : Panel) : Except PyErr (Option ℝ) :=
  noReturn (.ok (0.9 * P.sheet.t ^ (1.5 : ℝ) * P.a * P.sheet.fy / √P.sheet.pitch))

/-- `profile_distortion()`, lines 449-477. -/
def distortion (P : Panel) : Except PyErr ℝ := do
  let K ← kValue P.sheet
  return P.a * P.sheet.pitch ^ (2.5 : ℝ) * 1 * K / (P.sheet.E * 0.001) / P.sheet.t ^ (2.5 : ℝ) / P.b ^ 2

/-- `shear_strain()`, lines 479-498. -/
def shearStrain (P : Panel) : ℝ :=
  2 * P.a * (1 + P.sheet.nu) * (1 + 2 * P.sheet.h / P.sheet.pitch) / (P.sheet.E * 0.001) / P.sheet.t / P.b

/-- `fastener_deformation()`, lines 500-528. -/
def fastenerDef (P : Panel) : Except PyErr (ℝ × ℝ × ℝ) := do
  let c21 := 2 * P.a * sp * P.sheet.pitch / P.b ^ 2
  let den := (ns P : ℝ) * sp + P.beta1 * ss
  let c22 ← if den = 0 then .error .zeroDivision else .ok (ss * sp * ((nsh P : ℝ) - 1) / den)
  let c23 ← if nsc P = 0 then .error .zeroDivision else .ok (2 * ssc / (nsc P : ℝ))
  return (c21, c22, c23)

/-- `edge_member_strain()`, lines 530-544. -/
def edgeStrain (P : Panel) : ℝ := P.n ^ 2 * P.b ^ 3 / (P.edgeE * 0.001) / P.edgeA / P.a ^ 2

/-- `shear_flexibility(verb)`, lines 546-563. -/
def flexibility (P : Panel) : Except PyErr ℝ := do
  let c11 ← distortion P
  let c2 ← fastenerDef P
  return P.b ^ 2 / P.a ^ 2 * (c11 + shearStrain P + (c2.1 + c2.2.1 + c2.2.2)) + edgeStrain P

end

end Metku.Skin
