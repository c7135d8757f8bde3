import Mathlib.Analysis.SpecialFunctions.Pow.Real
import Mathlib.Analysis.SpecialFunctions.Trigonometric.Basic
import Verif.Model.Ec3Fire

/-!
Model of the rules for cold-formed members and sheeting,
`metku/eurocodes/en1993/en1993_1_3/en1993_1_3.py` and `trapezoidal.py`.

Floats are real numbers.  Divisions by the thickness, the height of the web or the diameter are written as real
divisions and square roots as real square roots (the properties assume positive dimensions).  Printing is left out.
`gammaM0 = gammaM1 = gammaMfi = 1`, `gammaM2 = 1.25`, `E = 210000` (en1993/constants.py).
-/
namespace Metku.Cold

open Metku

noncomputable section

/-- `linear_interpolation`, en1993_1_3.py 19-35. -/
def linInterp (p1 p2 : ℝ × ℝ) (x : ℝ) : ℝ :=
  let k := (p2.2 - p1.2) / (p2.1 - p1.1)
  let b := p1.2 - k * p1.1
  k * x + b

/-- `fya`, en1993_1_3.py 38-48. -/
def fya (fyb fu t Ag n k : ℝ) : ℝ := min (fyb + (fu - fyb) * k * n * t ^ 2 / Ag) (0.5 * (fu + fyb))

/-- A number or a sequence of numbers, as arguments that go through `np.array`. -/
inductive NumOrSeq
  | num (x : ℝ)
  | seq (xs : List ℝ)

/-- `rm*np.sin(np.radians(0.5*phi))` with NumPy's rule for shapes: numbers and sequences of length one are stretched. -/
def notionalTerms : NumOrSeq → NumOrSeq → Except PyErr NumOrSeq
  | .num r, .num p => .ok (.num (r * Real.sin (0.5 * p * Real.pi / 180)))
  | .num r, .seq ps => .ok (.seq (ps.map fun p => r * Real.sin (0.5 * p * Real.pi / 180)))
  | .seq rs, .num p => .ok (.seq (rs.map fun r => r * Real.sin (0.5 * p * Real.pi / 180)))
  | .seq rs, .seq ps =>
    if rs.length = ps.length then .ok (.seq (List.zipWith (fun r p => r * Real.sin (0.5 * p * Real.pi / 180)) rs ps))
    else match rs, ps with
      | [r], ps => .ok (.seq (ps.map fun p => r * Real.sin (0.5 * p * Real.pi / 180)))
      | rs, [p] => .ok (.seq (rs.map fun r => r * Real.sin (0.5 * p * Real.pi / 180)))
      | _, _ => .error .valueError

/-- `notional_width(b, rm, phi)`, en1993_1_3.py 58-71; `sum` of an array without dimensions raises `TypeError`. -/
def notionalWidth (b : ℝ) (rm phi : NumOrSeq) : Except PyErr ℝ := do
  match ← notionalTerms rm phi with
  | .num _ => .error .typeError
  | .seq xs => .ok (b + xs.sum)

/-- `distortional_buckling_reduction_factor`, en1993_1_3.py 86-101. -/
def chiD (lam : ℝ) : ℝ :=
  if lam ≤ 0.65 then 1 else if lam ≤ 1.38 then 1.47 - 0.723 * lam else 0.66 / lam

/-- `buckling_factor_edge_stiffener`, en1993_1_3.py 103-120. -/
def kEdge (bratio : ℝ) : Except PyErr ℝ :=
  if bratio ≤ 0.35 then .ok 0.5
  else if bratio ≤ 0.6 then .ok (0.5 + 0.83 * ((bratio - 0.35) ^ 2) ^ ((1 : ℝ) / 3))
  else .error .unboundLocal

/-- `axial_force_resistance(self, Ned, A, fya=, fyb=, Aeff=, lambda_ratio=)`, en1993_1_3.py 129-149; a keyword that
    is needed and missing gives 0. -/
def axialResistance (Ned A : ℝ) (fya fyb Aeff lamRatio : Option ℝ) : ℝ :=
  let r : Option ℝ :=
    if 0 ≤ Ned then fya.map (· * A)
    else do
      let Aeff ← Aeff
      if Aeff < A then
        let fyb ← fyb
        pure (fyb * Aeff)
      else
        let l ← lamRatio
        let fyb ← fyb
        let fya ← fya
        pure (min (A * (fyb + 4 * (fya - fyb) * (1 - l))) (fya * A))
  r.getD 0

/-- Arguments of `RwRd`. -/
structure WebLoad where
  (fyb t hw ss c r phi e : ℝ)
  (flangeStiff webStiff : Bool)

namespace WebLoad
variable (W : WebLoad)

/-- `k = fyb/228`, line 218. -/
def k : ℝ := W.fyb / 228
/-- Lines 169-170. -/
def k1 : ℝ := 1.33 - 0.33 * W.k
/-- Lines 172-173. -/
def k2 : ℝ := min (max (1.15 - 0.15 * W.r / W.t) 0.5) 1
/-- Lines 175-176: the quotient is `phi/90**2`. -/
def k3 : ℝ := 0.7 + 0.3 * (W.phi / 90 ^ 2)
/-- Lines 178-179. -/
def k4 : ℝ := 1.22 - 0.22 * W.k
/-- Lines 181-182. -/
def k5 : ℝ := min (1.06 - 0.06 * W.r / W.t) 1

/-- `RwRd`, en1993_1_3.py 151-269.  With web stiffeners only `C0` is computed and `C` stays unbound. -/
def resistance : Except PyErr ℝ :=
  let Rw0 := W.t ^ 2 * W.fyb
  let sst := W.ss / W.t
  let C : Except PyErr ℝ :=
    if |W.e| < 1e-6 then
      if W.c ≤ 1.5 * W.hw then
        if W.webStiff then .error .unboundLocal
        else
          let C0 := W.k1 * W.k2 * W.k3
          if W.flangeStiff then .ok (C0 * (9.04 - W.hw / W.t / 60) * (1 + 0.01 * sst))
          else if sst ≤ 60 then .ok (C0 * (5.92 - W.hw / W.t / 132) * (1 + 0.01 * sst))
          else .ok (C0 * (5.92 - W.hw / W.t / 132) * (0.71 + 0.015 * sst))
      else
        if W.webStiff then .error .unboundLocal
        else
          let C0 := W.k3 * W.k4 * W.k5
          if sst ≤ 60 then .ok (C0 * (14.7 - W.hw / W.t / 49.5) * (1 + 0.007 * sst))
          else .ok (C0 * (14.7 - W.hw / W.t / 49.5) * (0.75 + 0.011 * sst))
    else
      if W.c ≤ 1.5 * W.hw then
        if W.webStiff then .error .unboundLocal
        else .ok (W.k1 * W.k2 * W.k3 * (6.66 - W.hw / W.t / 64) * (1 + 0.01 * W.ss / W.t))
      else
        if W.webStiff then .error .unboundLocal
        else .ok (W.k3 * W.k4 * W.k5 * (21.0 - W.hw / W.t / 16.3) * (1 + 0.0013 * W.ss / W.t))
  C.map (· * Rw0)

end WebLoad

/-- Arguments of `RwRd_two_webs`: the keywords `e`, `c` and `VEd` may be missing; `old` is `code == 'old'`. -/
structure TwoWebs where
  (fyb r t phi hw ss : ℝ)
  (e c : Option ℝ)
  (VEd : Option (ℝ × ℝ))
  (old : Bool)

namespace TwoWebs
variable (W : TwoWebs)

/-- `category == 2`, lines 303-325. -/
def category2 : Bool :=
  let e := W.e.getD (-1)
  let c := W.c.getD (-1)
  decide (e > 1.5 * W.hw ∨ c > 1.5 * W.hw ∨ (e < 0 ∧ c < 0))

/-- The value `a`, lines 328-345. -/
def alpha : ℝ :=
  if W.category2 then 0.15
  else if W.old then 0.075
  else if W.e.getD (-1) > 0 then 0.075
  else min (0.18 * √((W.c.getD (-1) + W.ss) / 1.5 / W.hw)) 0.15

/-- The effective bearing length `la` before `min(la, 200)` for category 2 and `code == 'old'`, lines 347-358. -/
def laOld : Except PyErr ℝ :=
  match W.VEd with
  | none => .error .unboundLocal
  | some (V0, V1) =>
    if |V0| + |V1| = 0 then .error .zeroDivision
    else
      let beta := (|V0| - |V1|) / (|V0| + |V1|)
      .ok (if beta ≤ 0.2 then W.ss else if 0.3 ≤ beta then 10 else W.ss - (beta - 0.2) / 0.1 * (W.ss - 10))

/-- `la`, lines 341, 347-362. -/
def la : Except PyErr ℝ :=
  if W.category2 then
    (if W.old then W.laOld else .ok W.ss).map (min · 200)
  else .ok 10

/-- `RwRd_two_webs`, en1993_1_3.py 271-382. -/
def resistance : Except PyErr ℝ :=
  W.la.map fun la => W.alpha * W.t ^ 2 * √(W.fyb * 210000) * (1 - 0.1 * √(W.r / W.t)) * (0.5 + √(0.02 * la / W.t)) *
    (2.4 + (W.phi / 90) ^ 2)

end TwoWebs

/-- `screw_validity(e1, e2, p1, p2, d, t, t1)`, en1993_1_3.py 387-392. -/
def screwValid (e1 e2 p1 p2 d : ℝ) : Bool :=
  decide (e1 ≥ 3 * d ∧ e2 ≥ 1.5 ∧ p1 ≥ 3 * d ∧ p2 ≥ 3 * d ∧ d ≤ 8 ∧ d ≥ 3)

/-- `alfa` of `screw_bearing_resistance`, en1993_1_3.py 405-423. -/
def screwAlpha (d t t1 : ℝ) : ℝ :=
  if t = t1 then min (3.2 * √(t / d)) 2.1
  else if t1 ≥ 2.5 * t ∧ t < 1 then min (3.2 * √(t / d)) 2.1
  else if t1 ≥ 2.5 * t then 2.1
  else linInterp (t, min (3.2 * √(t / d)) 2.1) (2.5 * t, if t < 1 then min (3.2 * √(t / d)) 2.1 else 2.1) t1

/-- `screw_bearing_resistance(fu, d, t, t1)`, en1993_1_3.py 394-436: `FbRd`. -/
def screwBearing (fu d t t1 : ℝ) : ℝ := screwAlpha d t t1 * fu * d * t / 1.25

/-- `screw_bearing_resistance_elevated_temp`, en1993_1_3.py 438-463.  (`fubT/fuT` is written as a real division.) -/
def screwBearingT (fu d t fub e1 e2 T : ℝ) : Except PyErr ℝ := do
  let fuT ← Fire.fyT T fu "carbon"
  let kb ← Fire.reduceProperty T "kb" "bolts"
  let fubT := kb * fub
  let ad := e1 / 3 / d
  let abT := min (min ad (fubT / fuT)) 1
  let k1 := min (2 * e2 / d - 1) 2.5
  pure (k1 * abT * fubT * d * t)

/-- `screw_shear_resistance_fin(diameter, material)`, en1993_1_3.py 475-496. -/
def screwShearFin (d : ℝ) (material : String) : Except PyErr ℝ :=
  if material = "hardened" then
    if d = 4.8 then .ok 5200 else if d = 5.5 then .ok 7200 else if d = 6.3 then .ok 9800
    else if d = 8 then .ok 16300 else .error .keyError
  else if material = "stainless" then
    if d = 4.8 then .ok 4600 else if d = 5.5 then .ok 6500 else if d = 6.3 then .ok 8500
    else if d = 8 then .ok 14300 else .error .keyError
  else .error .unboundLocal

/-- `CD_A(ba, tnom, position, A, bT, bR, load)`, en1993_1_3.py 509-570; `pos` is `position == 'pos'`, `gravity` is
    `load == 'gravity'`. -/
def cdA (ba tnom : ℝ) (pos : Bool) (A bT bR : ℝ) (gravity : Bool) : Except PyErr ℝ := do
  let kba := if ba ≤ 125 then (ba / 100) ^ 2 else 1.25 * (ba / 100)
  let p : ℝ := if 0.75 < tnom ∧ pos then 1.1 else 1.5
  let kt := (tnom / 0.75) ^ p
  let kbR := if bR ≤ 185 then 1 else 185 / bR
  let kA ← (if gravity then
      if tnom = 0.75 then .ok (if pos then 1 + (A - 1) * 0.08 else 1 + (A - 1) * 0.16)
      else if 1 ≤ tnom then .ok (1 + (A - 1) * 0.095)
      else .error .unboundLocal
    else .ok 1 : Except PyErr ℝ)
  let bTmax : ℝ := if gravity ∧ ¬ pos then 120 else 40
  let kbT := if bTmax < bT then √(bTmax / bT) else 1
  let C100 ← (if gravity then if pos then .ok 5.2 else .error .unboundLocal else .ok 2.6 : Except PyErr ℝ)
  pure (C100 * kba * kt * kbR * kA * kbT)

/-- `TrapezoidalSheet(t, h, bt, bb, angle, ntroughs)`, trapezoidal.py 27-65; the angle in radians. -/
structure Trapezoid where
  (tnom h bt bb angle ntrough : ℝ)

namespace Trapezoid
variable (T : Trapezoid)

/-- Line 58. -/
def t : ℝ := T.tnom - 0.04
/-- `hw`, 84-87. -/
def hw : ℝ := T.h - T.tnom
/-- `sw`, 89-92. -/
def sw : ℝ := T.hw * Real.sin T.angle
/-- `pitch`, 94-97. -/
def pitch : ℝ := T.bb + T.bt + 2 * T.h * Real.cos T.angle
/-- `width`, 99-102. -/
def width : ℝ := T.pitch * T.ntrough
/-- `A`, 104-107. -/
def A : ℝ := T.ntrough * T.t * (T.bt + T.bb + 2 * T.sw)

end Trapezoid

end

end Metku.Cold
