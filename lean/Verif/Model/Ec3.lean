import Mathlib.Analysis.Real.Sqrt

/-!
Model of `metku/eurocodes/en1993/en1993_1_1.py` (EN 1993-1-1), function by function, over the reals.

Simplifications: floats are real numbers; `math.sqrt` of a negative number and division by zero raise in Python
but are total functions here (`Real.sqrt` gives 0, `x / 0 = 0`): the properties that depend on it state separately that the argument is
not negative, respectively the divisor not zero. The partial factors are the constants of `constants.py` 30-33.
-/
namespace Metku.Ec3

noncomputable section

/-- `gammaM0 = 1.0`, constants.py 30. -/
def gammaM0 : ℝ := 1
/-- `gammaM1 = 1.0`, constants.py 31. -/
def gammaM1 : ℝ := 1
/-- `gammaM2 = 1.25`, constants.py 32. -/
def gammaM2 : ℝ := 5 / 4

/-- Names of the buckling curves, en1993_1_1.py 18. -/
inductive Curve
  | a0 | a | b | c | d
  deriving DecidableEq, Repr

/-- `buckling_curve`, en1993_1_1.py 18. -/
def Curve.imp : Curve → ℝ
  | .a0 => 13 / 100
  | .a => 21 / 100
  | .b => 34 / 100
  | .c => 49 / 100
  | .d => 76 / 100

/-- `sway_imperfection`, en1993_1_1.py 21-30. -/
def swayImperfection (h m : ℝ) : ℝ :=
  1 / 200 * min (max (2 / 3) (2 / √h)) 1 * √(1 / 2 * (1 + 1 / m))

/-- `epsilon`, en1993_1_1.py 33-40. -/
def epsilon (fy : ℝ) : ℝ := √(235 / fy)

/-- `internal_part_in_bending`, en1993_1_1.py 43-61. -/
def internalBending (r e : ℝ) : Nat :=
  if r ≤ 72 * e then 1 else if r ≤ 83 * e then 2 else if r ≤ 124 * e then 3 else 4

/-- "If e > 1, it means that e is actually yield strength", en1993_1_1.py 73-75, 100-102, 140-142. -/
def fixEps (e : ℝ) : ℝ := if e > 1 then epsilon e else e

/-- `internal_part_in_compression`, en1993_1_1.py 64-86. -/
def internalCompression (r e : ℝ) : Nat :=
  let e := fixEps e
  if r ≤ 33 * e then 1 else if r ≤ 38 * e then 2 else if r ≤ 42 * e then 3 else 4

/-- Classes 1 and 2 of `internal_part_comp_bend`, en1993_1_1.py 104-118. -/
def compBend12 (r e a : ℝ) : Nat :=
  if a = 0 then 1
  else if a > 1 / 2 then
    if r ≤ 396 * e / (13 * a - 1) then 1 else if r ≤ 456 * e / (13 * a - 1) then 2 else 4
  else
    if r ≤ 36 * e / a then 1 else if r ≤ 415 / 10 * e / a then 2 else 4

/-- `internal_part_comp_bend`, en1993_1_1.py 89-128. -/
def internalCompBend (r e a p : ℝ) : Nat :=
  let e := fixEps e
  let C := compBend12 r e a
  if C > 2 then
    if p > -1 then
      if r ≤ 42 * e / (67 / 100 + 33 / 100 * p) then 3 else C
    else if r ≤ 62 * e * (1 - p) * √(-p) then 3 else C
  else C

/-- `outstand_part_in_compression`, en1993_1_1.py 131-153. -/
def outstandCompression (r e : ℝ) : Nat :=
  let e := fixEps e
  if r ≤ 9 * e then 1 else if r ≤ 10 * e then 2 else if r ≤ 14 * e then 3 else 4

/-- `CHS_class`, en1993_1_1.py 156-174. -/
def chsClass (r e : ℝ) : Nat :=
  if r ≤ 50 * e ^ 2 then 1 else if r ≤ 70 * e ^ 2 then 2 else if r ≤ 90 * e ^ 2 then 3 else 4

/-- `tension_resistance`, en1993_1_1.py 177-181. -/
def tensionResistance (A fy : ℝ) : ℝ := fy * A / gammaM0

/-- `net_section_resistance`, en1993_1_1.py 184-188. -/
def netSectionResistance (Anet fu : ℝ) : ℝ := 9 / 10 * Anet * fu / gammaM2

/-- `compression_resistance`, en1993_1_1.py 191-198. -/
def compressionResistance (A fy : ℝ) : ℝ := A * fy / gammaM0

/-- `bending_resistance`, en1993_1_1.py 201-210. -/
def bendingResistance (W fy : ℝ) : ℝ := W * fy / gammaM0

/-- `shear_resistance`, en1993_1_1.py 213-219. -/
def shearResistance (Av fy : ℝ) : ℝ := Av * fy / √3 / gammaM0

/-- `slenderness`, en1993_1_1.py 222-227. -/
def slenderness (A fy Ncr : ℝ) : ℝ := √(A * fy / Ncr)

/-- `p` of `buckling_reduction_factor`, en1993_1_1.py 234. -/
def buckPhi (l a : ℝ) : ℝ := 1 / 2 * (1 + a * (l - 2 / 10) + l ^ 2)

/-- `buckling_reduction_factor(slend, imp_factor)`, en1993_1_1.py 230-237. -/
def bucklingReduction (l a : ℝ) : ℝ :=
  let p := buckPhi l a
  min (1 / (p + √(p ^ 2 - l ^ 2))) 1

/-- `buckling_strength`, en1993_1_1.py 240-244. -/
def bucklingStrength (A fy chi : ℝ) : ℝ := chi * A * fy / gammaM1

/-- `beam_column_utility`, en1993_1_1.py 248-257. -/
def beamColumnUtility (UN UMy ky chiLT UMz : ℝ) : ℝ := UN / gammaM1 + ky * UMy / chiLT / gammaM1 + UMz / gammaM1

/-- `kyy`, en1993_1_1.py 260-268. -/
def kyy (UN l Cmy : ℝ) (cls : Nat) : ℝ :=
  if cls < 3 then Cmy * (1 + min (l - 2 / 10) (8 / 10) * UN / gammaM1)
  else Cmy * (1 + min l (6 / 10) * UN / gammaM1)

/-- `kzy`, en1993_1_1.py 271-288. -/
def kzy (ky UN l CmLT : ℝ) (cls : Nat) (torsion : Bool) : ℝ :=
  if cls < 3 then
    if torsion then
      if l < 4 / 10 then min (6 / 10 + l) (1 - 1 / 10 * l / (CmLT - 1 / 4) * UN / gammaM1)
      else 1 - 1 / 10 * min l 1 / (CmLT - 1 / 4) * UN / gammaM1
    else 6 / 10 * ky
  else
    if torsion then 1 - 5 / 100 * min l 1 / (CmLT - 1 / 4) * UN / gammaM1
    else 8 / 10 * ky

/-- `kzz`, en1993_1_1.py 291-302; `hollow` is `profile == "hollow"`. -/
def kzz (UN l Cmz : ℝ) (cls : Nat) (hollow : Bool) : ℝ :=
  if cls < 3 then
    if hollow then Cmz * (1 + min (l - 2 / 10) (8 / 10) * UN / gammaM1)
    else Cmz * (1 + min (2 * l - 6 / 10) (14 / 10) * UN / gammaM1)
  else Cmz * (1 + min l (6 / 10) * UN / gammaM1)

/-- `kyz`, en1993_1_1.py 305-312. -/
def kyz (kz : ℝ) (cls : Nat) : ℝ := if cls < 3 then 6 / 10 * kz else kz

/-- `psi` inside `equivalent_moment_factor`, en1993_1_1.py 325-337. -/
def endRatio (M0 M1 : ℝ) : ℝ :=
  let r := if |M1| > 1 / 10 ^ 6 then M0 / M1 else 0
  if |r| > 1 then 1 / r else r

/-- Larger end moment, en1993_1_1.py 358-361. -/
def largerEnd (M0 M1 : ℝ) : ℝ := if |M0| > |M1| then M0 else M1

/-- `alpha`, en1993_1_1.py 363-367. -/
def spanRatio (Mh Ms : ℝ) : ℝ := if |Mh| < 1 / 10 ^ 6 then 0 else Ms / Mh

/-- Nonlinear distribution, en1993_1_1.py 369-404; `u` is `load == "uniform"`. -/
def cmNonlinear (p alpha : ℝ) (u : Bool) : ℝ :=
  if |alpha| > 1 ∨ alpha = 0 then
    let alpha := if |alpha| > 1 then 1 / alpha else alpha
    if alpha ≥ 0 then
      if u then 95 / 100 + 5 / 100 * alpha else 90 / 100 + 1 / 10 * alpha
    else if p ≥ 0 then
      if u then 95 / 100 + 5 / 100 * alpha else 90 / 100 + 1 / 10 * alpha
    else
      if u then 95 / 100 + 5 / 100 * alpha * (1 + 2 * p) else 90 / 100 + 1 / 10 * alpha * (1 + 2 * p)
  else if alpha ≥ 0 then max (2 / 10 + 8 / 10 * alpha) (4 / 10)
  else if p ≥ 0 then
    if u then max (1 / 10 - 8 / 10 * alpha) (4 / 10) else max (-(8 / 10) * alpha) (4 / 10)
  else
    if u then max (1 / 10 * (1 - p) - 8 / 10 * alpha) (4 / 10) else max (2 / 10 * (-p) - 8 / 10 * alpha) (4 / 10)

/-- Linear distribution, en1993_1_1.py 346, 354. -/
def cmLinear (p : ℝ) : ℝ := max (6 / 10 + 4 / 10 * p) (4 / 10)

/-- `equivalent_moment_factor(Mend, Mspan, load)`, en1993_1_1.py 315-406. -/
def equivalentMomentFactor (M0 M1 : ℝ) (Mspan : Option ℝ) (u : Bool) : ℝ :=
  let p := endRatio M0 M1
  match Mspan with
  | none => cmLinear p
  | some Ms =>
    if |Ms - 1 / 2 * (M0 + M1)| < 1 / 10 ^ 6 then cmLinear p
    else cmNonlinear p (spanRatio (largerEnd M0 M1) Ms) u

end

end Metku.Ec3
