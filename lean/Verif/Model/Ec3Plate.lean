import Mathlib.Analysis.Real.Sqrt
import Verif.Model.PyErr

/-!
Model of `metku/eurocodes/en1993/en1993_1_5.py` (EN 1993-1-5, plated structures), function by function, over the reals.

Simplifications: floats are real numbers; `math.sqrt` of a negative number and division by zero raise in Python but are total here: the theorems assume positive dimensions and
strengths, for which neither occurs, and say so where it is not obvious. Printing (`verb`) is not modelled.
-/
namespace Metku.Plate

noncomputable section

/-- `E = 210.0e3`, constants.py 18. -/
def youngE : ℝ := 210000
/-- `gammaM1 = 1.0`, constants.py 31. -/
def gammaM1 : ℝ := 1

/-- `shear_eta`, en1993_1_5.py 21-29. -/
def shearEta (fy : ℝ) : ℝ := if fy ≤ 460 then 12 / 10 else 1

/-- `reduction_factor_internal`, en1993_1_5.py 32-44. -/
def reductionInternal (lp psi : ℝ) : ℝ :=
  if lp ≤ 5 / 10 + √(85 / 1000 - 55 / 1000 * psi) then 1
  else min ((lp - 55 / 1000 * (3 + psi)) / lp ^ 2) 1

/-- `reduction_factor_outstand`, en1993_1_5.py 47-59. -/
def reductionOutstand (lp : ℝ) : ℝ :=
  if lp ≤ 748 / 1000 then 1 else min ((lp - 188 / 1000) / lp ^ 2) 1

/-- `lambda_p`, en1993_1_5.py 62-70. -/
def lambdaP (b t epsilon ksigma : ℝ) : ℝ := b / t / (284 / 10) / epsilon / √ksigma

/-- `buckling_factor_internal`, en1993_1_5.py 73-89; `ksigma` stays unbound for `psi ≤ -3`. -/
def bucklingFactorInternal (psi : ℝ) : Except PyErr ℝ :=
  if psi = 1 then .ok 4
  else if psi > 0 then .ok (82 / 10 / (105 / 100 + psi))
  else if psi = 0 then .ok (781 / 100)
  else if psi > -1 then .ok (781 / 100 - 629 / 100 * psi + 978 / 100 * psi ^ 2)
  else if psi = -1 then .ok (239 / 10)
  else if psi > -3 then .ok (598 / 100 * (1 - psi) ^ 2)
  else .error .unboundLocal

/-- `buckling_factor_outstand(psi, "tip")`, en1993_1_5.py 101-109. -/
def bucklingFactorTip (psi : ℝ) : ℝ :=
  if psi = 1 then 43 / 100
  else if psi = 0 then 57 / 100
  else if psi = -1 then 85 / 100
  else 57 / 100 - 21 / 100 * psi + 7 / 100 * psi ^ 2

/-- `buckling_factor_outstand(psi, sigma1)` for any other `sigma1`, en1993_1_5.py 110-120: the value set for `psi == 1` is overwritten, because the following `if` is not an
    `elif`. -/
def bucklingFactorSupport (psi : ℝ) : ℝ :=
  if psi < 1 ∧ psi > 0 then 578 / 1000 / (psi + 34 / 100)
  else if psi = 0 then 17 / 10
  else if psi < 0 ∧ psi > -1 then 17 / 10 - 5 * psi + 171 / 10 * psi ^ 2
  else 238 / 10

/-- `effective_width_internal`, en1993_1_5.py 124-152: `(beff, be[0], be[1])`. -/
def effectiveWidthInternal (b psi rho : ℝ) : ℝ × ℝ × ℝ :=
  if |psi - 1| < 1 / 10 ^ 6 then
    let beff := rho * b
    (beff, 1 / 2 * beff, 1 / 2 * beff)
  else if psi > 0 then
    let beff := rho * b
    let be0 := 2 / (5 - psi) * beff
    (beff, be0, beff - be0)
  else
    let beff := b * rho / (1 - psi)
    (beff, 4 / 10 * beff, 6 / 10 * beff)

/-- `effective_width_outstand`, en1993_1_5.py 155-168. -/
def effectiveWidthOutstand (b psi rho : ℝ) : ℝ := if psi < 0 then b * rho / (1 - psi) else rho * b

/-- Type of load application, en1993_1_5.py 185-188. -/
inductive LType
  | a | b | c
  deriving DecidableEq, Repr

/-- `kF`, en1993_1_5.py 197-202. -/
def kF (lt : LType) (hw a ss c : ℝ) : ℝ :=
  match lt with
  | .a => 6 + 2 * (hw / a) ^ 2
  | .b => 35 / 10 + 2 * (hw / a) ^ 2
  | .c => min (2 + 6 * (ss + c) / hw) 6

/-- Effective loaded length `ly` for given `m2`, en1993_1_5.py 211-216, 242-247. -/
def loadedLength (lt : LType) (k fyw hw tw tf ss c a m1 m2 : ℝ) : ℝ :=
  match lt with
  | .c =>
    let le := min (1 / 2 * k * youngE * tw ^ 2 / fyw / hw) (ss + c)
    min (le + tf * √(1 / 2 * m1 + (le / tf) ^ 2 + m2)) (le + tf * √(m1 + m2))
  | _ => min (ss + 2 * tf * (1 + √(m1 + m2))) a

/-- `transverse_force_resistance`, en1993_1_5.py 171-265, for the load types "a", "b", "c" (another type leaves `kF` unbound); returns `m2`, `ly`, `lambdaF` and the
    resistance `FRd`, of which the code returns the last. -/
def transverseForce (fyw hw tw fyf bf tf ss a : ℝ) (lt : LType) (c : ℝ) : ℝ × ℝ × ℝ × ℝ :=
  let a := if a = 0 then 1000 * hw else a
  let ss := min ss hw
  let k := kF lt hw a ss c
  let m1 := fyf * bf / fyw / tw
  let Fcr := 9 / 10 * k * youngE * tw ^ 3 / hw
  let ly0 := loadedLength lt k fyw hw tw tf ss c a m1 0
  let l0 := √(ly0 * tw * fyw / Fcr)
  let m2 := if l0 > 1 / 2 then 2 / 100 * (hw / tf) ^ 2 else 0
  let ly := if l0 > 1 / 2 then loadedLength lt k fyw hw tw tf ss c a m1 m2 else ly0
  let l := if l0 > 1 / 2 then √(ly * tw * fyw / Fcr) else l0
  let chi := min (1 / 2 / l) 1
  (m2, ly, l, fyw * (chi * ly) * tw / gammaM1)

/-- `shear_buckling_reduction_factor`, en1993_1_5.py 268-292. -/
def shearReduction (slend eta : ℝ) (endPost : String) : Except PyErr ℝ :=
  if slend < 83 / 100 / eta then .ok eta
  else if slend < 108 / 100 then .ok (83 / 100 / slend)
  else if endPost = "non-rigid" then .ok (83 / 100 / slend)
  else if endPost = "rigid" then .ok (137 / 100 / (7 / 10 + slend))
  else .error .valueError

/-- `shear_buckling_coefficient`, en1993_1_5.py 295-317. -/
def shearCoefficient (hw a : ℝ) : ℝ :=
  let rw := a / hw
  if rw ≥ 1 then 534 / 100 + 4 / rw ^ 2 else 4 + 534 / 100 / rw ^ 2

/-- `sigma_E`, en1993_1_5.py 320-324. -/
def sigmaE (t b : ℝ) : ℝ := 190000 * (t / b) ^ 2

/-- `tau_crit`, en1993_1_5.py 327-346. -/
def tauCrit (hw a t b : ℝ) : ℝ := shearCoefficient hw a * sigmaE t b

/-- `shear_buckling_slenderness`, en1993_1_5.py 349-362. -/
def shearSlenderness (fyw tau : ℝ) : ℝ := 76 / 100 * √(fyw / tau)

/-- `shear_buckling_web`, en1993_1_5.py 365-379. -/
def shearWeb (chi fyw hw t : ℝ) : ℝ := chi * fyw * hw * t / (√3 * gammaM1)

/-- `shear_buckling_flanges`, en1993_1_5.py 382-399. -/
def shearFlanges (bf tf fyf a hw t fyw rM : ℝ) : ℝ :=
  let c := a * (25 / 100 + 16 / 10 * bf * tf ^ 2 * fyf / t / hw ^ 2 / fyw)
  bf * tf ^ 2 * fyf / c / gammaM1 * (1 - rM ^ 2)

end

end Metku.Plate
