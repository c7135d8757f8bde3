import Mathlib.Analysis.Real.Sqrt
import Mathlib.Analysis.SpecialFunctions.Log.Basic
import Mathlib.Algebra.Order.Field.Basic
import Verif.Model.PyErr

/-!
Model of `metku/eurocodes/en1993/en1993_1_2.py` (EN 1993-1-2, fire design), function by function.

Simplifications: floats are numbers of an exact field (the reals where a square root, logarithm or exponential occurs);
`/` and `math.sqrt` raise as Python's do for built-in floats (`pdiv`, `psqrt`), i.e. the arguments are taken to be Python numbers, not numpy
scalars. Plots and files are not modelled, nor is `stress_stainless` (real powers).
-/
namespace Metku.Fire

/-- A table of reduction factors: temperature, then property name and factor. -/
abbrev Table := List (ℕ × List (String × ℚ))

/-- `REDUCTION_FACTORS_CS`, en1993_1_2.py 20-33. -/
def tableCS : Table :=
  [(20, [("ky", 1), ("kp", 1), ("kE", 1), ("kp02", 1)]),
   (100, [("ky", 1), ("kp", 1), ("kE", 1), ("kp02", 1)]),
   (200, [("ky", 1), ("kp", 807 / 1000), ("kE", 9 / 10), ("kp02", 89 / 100)]),
   (300, [("ky", 1), ("kp", 613 / 1000), ("kE", 8 / 10), ("kp02", 78 / 100)]),
   (400, [("ky", 1), ("kp", 420 / 1000), ("kE", 7 / 10), ("kp02", 65 / 100)]),
   (500, [("ky", 780 / 1000), ("kp", 360 / 1000), ("kE", 6 / 10), ("kp02", 53 / 100)]),
   (600, [("ky", 470 / 1000), ("kp", 180 / 1000), ("kE", 310 / 1000), ("kp02", 30 / 100)]),
   (700, [("ky", 230 / 1000), ("kp", 75 / 1000), ("kE", 130 / 1000), ("kp02", 13 / 100)]),
   (800, [("ky", 110 / 1000), ("kp", 50 / 1000), ("kE", 90 / 1000), ("kp02", 7 / 100)]),
   (900, [("ky", 60 / 1000), ("kp", 375 / 10000), ("kE", 675 / 10000), ("kp02", 5 / 100)]),
   (1000, [("ky", 40 / 1000), ("kp", 250 / 10000), ("kE", 450 / 10000), ("kp02", 3 / 100)]),
   (1100, [("ky", 20 / 1000), ("kp", 125 / 10000), ("kE", 225 / 10000), ("kp02", 2 / 100)]),
   (1200, [("ky", 0), ("kp", 0), ("kE", 0), ("kp02", 0)])]

/-- `REDUCTION_FACTORS_14301`, en1993_1_2.py 36-49. -/
def table14301 : Table :=
  [(20, [("ky", 26 / 100), ("k02", 1), ("ku", 1), ("kE", 1), ("kEct", 11 / 100), ("epsU", 40 / 100)]),
   (100, [("ky", 24 / 100), ("k02", 82 / 100), ("ku", 87 / 100), ("kE", 96 / 100), ("kEct", 5 / 100), ("epsU", 40 / 100)]),
   (200, [("ky", 19 / 100), ("k02", 68 / 100), ("ku", 77 / 100), ("kE", 92 / 100), ("kEct", 2 / 100), ("epsU", 40 / 100)]),
   (300, [("ky", 19 / 100), ("k02", 64 / 100), ("ku", 73 / 100), ("kE", 88 / 100), ("kEct", 2 / 100), ("epsU", 40 / 100)]),
   (400, [("ky", 19 / 100), ("k02", 60 / 100), ("ku", 72 / 100), ("kE", 84 / 100), ("kEct", 2 / 100), ("epsU", 40 / 100)]),
   (500, [("ky", 19 / 100), ("k02", 54 / 100), ("ku", 67 / 100), ("kE", 80 / 100), ("kEct", 2 / 100), ("epsU", 40 / 100)]),
   (600, [("ky", 22 / 100), ("k02", 49 / 100), ("ku", 58 / 100), ("kE", 76 / 100), ("kEct", 2 / 100), ("epsU", 35 / 100)]),
   (700, [("ky", 26 / 100), ("k02", 40 / 100), ("ku", 43 / 100), ("kE", 71 / 100), ("kEct", 2 / 100), ("epsU", 30 / 100)]),
   (800, [("ky", 35 / 100), ("k02", 27 / 100), ("ku", 27 / 100), ("kE", 63 / 100), ("kEct", 2 / 100), ("epsU", 20 / 100)]),
   (900, [("ky", 38 / 100), ("k02", 14 / 100), ("ku", 15 / 100), ("kE", 45 / 100), ("kEct", 2 / 100), ("epsU", 20 / 100)]),
   (1000, [("ky", 4 / 100), ("k02", 6 / 100), ("ku", 7 / 100), ("kE", 2 / 10), ("kEct", 2 / 100), ("epsU", 20 / 100)]),
   (1100, [("ky", 4 / 100), ("k02", 3 / 100), ("ku", 3 / 100), ("kE", 1 / 10), ("kEct", 2 / 100), ("epsU", 20 / 100)]),
   (1200, [("ky", 4 / 100), ("k02", 0), ("ku", 0), ("kE", 0), ("kEct", 2 / 100), ("epsU", 20 / 100)])]

/-- `REDUCTION_FACTORS_BOLTS`, en1993_1_2.py 52-64. -/
def tableBolts : Table :=
  [(20, [("kb", 1)]), (100, [("kb", 968 / 1000)]), (150, [("kb", 952 / 1000)]), (200, [("kb", 935 / 1000)]),
   (300, [("kb", 903 / 1000)]), (400, [("kb", 775 / 1000)]), (500, [("kb", 550 / 1000)]), (600, [("kb", 220 / 1000)]),
   (700, [("kb", 100 / 1000)]), (800, [("kb", 67 / 1000)]), (900, [("kb", 33 / 1000)]), (1000, [("kb", 0)])]

/-- `SPECIAL_TEMPS`, en1993_1_2.py 66. -/
def specialTemps : List ℕ := [20, 100, 150, 200, 300, 400, 500, 600, 700, 800, 900, 1000, 1100, 1200]

/-- The table chosen by the argument `steel`, en1993_1_2.py 114-121, 132-140. -/
def tableOf (steel : String) : Option Table :=
  if steel = "carbon" then some tableCS
  else if steel = "1.4301" then some table14301
  else if steel = "bolts" then some tableBolts
  else none

/-- `TABLE[t][prop]`: two dictionary accesses, `KeyError` when a key is missing, en1993_1_2.py 115-140. -/
def look (tb : Table) (n : ℕ) (prop : String) : Except PyErr ℚ :=
  match tb.lookup n with
  | none => .error .keyError
  | some row =>
    match row.lookup prop with
    | none => .error .keyError
    | some q => .ok q

section Field
variable {K : Type} [Field K] [LinearOrder K] [IsStrictOrderedRing K]

/-- `linear_interpolation`, en1993_1_2.py 89-105 (`k = (y2-y1)/(x2-x1)`, `b = y1-k*x1`, result `k*x+b`). -/
def linInterp (x1 y1 x2 y2 x : K) : K :=
  let k := (y2 - y1) / (x2 - x1)
  let b := y1 - k * x1
  k * x + b

/-- `reduce_property`, en1993_1_2.py 107-144: `np.max`, `np.min` of an empty selection raise `ValueError`; an unknown `steel` gives 1 at a special
    temperature and leaves `p_smaller` unbound elsewhere. -/
def reduceProperty (t : K) (prop steel : String) : Except PyErr K :=
  match specialTemps.find? fun n : ℕ => decide ((n : K) = t) with
  | some n =>
    match tableOf steel with
    | none => .ok 1
    | some tb =>
      match look tb n prop with
      | .error e => .error e
      | .ok q => .ok (q : K)
  | none =>
    match (specialTemps.filter fun n : ℕ => decide ((n : K) < t)).max? with
    | none => .error .valueError
    | some a =>
      match (specialTemps.filter fun n : ℕ => decide (t < (n : K))).min? with
      | none => .error .valueError
      | some b =>
        match tableOf steel with
        | none => .error .unboundLocal
        | some tb =>
          match look tb a prop with
          | .error e => .error e
          | .ok ya =>
            match look tb b prop with
            | .error e => .error e
            | .ok yb => .ok (linInterp (a : K) (ya : K) (b : K) (yb : K) t)

/-- A factor times a reference value: `EaT`, `fyT`, `fpT`, `f02pT`, `kbT`, en1993_1_2.py 147-186, 200-204. -/
def reduced (t : K) (prop steel : String) (ref : K) : Except PyErr K :=
  (reduceProperty t prop steel).map (· * ref)

/-- `EaT`, en1993_1_2.py 147-154. -/
def EaT (t Ea : K) (steel : String) : Except PyErr K := reduced t "kE" steel Ea
/-- `fyT`, en1993_1_2.py 156-163. -/
def fyT (t fy : K) (steel : String) : Except PyErr K := reduced t "ky" steel fy
/-- `fpT`, en1993_1_2.py 165-172. -/
def fpT (t fp : K) (steel : String) : Except PyErr K := reduced t "kp" steel fp

/-- `fuT` for carbon steel, en1993_1_2.py 187-196. -/
def fuT (t fyt : K) : K :=
  if t < 300 then 5 / 4 * fyt else if t < 400 then fyt * (2 - 25 / 10000 * t) else fyt

/-- `therm_elongation`, en1993_1_2.py 285-297. -/
def thermElongation (t : K) : K :=
  if t < 750 then 12 / 1000000 * t + 4 / 1000000000 * t ^ 2 - 2416 / 10000000
  else if t ≤ 860 then 11 / 1000
  else 2 / 100000 * t - 62 / 10000

/-- `therm_conductivity`, en1993_1_2.py 300-309. -/
def thermConductivity (t : K) : K := if t < 800 then 54 - 333 / 10000 * t else 273 / 10

/-- `spec_heat`, en1993_1_2.py 312-326. -/
def specHeat (t : K) : K :=
  if t < 600 then 425 + 773 / 1000 * t - 169 / 100000 * t ^ 2 + 222 / 100000000 * t ^ 3
  else if t < 735 then 666 + 13002 / (738 - t)
  else if t < 900 then 545 + 17820 / (t - 731)
  else 650

/-- `spec_heat_stainless`, en1993_1_2.py 343-347. -/
def specHeatStainless (t : K) : K := 450 + 280 / 1000 * t - 291 / 1000000 * t ^ 2 + 134 / 1000000000 * t ^ 3

/-- `hnet`, en1993_1_2.py 416-426, with `phi = eps_f = 1` (the values every caller in the file uses). -/
def hnet (tGas tSteel epsM ac : K) : K :=
  ac * (tGas - tSteel) + 1 * epsM * 1 * (567 / 10000000000) * ((tGas + 273) ^ 4 - (tSteel + 273) ^ 4)

/-- One pass of the loop of `steel_temp` (`stainless_steel_temp`), en1993_1_2.py 375-379 (409-412): the next steel temperature. -/
def nextTemp (cp : K → K) (ksh AmV epsM ac tGas dt T : K) : K :=
  T + ksh * AmV / cp T / 7850 * hnet tGas T epsM ac * dt

/-- The loop `while t < tmax` of `steel_temp`, en1993_1_2.py 365-379 (`stainless_steel_temp`, 399-412); `fuel` bounds the number of passes, `none` means that
    it was not enough. The lists are kept newest first (`Tsteel[-1]` is the head) and reversed on return. -/
def tempLoop (cp : K → K) (gas : K → K) (ksh AmV epsM ac tmax dt : K) : ℕ → K → K → List K → List K → Option (List K × List K)
  | 0, t, _, Ts, times => if t < tmax then none else some (Ts.reverse, times.reverse)
  | n + 1, t, T, Ts, times =>
    if t < tmax then
      let T' := nextTemp cp ksh AmV epsM ac (gas (t / 60)) dt T
      tempLoop cp gas ksh AmV epsM ac tmax dt n (t + dt) T' (T' :: Ts) ((t + dt) / 60 :: times)
    else some (Ts.reverse, times.reverse)

end Field

noncomputable section Real

/-- `a / b` on Python floats. -/
def pdiv (a b : ℝ) : Except PyErr ℝ := if b = 0 then .error .zeroDivision else .ok (a / b)

/-- `math.sqrt`. -/
def psqrt (a : ℝ) : Except PyErr ℝ := if a < 0 then .error .valueError else .ok (√a)

/-- `standard_fire`, en1993_1_2.py 71-78 (`math.log(y, 10)` is `ln y / ln 10`). -/
def standardFire (t : ℝ) : ℝ := 20 + 345 * (Real.log (8 * t + 1) / Real.log 10)

/-- `hydrocarbon_fire`, en1993_1_2.py 80-87. -/
def hydrocarbonFire (t : ℝ) : ℝ :=
  20 + 1080 * (1 - 325 / 1000 * Real.exp (-(167 / 1000) * t) - 675 / 1000 * Real.exp (-(5 / 2) * t))

/-- The gas temperature functions that `steel_temp` recognises, en1993_1_2.py 360-363; for every other function `aconv` stays unbound. -/
inductive Gas
  | standard | hydrocarbon | other (f : ℝ → ℝ)

/-- The gas temperature at a time in minutes. -/
def Gas.temp : Gas → ℝ → ℝ
  | .standard => standardFire
  | .hydrocarbon => hydrocarbonFire
  | .other f => f

/-- `aconv`, en1993_1_2.py 360-363. -/
def Gas.aconv : Gas → Option ℝ
  | .standard => some 25
  | .hydrocarbon => some 50
  | .other _ => none

/-- `steel_temp`, en1993_1_2.py 349-381: `none` when the loop is not finished after `fuel` passes; `aconv` is read in the first pass. -/
def steelTemp (fuel : ℕ) (ksh AmV tmax : ℝ) (gas : Gas) (dt Tini : ℝ) : Option (Except PyErr (List ℝ × List ℝ)) :=
  match gas.aconv with
  | none => if 0 < tmax then some (.error .unboundLocal) else some (.ok ([Tini], [0]))
  | some ac => (tempLoop specHeat gas.temp ksh AmV (7 / 10) ac tmax dt fuel 0 Tini [Tini] [0]).map .ok

/-- The elliptic part of the stress-strain curve, en1993_1_2.py 225-230. -/
def ellipse (strain fp fy E : ℝ) : Except PyErr ℝ := do
  let ep := fp / E
  let h := 2 / 100 - ep
  let c ← pdiv ((fy - fp) ^ 2) (h * E - 2 * (fy - fp))
  let b ← psqrt (c * h * E + c ^ 2)
  let a ← psqrt (h * (h + c / E))
  let r ← pdiv b a
  let s ← psqrt (a ^ 2 - (2 / 100 - strain) ^ 2)
  pure (fp - c + r * s)

/-- `stress`, en1993_1_2.py 207-252. -/
def stress (strain t Ea fya : ℝ) (hardening : Bool) : Except PyErr ℝ := do
  let fp ← fpT t fya "carbon"
  let E ← EaT t Ea "carbon"
  let ep ← pdiv fp E
  if strain ≤ ep then pure (E * strain)
  else if strain < 2 / 100 then do
    let fy ← fyT t fya "carbon"
    ellipse strain fp fy E
  else if strain ≤ 15 / 100 then do
    let fy ← fyT t fya "carbon"
    if hardening then
      let fu := fuT t fy
      if strain < 4 / 100 then pure (50 * (fu - fy) * strain + 2 * fy - fu) else pure fu
    else pure fy
  else if strain < 20 / 100 then do
    let fy ← fyT t fya "carbon"
    if hardening then pure (fuT t fy * (1 - 20 * (strain - 15 / 100)))
    else pure (fy * (1 - (strain - 15 / 100) / (20 / 100 - 15 / 100)))
  else pure 0

end Real

end Metku.Fire
