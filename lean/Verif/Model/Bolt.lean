import Mathlib.Analysis.SpecialFunctions.Pow.Real
import Mathlib.Analysis.SpecialFunctions.Trigonometric.Basic
import Verif.Model.PyErr

/-!
Model of the bolts and welds of `metku/eurocodes/en1993/en1993_1_8/en1993_1_8.py` (lines 22-333, 2109-2259) and of the reduction factor and the components of
`component_method.py`, function by function, over the reals.

Simplifications: floats are exact; bolt sizes are natural numbers; strength classes outside Table 3.1 are one case; prices are dropped from the tables of stocked bolts, which keep only
which sizes have a price; printing is left out; divisions by dimensions and strengths are total and the theorems assume them positive.
-/
namespace Metku.Bolts

open Real

noncomputable section

/-- `gammaM0`, `gammaM1`, `gammaM2`, constants.py 29-31. -/
def gammaM0 : ℝ := 1

@[inherit_doc gammaM0] def gammaM1 : ℝ := 1

@[inherit_doc gammaM0] def gammaM2 : ℝ := 125 / 100

/-- Strength classes, keys of `mat_bolt`, en1993_1_8.py 22-28. -/
inductive Cls
  | c46 | c48 | c56 | c58 | c68 | c88 | c109 | other
  deriving DecidableEq

/-- `mat_bolt`, en1993_1_8.py 22-28: yield and ultimate strength; KeyError for other classes. -/
def matBolt : Cls → Except PyErr (ℝ × ℝ)
  | .c46 => .ok (240, 400)
  | .c48 => .ok (320, 400)
  | .c56 => .ok (300, 500)
  | .c58 => .ok (400, 500)
  | .c68 => .ok (480, 600)
  | .c88 => .ok (640, 800)
  | .c109 => .ok (900, 1000)
  | .other => .error .keyError

/-- Dimensions of a bolt assembly: stress area, head thickness, width across flats, nut thickness, nut width across corners, washer thickness, washer diameter. -/
structure Dims where
  As : ℝ
  headT : ℝ
  headD : ℝ
  nutT : ℝ
  nutE : ℝ
  washerT : ℝ
  washerD : ℝ

/-- `bolt_size`, `nut_size` and `washer_size`, en1993_1_8.py 44-76; KeyError for other sizes. -/
def dims : ℕ → Except PyErr Dims
  | 12 => .ok ⟨843 / 10, 75 / 10, 18, 108 / 10, 2003 / 100, 25 / 10, 24⟩
  | 16 => .ok ⟨157, 10, 24, 148 / 10, 2675 / 100, 3, 30⟩
  | 20 => .ok ⟨245, 125 / 10, 30, 18, 3295 / 100, 3, 37⟩
  | 24 => .ok ⟨353, 15, 36, 215 / 10, 3955 / 100, 4, 44⟩
  | 30 => .ok ⟨561, 187 / 10, 46, 256 / 10, 5085 / 100, 4, 56⟩
  | 36 => .ok ⟨817, 225 / 10, 55, 31, 6079 / 100, 5, 66⟩
  | _ => .error .keyError

/-- Keys of the price tables: lengths and the string `'max'`. -/
inductive Key
  | len (l : ℕ)
  | max

/-- Sizes in every row of the price tables, cost_data.py 126-187. -/
def sizes : List ℕ := [12, 16, 20, 24, 30, 36]

/-- `bolt_unit_cost_part_thread`, cost_data.py 126-154: the sizes with a price for each length. -/
def partThread : List (Key × List ℕ) :=
  [(.len 20, []), (.len 25, []), (.len 30, []), (.len 35, []), (.len 40, []), (.len 45, []), (.len 50, [12]), (.len 55, [12, 16]),
    (.len 60, [12, 16]), (.len 65, [12, 16, 20]), (.len 70, [12, 16, 20]), (.len 75, [16, 20, 24]), (.len 80, [12, 16, 20, 24]),
    (.len 90, [12, 16, 20, 24, 30]), (.len 100, [12, 16, 20, 24, 30]), (.len 110, [12, 16, 20, 24, 30]), (.len 120, [12, 16, 20, 24, 30, 36]),
    (.len 130, [12, 16, 20, 24, 30, 36]), (.len 140, [12, 16, 20, 24, 30, 36]), (.len 150, [12, 16, 20, 24, 30]),
    (.len 160, [12, 16, 20, 24, 30, 36]), (.len 180, [12, 16, 20, 24, 30, 36]), (.len 200, [12, 16, 20, 24, 30, 36]),
    (.len 220, [12, 16, 20, 24, 30]), (.len 240, [12, 16, 20, 24, 36]), (.len 260, [12, 16, 20, 24, 30]), (.len 280, [16, 24, 36]),
    (.len 300, [16, 20, 24, 30]), (.max, [])]

/-- `bolt_unit_cost_full_thread`, cost_data.py 159-187. -/
def fullThread : List (Key × List ℕ) :=
  [(.len 20, [12]), (.len 25, [12, 16]), (.len 30, [12, 16, 20]), (.len 35, [12, 16, 20]), (.len 40, [12, 16, 20, 24]),
    (.len 45, [12, 16, 20]), (.len 50, [12, 16, 20, 24]), (.len 55, [16, 20, 24]), (.len 60, [12, 16, 20, 24, 30]), (.len 65, []),
    (.len 70, [12, 16, 20, 24, 30, 36]), (.len 75, []), (.len 80, [12, 16, 20, 24, 30]), (.len 90, [12, 16, 20, 24, 30]),
    (.len 100, [12, 16, 20, 24, 30, 36]), (.len 110, [30]), (.len 120, [12, 16, 24, 30, 36]), (.len 130, []), (.len 140, [12, 16, 30]),
    (.len 150, [20, 24]), (.len 160, []), (.len 180, [36]), (.len 200, [20, 30]), (.len 220, []), (.len 240, [24]), (.len 260, []),
    (.len 280, []), (.len 300, []), (.max, [])]

/-- Loop over a price table, en1993_1_8.py 123-129, 135-140, 211-217, 223-229: the first length not below the requested one with a price for the size.
`'max' >= length` compares a string with a number and raises TypeError; `value[size]` raises KeyError for a size without column. -/
def scan (length : ℝ) (size : ℕ) : List (Key × List ℕ) → Except PyErr (Option ℕ)
  | [] => .ok none
  | (.max, _) :: _ => .error .typeError
  | (.len k, av) :: t =>
    if length ≤ k then
      if size ∉ sizes then .error .keyError
      else if size ∈ av then .ok (some k) else scan length size t
    else scan length size t

inductive Thread
  | part | full
  deriving DecidableEq

/-- A `Bolt`, en1993_1_8.py 110-170. -/
structure Bolt where
  d : ℕ
  minLength : ℝ
  length : ℝ
  thread : Thread
  d0 : ℕ
  A : ℝ
  dims : Dims
  fyb : ℝ
  fub : ℝ
  cls : Cls

/-- Hole diameter, en1993_1_8.py 148-153, 192-197. -/
def holeDiameter (size : ℕ) : ℕ := if size < 16 then size + 1 else if size < 27 then size + 2 else size + 3

/-- Length and thread type, en1993_1_8.py 121-143: first partially, then fully threaded bolts, otherwise the requested length. -/
def chooseLength (length : ℝ) (size : ℕ) : Except PyErr (ℝ × Thread) := do
  match ← scan length size partThread with
  | some k => pure ((k : ℝ), Thread.part)
  | none => match ← scan length size fullThread with
    | some k => pure ((k : ℝ), Thread.full)
    | none => pure (length, Thread.full)

/-- Constructor, en1993_1_8.py 110-170. -/
def Bolt.new (size : ℕ) (cls : Cls) (length : ℝ) : Except PyErr Bolt := do
  let l ← chooseLength length size
  let dm ← Bolts.dims size
  let f ← matBolt cls
  pure
    { d := size
      minLength := length
      length := l.1
      thread := l.2
      d0 := holeDiameter size
      A := π * (size : ℝ) ^ 2 / 4
      dims := dm
      fyb := f.1
      fub := f.2
      cls := cls }

/-- Length and thread type of the setter, en1993_1_8.py 210-232: without a stocked bolt the local variable `length` is unbound. -/
def resizeLength (length : ℝ) (size : ℕ) : Except PyErr (ℝ × Thread) := do
  match ← scan length size partThread with
  | some k => pure ((k : ℝ), Thread.part)
  | none => match ← scan length size fullThread with
    | some k => pure ((k : ℝ), Thread.full)
    | none => .error .unboundLocal

/-- Setter of `size`, en1993_1_8.py 183-232: the object after the assignment and the exception, if one is raised on the way. -/
def Bolt.setSize (b : Bolt) (val : ℕ) : Bolt × Option PyErr :=
  let b1 : Bolt := { b with d := val, d0 := holeDiameter val, A := π * (val : ℝ) ^ 2 / 4 }
  match Bolts.dims val with
  | .error e => (b1, some e)
  | .ok dm =>
    let b2 : Bolt := { b1 with dims := dm }
    match resizeLength b.minLength val with
    | .error e => (b2, some e)
    | .ok l => ({ b2 with length := l.1, thread := l.2 }, none)

/-- `dw`, en1993_1_8.py 174-176. -/
def Bolt.dw (b : Bolt) : ℝ := max (max b.dims.washerD b.dims.headD) b.dims.nutE

/-- `Bolt.shear_resistance`, en1993_1_8.py 234-273. -/
def Bolt.shear (b : Bolt) (threadsInPlane : Bool) : Except PyErr ℝ :=
  if threadsInPlane then
    match b.cls with
    | .c109 | .c68 | .c58 | .c48 => .ok (5 / 10 * b.fub * b.dims.As / gammaM2)
    | .c46 | .c56 | .c88 => .ok (6 / 10 * b.fub * b.dims.As / gammaM2)
    | .other => .error .unboundLocal
  else .ok (6 / 10 * b.fub * b.A / gammaM2)

/-- `Bolt.tension_resistance`, en1993_1_8.py 275-284. -/
def Bolt.tension (b : Bolt) (k2 : ℝ) : ℝ := k2 * b.fub * b.dims.As / gammaM2

/-- Position of a bolt in one direction: `"edge"` or anything else. -/
inductive Pos
  | edge | inner
  deriving DecidableEq

/-- `Bolt.bearing_resistance`, en1993_1_8.py 287-333. -/
def Bolt.bearing (b : Bolt) (fu t e1 e2 p1 p2 : ℝ) (perp load : Pos) : ℝ :=
  let ad := if load = .edge then e1 / 3 / (b.d0 : ℝ) else p1 / 3 / (b.d0 : ℝ) - 25 / 100
  let k1 :=
    if perp = .edge then min (min (28 / 10 * e2 / (b.d0 : ℝ) - 17 / 10) (14 / 10 * p2 / (b.d0 : ℝ) - 17 / 10)) (25 / 10)
    else min (14 / 10 * p2 / (b.d0 : ℝ) - 17 / 10) (25 / 10)
  let ab := min (min ad (b.fub / fu)) 1
  k1 * ab * fu * (b.d : ℝ) * t / gammaM2

/-- `bolt_shear_resistance`, en1993_1_8.py 2109-2133. -/
def shearFn (fub A : ℝ) (c : Cls) (threadsInPlane : Bool) : Except PyErr ℝ :=
  if threadsInPlane then .ok (6 / 10 * fub * A / gammaM2)
  else match c with
    | .c109 | .c68 | .c58 | .c48 => .ok (5 / 10 * fub * A / gammaM2)
    | .c46 | .c56 | .c88 => .ok (6 / 10 * fub * A / gammaM2)
    | .other => .error .unboundLocal

/-- `bolt_bearing_resistance`, en1993_1_8.py 2135-2169. -/
def bearingFn (fub fu d t e1 e2 p1 p2 d0 : ℝ) (perp load : Pos) : ℝ :=
  let ad := if load = .edge then e1 / 3 / d0 else p1 / 3 / d0 - 25 / 100
  let k1 := if perp = .edge then min (28 / 10 * e2 / d0 - 17 / 10) (25 / 10) else min (14 / 10 * p2 / d0 - 17 / 10) (25 / 10)
  let ab := min (min ad (fub / fu)) 1
  k1 * ab * fu * d * t

/-- `bolt_tension_resistance`, en1993_1_8.py 2171-2182. -/
def tensionFn (fub As k2 : ℝ) : ℝ := k2 * fub * As / gammaM2

/-- `bolt_punching_shear_resistance`, en1993_1_8.py 2184-2194. -/
def punching (dm tp fu : ℝ) : ℝ := 6 / 10 * π * dm * tp * fu / gammaM2

/-- `shear_and_tension_resistance`, en1993_1_8.py 2196-2207. -/
def shearTension (FvEd FvRd FtEd FtRd : ℝ) : ℝ := FvEd / FvRd + FtEd / FtRd / (14 / 10)

/-- `block_tearing`, en1993_1_8.py 2209-2228. -/
def blockTearing (fy fu Ant Anv : ℝ) (concentric : Bool) : ℝ :=
  if concentric then fu * Ant / gammaM2 + fy / √3 * Anv / gammaM0 else 5 / 10 * fu * Ant / gammaM2 + fy / √3 * Anv / gammaM0

/-- `stiffness_ratio`, en1993_1_8.py 2230-2238. -/
def stiffnessRatio (r ψ : ℝ) : ℝ := if r ≤ 2 / 3 then 1 else (15 / 10 * r) ^ ψ

/-- Steel grades: the keys of `steels`, steel_data.py 16-33; the sheet steels are one case. -/
inductive Grade
  | S235 | S275 | S355 | S420 | S460M | S460Q | B500B | S500 | S700 | sheet
  deriving DecidableEq

/-- `correlation_coefficient[mat.name]`, en1993_1_8.py 78-82: no grade of `steels` is called S460. -/
def correlation : Grade → Except PyErr ℝ
  | .S235 => .ok (8 / 10)
  | .S275 => .ok (85 / 100)
  | .S355 => .ok (9 / 10)
  | .S420 => .ok 1
  | _ => .error .keyError

/-- `full_strength_weld_throat`, en1993_1_8.py 2240-2249. -/
def weldThroat (g : Grade) (fy fu : ℝ) : Except PyErr ℝ := do
  let β ← correlation g
  pure (β / √2 * gammaM2 / gammaM0 * fy / fu)

/-- `full_strength_weld_tube`, en1993_1_8.py 2251-2259. -/
def weldTube (g : Grade) (fy fu : ℝ) : Except PyErr ℝ := do
  let β ← correlation g
  pure (2 * β / √2 * gammaM2 / gammaM0 * fy / fu)

/-- `min_coeff_w`, component_method.py 20-40. -/
def coeffW (β beff twc Avc : ℝ) : ℝ :=
  let w1 := 1 / √(1 + 13 / 10 * (beff * twc / Avc) ^ 2)
  let w2 := 1 / √(1 + 52 / 10 * (beff * twc / Avc) ^ 2)
  if 0 ≤ β ∧ β ≤ 1 / 2 then 1
  else if 1 / 2 < β ∧ β < 1 then w1 + 2 * (1 - β) * (1 - w1)
  else if β = 1 then w1
  else if 1 < β ∧ β < 2 then w1 + 2 * (β - 1) * (1 - w1)
  else if β = 2 then w2
  else 0

/-- `new_alpha`, component_method.py 94-97. -/
def newAlpha (e m m2 : ℝ) : ℝ := min (max (4 + 167 / 100 * e / m * (m / m2) ^ (67 / 100 : ℝ)) (4 + 125 / 100 * e / m)) 8

/-- What the components read of a column or beam section. -/
structure Sec where
  h : ℝ
  b : ℝ
  tf : ℝ
  tw : ℝ
  r : ℝ
  hw : ℝ
  Av : ℝ
  fy : ℝ
  fu : ℝ
  E : ℝ

/-- `col_web_shear`, component_method.py 103-111. -/
def colWebShear (c : Sec) : ℝ := 9 / 10 * c.fy * c.Av / √3 / gammaM0

/-- `col_web_shear_k`, component_method.py 113-119. -/
def colWebShearK (c : Sec) (β z : ℝ) : ℝ := 38 / 100 * c.Av / β / z

/-- `beam_web_compression`, component_method.py 121-129. -/
def beamWebCompression (MRd : ℝ) (b : Sec) : ℝ := MRd / (b.h - b.tf)

/-- `beam_web_tension`, component_method.py 132-141. -/
def beamWebTension (b : Sec) (beff : ℝ) : ℝ := beff * b.tw * b.fy / gammaM0

/-- `b_eff_c_wc` of `col_web_trv_comp`, component_method.py 182-187, and of `EndPlateJoint.beff_c_wc`, end_plate_joint.py 435-464. -/
def beffComp (c b : Sec) (tp ebottom ap : ℝ) : ℝ :=
  let sp := min (2 * tp) (tp + ebottom - √2 * ap)
  b.tf + 2 * √2 * ap + 5 * (c.tf + c.r) + sp

/-- Reduction factor of plate buckling, component_method.py 198-202. -/
def webRho (lam : ℝ) : ℝ := if lam ≤ 72 / 100 then 1 else (lam - 2 / 10) / lam ^ 2

/-- `k_wc`, component_method.py 210-213. -/
def webKwc (σ fy : ℝ) : ℝ := if σ ≤ 7 / 10 * fy then 1 else 17 / 10 - σ / fy

/-- Resistance of `col_web_trv_comp`, component_method.py 154-225. -/
def colWebComp (c b : Sec) (tp ebottom ap β σ : ℝ) : ℝ :=
  let beff := beffComp c b tp ebottom ap
  let lam := 932 / 1000 * √(beff * c.hw * c.fy / (c.E * c.tw ^ 2))
  let ρ := webRho lam
  let w := coeffW β beff c.tw c.Av
  let k := webKwc σ c.fy
  min (w * k * beff * c.tw * c.fy / gammaM0) (w * k * ρ * beff * c.tw * c.fy / gammaM1)

/-- `column_web_tension`, component_method.py 258-286. -/
def colWebTension (c : Sec) (leff β : ℝ) : ℝ := coeffW β leff c.tw c.Av * leff * c.tw * c.fy / gammaM0

/-- `col_web_trv_comp_k`, component_method.py 227-230. -/
def colWebCompK (c : Sec) (beff : ℝ) : ℝ := 7 / 10 * beff * c.tw / c.hw

/-- `column_web_tension_k`, component_method.py 288-298. -/
def colWebTensionK (c : Sec) (beff : ℝ) : ℝ := 7 / 10 * beff * c.tw / c.hw

/-- `column_flange_bending_k` and `end_plate_bending_k`, component_method.py 309-319, 330-339. -/
def bendingK (t leff m : ℝ) : ℝ := 9 / 10 * leff * t ^ 3 / m ^ 3

/-- `bolt_row_tension_k`, component_method.py 341-345, and `BoltRow.k10`, en1993_1_8.py 744-749. -/
def boltRowK (As Lb : ℝ) : ℝ := 16 / 10 * As / Lb

end

end Metku.Bolts
