import Mathlib.Analysis.SpecialFunctions.Log.Basic
import Mathlib.Analysis.SpecialFunctions.Pow.Real
import Verif.Model.PyErr

/-!
Model of `metku/eurocodes/en1991/en1991_1_4.py` (wind loads), function by function. Floats are exact: reals where logarithms and powers occur, an ordered field elsewhere. The `print` calls are left out.
-/
namespace Metku.Wind

/-- `terrain_category`, en1991_1_4.py 32-36: roughness length and minimum height. Any other key raises KeyError. -/
noncomputable def terrain : ℕ → Except PyErr (ℝ × ℝ)
  | 0 => .ok (3 / 1000, 1)
  | 1 => .ok (1 / 100, 1)
  | 2 => .ok (5 / 100, 2)
  | 3 => .ok (3 / 10, 5)
  | 4 => .ok (1, 10)
  | _ => .error .keyError

/-- `terrain_roughness`, en1991_1_4.py 159-175. -/
noncomputable def roughness (z : ℝ) (cat : ℕ) : Except PyErr ℝ := do
  let t ← terrain cat
  let kr := if cat = 0 then 18 / 100 else 19 / 100 * (t.1 / (5 / 100)) ^ (7 / 100 : ℝ)
  pure (kr * Real.log (max t.2 z / t.1))

/-- `mean_wind_velocity`, en1991_1_4.py 178-184. -/
noncomputable def meanVelocity (vb z : ℝ) (cat : ℕ) : Except PyErr ℝ := do
  let cr ← roughness z cat
  pure (vb * cr * 1)

/-- `turbulence_intensity`, en1991_1_4.py 190-200. -/
noncomputable def turbulence (z : ℝ) (cat : ℕ) : Except PyErr ℝ := do
  let t ← terrain cat
  pure (1 / 1 / Real.log (max t.2 z / t.1))

/-- `peak_velocity_pressure`, en1991_1_4.py 202-214, with `rho_air` of line 23. -/
noncomputable def peakPressure (z : ℝ) (cat : ℕ) (vb : ℝ) : Except PyErr ℝ := do
  let Iv ← turbulence z cat
  let vm ← meanVelocity vb z cat
  pure ((1 + 7 * Iv) * (1 / 2) * (125 / 100) * vm ^ 2)

variable {K : Type} [Field K] [LinearOrder K] [IsStrictOrderedRing K]

/-- `interpolate`, en1991_1_4.py 27-30. -/
def interpolate (x0 x1 y0 y1 x : K) : K := y0 + (y1 - y0) / (x1 - x0) * (x - x0)

/-- A zone of a wall: length, coefficient, pressure. -/
structure Zone (K : Type) where
  length : K
  cpe : K
  we : K

/-- The zones A to E of `rect_building_wall_pressure`. -/
structure Wall (K : Type) where
  A : Zone K
  B : Zone K
  C : Zone K
  D : Zone K
  E : Zone K

/-- The argument `wind_dir`. -/
inductive WindDir
  | long | short | other

/-- `rect_building_wall_pressure`, en1991_1_4.py 226-317; Table 7.1 of lines 39-54. -/
def wallPressure (length width h qp : K) (dir : WindDir) : Except PyErr (Wall K) := do
  let (b, d) ← match dir with
    | .long => pure (length, width)
    | .short => pure (width, length)
    | .other => .error .unboundLocal
  let e := min b (2 * h)
  let lengths : K × K × K := if e < d then (e / 5, 8 / 10 * e, d - e) else if 5 * d ≤ e then (d, 0, 0) else (2 / 10 * e, d - 2 / 10 * e, 0)
  if d = 0 then .error .zeroDivision
  else
    let r := h / d
    let cpe : K × K × K × K × K :=
      if 10 < b * h then
        let de : K × K :=
          if 5 ≤ r then (8 / 10, -7 / 10)
          else if 1 ≤ r then (8 / 10, interpolate 1 5 (-5 / 10) (-7 / 10) r)
          else if 25 / 100 ≤ r then (interpolate (25 / 100) 1 (7 / 10) (8 / 10) r, interpolate (25 / 100) 1 (-3 / 10) (-5 / 10) r)
          else (7 / 10, -3 / 10)
        (-12 / 10, -8 / 10, -5 / 10, de.1, de.2)
      else (0, 0, 0, 0, 0)
    pure
      { A := { length := lengths.1, cpe := cpe.1, we := qp * cpe.1 }
        B := { length := lengths.2.1, cpe := cpe.2.1, we := qp * cpe.2.1 }
        C := { length := lengths.2.2, cpe := cpe.2.2.1, we := qp * cpe.2.2.1 }
        D := { length := b, cpe := cpe.2.2.2.1, we := qp * cpe.2.2.2.1 }
        E := { length := b, cpe := cpe.2.2.2.2, we := qp * cpe.2.2.2.2 } }

/-- A coefficient that is a number, or a list of a lower and an upper value. -/
inductive Cpe (K : Type)
  | one (c : K)
  | two (lo hi : K)

/-- A zone of a roof. -/
structure RoofZone (K : Type) where
  length : K
  width : K
  cpe : Cpe K
  we : Cpe K

/-- Zones of a flat roof. -/
structure Roof (K : Type) where
  F : RoofZone K
  G : RoofZone K
  H : RoofZone K
  I : RoofZone K

/-- `flat_roof_pressure`, en1991_1_4.py 389-432; Table 7.2 of lines 57-60. With parapets (`hp ≠ 0`) the coefficients and pressures stay 0. -/
def flatRoof (d b h qp hp : K) : Except PyErr (Roof K) :=
  let e := min b (2 * h)
  if d = 0 then .error .zeroDivision
  else
    let z (c : K) : Cpe K × Cpe K := if hp = 0 then (.one c, .one (qp * c)) else (.one 0, .one 0)
    let z2 (lo hi : K) : Cpe K × Cpe K := if hp = 0 then (.two lo hi, .two (qp * lo) (qp * hi)) else (.one 0, .one 0)
    .ok
      { F := { length := 25 / 100 * e, width := 1 / 10 * e, cpe := (z (-18 / 10)).1, we := (z (-18 / 10)).2 }
        G := { length := b - 5 / 10 * e, width := 1 / 10 * e, cpe := (z (-12 / 10)).1, we := (z (-12 / 10)).2 }
        H := { length := b, width := 4 / 10 * e, cpe := (z (-7 / 10)).1, we := (z (-7 / 10)).2 }
        I := { length := b, width := d - 5 / 10 * e, cpe := (z2 (2 / 10) (-2 / 10)).1, we := (z2 (2 / 10) (-2 / 10)).2 } }

/-- Pressures of `monopitch_roof_pressure`, en1991_1_4.py 354-387, in the six zones: `cpe` stays 0, the coefficients of line 380 are not used. -/
def monopitchPressures (length width _h qp : K) (angle : ℕ) : Except PyErr (List K) :=
  let d := if angle = 0 ∨ angle = 180 then width else length
  if d = 0 then .error .zeroDivision else .ok (List.replicate 6 (qp * 0))

/-- Coefficients of one zone: areas over 10 m2 and of 1 m2. -/
structure ZoneCpe (K : Type) where
  cpe10 : Cpe K
  cpe1 : Cpe K

/-- The attributes F, G, H of `ExternalPressureMonoRoof`, en1991_1_4.py 70-152; absent (`none`) for other wind directions and for angles below 5. -/
def monoRoof (dir : ℕ) (a : K) : Option (ZoneCpe K × ZoneCpe K × ZoneCpe K) :=
  let same (c : Cpe K) : ZoneCpe K := { cpe10 := c, cpe1 := c }
  let ones (x y : K) : ZoneCpe K := { cpe10 := .one x, cpe1 := .one y }
  if 75 ≤ a then
    if dir = 0 then some (same (.one (8 / 10)), same (.one (8 / 10)), same (.one (8 / 10)))
    else if dir = 180 then some (ones (-5 / 10) (-1), ones (-5 / 10) (-5 / 10), ones (-5 / 10) (-5 / 10))
    else none
  else if 60 ≤ a then
    if dir = 0 then
      let c := interpolate 60 75 (7 / 10) (8 / 10) a
      some (same (.one c), same (.one c), same (.one c))
    else if dir = 180 then some (ones (-5 / 10) (-1), ones (-5 / 10) (-5 / 10), ones (-5 / 10) (-5 / 10))
    else none
  else if 45 ≤ a then
    if dir = 0 then
      let c := interpolate 45 60 (6 / 10) (7 / 10) a
      some (same (.two 0 (7 / 10)), same (.two 0 (7 / 10)), same (.two 0 c))
    else if dir = 180 then
      let c := interpolate 45 60 (-7 / 10) (-5 / 10) a
      some (ones (interpolate 45 60 (-6 / 10) (-5 / 10) a) (interpolate 45 60 (-13 / 10) (-1) a), ones (-5 / 10) (-5 / 10), ones c c)
    else none
  else if 30 ≤ a then
    if dir = 0 then
      let n10 := interpolate 30 45 (-5 / 10) 0 a
      let n1 := interpolate 30 45 (-15 / 10) 0 a
      let p := interpolate 30 45 (4 / 10) (6 / 10) a
      let n := interpolate 30 45 (-2 / 10) 0 a
      some ({ cpe10 := .two n10 (7 / 10), cpe1 := .two n1 (7 / 10) }, { cpe10 := .two n10 (7 / 10), cpe1 := .two n1 (7 / 10) }, same (.two n p))
    else if dir = 180 then
      let c := interpolate 30 45 (-8 / 10) (-7 / 10) a
      some (ones (interpolate 30 45 (-11 / 10) (-6 / 10) a) (interpolate 30 45 (-23 / 10) (-13 / 10) a),
        ones (interpolate 30 45 (-8 / 10) (-5 / 10) a) (interpolate 30 45 (-15 / 10) (-5 / 10) a), ones c c)
    else none
  else if 5 ≤ a then
    if dir = 0 then
      -- lines 118-128 and 133-143 are the same: also below 15 degrees the values of 15 and 30 degrees are used
      let p := interpolate 15 30 (2 / 10) (7 / 10) a
      let pH := interpolate 15 30 (2 / 10) (4 / 10) a
      let nH := interpolate 15 30 (-3 / 10) (-2 / 10) a
      some ({ cpe10 := .two (interpolate 15 30 (-9 / 10) (-5 / 10) a) p, cpe1 := .two (interpolate 15 30 (-2) (-15 / 10) a) p },
        { cpe10 := .two (interpolate 15 30 (-8 / 10) (-5 / 10) a) p, cpe1 := .two (-15 / 10) p }, same (.two nH pH))
    else if dir = 180 then
      if 15 ≤ a then
        some (ones (interpolate 15 30 (-25 / 10) (-11 / 10) a) (interpolate 15 30 (-28 / 10) (-23 / 10) a),
          ones (interpolate 15 30 (-13 / 10) (-8 / 10) a) (interpolate 15 30 (-2) (-15 / 10) a),
          ones (interpolate 15 30 (-9 / 10) (-8 / 10) a) (interpolate 15 30 (-12 / 10) (-8 / 10) a))
      else
        some (ones (interpolate 5 15 (-23 / 10) (-25 / 10) a) (interpolate 5 15 (-25 / 10) (-28 / 10) a), ones (-13 / 10) (-2),
          ones (interpolate 5 15 (-8 / 10) (-9 / 10) a) (-12 / 10))
    else none
  else none

end Metku.Wind
