import Mathlib.Analysis.SpecialFunctions.Trigonometric.Basic

/-!
Model of the section properties of hot-rolled and cold-formed steel sections: `metku/sections/steel/RHS.py`, `CHS.py`, `ISection.py`, function by function, over the reals.

Simplifications: floats are real numbers; the catalogue of rolled sections, drawing and export are not modelled; numpy arrays of two entries are two fields.
-/
namespace Metku.Steel

noncomputable section

open Real

/-! ### Rectangular hollow sections -/

/-- `RHS_area`, RHS.py 422-426. -/
def rhsArea (H B T R : ℝ) : ℝ := 2 * (H - 2 * R) * T + 2 * (B - 2 * R) * T + π * (R ^ 2 - (R - T) ^ 2)

/-- `RHS_paint_area`, RHS.py 429-432. -/
def rhsPaintArea (H B R : ℝ) : ℝ := 2 * (H + B) - 8 * R + 2 * π * R

/-- `RHS_shear_area`, RHS.py 435-437. -/
def rhsShearArea (A H B : ℝ) : ℝ := A * H / (H + B)

/-- `RHS_second_moment`, RHS.py 440-451. -/
def rhsSecondMoment (H B T R : ℝ) : ℝ :=
  let I1 := 2 * (1 / 12 * T * (H - 2 * R) ^ 3 + 1 / 12 * (B - 2 * R) * T ^ 3 + (1 / 2 * (H - T)) ^ 2 * (B - 2 * R) * T)
  let IR := 4 * ((π / 16 - 4 / 9 / π) * R ^ 4 + (1 / 2 * H - R + 4 * R / 3 / π) ^ 2 * π * R ^ 2 / 4)
  let IRneg := 4 * ((π / 16 - 4 / 9 / π) * (R - T) ^ 4 + (1 / 2 * H - R + 4 * (R - T) / 3 / π) ^ 2 * π * (R - T) ^ 2 / 4)
  I1 + IR - IRneg

/-- `RHS_elastic_modulus`, RHS.py 454-457. -/
def rhsElasticModulus (H I1 : ℝ) : ℝ := I1 / (1 / 2 * H)

/-- `RHS_plastic_modulus`, RHS.py 460-467. -/
def rhsPlasticModulus (H B R T : ℝ) : ℝ :=
  let Wp := 2 * ((1 / 2 * H - R) * T * (1 / 2 * H - R)) + (B - 2 * R) * T * (H - T)
  let WR := 2 * π / 4 * R ^ 2 * 2 * (1 / 2 * H - R + 4 * R / 3 / π)
  let Wneg := 2 * π / 4 * (R - T) ^ 2 * 2 * (1 / 2 * H - R + 4 * (R - T) / 3 / π)
  Wp + WR - Wneg

/-- `RHS_outer_radius`, RHS.py 470-477. -/
def rhsOuterRadius (T : ℝ) : ℝ := if T ≤ 6 then 2 * T else if T ≤ 10 then 5 / 2 * T else 3 * T

/-- `RHS.torsional_constant`, RHS.py 172-186. -/
def rhsTorsion (H B T R : ℝ) : ℝ :=
  let Rc := R - 1 / 2 * T
  let h := 2 * ((B - T) + (H - T)) - 2 * Rc * (4 - π)
  let Ah := (B - T) * (H - T) - Rc ^ 2 * (4 - π)
  let K := 2 * Ah * T / h
  T ^ 3 * h / 3 + 2 * K * Ah

/-- The section properties stored in an object (`SteelSection.__init__`, steel_section.py 99-118, and RHS.py 55-67): pairs are `[0]`, `[1]`. -/
@[ext] structure SectionProps where
  A : ℝ
  Au : ℝ
  I : ℝ × ℝ
  Wel : ℝ × ℝ
  Wpl : ℝ × ℝ
  Ashear : ℝ × ℝ

/-- An `RHS` object: dimensions are absent until assigned. -/
@[ext] structure RHS where
  H : Option ℝ
  B : Option ℝ
  T : Option ℝ
  R : Option ℝ
  It : Option ℝ
  props : SectionProps

/-- `RHS.update_properties`, RHS.py 124-154: the first missing dimension raises `AttributeError`, which is swallowed. -/
def RHS.update (s : RHS) : RHS :=
  match s.T with
  | none => s
  | some t =>
    let r := rhsOuterRadius t
    let s := { s with R := some r }
    match s.H, s.B with
    | some h, some b =>
      let A := rhsArea h b t r
      let I0 := rhsSecondMoment h b t r
      let I1 := rhsSecondMoment b h t r
      { s with
        It := some (rhsTorsion h b t r)
        props :=
          { A := A
            Au := rhsPaintArea h b r
            I := (I0, I1)
            Wel := (rhsElasticModulus h I0, rhsElasticModulus b I1)
            Wpl := (rhsPlasticModulus h b r t, rhsPlasticModulus b h r t)
            Ashear := (rhsShearArea A b b, rhsShearArea A h b) } }
    | _, _ => s

/-- The assignable dimensions. -/
inductive Dim
  | H | B | T
  deriving DecidableEq

/-- `RHS.__setattr__` for a dimension, RHS.py 156-162. -/
def RHS.set (s : RHS) (d : Dim) (v : ℝ) : RHS :=
  match d with
  | .H => { s with H := some v }.update
  | .B => { s with B := some v }.update
  | .T => { s with T := some v }.update

/-- `RHS(H, B, T)`, RHS.py 28-67. -/
def RHS.new (H B T : ℝ) : RHS :=
  let R := rhsOuterRadius T
  let A := rhsArea H B T R
  let I0 := rhsSecondMoment H B T R
  let I1 := rhsSecondMoment B H T R
  let s : RHS :=
    { H := none
      B := none
      T := none
      R := none
      It := none
      props :=
        { A := A
          Au := rhsPaintArea H B R
          I := (I0, I1)
          Wel := (rhsElasticModulus H I0, rhsElasticModulus B I1)
          Wpl := (rhsPlasticModulus H B R T, rhsPlasticModulus B H R T)
          Ashear := (rhsShearArea A B H, rhsShearArea A H B) } }
  ((s.set .H H).set .B B).set .T T

/-- A sequence of assignments to the dimensions of an object. -/
def RHS.edit (s : RHS) (l : List (Dim × ℝ)) : RHS := l.foldl (fun s e => s.set e.1 e.2) s

/-! ### Circular hollow sections -/

/-- `CHS.area`, CHS.py 49-51, and `CHS_area`. -/
def chsArea (D T : ℝ) : ℝ :=
  let r := 1 / 2 * D
  π * r ^ 2 - π * (r - T) ^ 2

/-- `CHS.paint_area`, CHS.py 54-55. -/
def chsPaintArea (D : ℝ) : ℝ := π * D

/-- `CHS.shear_area`, CHS.py 57-58. -/
def chsShearArea (D T : ℝ) : ℝ := 2 * chsArea D T / π

/-- `CHS.second_moment`, CHS.py 61-64. -/
def chsSecondMoment (D T : ℝ) : ℝ :=
  let r2 := 1 / 2 * D
  let r1 := r2 - T
  1 / 4 * π * (r2 ^ 4 - r1 ^ 4)

/-- `CHS.elastic_modulus`, CHS.py 66-67. -/
def chsElasticModulus (D T : ℝ) : ℝ := chsSecondMoment D T / (1 / 2 * D)

/-- `CHS.plastic_modulus`, CHS.py 69-72. -/
def chsPlasticModulus (D T : ℝ) : ℝ :=
  let D1 := D - 2 * T
  (D ^ 3 - D1 ^ 3) / 6

/-- `CHS.torsion_modulus`, CHS.py 75-79. -/
def chsTorsion (D T : ℝ) : ℝ := π * D ^ 4 / 32 - π * (D - 2 * T) ^ 4 / 32

/-! ### Rolled I-sections -/

/-- `cross_section_properties`, ISection.py 709-766, without `It` and `Iw`; the shear area is stored as `[0.0, Ashear]` (steel_section.py 106-109). -/
def iProps (b h tf tw r : ℝ) : SectionProps :=
  let A := 2 * tf * b + (h - 2 * tf) * tw + (4 - π) * r ^ 2
  let Au := 4 * (b - 2 * r) + 2 * (h - 2 * tw) + 2 * π * r
  let Ashear := A - 2 * b * tf + (tw + 2 * r) * tf
  let I0 := 1 / 12 * (b * h ^ 3 - (b - tw) * (h - 2 * tf) ^ 3) + 3 / 100 * r ^ 4 + 2146 / 10000 * r ^ 2 * (h - 2 * tf - 4468 / 10000 * r) ^ 2
  let I1 := 1 / 12 * (2 * tf * b ^ 3 + (h - 2 * tf) * tw ^ 3) + 3 / 100 * r ^ 4 + 2146 / 10000 * r ^ 2 * (tw + 4468 / 10000 * r) ^ 2
  let Wpl0 := tw * h ^ 2 / 4 + (b - tw) * (h - tf) * tf + (4 - π) / 2 * r ^ 2 * (h - 2 * tf) + (3 * π - 10) / 3 * r ^ 3
  let Wpl1 := b ^ 2 * tf / 2 + (h - 2 * tf) / 4 * tw ^ 2 + r ^ 3 * (10 / 3 - π) + (2 - π / 2) * tw * r ^ 2
  { A := A
    Au := Au
    I := (I0, I1)
    Wel := (I0 / (1 / 2 * h), I1 / (1 / 2 * b))
    Wpl := (Wpl0, Wpl1)
    Ashear := (0, Ashear) }

/-- Warping constant, ISection.py 746. -/
def iWarping (b h tf : ℝ) : ℝ := tf * b ^ 3 / 24 * (h - tf) ^ 2

/-- Torsional constant, ISection.py 734-736. -/
def iTorsion (b h tf tw r : ℝ) : ℝ :=
  let a1 := -(42 / 1000) + 2204 / 10000 * tw / tf + 1355 / 10000 * r / tf - 865 / 10000 * r * tw / tf ^ 2 - 725 / 10000 * tw ^ 2 / tf ^ 2
  let D1 := ((tf + r) ^ 2 + (r + 1 / 4 * tw) * tw) / (2 * r + tf)
  2 / 3 * b * tf ^ 3 + (h - 2 * tf) * tw ^ 3 / 3 + 2 * a1 * D1 ^ 4 - 420 / 1000 * tf ^ 4

end
end Metku.Steel
