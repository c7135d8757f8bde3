import Mathlib.Analysis.SpecialFunctions.Pow.Real
import Mathlib.Order.Bounds.Basic

/-!
Bolts, welds and components as EN 1993-1-8, EN 1090-2 and the price list of the project state them, apart from the model.
-/
namespace Metku.BoltSpec

open Real

noncomputable section

/-- Nominal clearance of a hole, EN 1090-2 Table 11. -/
def clearance (d : ℕ) : ℕ := if 27 ≤ d then 3 else if 16 ≤ d then 2 else 1

/-- Lengths of partially threaded bolts in the price list, by size. -/
def stocked : ℕ → List ℕ
  | 12 => [50, 55, 60, 65, 70, 80, 90, 100, 110, 120, 130, 140, 150, 160, 180, 200, 220, 240, 260]
  | 16 => [55, 60, 65, 70, 75, 80, 90, 100, 110, 120, 130, 140, 150, 160, 180, 200, 220, 240, 260, 280, 300]
  | 20 => [65, 70, 75, 80, 90, 100, 110, 120, 130, 140, 150, 160, 180, 200, 220, 240, 260, 300]
  | 24 => [75, 80, 90, 100, 110, 120, 130, 140, 150, 160, 180, 200, 220, 240, 260, 280, 300]
  | 30 => [90, 100, 110, 120, 130, 140, 150, 160, 180, 200, 220, 260, 300]
  | 36 => [120, 130, 140, 160, 180, 200, 240, 280]
  | _ => []

/-- Stress areas of metric bolts [mm2]. -/
def stressArea : ℕ → ℝ
  | 12 => 84.3
  | 16 => 157
  | 20 => 245
  | 24 => 353
  | 30 => 561
  | 36 => 817
  | _ => 0

/-- Head height and width across flats of ISO 4014, height and width across corners of the nut of ISO 4032, thickness and diameter of the washer of ISO 7089 [mm]. -/
def assembly : ℕ → List ℝ
  | 12 => [7.5, 18, 10.8, 20.03, 2.5, 24]
  | 16 => [10, 24, 14.8, 26.75, 3, 30]
  | 20 => [12.5, 30, 18, 32.95, 3, 37]
  | 24 => [15, 36, 21.5, 39.55, 4, 44]
  | 30 => [18.7, 46, 25.6, 50.85, 4, 56]
  | 36 => [22.5, 55, 31, 60.79, 5, 66]
  | _ => []

/-- Shear resistance of a bolt, Table 3.4. -/
def shear (αv fub A : ℝ) : ℝ := αv * fub * A / 1.25

/-- `F` is the bearing resistance of Table 3.4: `k1` and `αb` are the least of the given values. -/
def Bearing (edgePerp edgeLoad : Bool) (fub fu d d0 t e1 e2 p1 p2 F : ℝ) : Prop :=
  ∃ k1 αb, F = k1 * αb * fu * d * t / 1.25 ∧
    IsLeast (if edgePerp then {2.8 * (e2 / d0) - 1.7, 1.4 * (p2 / d0) - 1.7, 2.5} else {1.4 * (p2 / d0) - 1.7, 2.5}) k1 ∧
    IsLeast {if edgeLoad then e1 / (3 * d0) else p1 / (3 * d0) - 1 / 4, fub / fu, 1} αb

/-- Minimum distances of Table 3.3. -/
def Spacing (d0 e1 e2 p1 p2 : ℝ) : Prop := 1.2 * d0 ≤ e1 ∧ 1.2 * d0 ≤ e2 ∧ 2.2 * d0 ≤ p1 ∧ 2.4 * d0 ≤ p2

/-- A bolt in shear and tension is safe, Table 3.4: each force within its resistance and the interaction. -/
def ShearTension (Fv FvRd Ft FtRd : ℝ) : Prop := Fv ≤ FvRd ∧ Ft ≤ FtRd ∧ Fv / FvRd + Ft / (1.4 * FtRd) ≤ 1

/-- A plate of thickness `t` at yield, joined by `n` fillet welds of throat `a` across the direction of the force, is safe by the directional method, 4.5.3.2: on the throat plane,
at 45 degrees, normal and shear stress are equal. -/
def WeldSafe (n : ℕ) (fy fu β t a : ℝ) : Prop :=
  ∃ σ τ : ℝ, σ = τ ∧ 0 ≤ σ ∧ (n * a) ^ 2 * (σ ^ 2 + τ ^ 2) = (fy * t) ^ 2 ∧ √(σ ^ 2 + 3 * τ ^ 2) ≤ fu / (β * 1.25) ∧ σ ≤ 0.9 * fu / 1.25

/-- Reduction factors of Table 6.3. -/
def omega1 (x : ℝ) : ℝ := 1 / √(1 + 1.3 * x ^ 2)

@[inherit_doc omega1] def omega2 (x : ℝ) : ℝ := 1 / √(1 + 5.2 * x ^ 2)

/-- Table 6.3 with `x = beff twc / Avc`, for transformation parameters from 0 to 2. -/
def omega (β x : ℝ) : ℝ :=
  if β ≤ 1 / 2 then 1
  else if β ≤ 1 then omega1 x + 2 * (1 - β) * (1 - omega1 x)
  else omega1 x + (β - 1) * (omega2 x - omega1 x)

end

end Metku.BoltSpec
