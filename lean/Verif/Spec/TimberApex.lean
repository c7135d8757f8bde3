import Mathlib.Analysis.Real.Sqrt

/-!
What a user expects of the checks of tapered and curved timber beams, apart from the model: the formulas of EN 1995-1-1 in terms of the slope `tn` (tangent of the angle) and the ratio `q` of depth and radius at the apex.
-/
namespace Metku.TimberSpec

/-- EN 1995-1-1 (6.43)-(6.47): stress at the apex over nominal bending stress. -/
noncomputable def apexBending (tn q : ℝ) : ℝ :=
  (1 + 1.4 * tn + 5.4 * tn ^ 2) + (0.35 - 8 * tn) * q + (0.6 + 8.3 * tn - 7.8 * tn ^ 2) * q ^ 2 + 6 * tn ^ 2 * q ^ 3

/-- EN 1995-1-1 (6.56)-(6.59): stress across the grain over nominal bending stress. -/
noncomputable def apexTension (tn q : ℝ) : ℝ := 0.2 * tn + (0.25 - 1.5 * tn + 2.6 * tn ^ 2) * q + (2.1 * tn - 4 * tn ^ 2) * q ^ 2

/-- EN 1995-1-1 (6.49): strength of bent laminations of thickness `t` with inner radius `r`, both in the same unit. -/
noncomputable def bentStrength (r t : ℝ) : ℝ := if 240 ≤ r / t then 1 else 0.76 + 0.001 * (r / t)

/-- EN 1995-1-1 (6.39) and (6.40): strength of a tapered edge, with 0.75 times the shear strength and the tensile strength across the grain under tension, and 1.5 times and the compressive strength under compression. -/
noncomputable def edgeStrength (shear fmd f90 tn : ℝ) : ℝ := (√(1 + (fmd / shear * tn) ^ 2 + (fmd / f90 * tn ^ 2) ^ 2))⁻¹

/-- The moment at `x` on the straight line between two points. -/
noncomputable def lineAt (x a ya b yb : ℝ) : ℝ := ya + (yb - ya) * ((x - a) / (b - a))

end Metku.TimberSpec
