import Mathlib.Analysis.SpecialFunctions.Trigonometric.Basic
import Mathlib.Analysis.SpecialFunctions.Sqrt

/-!
Shapes of timber beams, apart from the model.
-/
namespace Metku.TimberSpec

open Real

noncomputable section

/-- Two straight lines: `a` at both ends, `c` at the apex. -/
def tent (a c apex x : ℝ) : ℝ := if x ≤ apex then a + (c - a) * (x / apex) else a + (c - a) * ((1 - x) / (1 - apex))

/-- Rise of a line of slope `tan θ` from both ends, rounded in the middle by a circle of radius `r` that touches both lines. -/
def roundedRoof (θ r L x : ℝ) : ℝ :=
  if |x - L / 2| ≤ r * sin θ then √(r ^ 2 - (x - L / 2) ^ 2) - r * cos θ + (L / 2 - r * sin θ) * tan θ
  else (L / 2 - |x - L / 2|) * tan θ

/-- Rise of a line of slope `tan θ` from both ends to a ridge. -/
def ridgeRoof (θ L x : ℝ) : ℝ := (L / 2 - |x - L / 2|) * tan θ

end

end Metku.TimberSpec
