import Verif.Model.PyErr
import Mathlib.Analysis.Real.Sqrt

/-!
What a user expects of timber in fire, apart from the model.
-/
namespace Metku.TimberSpec

/-- Both calls return, and the first result is not above the second. -/
def Below (a b : Except PyErr ℝ) : Prop := ∃ x y, a = .ok x ∧ b = .ok y ∧ x ≤ y

/-- Notional charring depth of a bare surface: proportional to time, with a layer of 7 mm that is fully lost after 20 minutes. -/
noncomputable def bare (rate t : ℝ) : ℝ := rate * t + 7 * min (t / 20) 1

/-- Area of a rectangle, second moments and section moduli about both axes. -/
structure Rectangle (b h A Iy Iz Wy Wz : ℝ) : Prop where
  area : A = b * h
  iy : Iy = b * h ^ 3 / 12
  iz : Iz = h * b ^ 3 / 12
  wy : Iy = Wy * (h / 2)
  wz : Iz = Wz * (b / 2)

end Metku.TimberSpec
