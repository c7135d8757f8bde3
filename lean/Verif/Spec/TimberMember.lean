import Mathlib.Analysis.Real.Sqrt

/-!
What a user expects of the checks of timber members, apart from the model.
-/
namespace Metku.TimberSpec

/-- Bending about both axes of a rectangle, EN 1995-1-1 6.1.6: the worst corner, whatever the signs of the stresses. -/
noncomputable def biaxial (a b : ℝ) : ℝ := max (|a| + 0.7 * |b|) (0.7 * |a| + |b|)

/-- Section modulus in torsion of a thin rectangle; that of any rectangle is smaller. -/
noncomputable def thinModulus (h b : ℝ) : ℝ := max h b * min h b ^ 2 / 3

/-- Torsion constant of a thin rectangle; that of any rectangle is smaller. -/
noncomputable def thinInertia (h b : ℝ) : ℝ := max h b * min h b ^ 3 / 3

end Metku.TimberSpec
