import Mathlib.Data.Real.Basic

/-!
What a user expects of the check of compression across the grain, apart from the model (EN 1995-1-1, 6.1.5), and of the volume of the curved part of a beam (figure 6.9).
-/
namespace Metku.TimberSpec

/-- The effective contact length: the contact length `l` enlarged on either side by 30 mm, at most by the distance to the end of the member and by `l`. -/
noncomputable def contactLength (l a1 a2 : ℝ) : ℝ := l + min (min 30 a1) l + min (min 30 a2) l

/-- The stress from the force `N` on the contact area. -/
noncomputable def contactPressure (N l a1 a2 b : ℝ) : ℝ := |N| / (contactLength l a1 a2 * b)

/-- The volume of a ring of inner radius `r`, depth `h` and width `B` over the angle `phi`. -/
noncomputable def ringVolume (B r h phi : ℝ) : ℝ := B * ((r + h) ^ 2 - r ^ 2) / 2 * phi

end Metku.TimberSpec
