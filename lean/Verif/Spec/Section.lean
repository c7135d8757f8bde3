import Mathlib.MeasureTheory.Measure.Lebesgue.Integral
import Mathlib.MeasureTheory.Integral.Bochner.Basic

/-!
Specification of section properties, independent of the model: a cross-section is a set of points of the plane (first coordinate horizontal, second vertical), and its properties are
integrals of the lengths of its horizontal slices (Cavalieri's principle).
-/
namespace Metku.SectionSpec

open MeasureTheory

/-- Horizontal slice of a plane set at height `z`. -/
def slice (S : Set (ℝ × ℝ)) (z : ℝ) : Set ℝ := {y | (y, z) ∈ S}

/-- Integral over the plane set of a function of the height: `f = 1` area, `f = |z|` plastic modulus about a horizontal axis of symmetry, `f = z²` second moment. -/
noncomputable def planeMoment (S : Set (ℝ × ℝ)) (f : ℝ → ℝ) : ℝ := ∫ z, f z * (volume (slice S z)).toReal

/-- The set with the axes exchanged (section on its side). -/
def flipped (S : Set (ℝ × ℝ)) : Set (ℝ × ℝ) := {p | (p.2, p.1) ∈ S}

/-- Points at distance at most `r` from the rectangle `[-b, b] × [-a, a]`: a rectangle with rounded corners, outer dimensions `2 (b + r)` and `2 (a + r)`. -/
def rounded (a b r : ℝ) : Set (ℝ × ℝ) := {p | max (|p.1| - b) 0 ^ 2 + max (|p.2| - a) 0 ^ 2 ≤ r ^ 2}

/-- Rectangular hollow section of height `H`, width `B`, wall `T` and outer corner radius `R`: between the outline and the outline offset inwards by `T`. -/
def hollow (H B T R : ℝ) : Set (ℝ × ℝ) := rounded (H / 2 - R) (B / 2 - R) R \ rounded (H / 2 - R) (B / 2 - R) (R - T)

/-- Ring of outer diameter `D` and wall `T`. -/
def ring (D T : ℝ) : Set (ℝ × ℝ) := {p | p.1 ^ 2 + p.2 ^ 2 ≤ (D / 2) ^ 2 ∧ (D / 2 - T) ^ 2 < p.1 ^ 2 + p.2 ^ 2}

/-- I-section of height `h`, width `b`, flange `tf`, web `tw` and root radius `r`: two flanges, the web, and in each of the four corners the part of the square of side `r` outside the
    circle of radius `r` that touches web and flange. -/
def iSection (h b tf tw r : ℝ) : Set (ℝ × ℝ) :=
  {p | |p.1| ≤ b / 2 ∧ |p.2| ≤ h / 2 ∧ (h / 2 - tf ≤ |p.2| ∨ |p.1| ≤ tw / 2 ∨
    (|p.1| ≤ tw / 2 + r ∧ h / 2 - tf - r ≤ |p.2| ∧ r ^ 2 ≤ (tw / 2 + r - |p.1|) ^ 2 + (|p.2| - (h / 2 - tf - r)) ^ 2))}

end Metku.SectionSpec
