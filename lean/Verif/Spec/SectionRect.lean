import Verif.Spec.Section

/-!
Cross-sections built of plates: a list of rectangles with sides along the axes.
-/
namespace Metku.SectionSpec

open MeasureTheory

/-- The rectangle `[y0, y1] × [z0, z1]`. -/
structure Rect where
  y0 : ℝ
  y1 : ℝ
  z0 : ℝ
  z1 : ℝ

/-- Points of a rectangle. -/
def Rect.toSet (r : Rect) : Set (ℝ × ℝ) := {p | r.y0 ≤ p.1 ∧ p.1 ≤ r.y1 ∧ r.z0 ≤ p.2 ∧ p.2 ≤ r.z1}

/-- Points of a section made of rectangles. -/
def region (l : List Rect) : Set (ℝ × ℝ) := {p | ∃ r ∈ l, p ∈ r.toSet}

/-- A rectangle is not turned inside out. -/
def Rect.Proper (r : Rect) : Prop := r.y0 ≤ r.y1 ∧ r.z0 ≤ r.z1

/-- Two rectangles lie on different sides of a vertical or a horizontal line. -/
def Rect.Apart (r s : Rect) : Prop := r.y1 ≤ s.y0 ∨ s.y1 ≤ r.y0 ∨ r.z1 ≤ s.z0 ∨ s.z1 ≤ r.z0

/-- The plates of a section are proper rectangles that do not overlap. -/
def Plates (l : List Rect) : Prop := (∀ r ∈ l, r.Proper) ∧ l.Pairwise Rect.Apart

/-- The part of a plane set up to the height `c`. -/
def below (S : Set (ℝ × ℝ)) (c : ℝ) : Set (ℝ × ℝ) := {p | p ∈ S ∧ p.2 ≤ c}

/-- The part of a plane set from the height `c` upwards. -/
def above (S : Set (ℝ × ℝ)) (c : ℝ) : Set (ℝ × ℝ) := {p | p ∈ S ∧ c ≤ p.2}

end Metku.SectionSpec
