import Mathlib.Algebra.Order.Field.Basic
import Mathlib.Data.List.Basic

/-!
Plane geometry for the statements about frames, independent of the model: segments, lines, decimal numbers and chains of elements.
-/
namespace Metku.FrameSpec

variable {K : Type} [Field K] [LinearOrder K]

/-- The point `p` lies on the segment from `a` to `b`. -/
def OnSegment (a b p : K × K) : Prop :=
  ∃ t : K, 0 ≤ t ∧ t ≤ 1 ∧ p.1 = a.1 + t * (b.1 - a.1) ∧ p.2 = a.2 + t * (b.2 - a.2)

/-- The point `p` lies on the line through `a` and `b`. -/
def OnLine (a b p : K × K) : Prop := ∃ t : K, p.1 = a.1 + t * (b.1 - a.1) ∧ p.2 = a.2 + t * (b.2 - a.2)

/-- Two lines have the same direction. -/
def Parallel (a b c d : K × K) : Prop := (b.1 - a.1) * (d.2 - c.2) = (b.2 - a.2) * (d.1 - c.1)

/-- The number has at most `n` decimals. -/
def Decimals (n : ℕ) (x : K) : Prop := ∃ k : ℤ, x = (k : K) / 10 ^ n

/-- Both coordinates have at most `n` decimals. -/
def DecimalPt (n : ℕ) (p : K × K) : Prop := Decimals n p.1 ∧ Decimals n p.2

/-- The point is within `e` of a point of the segment, in both coordinates. -/
def NearSegment (e : K) (a b p : K × K) : Prop := ∃ q : K × K, OnSegment a b q ∧ |p.1 - q.1| < e ∧ |p.2 - q.2| < e

/-- The points lead from `a` to `b` along the segment, each of them once, without turning back, at most `e` off the segment. -/
def Path (e : K) (a b : K × K) (pts : List (K × K)) : Prop :=
  pts.head? = some a ∧ pts.getLast? = some b ∧ pts.Nodup
  ∧ pts.Pairwise (fun p q => 0 ≤ (b.1 - a.1) * (q.1 - p.1) ∧ 0 ≤ (b.2 - a.2) * (q.2 - p.2))
  ∧ ∀ p ∈ pts, ∃ q, OnSegment a b q ∧ |p.1 - q.1| ≤ e ∧ |p.2 - q.2| ≤ e

/-- The directions (0 horizontal, 1 vertical, 2 rotation) that the support types hold, whatever the case of the letters. -/
def WantedSupport (s : String) (d : List ℕ) : Prop :=
  s.toUpper = "FIXED" ∧ d = [0, 1, 2] ∨ s.toUpper = "XHINGED" ∧ d = [0] ∨ s.toUpper = "YHINGED" ∧ d = [1] ∨ s.toUpper = "XYHINGED" ∧ d = [0, 1]

end Metku.FrameSpec
