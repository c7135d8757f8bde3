import Mathlib.Analysis.Real.Sqrt
import Mathlib.Algebra.BigOperators.Ring.Finset

/-!
Bolt groups as elastic analysis treats them, and rules for holes, apart from the model.
-/
namespace Metku.FinPlateSpec

noncomputable section

/-- Coordinate of bolt `i` of `n` at distances `p`, from the centre. -/
def coord (p : ℝ) (n i : ℕ) : ℝ := ((i : ℝ) - ((n : ℝ) - 1) / 2) * p

/-- Polar second moment of a grid of bolts. -/
def polar (p1 p2 : ℝ) (n1 n2 : ℕ) : ℝ := ∑ i ∈ Finset.range n2, ∑ k ∈ Finset.range n1, (coord p2 n2 i ^ 2 + coord p1 n1 k ^ 2)

/-- Vertical force on the bolt in column `i` and row `k` under the force `V` at the distance `z` from the centre. -/
def vertical (p1 p2 : ℝ) (n1 n2 : ℕ) (z V : ℝ) (i _k : ℕ) : ℝ := V / (n1 * n2) + V * z * coord p2 n2 i / polar p1 p2 n1 n2

/-- Horizontal force on the bolt in column `i` and row `k`. -/
def horizontal (p1 p2 : ℝ) (n1 n2 : ℕ) (z V : ℝ) (_i k : ℕ) : ℝ := -(V * z * coord p1 n1 k / polar p1 p2 n1 n2)

/-- Length of the path in tension of a block of `n` bolts: from the edge to the last bolt less the holes. -/
def tensionPath (e p d0 : ℝ) (n : ℕ) : ℝ := e + ((n : ℝ) - 1) * p - ((n : ℝ) - 1 / 2) * d0

/-- Resistance of a block, EN 1993-1-8 (3.10): lengths of the paths in tension and in shear. -/
def block (fy fu t lt lv : ℝ) : ℝ := 0.5 * fu * (t * lt) / 1.25 + fy * (t * lv) / √3

end

end Metku.FinPlateSpec
