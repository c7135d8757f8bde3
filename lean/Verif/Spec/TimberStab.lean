import Mathlib.Analysis.Real.Sqrt
import Mathlib.Analysis.SpecialFunctions.Trigonometric.Basic

/-!
What a user expects of the stability of timber members, apart from the model.
-/
namespace Metku.TimberSpec

/-- `x` is the reduction of a strut with imperfection `imp` and relative slenderness `l`: it solves the equation of Ayrton and Perry and is not above the strength nor above the Euler stress. -/
structure Perry (imp l x : ℝ) : Prop where
  pos : 0 < x
  eq : (1 - x) * (1 - x * l ^ 2) = imp * x
  strength : x ≤ 1
  euler : x * l ^ 2 ≤ 1

/-- `e` lists the ends of segments from 0 to 1 in order. -/
structure Partition (e : List ℝ) : Prop where
  first : e.head? = some 0
  last : e.getLast? = some 1
  ordered : e.Pairwise (· ≤ ·)

/-- `k` is the reduction of lateral buckling at the relative slenderness `l`, EN 1995-1-1 (6.34). -/
def LateralRed (l k : ℝ) : Prop := (l ≤ 3 / 4 → k = 1) ∧ (3 / 4 < l → l ≤ 7 / 5 → k = 1.56 - 0.75 * l) ∧ (7 / 5 < l → k * l ^ 2 = 1)

/-- Critical stress of a rectangle bent about its strong axis, EN 1995-1-1 (6.31), with the torsion constant `it` and the effective length `lef`. -/
noncomputable def critStress (e g b h it lef : ℝ) : ℝ := Real.pi * √(e * (h * b ^ 3 / 12) * g * it) / (lef * (b * h ^ 2 / 6))

/-- Stiffness of a brace of a compressed member in `m` fields of length `a`, EN 1995-1-1 (9.34). -/
noncomputable def braceStiffness (nd a : ℝ) (m : ℕ) : ℝ := (2 + 2 * Real.cos (Real.pi / m)) * nd / a

/-- Load of a bracing system for `n` members of a length in millimetres, EN 1995-1-1 (9.37): reduced for spans above 15 m. -/
noncomputable def bracingLoad (nd L : ℝ) (n : ℕ) : ℝ := min 1 √(15 / (L / 1000)) * (n * nd / (50 * L))

end Metku.TimberSpec
