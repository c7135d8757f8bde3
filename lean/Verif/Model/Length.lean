import Mathlib.Analysis.Real.Sqrt
import Mathlib.Algebra.Order.Round

/-! Element length over the reals. -/
namespace Metku.Fem

/-- `Element.length` in the plane, framefem.py 1638-1651: `round(np.linalg.norm(dX), 3)`.
    Mathlib's `round` sends ties up, Python's sends them to even; the difference only concerns lengths
    that are exact multiples of half a thousandth. -/
noncomputable def pyLength (dx dy : ℝ) : ℝ := (round (1000 * Real.sqrt (dx ^ 2 + dy ^ 2)) : ℤ) / 1000

end Metku.Fem
