import Mathlib.Analysis.SpecialFunctions.Trigonometric.Basic

/-!
Resistances of welded joints between hollow sections (EN 1993-1-8, 7.5, Tables 7.10 to 7.13), geometry of a gap joint and equilibrium of the gap, written independently of the model. Angles in radians, forces in N, lengths in mm, γM5 = 1.
-/
namespace Metku.RhsSpec

open Real

noncomputable section

/-- Additional reduction of 7.1.1(4) for steel grades above S355 and S460. -/
def steelFactor (fy0 : ℝ) : ℝ := if 460 < fy0 then 8 / 10 else if 355 < fy0 then 9 / 10 else 1

/-- Chord stress factor: `n` is positive for compression in the connecting face. -/
def kn (n β : ℝ) : ℝ := if n ≤ 0 then 1 else min 1 (13 / 10 - 4 / 10 * (n / β))

/-- Chord face failure of a K gap joint; `s` is the sum of widths and heights of both braces. -/
def kFace (k fy0 t0 b0 s θ : ℝ) : ℝ := 89 / 10 * √(b0 / (2 * t0)) * (s / (4 * b0)) * k * fy0 * t0 ^ 2 / sin θ

/-- Effective width of a brace wall on a chord face. -/
def effective (b0 t0 fy0 fy t b : ℝ) : ℝ := min b (10 * t0 / b0 * (fy0 * t0 / (fy * t)) * b)

/-- Effective width for punching shear. -/
def effectivePunching (b0 t0 b : ℝ) : ℝ := min b (10 * t0 / b0 * b)

/-- Brace failure of a K gap joint: three walls across and one effective. -/
def kBrace (fy t h b beff : ℝ) : ℝ := fy * t * (2 * (h - 2 * t) + (b + beff))

/-- Punching shear of a K gap joint: the perimeter of two inclined side walls, one full and one effective cross wall, in shear. -/
def kPunching (fy0 t0 h b bep θ : ℝ) : ℝ := fy0 / √3 * t0 * (2 * (h / sin θ) + b + bep) / sin θ

/-- Shear area of the chord in the gap. -/
def gapArea (h0 b0 t0 g : ℝ) : ℝ := 2 * h0 * t0 + b0 * t0 / √(1 + 4 / 3 * (g / t0) ^ 2)

/-- Chord face failure of a Y joint. -/
def yFace (k fy0 t0 β η θ : ℝ) : ℝ := k * fy0 * t0 ^ 2 * (2 * η / sin θ + 4 * √(1 - β)) / ((1 - β) * sin θ)

/-- Side wall failure of a Y joint at equal widths. -/
def ySide (k fb t0 h θ : ℝ) : ℝ := k * fb * t0 * (2 * h / sin θ + 10 * t0) / sin θ

/-- Brace failure of a Y joint: both cross walls effective. -/
def yBrace (fy t h beff : ℝ) : ℝ := fy * t * (2 * (h - 2 * t) + 2 * beff)

/-- Punching shear of a Y joint. -/
def yPunching (fy0 t0 h bep θ : ℝ) : ℝ := fy0 / √3 * t0 * (2 * (h / sin θ) + 2 * bep) / sin θ

/-- Between β = 0.85 and β = 1: the straight line from chord face failure at 0.85 to side wall failure at 1. -/
def yInterpolated (k fy0 fb t0 h β η θ : ℝ) : ℝ :=
  (1 - β) / (15 / 100) * yFace k fy0 t0 (85 / 100) η θ + (β - 85 / 100) / (15 / 100) * ySide k fb t0 h θ

/-- Reduction factor of flexural buckling: 1 up to the slenderness 0.2, above it the root of `λ² χ² - (1 + α (λ - 0.2) + λ²) χ + 1 = 0` in the interval (0, 1]. -/
def IsReduction (α l χ : ℝ) : Prop :=
  if l ≤ 2 / 10 then χ = 1 else
    l ^ 2 * χ ^ 2 - (1 + α * (l - 2 / 10) + l ^ 2) * χ + 1 = 0 ∧ 0 < χ ∧ χ ≤ 1

/-- The point `p` lies on the axis of the left brace: at distance `h/2` on the outer side of the wall that meets the chord face at the corner `(-g/2, h0/2)` under the angle `θ`. -/
def OnLeftAxis (h0 g h θ : ℝ) (p : ℝ × ℝ) : Prop := (p.1 + g / 2) * (-sin θ) + (p.2 - h0 / 2) * (-cos θ) = h / 2

/-- The same for the right brace with the corner `(g/2, h0/2)`. -/
def OnRightAxis (h0 g h θ : ℝ) (p : ℝ × ℝ) : Prop := (p.1 - g / 2) * sin θ + (p.2 - h0 / 2) * (-cos θ) = h / 2

/-- Horizontal equilibrium of the part of the joint on the side of the chord force `N0`, between the cut through the chord and the cut through the gap: `S` is the force in the brace of that part, tension positive. -/
def GapEquilibrium (N0 S θ Ngap : ℝ) : Prop := N0 + S * cos θ - Ngap = 0

end

end Metku.RhsSpec
