import Mathlib.Analysis.SpecialFunctions.Trigonometric.Basic
import Mathlib.Analysis.SpecialFunctions.Pow.Real

/-!
T-stubs, bolt rows and end-plate joints as plastic limit analysis and EN 1993-1-8 6.2.4-6.2.7 state them, apart from the model.
-/
namespace Metku.EndPlateSpec

open Real

noncomputable section

/-- Effective width of a column web in compression next to a bolted end plate, (6.11): `lower` is the length of plate below the flange available for dispersion. -/
def compressionWidth (tfb ap tfc s tp lower : ℝ) : ℝ := tfb + 2 * √2 * ap + 5 * (tfc + s) + min (2 * tp) lower

/-- Reduction factor for plate buckling, (6.13). -/
def webBuckling (lam : ℝ) : ℝ := if lam ≤ 0.72 then 1 else (lam - 0.2) / lam ^ 2

/-- Reduction for longitudinal stress in the column, (6.14). -/
def stressFactor (σ fy : ℝ) : ℝ := if σ ≤ 0.7 * fy then 1 else 1.7 - σ / fy

/-- Plastic moment of a strip of width `l` and thickness `t`. -/
def plastic (l t fy : ℝ) : ℝ := l * t ^ 2 / 4 * fy

/-- A T-stub carries the force `F` by a yield-line pattern with prying: there is a prying force `Q` at each edge such that the bolts carry `F / 2 + Q` on each side, and neither the moment `Q n` at the
bolts nor the moment `F / 2 m - Q n` at the web exceeds the plastic moment. -/
def Carries (m n Ft M F : ℝ) : Prop := ∃ Q, 0 ≤ Q ∧ F / 2 + Q ≤ Ft / 2 ∧ Q * n ≤ M ∧ F / 2 * m - Q * n ≤ M

/-- A circular pattern carries `F`: full plastic moments at web and bolts. -/
def CarriesCircular (m M F : ℝ) : Prop := F * m ≤ 4 * M

/-- T-stub of 6.2.4 with effective lengths of a circular and a non-circular pattern. -/
def StubSafe (cp nc t fy m n Ft F : ℝ) : Prop := CarriesCircular m (plastic cp t fy) F ∧ Carries m n Ft (plastic nc t fy) F

/-- Column flange at a bolt row away from stiffeners, 6.2.6.4 and Table 6.4: distance `w` between the bolts, flange width `b`, thickness `tf`, web `tw`, root radius `r`, edge distance `ep` in the plate. -/
def FlangeSafe (w b tf tw r fy ep Ft F : ℝ) : Prop :=
  let m := (w - tw) / 2 - 0.8 * r
  let e := (b - w) / 2
  StubSafe (2 * π * m) (4 * m + 1.25 * e) tf fy m (min (min e ep) (1.25 * m)) Ft F

/-- End plate at a row below the tension flange, 6.2.6.5 and Table 6.6: weld throat `a`, non-circular length `nc` as a function of `m`. -/
def PlateSafe (w tw a ep tp fy Ft : ℝ) (nc : ℝ → ℝ) (F : ℝ) : Prop :=
  let m := (w - tw) / 2 - 0.8 * √2 * a
  StubSafe (2 * π * m) (nc m) tp fy m (min ep (1.25 * m)) Ft F

/-- Formula for the factor of Figure 6.11, between that of a row away from the flange and 8. -/
def alpha (e m m2 : ℝ) : ℝ := min (max (4 + 1.67 * (e / m) * (m / m2) ^ (0.67 : ℝ)) (4 + 1.25 * (e / m))) 8

/-- Non-circular length of a row below the tension flange, Table 6.6: of the first one, at distance `m2` from the flange weld, and of the others. -/
def lengthBelow (first : Prop) [Decidable first] (e m2 m : ℝ) : ℝ := if first then alpha e m m2 * m else 4 * m + 1.25 * e

/-- End plate at a row outside the tension flange, Table 6.6: distances `mx` to the flange weld and `ex` to the edge. -/
def ExtensionSafe (w e bp mx ex tp fy Ft F : ℝ) : Prop :=
  ∃ cp nc, IsLeast {2 * π * mx, π * mx + w, π * mx + 2 * e} cp ∧
    IsLeast {4 * mx + 1.25 * ex, e + 2 * mx + 0.625 * ex, 0.5 * bp, 0.5 * w + 2 * mx + 0.625 * ex} nc ∧
    StubSafe cp nc tp fy mx (min ex (1.25 * mx)) Ft F

/-- Additional shear resistance of a web panel with stiffeners, (6.8): plastic moments of column flange and of stiffeners, distance `ds`. -/
def addedShear (Mfc Mst ds : ℝ) : ℝ := min (4 * Mfc / ds) ((2 * Mfc + 2 * Mst) / ds)

end

end Metku.EndPlateSpec
