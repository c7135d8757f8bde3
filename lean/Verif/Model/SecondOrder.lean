import Verif.Model.Elements
import Mathlib.Analysis.SpecialFunctions.Trigonometric.Basic
import Mathlib.Analysis.SpecialFunctions.Pow.NNReal

/-!
Model of the plane beam in second-order analysis: `EBBeam.local_second_order_stiffness_matrix` (ebbeam.py 246-345),
`second_order_stiffness_matrix` (347-357) and `equivalent_nodal_loads` for `order = 2` (360-518).

Numbers are real.  A division by zero gives `inf` or `nan` in NumPy; here it gives 0, and the theorems exclude it.
-/
namespace Metku.Fem

open Metku

/-- The stability functions' common denominator `D`, ebbeam.py 272-275. -/
noncomputable def stabD (lam : ℝ) : ℝ := 2 - 2 * Real.cos lam - lam * Real.sin lam

/-- The matrix for members in compression `-P`, ebbeam.py 258-299; `P` is here the absolute value of line 260. -/
noncomputable def beamKcomp (E A I L P : ℝ) : Matrix (Fin 6) (Fin 6) ℝ :=
  let rodc := E * A / L
  let a := 4 * E * I / L
  let b := 2 * E * I / L
  let c := 6 * E * I / L ^ 2
  let d := 12 * E * I / L ^ 3
  let k := √(P / E / I)
  let lam := k * L
  let slam := Real.sin lam
  let clam := Real.cos lam
  let D := stabD lam
  let K := lam ^ 3 / 12 * slam / D
  let H := lam ^ 2 / 6 * (1 - clam) / D
  let PSI := lam / 4 * (slam - lam * clam) / D
  let PHI := 1 / 2 * lam * (lam - slam) / D
  !![rodc, 0, 0, -rodc, 0, 0;
     0, d * K, c * H, 0, -(d * K), c * H;
     0, c * H, a * PSI, 0, -(c * H), b * PHI;
     -rodc, 0, 0, rodc, 0, 0;
     0, -(d * K), -(c * H), 0, d * K, -(c * H);
     0, c * H, b * PHI, 0, -(c * H), a * PSI]

open Classical in
/-- `EBBeam.local_second_order_stiffness_matrix`, ebbeam.py 246-345, with `P = fint[lcase]['fx'][1]` (tension positive): in
    tension the first-order matrix, in which the releases have already been condensed, goes through the condensation again
    (304-341). -/
noncomputable def beamKloc2 (E A I L : ℝ) (rel : List (Fin 6)) (P : ℝ) : Except PyErr (Matrix (Fin 6) (Fin 6) ℝ) := do
  let k0 ← if P < 0 then Except.ok (beamKcomp E A I L |P|) else beamKlocRel E A I L rel
  condense k0 rel

/-- `EBBeam.second_order_stiffness_matrix`, ebbeam.py 347-357. -/
noncomputable def beamK2 (E A I L c0 c1 : ℝ) (rel : List (Fin 6)) (P : ℝ) : Except PyErr (Matrix (Fin 6) (Fin 6) ℝ) := do
  let k0 ← beamKloc2 E A I L rel P
  pure (congrT (beamT c0 c1) k0)

/-- Nodal loads of a compressed member under the intensity `q` perpendicular to it and the axial intensities `qx1`, `qx2`, with `s`,
    `c` the sine and cosine used and `sign` in front of the moments, ebbeam.py 402-413, 459-490. -/
noncomputable def compEnd (L lam s c sign q qx1 qx2 : ℝ) : Fin 6 → ℝ :=
  let a := 1 / 2 * L
  ![1 / 2 * L * (1 / 2 * (qx1 + qx2) - 1 / 6 * (qx2 - qx1)),
    1 / 2 * q * L,
    sign * (q * a ^ 2 * (lam * c - s) / lam ^ 2 / s),
    1 / 2 * L * (1 / 2 * (qx1 + qx2) + 1 / 6 * (qx2 - qx1)),
    1 / 2 * q * L,
    -(sign * (q * a ^ 2 * (lam * c - s) / lam ^ 2 / s))]

/-- `floc` of `EBBeam.equivalent_nodal_loads` for `order = 2` before releases, ebbeam.py 370-490; `P` is
    `fint[load.sid]['fx'][0]` (398, 446), `secE` and `Iy` the attributes `E` and `Iy` of the section (404, 460; `BeamSection`,
    framefem.py 1117-1162, has no `E`: `AttributeError`). -/
noncomputable def beamFloc2 (secE : Option ℝ) (Iy L c0 c1 P : ℝ) (l : LineLoad ℝ) : Except PyErr (Fin 6 → ℝ) :=
  let q1 := l.f * l.q1
  let q2 := l.f * l.q2
  if l.isLocal then
    match l.dir with
    | .y =>
      if 0 ≤ P then .ok (fixedEnd L 0 0 q1 q2)
      else match secE with
        | none => .error .attributeError
        | some E =>
          let k := √(|P| / E / Iy)
          .ok (compEnd L (k * (1 / 2 * L)) (Real.sin (k * L)) (Real.cos (k * L)) 1 q1 0 0)
    | _ => .ok 0
  else
    let qloc0 := l.f * (match l.dir with | .x => c0 | _ => c1)
    let qloc1 := l.f * (match l.dir with | .x => -c1 | _ => c0)
    if 0 ≤ P then .ok (fixedEnd L (q1 * qloc0) (q2 * qloc0) (q1 * qloc1) (q2 * qloc1))
    else match secE with
      | none => .error .attributeError
      | some E =>
        let lam := √(|P| / E / Iy) * (1 / 2 * L)
        .ok (compEnd L lam (Real.sin lam) (Real.cos lam) (-1) (q1 * qloc1) (q1 * qloc0) (q2 * qloc0))

end Metku.Fem
