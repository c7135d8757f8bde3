import Mathlib.LinearAlgebra.CrossProduct
import Mathlib.Analysis.Real.Sqrt
import Mathlib.Algebra.Order.Round
import Verif.Model.Elements

/-!
Model of the three-dimensional beam element `EBBeam3D`, `metku/framefem/elements/ebbeam.py` 627-977
(`internal_forces`, 1004-1059, cannot get past its first line, see `Verif.Model.Analysis`).

Simplifications: floats are real numbers; a division by zero, which gives `nan` in numpy, gives 0 here (the
properties assume what excludes it).  The end coordinates are vectors of length three.
-/
namespace Metku.Fem

open Matrix

/-- Three real numbers: a coordinate array of a 3D node, framefem.py 1471-1472. -/
abbrev V3 := Fin 3 → ℝ

/-- `np.linalg.norm` of a vector of length three. -/
noncomputable def norm3 (v : V3) : ℝ := Real.sqrt (v 0 ^ 2 + v 1 ^ 2 + v 2 ^ 2)

/-- `Element.length` in space, framefem.py 1638-1651: the distance rounded to three decimals
    (ties as in `pyLength`). -/
noncomputable def pyLength3 (X1 X2 : V3) : ℝ := (round (1000 * norm3 (X2 - X1)) : ℤ) / 1000

/-- `Element.direction_cosines` = `EBBeam3D.direction_vector`, framefem.py 1612-1627, ebbeam.py 715-717. -/
noncomputable def direction3 (X1 X2 : V3) (L : ℝ) : V3 := fun i => (X2 i - X1 i) / L

/-- The reference node chosen by the constructor when none is given, ebbeam.py 682-702. -/
noncomputable def defaultRef (X1 X2 : V3) (L : ℝ) : V3 :=
  if norm3 (crossProduct (direction3 X1 X2 L) ![0, 1, 0]) < 1e-6 then ![X2 0, X2 1, X2 2 + 1]
  else if norm3 (crossProduct (direction3 X1 X2 L) ![0, 0, 1]) < 1e-6 then ![X2 0 + 1, X2 1, X2 2]
  else ![X2 0, X2 1, X2 2 + 1]

/-- Local y axis before the third axis is added: `VZ0/|VZ0|` with `VZ0 = V13 × x`, ebbeam.py 739-746. -/
noncomputable def localY (X1 X2 X3 : V3) (L : ℝ) : V3 :=
  let d13 : V3 := fun i => X3 i - X1 i
  let v13 : V3 := fun i => d13 i / norm3 d13
  let vz0 : V3 := crossProduct v13 (direction3 X1 X2 L)
  fun i => vz0 i / norm3 vz0

/-- `EBBeam3D.direction_cosines`, ebbeam.py 719-750: rows are the local axes. -/
noncomputable def axes3 (X1 X2 X3 : V3) (L : ℝ) : Matrix (Fin 3) (Fin 3) ℝ :=
  Matrix.of ![direction3 X1 X2 L, localY X1 X2 X3 L,
    crossProduct (direction3 X1 X2 L) (localY X1 X2 X3 L)]

/-- `EBBeam3D.transformation_matrix`, ebbeam.py 752-767: four copies of the axes on the diagonal. -/
def beam3T (l0 : Matrix (Fin 3) (Fin 3) ℝ) : Matrix (Fin 12) (Fin 12) ℝ :=
  Matrix.of fun i j =>
    if i.val / 3 = j.val / 3 then l0 ⟨i.val % 3, Nat.mod_lt _ (by decide)⟩ ⟨j.val % 3, Nat.mod_lt _ (by decide)⟩ else 0

/-- `EBBeam3D.local_stiffness_matrix`, ebbeam.py 781-838; `I1 = section.Iy`, `I2 = section.Iz`, `J = section.It`
    (releases are not looked at, line 851 is a comment). -/
def beam3Kloc {K : Type} [Field K] (E G A I1 I2 J L : K) : Matrix (Fin 12) (Fin 12) K :=
  let r := E * A / L
  let t := G * J / L
  let y1 := 12 * (E * I2) / L ^ 3
  let y2 := 6 * (E * I2) / L ^ 2
  let y3 := 2 * (E * I2) / L
  let y4 := 4 * (E * I2) / L
  let z1 := 12 * (E * I1) / L ^ 3
  let z2 := 6 * (E * I1) / L ^ 2
  let z3 := 2 * (E * I1) / L
  let z4 := 4 * (E * I1) / L
  !![ r,   0,   0,  0,   0,   0, -r,   0,   0,  0,   0,   0;
      0,  y1,   0,  0,   0,  y2,  0, -y1,   0,  0,   0,  y2;
      0,   0,  z1,  0, -z2,   0,  0,   0, -z1,  0, -z2,   0;
      0,   0,   0,  t,   0,   0,  0,   0,   0, -t,   0,   0;
      0,   0, -z2,  0,  z4,   0,  0,   0,  z2,  0,  z3,   0;
      0,  y2,   0,  0,   0,  y4,  0, -y2,   0,  0,   0,  y3;
     -r,   0,   0,  0,   0,   0,  r,   0,   0,  0,   0,   0;
      0, -y1,   0,  0,   0, -y2,  0,  y1,   0,  0,   0, -y2;
      0,   0, -z1,  0,  z2,   0,  0,   0,  z1,  0,  z2,   0;
      0,   0,   0, -t,   0,   0,  0,   0,   0,  t,   0,   0;
      0,   0, -z2,  0,  z3,   0,  0,   0,  z2,  0,  z4,   0;
      0,  y2,   0,  0,   0,  y3,  0, -y2,   0,  0,   0,  y4]

/-- What a section object offers to a 3D beam: `BeamSection` (framefem.py 1117-1166) keeps its torsional constant
    in `J` and has no attribute `It`; the steel sections have `It` (`none` = attribute missing). -/
structure Section3 (K : Type) where
  A : K
  Iy : K
  Iz : K
  It : Option K

/-- `BeamSection(A, Iy, Iz, J)`, framefem.py 1137-1152: the torsional constant goes to `J`, not to `It`. -/
def beamSection {K : Type} (A Iy Iz _J : K) : Section3 K := { A := A, Iy := Iy, Iz := Iz, It := none }

/-- `EBBeam3D.local_stiffness_matrix` with the look-up of the section's attributes, ebbeam.py 791-796. -/
def beam3KlocOf {K : Type} [Field K] (E G L : K) (s : Section3 K) : Except PyErr (Matrix (Fin 12) (Fin 12) K) := do
  let J ← getOr s.It .attributeError
  pure (beam3Kloc E G s.A s.Iy s.Iz J L)

/-- `EBBeam3D.stiffness_matrix`, ebbeam.py 840-859. -/
noncomputable def beam3K (E G : ℝ) (s : Section3 ℝ) (X1 X2 X3 : V3) (L : ℝ) : Except PyErr (Matrix (Fin 12) (Fin 12) ℝ) := do
  let k0 ← beam3KlocOf E G L s
  pure (congrT (beam3T (axes3 X1 X2 X3 L)) k0)

/-- Direction of a line load on a 3D beam, ebbeam.py 903-911, 921-925. -/
inductive Dir3 | x | y | z
  deriving DecidableEq

/-- `floc` of `EBBeam3D.equivalent_nodal_loads(load)` without releases, ebbeam.py 891-942 (`load.f` is not read).
    For a load in global axes `T[:3,:3].dot(q)` multiplies a 3×3 matrix with a vector of length six
    (922-928): `ValueError`. -/
def beam3Floc {K : Type} [Field K] (L : K) (isLocal : Bool) (dir : Dir3) (q1 q2 : K) : Except PyErr (Fin 12 → K) :=
  let a := 7 / 20 * q1 * L + 3 / 20 * q2 * L
  let b := 3 / 20 * q1 * L + 7 / 20 * q2 * L
  let m1 := L ^ 2 * (1 / 20 * q1 + 1 / 30 * q2)
  let m2 := -L ^ 2 * (1 / 30 * q1 + 1 / 20 * q2)
  if isLocal then
    match dir with
    | .x => .ok ![0, 0, 0, 0, 0, 0, 0, 0, 0, 0, 0, 0]
    | .y => .ok ![0, a, 0, 0, 0, m1, 0, b, 0, 0, 0, m2]
    | .z => .ok ![0, 0, a, 0, m1, 0, 0, 0, b, 0, m2, 0]
  else .error .valueError

end Metku.Fem
