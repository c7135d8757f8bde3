import Mathlib.LinearAlgebra.Matrix.NonsingularInverse
import Mathlib.LinearAlgebra.Matrix.Notation
import Mathlib.Algebra.Order.Field.Basic
import Verif.Model.Fem

/-!
Model of the element matrices: `metku/framefem/elements/{rod,springs,ebbeam,eb_semi_rigid_beam}.py`.

The element's length `L` (`Element.length`, framefem.py 1638-1651: the Euclidean distance rounded to three
decimals) and its direction cosines `c = (x2 - x1)/L` (framefem.py 1612-1627) are arguments here.
-/
namespace Metku.Fem

open Matrix

variable {K : Type} [Field K]

/-- `direction_cosines`, framefem.py 1612-1627, for coordinate differences `dx, dy` and (rounded) length `L`. -/
def dirCos (d L : K) : K := d / L

/-- `L.transpose().dot(k0.dot(L))`, rod.py 88, springs.py 86, ebbeam.py 197. -/
def congrT {m n : Type} [Fintype m] (T : Matrix m n K) (k : Matrix m m K) : Matrix n n K := Tᵀ * (k * T)

/-- A finite matrix as a function of natural-number indices. -/
def matNat {n : Nat} (M : Matrix (Fin n) (Fin n) K) : Nat → Nat → K :=
  fun i j => if h : i < n ∧ j < n then M ⟨i, h.1⟩ ⟨j, h.2⟩ else 0

/-- `Rod.transformation_matrix` in 2D, rod.py 32-39 (same text in springs.py 39-45). -/
def rodT2 (c0 c1 : K) : Matrix (Fin 2) (Fin 4) K := !![c0, c1, 0, 0; 0, 0, c0, c1]

/-- `Rod.transformation_matrix` in 3D, rod.py 32-39. -/
def rodT3 (c0 c1 c2 : K) : Matrix (Fin 2) (Fin 6) K := !![c0, c1, c2, 0, 0, 0; 0, 0, 0, c0, c1, c2]

/-- `k * [[1,-1],[-1,1]]`: `Rod.local_stiffness_matrix` rod.py 70-78 with `k = E*A/Le`,
    `LinearSpring.local_stiffness_matrix` springs.py 72-76 with the spring constant `k`. -/
def rodKloc (k : K) : Matrix (Fin 2) (Fin 2) K := !![k, -k; -k, k]

/-- `Rod.stiffness_matrix`, rod.py 80-90, 2D. -/
def rodK2 (E A L c0 c1 : K) : Matrix (Fin 4) (Fin 4) K := congrT (rodT2 c0 c1) (rodKloc (E * A / L))

/-- `Rod.stiffness_matrix`, rod.py 80-90, 3D. -/
def rodK3 (E A L c0 c1 c2 : K) : Matrix (Fin 6) (Fin 6) K := congrT (rodT3 c0 c1 c2) (rodKloc (E * A / L))

/-- `LinearSpring.stiffness_matrix`, springs.py 78-88, 2D. -/
def springK2 (k c0 c1 : K) : Matrix (Fin 4) (Fin 4) K := congrT (rodT2 c0 c1) (rodKloc k)

/-- `EBBeam.transformation_matrix`, ebbeam.py 58-74. -/
def beamT (c0 c1 : K) : Matrix (Fin 6) (Fin 6) K :=
  !![c0, c1, 0, 0, 0, 0;
     -c1, c0, 0, 0, 0, 0;
     0, 0, 1, 0, 0, 0;
     0, 0, 0, c0, c1, 0;
     0, 0, 0, -c1, c0, 0;
     0, 0, 0, 0, 0, 1]

/-- `EBBeam.local_stiffness_matrix` without releases, ebbeam.py 106-125. -/
def beamKloc (E A I L : K) : Matrix (Fin 6) (Fin 6) K :=
  let rodc := E * A / L
  let bend1 := 12 * (E * I) / L ^ 3
  let bend2 := 6 * (E * I) / L ^ 2
  let bend3 := 4 * (E * I) / L
  let bend4 := 2 * (E * I) / L
  !![rodc, 0, 0, -rodc, 0, 0;
     0, bend1, bend2, 0, -bend1, bend2;
     0, bend2, bend3, 0, -bend2, bend4;
     -rodc, 0, 0, rodc, 0, 0;
     0, -bend1, -bend2, 0, bend1, -bend2;
     0, bend2, bend4, 0, -bend2, bend3]

/-- Static condensation of released degrees of freedom, ebbeam.py 127-171:
    `kc = K11 - K12 inv(K22) K21`, released rows and columns zero; a singular `K22` raises `LinAlgError`
    (this includes repeated entries in `releases`).  The `lru_cache` of line 96, which makes the method
    return an old matrix when `releases` is changed after the first call, is not part of this function. -/
noncomputable def condense [DecidableEq K] (k0 : Matrix (Fin 6) (Fin 6) K) (rel : List (Fin 6)) :
    Except PyErr (Matrix (Fin 6) (Fin 6) K) :=
  if rel = [] then .ok k0
  else
    let K22 := k0.submatrix (fun a : Fin rel.length => rel[a]) (fun a : Fin rel.length => rel[a])
    if K22.det = 0 then .error .linAlgError
    else .ok <| Matrix.of fun i j =>
      if i ∈ rel ∨ j ∈ rel then 0
      else k0 i j - ∑ a, ∑ b, k0 i rel[a] * K22⁻¹ a b * k0 rel[b] j

/-- `EBBeam.local_stiffness_matrix`, ebbeam.py 96-174. -/
noncomputable def beamKlocRel [DecidableEq K] (E A I L : K) (rel : List (Fin 6)) :
    Except PyErr (Matrix (Fin 6) (Fin 6) K) :=
  condense (beamKloc E A I L) rel

/-- `EBBeam.stiffness_matrix`, ebbeam.py 176-199. -/
noncomputable def beamK [DecidableEq K] (E A I L c0 c1 : K) (rel : List (Fin 6)) :
    Except PyErr (Matrix (Fin 6) (Fin 6) K) := do
  let k0 ← beamKlocRel E A I L rel
  pure (congrT (beamT c0 c1) k0)

/-- `EBSemiRigidBeam.gamma` for one end, eb_semi_rigid_beam.py 86-104; `kRigid = 1e20` (line 24).
    After the constructor's clamping (66-70) the stiffness is never 0, so the `np.inf` branch is dropped. -/
def semiGamma [DecidableEq K] (E I L k : K) : K :=
  if k = 10 ^ 20 then 0 else E * I / L / k

/-- Clamping of a rotational stiffness in the constructor, eb_semi_rigid_beam.py 66-70
    (`kHinge = 1e-4`, `kRigid = 1e20`). -/
def semiClamp [LinearOrder K] (k : K) : K :=
  if k ≤ 1 / 10 ^ 4 then 1 / 10 ^ 4 else if k ≥ 10 ^ 20 then 10 ^ 20 else k

/-- `EBSemiRigidBeam.delta`, eb_semi_rigid_beam.py 106-110. -/
def semiDelta (g0 g1 : K) : K := (1 + 4 * g0) * (1 + 4 * g1) - 4 * g0 * g1

/-- `EBSemiRigidBeam.matrix_S`, eb_semi_rigid_beam.py 112-123. -/
def semiS (L g0 g1 : K) : Matrix (Fin 4) (Fin 4) K :=
  !![0, 0, 0, 0;
     -6 * g0 / L * (1 + 2 * g1), -4 * g0 * (1 + 3 * g1), 6 * g0 / L * (1 + 2 * g1), -2 * g0;
     0, 0, 0, 0;
     -6 * g1 / L * (1 + 2 * g0), -2 * g1, 6 * g1 / L * (1 + 2 * g0), -4 * g1 * (1 + 3 * g0)]

/-- `k00` of `EBSemiRigidBeam.local_stiffness_matrix`, eb_semi_rigid_beam.py 144-147. -/
def semiK00 (E I L : K) : Matrix (Fin 4) (Fin 4) K :=
  let bend1 := 12 * (E * I) / L ^ 3
  let bend2 := 6 * (E * I) / L ^ 2
  let bend3 := 4 * (E * I) / L
  let bend4 := 2 * (E * I) / L
  !![bend1, bend2, -bend1, bend2;
     bend2, bend3, -bend2, bend4;
     -bend1, -bend2, bend1, -bend2;
     bend2, bend4, -bend2, bend3]

/-- Bending part `k00 + k1 + k2`, eb_semi_rigid_beam.py 150-173, for (clamped) end stiffnesses `r0, r1`. -/
def semiBend [LinearOrder K] (E I L r0 r1 : K) : Matrix (Fin 4) (Fin 4) K :=
  let k00 := semiK00 E I L
  let g0 := semiGamma E I L r0
  let g1 := semiGamma E I L r1
  let d := semiDelta g0 g1
  let S := semiS L g0 g1
  let k1 := (1 / d) • (k00 * S) + (1 / d) • (Sᵀ * k00) + (1 / d ^ 2) • (Sᵀ * k00 * S)
  let outer (r : K) (i : Fin 4) : Matrix (Fin 4) (Fin 4) K :=
    if r < 10 ^ 20 then (r / d ^ 2) • Matrix.of (fun a b => S i a * S i b) else 0
  k00 + k1 + (outer r0 1 + outer r1 3)

/-- `EBSemiRigidBeam.local_stiffness_matrix`, eb_semi_rigid_beam.py 130-177. -/
def semiKloc [LinearOrder K] (E A I L r0 r1 : K) : Matrix (Fin 6) (Fin 6) K :=
  let rodc := E * A / L
  let b := semiBend E I L r0 r1
  !![rodc, 0, 0, -rodc, 0, 0;
     0, b 0 0, b 0 1, 0, b 0 2, b 0 3;
     0, b 1 0, b 1 1, 0, b 1 2, b 1 3;
     -rodc, 0, 0, rodc, 0, 0;
     0, b 2 0, b 2 1, 0, b 2 2, b 2 3;
     0, b 3 0, b 3 1, 0, b 3 2, b 3 3]

/-- `EBSemiRigidBeam.stiffness_matrix`, eb_semi_rigid_beam.py 179-197, for the raw end stiffnesses given
    to the constructor. -/
def semiK [LinearOrder K] (E A I L c0 c1 r0 r1 : K) : Matrix (Fin 6) (Fin 6) K :=
  congrT (beamT c0 c1) (semiKloc E A I L (semiClamp r0) (semiClamp r1))

/-- `EBBeam.local_geometric_stiffness_matrix`, ebbeam.py 201-224 (`P` = axial force at the second end). -/
def beamGeoLoc (P L : K) : Matrix (Fin 6) (Fin 6) K :=
  let g := P / 30 / L
  !![0, 0, 0, 0, 0, 0;
     0, g * 36, g * (3 * L), 0, g * (-36), g * (3 * L);
     0, g * (3 * L), g * (4 * L ^ 2), 0, g * (-3 * L), g * (-L ^ 2);
     0, 0, 0, 0, 0, 0;
     0, g * (-36), g * (-3 * L), 0, g * 36, g * (-3 * L);
     0, g * (3 * L), g * (-L ^ 2), 0, g * (-3 * L), g * (4 * L ^ 2)]

/-- `EBBeam.geometric_stiffness_matrix`, ebbeam.py 226-244. -/
def beamGeo (P L c0 c1 : K) : Matrix (Fin 6) (Fin 6) K := congrT (beamT c0 c1) (beamGeoLoc P L)

/-- `Rod.internal_forces`, rod.py 144-153: both entries of `fint['fx']`,
    from the nodal displacements `q` (rod.py 156-) in 2D. -/
def rodForces2 (E A L c0 c1 : K) (q : Fin 4 → K) : K × K :=
  let ql := (rodT2 c0 c1) *ᵥ q
  let f := E * A / L * (ql 1 - ql 0)
  (f, f)

/-- `EBBeam.internal_forces`, ebbeam.py 540-584: `R = ke q - floc` (or `ke q` when no `floc` is stored for
    the load case); result (`fx`, `my`, `fz`) as pairs. -/
def beamForces (ke : Matrix (Fin 6) (Fin 6) K) (qloc : Fin 6 → K) (floc : Option (Fin 6 → K)) :
    (K × K) × (K × K) × (K × K) :=
  let R := match floc with
    | some f => ke *ᵥ qloc - f
    | none => ke *ᵥ qloc
  ((-R 0, R 3), (-R 2, R 5), (R 1, -R 4))

/-- Direction of a line load, framefem.py 1344-1357 (any string other than "x" acts as "y" in global
    coordinates; in local coordinates only "y" produces a load). -/
inductive Dir | x | y | other
  deriving DecidableEq

/-- `LineLoad`, framefem.py 1344-1357 (`xloc` is not read by `equivalent_nodal_loads`). -/
structure LineLoad (K : Type) where
  sid : Nat
  f : K
  q1 : K
  q2 : K
  dir : Dir
  isLocal : Bool

/-- Fixed-end vector of linearly varying intensities: perpendicular part ebbeam.py 390-393 / 430-435,
    axial part 438-441. -/
def fixedEnd (L qx1 qx2 qy1 qy2 : K) : Fin 6 → K :=
  ![1 / 2 * L * (1 / 2 * (qx1 + qx2) - 1 / 6 * (qx2 - qx1)),
    7 / 20 * qy1 * L + 3 / 20 * qy2 * L,
    L ^ 2 * (1 / 20 * qy1 + 1 / 30 * qy2),
    1 / 2 * L * (1 / 2 * (qx1 + qx2) + 1 / 6 * (qx2 - qx1)),
    3 / 20 * qy1 * L + 7 / 20 * qy2 * L,
    -L ^ 2 * (1 / 30 * qy1 + 1 / 20 * qy2)]

/-- `floc` of `EBBeam.equivalent_nodal_loads` for `order = 1`, before releases, ebbeam.py 370-441:
    local `x` loads are ignored; for global loads the factor `f` enters both through `q1, q2` (379-380) and
    through `qloc` (426). -/
def beamFloc (L c0 c1 : K) (l : LineLoad K) : Fin 6 → K :=
  let q1 := l.f * l.q1
  let q2 := l.f * l.q2
  if l.isLocal then
    match l.dir with
    | .y => fixedEnd L 0 0 q1 q2
    | _ => 0
  else
    let qloc0 := l.f * (match l.dir with | .x => c0 | _ => c1)
    let qloc1 := l.f * (match l.dir with | .x => -c1 | _ => c0)
    fixedEnd L (q1 * qloc0) (q2 * qloc0) (q1 * qloc1) (q2 * qloc1)

/-- `fglob = T.transpose().dot(floc)`, ebbeam.py 516 (no releases). -/
def beamNodalLoads (L c0 c1 : K) (l : LineLoad K) : Fin 6 → K :=
  (beamT c0 c1)ᵀ *ᵥ beamFloc L c0 c1 l

/-- Modification of `floc` for releases, ebbeam.py 499-509
    (`Krel` holds the blocks of the last stiffness evaluation, here of `k0`). -/
noncomputable def condenseLoad [DecidableEq K] (k0 : Matrix (Fin 6) (Fin 6) K) (rel : List (Fin 6)) (f : Fin 6 → K) :
    Except PyErr (Fin 6 → K) :=
  if rel = [] then .ok f
  else
    let K22 := k0.submatrix (fun a : Fin rel.length => rel[a]) (fun a : Fin rel.length => rel[a])
    if K22.det = 0 then .error .linAlgError
    else .ok fun i =>
      if i ∈ rel then 0
      else f i - ∑ a, ∑ b, k0 i rel[a] * K22⁻¹ a b * f rel[b]

/-- The dictionary `self.floc`, ebbeam.py 512: `self.floc[load.sid] = floc` (overwrites). -/
abbrev FlocDict (K : Type) := Nat → Option (Fin 6 → K)

/-- State change of one call of `equivalent_nodal_loads` (no releases), ebbeam.py 512. -/
def storeFloc (L c0 c1 : K) (d : FlocDict K) (l : LineLoad K) : FlocDict K :=
  Function.update d l.sid (some (beamFloc L c0 c1 l))

/-- All line loads of one element with id `sid`, processed in the order of `model.loads`
    by `global_load_vector` (framefem.py 513-523). -/
def storeAll (L c0 c1 : K) (ls : List (LineLoad K)) (d : FlocDict K) (sid : Nat) : FlocDict K :=
  (ls.filter (·.sid = sid)).foldl (storeFloc L c0 c1) d

/-- `EBBeam.shape_fun`, ebbeam.py 521-538. -/
def shapeFun (L x : K) : Fin 4 → K :=
  ![1 - 3 * x ^ 2 / L ^ 2 + 2 * x ^ 3 / L ^ 3,
    x - 2 * x ^ 2 / L + x ^ 3 / L ^ 2,
    3 * x ^ 2 / L ^ 2 - 2 * x ^ 3 / L ^ 3,
    -x ^ 2 / L ^ 2 + x ^ 3 / L ^ 2]

end Metku.Fem
