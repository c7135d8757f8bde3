import Verif.Model.TimberFire
import Mathlib.Tactic.Linarith

/-!
Model of the cross-section checks of timber members (`metku/structures/timber/timber_member.py` 267-281, 568-577, 616-699, 999-1007, 1056-1136, 1335-1422 and 1466-1473) and of the way forces reach a member
(`metku/frame2d/frame2d.py` 2519-2540), function by function, over the reals.

Simplifications: floats are exact; the residual width and the residual depth along the member are positive (as the sections make them, C138), so that area, section moduli and second moments are those of the rectangle
(timber_section.py 138-170 and 293-311); strengths are values, which do not change between the checks; the lists of forces are one list of records, since `add_section` and `clear_sections` change them together;
indices given by a user are natural numbers.
-/
namespace Metku.Timber

noncomputable section

/-- One section of a member with its forces, `add_section` of timber_member.py 1335-1346. -/
structure Forces where
  ned : ℝ
  myed : ℝ
  mzed : ℝ
  vyed : ℝ
  vzed : ℝ
  ted : ℝ
  loc : ℝ

/-- What the checks read of a `TimberMember`, timber_member.py 49-113: residual depth along the member and residual width, length, whether it is a beam, half the depths of the members at its ends (0 without a member),
strengths, crack factor and sections. -/
structure TMember where
  H : ℝ → ℝ
  B : ℝ
  L : ℝ
  isBeam : Bool
  otherStart : ℝ
  otherEnd : ℝ
  ft0d : ℝ
  fc0d : ℝ
  fmd : ℝ
  fvd : ℝ
  kcr : ℝ
  secs : List Forces

/-- Indexing a list with an index that may be negative. -/
def pyGet {α : Type} (l : List α) (k : ℤ) : Except PyErr α :=
  if 0 ≤ k then (l[k.toNat]?).elim (.error .indexError) .ok
  else if -(l.length : ℤ) ≤ k then (l[(k + l.length).toNat]?).elim (.error .indexError) .ok
  else .error .indexError

/-- `k_cr` of `tau_d`, timber_member.py 621-624. -/
def crackFactor (k : Kind) (sc : ℤ) (varnished : Bool) : ℝ := if (k = .solid ∨ k = .glt ∨ sc = 1) ∧ varnished = false then 0.67 else 1

/-- `sigma_t0d` and `sigma_c0d`, timber_member.py 267-281. -/
def TMember.sigma0 (m : TMember) (f : Forces) : ℝ := f.ned / (m.B * m.H f.loc)

/-- `sigma_md`, timber_member.py 568-577, about the strong axis. -/
def TMember.sigmaY (m : TMember) (f : Forces) : ℝ := f.myed / (m.B * m.H f.loc ^ 2 / 6)

/-- `sigma_md`, timber_member.py 568-577, about the weak axis. -/
def TMember.sigmaZ (m : TMember) (f : Forces) : ℝ := f.mzed / (m.H f.loc * m.B ^ 2 / 6)

/-- `tau_d`, timber_member.py 616-627. -/
def TMember.tau (m : TMember) (f : Forces) : ℝ × ℝ := (3 / 2 * f.vyed / (m.H f.loc * m.B * m.kcr), 3 / 2 * f.vzed / (m.H f.loc * m.B * m.kcr))

/-- The ratio of depth and width, turned over when below one, timber_member.py 634-636 and 666-668. -/
def sideRatio (h b : ℝ) : ℝ := if h / b < 1 then 1 / (h / b) else h / b

/-- The factor `beta` of `tau_tord`, timber_member.py 637-658. -/
def torBeta (r : ℝ) : ℝ :=
  if 0.95 < r ∧ r < 1.05 then 0.208
  else if 1.45 < r ∧ r < 1.55 then 0.231
  else if 1.95 < r ∧ r < 2.05 then 0.246
  else if 2.45 < r ∧ r < 2.55 then 0.258
  else if 2.95 < r ∧ r < 3.05 then 0.267
  else if 3.95 < r ∧ r < 4.05 then 0.282
  else if 4.95 < r ∧ r < 5.05 then 0.299
  else if 5.95 < r ∧ r < 6.05 then 0.307
  else if 7.95 < r ∧ r < 8.05 then 0.313
  else if 9 < r then 0.333
  else -0.0007 * r ^ 2 + 0.0193 * r + 0.1923

/-- The factor `alpha` of `I_tor`, timber_member.py 669-690. -/
def torAlpha (r : ℝ) : ℝ :=
  if 1 < r ∧ r < 1.05 then 0.141
  else if 1.45 < r ∧ r < 1.55 then 0.196
  else if 1.95 < r ∧ r < 2.05 then 0.229
  else if 2.45 < r ∧ r < 2.55 then 0.249
  else if 2.95 < r ∧ r < 3.05 then 0.263
  else if 3.95 < r ∧ r < 4.05 then 0.281
  else if 4.95 < r ∧ r < 5.05 then 0.299
  else if 5.95 < r ∧ r < 6.05 then 0.307
  else if 7.95 < r ∧ r < 8.05 then 0.313
  else if 9 < r then 0.333
  else -0.0022 * r ^ 2 + 0.425 * r + 0.1116

/-- `tau_tord`, timber_member.py 629-660, of a rectangle and a torsion moment. -/
def torStress (h b t : ℝ) : ℝ := t / (torBeta (sideRatio h b) * h * b ^ 2)

/-- `I_tor`, timber_member.py 662-692, of a rectangle. -/
def torInertia (h b : ℝ) : ℝ := torAlpha (sideRatio h b) * h * b ^ 3

/-- `k_shape`, timber_member.py 694-699. -/
def shapeFactor (h b : ℝ) : ℝ := min 1.3 (1 + 0.05 * h / b)

/-- `check_normal_force`, timber_member.py 999-1007. -/
def TMember.checkNormal (m : TMember) (f : Forces) : ℝ := if 0 < f.ned then |m.sigma0 f| / m.ft0d else |m.sigma0 f| / m.fc0d

/-- Whether the location with the given index lies behind `s`; indices beyond the list are passed over, timber_member.py 1083-1088. -/
def behind (locs : List ℝ) (s : ℝ) (k : ℤ) : Bool :=
  match pyGet locs k with
  | .ok v => decide (s < v)
  | .error _ => false

/-- Whether the location with the given index lies before `s`, timber_member.py 1098-1103. -/
def before (locs : List ℝ) (s : ℝ) (k : ℤ) : Bool :=
  match pyGet locs k with
  | .ok v => decide (v < s)
  | .error _ => false

/-- The index moved to the edge of the zone at the start, timber_member.py 1081-1088. -/
def shiftStart (locs : List ℝ) (s : ℝ) (n : ℤ) : ℤ := ((List.range locs.length).find? fun i : ℕ => behind locs s (n + i + 1)).elim n fun i : ℕ => n + i

/-- The index moved to the edge of the zone at the end, timber_member.py 1096-1103. -/
def shiftEnd (locs : List ℝ) (s : ℝ) (n : ℤ) : ℤ := ((List.range locs.length).find? fun i : ℕ => before locs s (n - i - 1)).elim n fun i : ℕ => n - i

/-- The share of the length at the start in which shear is reduced, timber_member.py 1074-1079. -/
def TMember.zoneStart (m : TMember) : ℝ := (m.otherStart + m.H 0) / m.L

/-- The share of the length at the end in which shear is reduced, timber_member.py 1090-1095. -/
def TMember.zoneEnd (m : TMember) : ℝ := (m.otherEnd + m.H 0) / m.L

/-- The locations of the sections. -/
def TMember.locs (m : TMember) : List ℝ := m.secs.map Forces.loc

/-- The index whose shear force is checked, timber_member.py 1071-1103; the location is that of the index asked for throughout. -/
def TMember.shearIndex (m : TMember) (n : ℤ) (loc : ℝ) : ℤ :=
  let k := if loc < m.zoneStart then shiftStart m.locs m.zoneStart n else n
  if 1 - m.zoneEnd < loc then shiftEnd m.locs (1 - m.zoneEnd) k else k

/-- The shear utilisation of a section, timber_member.py 1105-1108. -/
def TMember.shearRatio (m : TMember) (f : Forces) : ℝ := max (|(m.tau f).1| / m.fvd) (|(m.tau f).2| / m.fvd)

/-- `check_shear_force`, timber_member.py 1056-1108. -/
def TMember.checkShear (m : TMember) (n : ℕ) (reduce : Bool) : Except PyErr ℝ :=
  if reduce && m.isBeam then do
    let f ← pyGet m.secs n
    let g ← pyGet m.secs (m.shearIndex n f.loc)
    .ok (m.shearRatio g)
  else do
    let f ← pyGet m.secs n
    .ok (m.shearRatio f)

/-- `check_bending_moment`, timber_member.py 1109-1115, with `k_m` of constants.py 19. -/
def TMember.checkBending (m : TMember) (f : Forces) : ℝ :=
  max |m.sigmaY f / m.fmd + 0.7 * m.sigmaZ f / m.fmd| |m.sigmaZ f / m.fmd + 0.7 * m.sigmaY f / m.fmd|

/-- `check_torsion`, timber_member.py 1116-1121. -/
def TMember.checkTorsion (m : TMember) (f : Forces) : ℝ := torStress (m.H f.loc) m.B f.ted / (shapeFactor (m.H f.loc) m.B * m.fvd)

/-- `check_bending_tension`, timber_member.py 1122-1129. -/
def TMember.checkBendTens (m : TMember) (f : Forces) : ℝ :=
  max (m.sigma0 f / m.ft0d + |m.sigmaY f| / m.fmd + 0.7 * m.sigmaZ f / m.fmd) (m.sigma0 f / m.ft0d + 0.7 * |m.sigmaY f| / m.fmd + m.sigmaZ f / m.fmd)

/-- `check_bending_compression`, timber_member.py 1130-1137. -/
def TMember.checkBendComp (m : TMember) (f : Forces) : ℝ :=
  max ((m.sigma0 f / m.fc0d) ^ 2 + |m.sigmaY f| / m.fmd + 0.7 * m.sigmaZ f / m.fmd) ((m.sigma0 f / m.fc0d) ^ 2 + 0.7 * |m.sigmaY f| / m.fmd + m.sigmaZ f / m.fmd)

/-- `section_resistance` as a list, timber_member.py 1367-1389. -/
def TMember.resistance (m : TMember) (n : ℕ) (reduce : Bool) : Except PyErr (List ℝ) := do
  let f ← pyGet m.secs n
  let uv ← m.checkShear n reduce
  .ok [m.checkNormal f, uv, m.checkBending f, m.checkTorsion f, m.checkBendTens f, m.checkBendComp f]

/-- `check_sections`, timber_member.py 1412-1418: the first call fixes the shape of the rows, a row of zeros is stacked on those of the sections, and the largest value of each column is taken. -/
def TMember.checkSections (m : TMember) (reduce : Bool) : Except PyErr (List ℝ) := do
  let _ ← m.resistance 0 true
  let rows ← (List.range m.secs.length).mapM fun n => m.resistance n reduce
  .ok (rows.foldl (List.zipWith max) [0, 0, 0, 0, 0, 0])

/-- The largest of a list that is not empty. -/
def listMax : List ℝ → Except PyErr ℝ
  | [] => .error .valueError
  | a :: l => .ok (l.foldl max a)

/-- `design`, timber_member.py 1466-1473; buckling, lateral buckling and compression across the grain come from the other checks. -/
def TMember.design (m : TMember) (buckling : Except PyErr (ℝ × ℝ)) (lateral across : Except PyErr ℝ) : Except PyErr ℝ := do
  let rs ← m.checkSections true
  let r ← listMax rs
  let b ← buckling
  if m.isBeam then
    let l ← lateral
    let c ← across
    .ok (max (max (max r (max b.1 b.2)) l) c)
  else .ok (max r (max b.1 b.2))

/-- `check_cross_section`, timber_member.py 1391-1410: whether the member is strong enough. -/
def TMember.strongEnough (m : TMember) (buckling : Except PyErr (ℝ × ℝ)) (lateral : Except PyErr ℝ) : Except PyErr Bool := do
  let rs ← m.checkSections true
  let b ← buckling
  let l ← lateral
  let r ← listMax (rs ++ [b.1, b.2, l])
  .ok (decide (r ≤ 1))

/-- The forces at the two ends of a finite element, `(my, fx, fz)`, frame2d.py 2532-2534. -/
structure ElemForces where
  m1 : ℝ
  n1 : ℝ
  v1 : ℝ
  m2 : ℝ
  n2 : ℝ
  v2 : ℝ

/-- A section with the forces that frame2d passes on. -/
def Forces.plane (n m v loc : ℝ) : Forces := ⟨n, m, 0, 0, v, 0, loc⟩

/-- `assign_forces`, frame2d.py 2519-2540, from the elements in order and the locations of the nodes: the first end of every element, and the second end of the last one. -/
def assignForces : List ElemForces → List ℝ → Except PyErr (List Forces)
  | [], _ => .error .unboundLocal
  | _ :: _, [] => .error .indexError
  | [_], [_] => .error .indexError
  | [e], x :: y :: _ => .ok [.plane e.n1 e.m1 e.v1 x, .plane e.n2 e.m2 e.v2 y]
  | e :: es, x :: xs => do
    let r ← assignForces es xs
    .ok (.plane e.n1 e.m1 e.v1 x :: r)

end

end Metku.Timber
