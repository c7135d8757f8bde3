import Verif.Model.RhsJoint
import Verif.Model.PlaneTruss
import Mathlib.Analysis.SpecialFunctions.Trigonometric.Inverse

/-!
Joints of roof trusses: geometry of K gap joints and design of Y and K gap joints, `metku/raami/raami_plane_truss.py` 2506-3545.

Simplifications: floats are real numbers and divisions by sines, lengths and dimensions are total; the theorems assume what excludes division by zero. A chord member is its profile and its direction vector, a brace its
profile and the point where its axis ends at the other chord in the actual geometry (2425-2443). Forces `NEd[load_id]` of one load case are numbers, as are the shear forces at both ends of the gap element. Other FEM nodes and
elements of joints, printing and representation are left out. `np.array(x, y)` takes its second argument as the type of the entries; as `y` is a numpy float, numpy uses the type of `y` and forgets its value.
-/
namespace Metku.Truss

open Metku.Steel Metku.Rhs Real

noncomputable section

/-! ### Geometry -/

/-- `np.dot`. -/
def dot (a b : Pt) : ℝ := a.1 * b.1 + a.2 * b.2

/-- `x + s*v`. -/
def shift (x : Pt) (s : ℝ) (v : Pt) : Pt := (x.1 + s * v.1, x.2 + s * v.2)

/-- `np.linalg.norm(x)`. -/
def norm2 (x : Pt) : ℝ := √(x.1 ^ 2 + x.2 ^ 2)

/-- `TopChord.perpendicular` and `BottomChord.perpendicular`, raami_plane_truss.py 1761-1769, 1947-1955. -/
def perp (top : Bool) (u : Pt) : Pt := if top then (-u.2, u.1) else (u.2, -u.1)

/-- `dir_vector_xp` of a brace from `Xt` to `Xb`, raami_plane_truss.py 2445-2455. -/
def dirXp (Xt Xb : Pt) : Pt := ((Xt.1 - Xb.1) / norm2 (Xt.1 - Xb.1, Xt.2 - Xb.2), (Xt.2 - Xb.2) / norm2 (Xt.1 - Xb.1, Xt.2 - Xb.2))

/-- `brace_angle` with `geometry="actual"` from the directions of chord and brace, raami_plane_truss.py 2687-2714. -/
def braceAngle (vc vb : Pt) : ℝ :=
  let a := arccos (dot vc vb) * 180 / π
  if a > 90 then 180 - a else a

/-- `TubularKGapJoint`: node, whether the chord is a top chord, `chords[0].dir_vector`, `ridge`, the local coordinates and the intersection point of the braces, raami_plane_truss.py 3007-3085. -/
structure KPoint where
  node : Pt
  top : Bool
  u : Pt
  ridge : Bool
  xloc : ℝ
  yloc : ℝ
  xp : Pt

/-- `chords[0].perpendicular`. -/
def KPoint.p (j : KPoint) : Pt := perp j.top j.u

/-- `node.coords + xloc*dir_vector + yloc*perpendicular`. -/
def KPoint.local (j : KPoint) : Pt := shift (shift j.node j.xloc j.u) j.yloc j.p

/-- The setter of `yloc`, with the joint `sym_joint` if it is known, raami_plane_truss.py 3150-3173. -/
def setY (v : ℝ) (j : KPoint) (s : Option KPoint) : KPoint × Option KPoint :=
  let j := { j with yloc := v }
  if j.ridge then ({ j with xp := (j.node.1, j.node.2 + v) }, s)
  else ({ j with xp := j.local }, s.map fun s =>
    let s := { s with yloc := v }
    { s with xp := s.local })

/-- The setter of `xloc`, raami_plane_truss.py 3183-3195. -/
def setX (v : ℝ) (j : KPoint) (s : Option KPoint) : KPoint × Option KPoint :=
  let j := { j with xloc := v }
  ({ j with xp := j.local }, s.map fun s =>
    let s := { s with xloc := -v }
    { s with xp := s.local })

/-- The constructor of a K gap joint: the point of intersection is moved by a quarter of the height of the chord, raami_plane_truss.py 3007-3085. -/
def newK (node : Pt) (top : Bool) (u : Pt) (ridge : Bool) (h0 : ℝ) : KPoint := (setY (1 / 4 * h0) ⟨node, top, u, ridge, 0, 0, node⟩ none).1

/-- The direction of a brace that ends at `q` at the other chord, `coords_actual_geometry` and `dir_vector_xp`, raami_plane_truss.py 2425-2455: `Xt` is at the top chord. -/
def KPoint.dir (j : KPoint) (q : Pt) : Pt := if j.top then dirXp j.xp q else dirXp q j.xp

/-- `angles`, raami_plane_truss.py 3137-3140: all angles are measured from `chords[0]`. -/
def KPoint.angle (j : KPoint) (q : Pt) : ℝ := braceAngle j.u (j.dir q)

/-- `calc_gap`, raami_plane_truss.py 3319-3338: `q1`, `q2` the other ends of the braces, `h1`, `h2` their heights. -/
def KPoint.gap (j : KPoint) (h0 h1 h2 : ℝ) (q1 q2 : Pt) : ℝ :=
  (j.yloc + 1 / 2 * h0) * sin (rad (j.angle q1 + j.angle q2)) / (sin (rad (j.angle q1)) * sin (rad (j.angle q2)))
    - 1 / 2 * (h1 / sin (rad (j.angle q1)) + h2 / sin (rad (j.angle q2)))

/-- `xc_face` of a joint that is not at the ridge, raami_plane_truss.py 3205-3206. -/
def KPoint.face (j : KPoint) (h0 : ℝ) : Pt := shift j.node (-(1 / 2 * h0)) j.p

/-- `brace_chord_face_x` for one brace of a joint that is not at the ridge: the point on the chord face and the point on the axis of the chord, raami_plane_truss.py 3252-3288. -/
def KPoint.facePoint (j : KPoint) (h0 : ℝ) (q : Pt) : Except PyErr (Pt × Pt) := do
  let (_, x) ← (Line.ofDir j.xp (j.dir q)).intersect (Line.ofDir (j.face h0) j.u)
  .ok (x, ((Line.ofDir j.node j.u).distance x).2)

/-- `xchord`: the point on the axis of the chord nearest to the intersection of the braces, raami_plane_truss.py 3293-3303. -/
def KPoint.onChord (j : KPoint) : Pt := ((Line.ofDir j.node j.u).distance j.xp).2

/-! ### Design -/

/-- A Y joint with the forces of one load case: chord, brace, angle in degrees, the given reduction factor, `M0` (zero unless assigned), and the forces of brace and chord, raami_plane_truss.py 2758-2822. -/
structure YDes where
  chord : Tube
  brace : Tube
  angle : ℝ
  r : ℝ
  M0 : ℝ
  N1 : ℝ
  N0 : ℝ

namespace YDes

/-- The chord data read by the methods of `TubularJoint`, raami_plane_truss.py 2557-2660: the same formulas as in rhs_joints.py. -/
def base (j : YDes) : Joint := ⟨j.chord, j.N0, 0, j.M0, j.r⟩

/-- `beta`, raami_plane_truss.py 2823-2824. -/
def beta (j : YDes) : ℝ := j.brace.B / j.chord.B

/-- `eta`, raami_plane_truss.py 2826-2828. -/
def eta (j : YDes) : ℝ := j.brace.H / j.chord.B

/-- `chord_face_failure`, raami_plane_truss.py 2852-2867: the reduction factor raised to the power `kn`. -/
def chordFace (j : YDes) : ℝ :=
  let b := if j.beta ≥ 1 then 99 / 100 else j.beta
  let kn := j.base.evalKN j.beta
  let r := j.base.reduction
  let s := sin (rad j.angle)
  r ^ kn * j.chord.P.fy * j.chord.T ^ 2 / ((1 - b) * s) * (2 * j.eta / s + 4 * √(1 - b)) / gammaM5

/-- `chord_web_buckling`, raami_plane_truss.py 2869-2872: `self.fb()` is called without the load case. -/
def chordWeb (_ : YDes) : Except PyErr ℝ := .error .typeError

/-- `brace_failure`, raami_plane_truss.py 2881-2892. -/
def braceFailure (j : YDes) : ℝ :=
  let beff := min (10 / (j.chord.B / j.chord.T) * j.chord.P.fy * j.chord.T / (j.brace.P.fy * j.brace.T)) 1 * j.brace.B
  j.base.reduction * j.brace.P.fy * j.brace.T * (2 * j.brace.H - 4 * j.brace.T + 2 * beff) / gammaM5

/-- `punching_shear`, raami_plane_truss.py 2894-2904. -/
def punching (j : YDes) : ℝ :=
  let bep := min (10 / (j.chord.B / j.chord.T)) 1 * j.brace.B
  let s := sin (rad j.angle)
  j.base.reduction * j.chord.P.fy * j.chord.T / √3 / s * (2 * j.brace.H / s + 2 * bep) / gammaM5

/-- `design`, raami_plane_truss.py 2906-2961. -/
def design (j : YDes) : Except PyErr ℝ :=
  if j.beta < 85 / 100 then .ok (|j.N1| / j.chordFace)
  else do
    let cw ← j.chordWeb
    let interp := j.chordFace + (j.beta - 85 / 100) / (15 / 100) * (cw - j.chordFace)
    let n := min interp j.braceFailure
    let n := if j.beta ≤ 1 - 1 / j.base.gamma then min n j.punching else n
    .ok (|j.N1| / n)

end YDes

/-- `fem_elements['gap']` of a joint: only the FEM model `ecc_elements` makes gap elements, two of them at the ridge, raami_plane_truss.py 1471-1484. The numbers are the shear forces at both ends. -/
inductive GapEl
  | none
  | one (f g : ℝ)
  | two

/-- A K gap joint with the forces of one load case: chord, braces, their angles in degrees, gap, given reduction factor, thickness of the plate on the chord face, brace forces, forces of the chord members and gap element,
raami_plane_truss.py 2970-3545. -/
structure KDes where
  chord : Tube
  brace : Fin 2 → Tube
  angle : Fin 2 → ℝ
  gap : ℝ
  r : ℝ
  tp : ℝ
  N : Fin 2 → ℝ
  N0s : List ℝ
  gapEl : GapEl

namespace KDes

/-- The chord force used, raami_plane_truss.py 3443-3447: the smaller one; a joint at the end of a chord has only one chord member. -/
def chordForce (j : KDes) : Except PyErr ℝ := match j.N0s with
  | a :: b :: _ => .ok (if |a| < |b| then a else b)
  | _ => .error .indexError

/-- `V0gap`, raami_plane_truss.py 3132-3134. -/
def V0gap (j : KDes) : Except PyErr ℝ := match j.gapEl with
  | .one f g => .ok (max f g)
  | _ => .error .attributeError

/-- The chord data; `M0` is always zero (3449, 3471-3473). -/
def base (j : KDes) (N0 : ℝ) : Joint := ⟨j.chord, N0, 0, 0, j.r⟩

/-- `beta`, raami_plane_truss.py 3340-3341. -/
def beta (j : KDes) : ℝ := (((j.brace 0).B + (j.brace 1).B) + ((j.brace 0).H + (j.brace 1).H)) / (4 * j.chord.B)

/-- The thickness of the chord face, raami_plane_truss.py 3350-3353. -/
def face (j : KDes) : ℝ := if j.tp = 0 then j.chord.T else j.tp

/-- `chord_face_failure`, raami_plane_truss.py 3343-3361. -/
def chordFace (j : KDes) (N0 : ℝ) (i : Fin 2) : ℝ :=
  (j.base N0).reduction * (89 / 10) * (j.base N0).evalKN j.beta * j.chord.P.fy * j.face ^ 2 * √((j.base N0).gamma) * j.beta / gammaM5 / sin (rad (j.angle i))

/-- `a_eta`, raami_plane_truss.py 3387-3389. -/
def aEta (j : KDes) : ℝ := (2 * j.chord.H + √(1 / (1 + 4 * j.gap ^ 2 / 3 / j.chord.T ^ 2)) * j.chord.B) * j.chord.T

/-- `chord_shear`, the resistances of the braces, raami_plane_truss.py 3363-3385. -/
def chordShear (j : KDes) (N0 : ℝ) (i : Fin 2) : ℝ := (j.base N0).reduction * (j.chord.P.fy * j.aEta / √3 / sin (rad (j.angle i)) / gammaM5)

/-- `chord_shear`, the resistance of the chord, raami_plane_truss.py 3372-3384. `VRd` and `shear_force_resistance()` of the profile are the same number. -/
def chordRd (j : KDes) (N0 V VRd : ℝ) : ℝ :=
  (j.base N0).reduction * (if V / VRd > 1 then 0 else j.chord.P.fy * ((j.chord.P.sec.A - j.aEta) + j.aEta * √(1 - (V / VRd) ^ 2)) / gammaM5)

/-- `brace_failure`, raami_plane_truss.py 3391-3407. -/
def braceFailure (j : KDes) (N0 : ℝ) (i : Fin 2) : ℝ :=
  let beff := min (10 / (j.chord.B / j.face) * j.chord.P.fy * j.face / ((j.brace i).P.fy * (j.brace i).T)) 1 * (j.brace i).B
  (j.base N0).reduction * (j.brace i).P.fy * (j.brace i).T * (2 * (j.brace i).H - 4 * (j.brace i).T + (j.brace i).B + beff) / gammaM5

/-- `punching_shear`, raami_plane_truss.py 3409-3422. -/
def punching (j : KDes) (N0 : ℝ) (i : Fin 2) : ℝ :=
  let bep := min (10 / (j.chord.B / j.face)) 1 * (j.brace i).B
  let s := sin (rad (j.angle i))
  (j.base N0).reduction * j.chord.P.fy * j.face / √3 / s * (2 * (j.brace i).H / s + (j.brace i).B + bep) / gammaM5

/-- `design`, raami_plane_truss.py 3424-3545: the returned ratios. The ratio of the chord is passed to `np.array` as a type and lost. -/
def design (j : KDes) : Except PyErr (Fin 2 → ℝ) := do
  let N0 ← j.chordForce
  let _ ← j.V0gap
  let n := fun i => min (min (j.chordFace N0 i) (j.chordShear N0 i)) (j.braceFailure N0 i)
  let n := fun i => if j.beta ≤ 1 - 1 / (j.base N0).gamma then min (n i) (j.punching N0 i) else n i
  .ok fun i => |j.N i| / n i

end KDes

end

end Metku.Truss
