import Mathlib.Analysis.Real.Sqrt
import Verif.Model.Fem

/-!
Model of thin-walled open sections, `OpenProf`, `Node` and `Segment` of
`metku/eurocodes/en1993/en1993_1_3/open_prof.py` (EN 1993-1-3, Annex C).

Floats are real numbers.  Drawing, the export for CUFSM and `principal_axes` (which
raises `TypeError` at `d^2`, line 236) are left out.  A division by zero (NumPy: `nan` with a warning) gives 0; the
properties assume a non-zero area.
-/
namespace Metku.Cold

open Metku

/-- `Node(y, z)`, open_prof.py 355-374. -/
abbrev Pt := ℝ × ℝ

/-- `Segment(n1, n2, t)`, open_prof.py 389-407. -/
structure Seg where
  a : Pt
  b : Pt
  t : ℝ

/-- `Segment.length`, open_prof.py 437-440. -/
noncomputable def Seg.length (s : Seg) : ℝ := √((s.b.1 - s.a.1) ^ 2 + (s.b.2 - s.a.2) ^ 2)

/-- `Segment.area`, 442-445. -/
noncomputable def Seg.area (s : Seg) : ℝ := s.t * s.length

/-- `Segment.first_moment_y`, 447-451. -/
noncomputable def Seg.firstY (s : Seg) : ℝ := (s.a.2 + s.b.2) * s.area * (1 / 2)

/-- `Segment.second_moment_y`, 453-458. -/
noncomputable def Seg.secondY (s : Seg) : ℝ := (s.b.2 ^ 2 + s.a.2 ^ 2 + s.b.2 * s.a.2) * s.area / 3

/-- `Segment.first_moment_z`, 460-464. -/
noncomputable def Seg.firstZ (s : Seg) : ℝ := (s.a.1 + s.b.1) * s.area * (1 / 2)

/-- `Segment.second_moment_z`, 466-471. -/
noncomputable def Seg.secondZ (s : Seg) : ℝ := (s.b.1 ^ 2 + s.a.1 ^ 2 + s.b.1 * s.a.1) * s.area / 3

/-- `Segment.product_moment`, 473-481. -/
noncomputable def Seg.product (s : Seg) : ℝ :=
  (2 * s.a.1 * s.a.2 + 2 * s.b.1 * s.b.2 + s.a.1 * s.b.2 + s.b.1 * s.a.2) * s.area / 6

/-- Attributes of an `OpenProf`: `nodes`, the array `t`, `segments`, open_prof.py 26-57. -/
structure OpenProf where
  nodes : List Pt
  t : List ℝ
  segs : List Seg

/-- The argument `t` of the constructor: a `float`, an `int`, or a sequence of numbers. -/
inductive ThickArg
  | float (t : ℝ)
  | int (t : ℤ)
  | seq (ts : List ℝ)

/-- `for i in range(1,n): add_segment(nodes[i-1], nodes[i], t[i-1])`, 50-51, 69-72; too few thicknesses raise. -/
def mkSegs : List Pt → List ℝ → Except PyErr (List Seg)
  | p :: q :: ps, t :: ts => do
    let r ← mkSegs (q :: ps) ts
    pure (⟨p, q, t⟩ :: r)
  | _ :: _ :: _, [] => .error .indexError
  | _, _ => .ok []

/-- `OpenProf(nodes, t)`, 26-51.  An `int` becomes an array without dimensions, which cannot be indexed. -/
def newProf (nodes : List Pt) (t : ThickArg) : Except PyErr OpenProf :=
  match t with
  | .float t => do
    let ts := List.replicate (nodes.length - 1) t
    let segs ← mkSegs nodes ts
    pure ⟨nodes, ts, segs⟩
  | .int t => if nodes.length ≤ 1 then .ok ⟨nodes, [(t : ℝ)], []⟩ else .error .indexError
  | .seq ts => do
    let segs ← mkSegs nodes ts
    pure ⟨nodes, ts, segs⟩

namespace OpenProf

/-- `area`, 130-136. -/
noncomputable def area (p : OpenProf) : ℝ := (p.segs.map Seg.area).sum

/-- `first_moments`, 138-145: `Sy0`. -/
noncomputable def Sy0 (p : OpenProf) : ℝ := (p.segs.map Seg.firstY).sum

/-- `first_moments`, 138-145: `Sz0`. -/
noncomputable def Sz0 (p : OpenProf) : ℝ := (p.segs.map Seg.firstZ).sum

/-- `centroid`, 147-154: coordinates. -/
noncomputable def centroid (p : OpenProf) : Pt := (p.Sz0 / p.area, p.Sy0 / p.area)

/-- `Iy0`, 173-178 (also `second_moments`, 156-163). -/
noncomputable def Iy0 (p : OpenProf) : ℝ := (p.segs.map Seg.secondY).sum

/-- `Iz0`, 180-185. -/
noncomputable def Iz0 (p : OpenProf) : ℝ := (p.segs.map Seg.secondZ).sum

/-- `Iy`, 187-191 (also `second_moments_gc`, 165-171). -/
noncomputable def Iy (p : OpenProf) : ℝ := p.Iy0 - p.area * p.centroid.2 ^ 2

/-- `Iz`, 193-197. -/
noncomputable def Iz (p : OpenProf) : ℝ := p.Iz0 - p.area * p.centroid.1 ^ 2

/-- `product_moment`, 199-205. -/
noncomputable def Iyz0 (p : OpenProf) : ℝ := (p.segs.map Seg.product).sum

/-- `product_moment_gc`, 207-212. -/
noncomputable def Iyz (p : OpenProf) : ℝ := p.Iyz0 - p.Sy0 * p.Sz0 / p.area

/-- `sectorial_coordinates`, 214-224, from the value `w` at the first of the given nodes. -/
def sect (w : ℝ) : List Pt → List ℝ
  | [] => []
  | [_] => [w]
  | p :: q :: ps => w :: sect (w + p.1 * q.2 - q.1 * p.2) (q :: ps)

/-- A loop `for i in range(n-1): S += dA[i]*F(node i, node i+1, w[i], w[i+1])`, 247-248, 272-275. -/
def loop (F : Pt → Pt → ℝ → ℝ → ℝ) : List ℝ → List Pt → List ℝ → ℝ
  | a :: as, p :: q :: ps, w :: v :: ws => a * F p q w v + loop F as (q :: ps) (v :: ws)
  | _, _, _ => 0

/-- The loop with the areas of the segments and the sectorial coordinates. -/
noncomputable def sumW (p : OpenProf) (F : Pt → Pt → ℝ → ℝ → ℝ) : ℝ :=
  loop F (p.segs.map Seg.area) p.nodes (sect 0 p.nodes)

/-- `mean_sectorial_moment`, 241-250. -/
noncomputable def Iw (p : OpenProf) : ℝ := p.sumW fun _ _ w v => 1 / 2 * (v + w)

/-- `Iyw` of `sectorial_constants`, 258-281. -/
noncomputable def Iyw (p : OpenProf) : ℝ :=
  (p.sumW fun a b w v => (2 * a.1 * w + 2 * b.1 * v + a.1 * v + b.1 * w) / 6) - p.Sz0 * p.Iw / p.area

/-- `Izw` of `sectorial_constants`, 258-281. -/
noncomputable def Izw (p : OpenProf) : ℝ :=
  (p.sumW fun a b w v => (2 * a.2 * w + 2 * b.2 * v + a.2 * v + b.2 * w) / 6) - p.Sy0 * p.Iw / p.area

/-- `Iww` of `sectorial_constants`, 258-281. -/
noncomputable def Iww (p : OpenProf) : ℝ :=
  (p.sumW fun _ _ w v => (v ^ 2 + w ^ 2 + v * w) / 3) - p.Iw ^ 2 / p.area

/-- `shear_center`, 283-298. -/
noncomputable def shearCenter (p : OpenProf) : Pt :=
  let d := p.Iy * p.Iz - p.Iyz ^ 2
  if d > 1e-8 then ((p.Izw * p.Iz - p.Iyw * p.Iyz) / d, (-p.Iyw * p.Iy + p.Izw * p.Iyz) / d) else (0, 0)

/-- `warping_constant`, 300-305. -/
noncomputable def warping (p : OpenProf) : ℝ := p.Iww + p.shearCenter.2 * p.Iyw - p.shearCenter.1 * p.Izw

/-- `torsion_constant`, 307-310: `dA*np.array(self.t)**2` needs arrays of equal length or one of length one. -/
noncomputable def torsion (p : OpenProf) : Except PyErr ℝ :=
  let dA := p.segs.map Seg.area
  if dA.length = p.t.length then .ok ((List.zipWith (fun a t => a * t ^ 2 / 3) dA p.t).sum)
  else match dA, p.t with
    | _, [t] => .ok ((dA.map fun a => a * t ^ 2 / 3).sum)
    | [a], _ => .ok ((p.t.map fun t => a * t ^ 2 / 3).sum)
    | _, _ => .error .valueError

/-- `split_segment(n, s)`, 316-340 (an index out of range raises; negative indices are not modelled).
    The array `t` is left as it is. -/
def split (p : OpenProf) (n : Nat) (s : ℝ) : Except PyErr OpenProf :=
  match p.segs[n]? with
  | none => .error .indexError
  | some g =>
    let q : Pt := (g.a.1 + s * (g.b.1 - g.a.1), g.a.2 + s * (g.b.2 - g.a.2))
    .ok { p with
      nodes := p.nodes.insertIdx (n + 1) q
      segs := p.segs.take n ++ ⟨g.a, q, g.t⟩ :: ⟨q, g.b, g.t⟩ :: p.segs.drop (n + 1) }

end OpenProf

end Metku.Cold
