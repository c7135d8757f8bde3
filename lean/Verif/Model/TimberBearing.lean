import Verif.Model.TimberApex

/-!
Model of compression across the grain where other members meet a timber member (`metku/structures/timber/timber_member.py` 481-537, 551-566 and 1013-1054) and of the volume of the curved part of a beam (354-386), over the reals.

Simplifications: floats are exact; `parents` of a node is the member itself and the list `others`; heights `H` and `get_H(0)` of other members are the same number; points of sections are given in
global coordinates; nodes are told apart by their index.
-/
namespace Metku.Timber

open Real

noncomputable section

/-- Another member at a node: points and axial forces of its sections, height and width. -/
structure Contact where
  secs : List ((ℝ × ℝ) × ℝ)
  H : ℝ
  B : ℝ

/-- A node of the member: its coordinates and the other members there. -/
structure TNode where
  x : ℝ
  y : ℝ
  others : List Contact

/-- `math.isclose(a, b, rel_tol=t)`. -/
def isClose (t a b : ℝ) : Bool := decide (|a - b| ≤ max (t * max |a| |b|) 0)

/-- The search for the index of a section at the node, timber_member.py 502-508 and 510-517: `None` without sections. -/
def closeIndex (n : TNode) (points : List (ℝ × ℝ)) : Option ℕ :=
  (List.range points.length).foldl (fun k i => match points[i]? with
    | some p => if isClose 10 n.x p.1 && isClose 10 n.y p.2 then some i else k
    | none => k) none

/-- The test for the end of the member, timber_member.py 521: the index is zero or equals the last location. -/
def atEnd (lastLoc : ℝ) : Option ℕ → Bool
  | none => false
  | some k => decide (k = 0) || decide ((k : ℝ) = lastLoc)

/-- `get_sigma`, timber_member.py 499-530, with the points of the sections, the last location and the width of the member. -/
def contactStress (points : List (ℝ × ℝ)) (lastLoc B : ℝ) (n : TNode) (c : Contact) : Except PyErr ℝ :=
  match closeIndex n (c.secs.map Prod.fst) with
  | none => .error .typeError
  | some i => do
    let N ← pyGet (c.secs.map Prod.snd) i
    if 0 ≤ N then .ok 0
    else .ok (N / ((if atEnd lastLoc (closeIndex n points) then c.H + min (min 30 0) c.H + min 30 c.H else c.H + min 30 c.H + min 30 c.H) * min c.B B))

/-- What the check reads: the points of the member's own sections with the last location, depth, width, kind and strength, and its nodes. -/
structure Bearing where
  points : List (ℝ × ℝ)
  lastLoc : ℝ
  H : ℝ
  B : ℝ
  kind : Kind
  fc90d : ℝ
  nodes : List TNode

/-- `sigma_c90d`, timber_member.py 481-537, and the smallest of a list, 1021-1023. -/
def Bearing.nodeStress (b : Bearing) (n : TNode) : Except PyErr ℝ :=
  match n.others with
  | [] => .ok 0
  | os => do
    let ss ← os.mapM (contactStress b.points b.lastLoc b.B n)
    listMin ss

/-- The stress of the largest size and the index of its node, timber_member.py 1016-1026. -/
def worst (ss : List ℝ) : ℝ × Option ℕ :=
  (List.range ss.length).foldl (fun a i => match ss[i]? with
    | some s => if |a.1| < |s| then (s, some i) else a
    | none => a) (0, none)

/-- `update_kc90`, timber_member.py 551-566. -/
def kc90 (k : Kind) (H l1 l : ℝ) : ℝ :=
  if H * 2 ≤ l1 then
    (if k = .solid then 2.5 else if k = .glt ∧ l ≤ 400 then 1.75 else 1)
  else 1

/-- The distance of two nodes. -/
def dist2 (a b : TNode) : ℝ := √((b.x - a.x) ^ 2 + (b.y - a.y) ^ 2)

/-- One step of the loop over the nodes, timber_member.py 1028-1044, from the smallest distance so far and the attribute `k_c90`. -/
def Bearing.step (b : Bearing) (nd : TNode) (i : ℕ) (a : Option ℝ × Option ℝ) (p : ℕ × TNode) : Option ℝ × Option ℝ :=
  if p.1 = i then a
  else match p.2.others with
    | [] => a
    | c :: _ => (some (a.1.elim (dist2 p.2 nd) fun l => if dist2 p.2 nd < l then dist2 p.2 nd else l), some (kc90 b.kind b.H (a.1.elim (dist2 p.2 nd) fun l => if dist2 p.2 nd < l then dist2 p.2 nd else l) c.H))

/-- The attribute `k_c90` after the loop, timber_member.py 1027-1044, from its value before. -/
def Bearing.factor (b : Bearing) (kc : Option ℝ) (w : ℝ × Option ℕ) : Option ℝ :=
  match w.2 with
  | none => kc
  | some i => match b.nodes[i]? with
    | none => kc
    | some nd => (((List.range b.nodes.length).zip b.nodes).foldl (b.step nd i) (none, kc)).2

/-- `check_perpendicular_compression`, timber_member.py 1013-1054, with the attribute `k_c90` of the member before the call. -/
def Bearing.check (b : Bearing) (kc : Option ℝ) : Except PyErr ℝ := do
  let ss ← b.nodes.mapM b.nodeStress
  .ok ((b.factor kc (worst ss)).elim 0 fun k => |(worst ss).1 / (k * b.fc90d)|)

/-- `V` of a `KaarevaPalkki`, timber_member.py 383-384. -/
def ApexSec.arcVolume (a : ApexSec) (B L beta : ℝ) : ℝ := B * a.hap * (a.rIn + a.hap * 0.5) * ((a.alfa L + beta) * 0.5)

end

end Metku.Timber
