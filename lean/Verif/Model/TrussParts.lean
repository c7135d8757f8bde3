import Verif.Model.PlaneTruss
import Mathlib.Logic.Function.Basic

/-!
Loads and joints of roof trusses: `generate_uniform_load`, `generate_piecewise_uniform_load` and `generate_joints` of `SlopedTruss` (metku/raami/raami_plane_truss.py 1082-1230).

Simplifications: floats are real numbers. A load keeps what it does to its member (values and the point of the step); load id, type and name, and the registers of the frame they end up in, are those of `Model/RaamiLoads`.
All loads of this file act in the global y-direction with the factor 1. A member is named by its chord, or as a brace, and its index in the list of those members. A joint object is named by the node at which it was
created: each pass of the loop creates at most one. `brace.top_joint = new_joint` of the first loop (1163-1166) is left out: the second loop runs over the same nodes and braces and overwrites it. The geometry of
joints is in `Model/TrussJoint`.
-/
namespace Metku.Truss

open Metku.Steel Metku.Rhs

noncomputable section

/-! ### Loads -/

/-- The argument `chord` of `generate_uniform_load`. -/
inductive ChordName
  | top | bottom | other

/-- A member of a truss. -/
inductive Mem
  | tc (i : ℕ)
  | bc (i : ℕ)
  | br (i : ℕ)
  deriving DecidableEq

/-- What a load does to its member: `LineLoad` with equal values, or `PWLineLoad` with two values and the local coordinate of the step, frame_loads.py 255-388. -/
inductive Act
  | line (q : ℝ)
  | step (q0 q1 xdiv : ℝ)

/-- A load on a member. -/
structure MLoad where
  mem : Mem
  act : Act

/-- `generate_uniform_load(q, chord)`, raami_plane_truss.py 1082-1094. -/
def Gen.uniformLoad (g : Gen) (q : ℝ) : ChordName → List MLoad
  | .top => (List.range g.topChord.length).map fun i => ⟨.tc i, .line q⟩
  | .bottom => (List.range g.botChord.length).map fun i => ⟨.bc i, .line q⟩
  | .other => []

/-- `q[i]`. -/
def val (q : List ℝ) (i : ℕ) : Except PyErr ℝ := match q[i]? with
  | some v => .ok v
  | none => .error .indexError

/-- `q[-1]`. -/
def valLast (q : List ℝ) : Except PyErr ℝ := match q.getLast? with
  | some v => .ok v
  | none => .error .indexError

/-- The inner loop over zones for a member from `a` to `b` (x-coordinates of its nodes), raami_plane_truss.py 1116-1138. -/
def zoneActs (q : List ℝ) (a b : ℝ) : ℕ → List (ℝ × ℝ) → Except PyErr (List Act)
  | _, [] => .ok []
  | i, (x1, x2) :: zs => do
    let h ← if a < x1 ∧ x1 < b then do
        let q0 ← val q i
        let q1 ← val q (i + 1)
        let d ← pyDiv (x1 - a) (b - a)
        .ok [Act.step q0 q1 d]
      else if x1 ≤ a ∧ x2 < b then do
        let q1 ← val q (i + 1)
        let q2 ← val q (i + 2)
        let d ← pyDiv (x2 - a) (b - a)
        .ok [Act.step q1 q2 d]
      else if x1 ≤ a ∧ b ≤ x2 then do
        let q1 ← val q (i + 1)
        .ok [Act.line q1]
      else .ok []
    let t ← zoneActs q a b (i + 1) zs
    .ok (h ++ t)

/-- The loads of one member of the top chord, raami_plane_truss.py 1103-1138. -/
def memberActs (q xz : List ℝ) (a b : ℝ) : Except PyErr (List Act) := do
  let x0 ← val xz 0
  if b ≤ x0 then do
    let v ← val q 0
    .ok [.line v]
  else do
    let xl ← valLast xz
    if xl < a then do
      let v ← valLast q
      .ok [.line v]
    else zoneActs q a b 0 (xz.zip xz.tail)

/-- The loop over the members of the top chord, which join consecutive nodes. -/
def chordActs (q xz : List ℝ) : ℕ → List (Pt × Pt) → Except PyErr (List MLoad)
  | _, [] => .ok []
  | i, (A, B) :: ms => do
    let h ← memberActs q xz A.1 B.1
    let t ← chordActs q xz (i + 1) ms
    .ok (h.map (fun a => ⟨.tc i, a⟩) ++ t)

/-- `generate_piecewise_uniform_load(q, xzones)`, raami_plane_truss.py 1096-1138. -/
def Gen.piecewiseLoad (g : Gen) (q xz : List ℝ) : Except PyErr (List MLoad) := chordActs q xz 0 (g.top.zip g.top.tail)

/-! ### Joints -/

/-- The types of joints. -/
inductive JKind
  | Y | K | KT
  deriving DecidableEq

/-- `TubularJoint(node, chords, braces)`, raami_plane_truss.py 2506-2560. -/
structure Joint where
  node : Ref
  kind : JKind
  chords : List Mem
  braces : List ℕ

/-- The members among `l` that have the node `r`: `node in mem.nodes`. -/
def incident (l : List (Ref × Ref)) (r : Ref) : List ℕ :=
  (List.range l.length).filter fun i => match l[i]? with
    | some m => decide (m.1 = r ∨ m.2 = r)
    | none => false

/-- The chord members at a node, raami_plane_truss.py 1149-1160: each loop ends when there are exactly two. -/
def Gen.chordsAt (g : Gen) (r : Ref) : List Mem :=
  let t := (incident g.topChord r).take 2
  let b := incident g.botChord r
  t.map .tc ++ (if t.length = 2 then b else b.take (2 - t.length)).map .bc

/-- What `generate_joints` changes: the joints, `top_joint` and `bottom_joint` of braces, `joints` of chord members, `ridge_joint`, and the variable `newJoint` (unbound at first). -/
structure JState where
  joints : List Joint
  top : ℕ → Option Ref
  bottom : ℕ → Option Ref
  chord : Mem → List Ref
  ridge : Option Ref
  new : Option (Option Ref)

/-- `node in self.top_nodes`. -/
def Ref.isTop : Ref → Bool
  | .top _ => true
  | .bot _ => false

/-- The x-coordinate of a node. -/
def Gen.xOf (g : Gen) : Ref → Option ℝ
  | .top i => (g.top[i]?).map Prod.fst
  | .bot i => (g.bot[i]?).map Prod.fst

/-- The joint created at a node with at least one brace: `chords[0]` is looked at by the constructor, 2540. -/
def newJoint (g : Gen) (r : Ref) (k : JKind) (s : JState) : Except PyErr JState :=
  if g.chordsAt r = [] then .error .indexError
  else .ok { s with joints := s.joints ++ [⟨r, k, g.chordsAt r, incident g.braces r⟩], new := some (some r) }

/-- `if node in self.top_nodes and node.x == self.L1: self.ridge_joint = newJoint`, raami_plane_truss.py 1188, 1197. -/
def setRidge (T : Sloped) (g : Gen) (r : Ref) (s : JState) : JState :=
  if r.isTop = true ∧ g.xOf r = some T.L1 then { s with ridge := some r } else s

/-- The choice of the joint by the number of braces, raami_plane_truss.py 1180-1208. -/
def makeJoint (T : Sloped) (g : Gen) (r : Ref) (s : JState) : Except PyErr JState :=
  match (incident g.braces r).length with
  | 0 => .ok { s with new := some none }
  | 1 => newJoint g r .Y s
  | 2 => do
    let s ← newJoint g r .K s
    .ok (setRidge T g r s)
  | 3 => do
    let s ← newJoint g r .KT s
    .ok (setRidge T g r s)
  | _ => .ok s

/-- The loop over `joints.items()`, raami_plane_truss.py 1176-1220. -/
def jointStep (T : Sloped) (g : Gen) (r : Ref) (s : JState) : Except PyErr JState := do
  let s ← makeJoint T g r s
  let n ← match s.new with
    | some n => .ok n
    | none => .error .unboundLocal
  let s := (incident g.braces r).foldl (fun s b => if r.isTop then { s with top := Function.update s.top b n } else { s with bottom := Function.update s.bottom b n }) s
  match n with
  | none => .ok s
  | some j => .ok ((g.chordsAt r).foldl (fun s c => { s with chord := Function.update s.chord c (s.chord c ++ [j]) }) s)

/-- The state after the loop over some nodes. -/
def jointLoop (T : Sloped) (g : Gen) : List Ref → JState → Except PyErr JState
  | [], s => .ok s
  | r :: rs, s => do
    let s ← jointStep T g r s
    jointLoop T g rs s

/-- A truss without joints. -/
def JState.empty : JState := ⟨[], fun _ => none, fun _ => none, fun _ => [], none, none⟩

/-- `self.nodes`: the nodes of the top chord are added first, raami_plane_truss.py 700-704 and alike. -/
def Gen.nodes (g : Gen) : List Ref := refs .top g.top ++ refs .bot g.bot

/-- `generate_joints`, raami_plane_truss.py 1140-1220. -/
def Sloped.joints (T : Sloped) (g : Gen) : Except PyErr JState := jointLoop T g g.nodes JState.empty

end

end Metku.Truss
