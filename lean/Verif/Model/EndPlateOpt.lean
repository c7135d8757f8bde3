import Mathlib.Analysis.Real.Sqrt
import Mathlib.Algebra.Order.Floor.Ring
import Mathlib.Algebra.Order.Archimedean.Real.Basic
import Verif.Model.PyErr

/-!
Model of `EndPlateOpt`, the optimization of end-plate joints (optimization/problems/end_plate.py 25-510), together
with the attributes of `EndPlateJoint` that its variables set (structures/steel/end_plate_joint.py 42-290).

Simplifications: numbers are exact reals; all rows have the bolt of the first row (the constructor of the joint gives every
row the same bolt object); the dictionary `variables` has both keys; row types and positions are the
module constants, so `is not` is inequality; no variable is locked or scaled. The resistances and stiffnesses of
the joint are arguments (they are the subject of Model/EndPlate).
-/
namespace Metku.EPOpt

open Metku

/-- Kind of a bolt row: `type is SHEAR_ROW` and `loc_end_plate is ROW_OUTSIDE_BEAM_TENSION_FLANGE`, en1993_1_8.py 362-367. -/
structure RowInfo where
  shear : Bool
  outside : Bool

/-- What no variable of the problem changes, end_plate.py 386-397, end_plate_joint.py 64-106: beam, column, bolt, welds, bottom extension, kinds of the rows. -/
structure Data where
  hb : ℝ
  bb : ℝ
  twb : ℝ
  tfb : ℝ
  bc : ℝ
  twc : ℝ
  rc : ℝ
  d0 : ℝ
  dw : ℝ
  weldF : ℝ
  weldW : ℝ
  ebottom : ℝ
  rows : List RowInfo

/-- What the variables change, end_plate_joint.py 80-86 and en1993_1_8.py 365: thickness, width and height of the plate, edge distance and distance from the axis of the bolts, top extension, heights of the rows. -/
structure Joint where
  tp : ℝ
  bp : ℝ
  ebolts : ℝ
  xbolts : ℝ
  etop : ℝ
  plateH : ℝ
  z : ℕ → ℝ

/-- Constructor, end_plate_joint.py 80-86. -/
noncomputable def mkJoint (D : Data) (tp bp etop ebolts : ℝ) (z : ℕ → ℝ) : Joint :=
  { tp := tp, bp := bp, ebolts := ebolts, xbolts := 1 / 2 * bp - ebolts, etop := etop, plateH := etop + D.ebottom + D.hb, z := z }

/-- Horizontal distance between the bolts of a row, `p`, end_plate_joint.py 202-205. -/
noncomputable def Joint.p (j : Joint) : ℝ := j.bp - 2 * j.ebolts

/-- Distance of a row from the top edge of the plate, `ex`, en1993_1_8.py 509-514. -/
noncomputable def Joint.ex (D : Data) (j : Joint) (i : ℕ) : ℝ := 1 / 2 * D.hb + j.etop - j.z i

/-- The target of a variable, end_plate.py 379-467. -/
inductive Target
  | tp | x | etop | bp
  | z (i : ℕ)
  deriving DecidableEq

/-- `obj.__setattr__(prop, value)`, variables.py 198: the setters of end_plate_joint.py 222-226 (`etop`), 233-237 (`xbolts`), 265-268 (`bp`), the plain attributes `t` and `z`. -/
noncomputable def setT (D : Data) (j : Joint) (t : Target) (v : ℝ) : Joint :=
  match t with
  | .tp => { j with tp := v }
  | .x => { j with xbolts := v, ebolts := 1 / 2 * j.bp - v }
  | .etop => { j with etop := v, plateH := v + D.ebottom + D.hb }
  | .bp => { j with bp := v }
  | .z i => { j with z := Function.update j.z i v }

/-- Names of the variables: `"tp"`, `"x"`, `"eTop"`, `"bp"`, `"z<n>"`. -/
inductive Name
  | tp | x | eTop | bp
  | z (n : ℕ)
  deriving DecidableEq

/-- `Variable`, variables.py 76-79. -/
structure Var where
  name : Name
  lb : ℝ
  ub : ℝ
  target : Target
  value : ℝ

/-- The dictionary `variables`, end_plate.py 359. -/
structure Opts where
  bp : Bool
  etop : Bool

/-- `THICKNESSES`, plates.py 23. -/
def thicknesses : List ℝ := [4, 5, 6, 8, 10, 12, 14, 15, 16, 18, 20, 20, 22, 25, 30]

/-- `x_min`, end_plate.py 398-400. -/
noncomputable def xMin (D : Data) : ℝ :=
  max (max (1 / 2 * D.twb + √2 * D.weldW + 1 / 2 * D.dw) (1 / 2 * D.twc + D.rc + 1 / 2 * D.dw)) (12 / 10 * D.d0)

/-- `x_max`, end_plate.py 402-403. -/
noncomputable def xMax (D : Data) : ℝ := min (1 / 2 * D.bc - 12 / 10 * D.d0) (1 / 2 * D.bc - 1 / 2 * D.dw)

/-- Upper limit of the top extension, end_plate.py 415-430. -/
noncomputable def etopUb (D : Data) (j : Joint) (o : Opts) : ℝ := if o.etop then 5 * D.d0 else j.etop

/-- Lower bound of the top row, end_plate.py 446. -/
noncomputable def z1Lb (D : Data) : ℝ := (⌈1 / 2 * D.hb + √2 * D.weldF + 1 / 2 * D.dw⌉ : ℤ)

/-- Upper bound of the rows below the flange, end_plate.py 453. -/
noncomputable def zUb (D : Data) : ℝ := (⌊1 / 2 * D.hb - D.tfb - √2 * D.weldF - 1 / 2 * D.dw⌋ : ℤ)

/-- Variables of the rows between the flanges, end_plate.py 454-460; `i` is the index of the first row of the list, `ub` the running bound. -/
noncomputable def innerVars (D : Data) (j : Joint) : List RowInfo → ℕ → ℝ → List Var
  | [], _, _ => []
  | r :: rs, i, ub =>
    if r.shear || r.outside then innerVars D j rs (i + 1) ub
    else { name := .z (i + 1), lb := -zUb D, ub := ub, target := .z i, value := j.z i } ::
      innerVars D j rs (i + 1) (ub - 22 / 10 * D.d0)

/-- Variable of the plate thickness, end_plate.py 379-383. -/
noncomputable def tpVar (j : Joint) : Var := { name := .tp, lb := 4, ub := 30, target := .tp, value := j.tp }

/-- Variable of the distance of the bolts from the axis, end_plate.py 405-409. -/
noncomputable def xVar (D : Data) (j : Joint) : Var :=
  { name := .x, lb := xMin D, ub := xMax D, target := .x, value := 1 / 2 * j.bp - j.ebolts }

/-- Variable of the top extension, end_plate.py 419-422. -/
noncomputable def etopVar (D : Data) (j : Joint) : Var :=
  { name := .eTop, lb := (⌈1 / 2 * D.dw + √2 * D.weldF + 12 / 10 * D.d0⌉ : ℤ), ub := 5 * D.d0, target := .etop, value := j.etop }

/-- Variable of the plate width, end_plate.py 434-438: the start value is the width of the beam. -/
noncomputable def bpVar (D : Data) : Var := { name := .bp, lb := D.bb, ub := D.bc + 100, target := .bp, value := D.bb }

/-- Variable of the first row, end_plate.py 446-451. -/
noncomputable def z1Var (D : Data) (j : Joint) (o : Opts) : Var :=
  { name := .z 1, lb := z1Lb D, ub := 1 / 2 * D.hb + etopUb D j o, target := .z 0, value := j.z 0 }

/-- `create_variables`, end_plate.py 359-460. The argument `plate_thicknesses` of the problem (39, 51) is not read: the bounds of the thickness are those of
    the module list (380-381). -/
noncomputable def createVars (D : Data) (j : Joint) (o : Opts) (_plateThicknesses : List ℝ) : Except PyErr (List Var) :=
  match D.rows with
  | [] => .error .indexError
  | _ :: _ => .ok ([tpVar j, xVar D j] ++ (if o.etop then [etopVar D j] else []) ++ (if o.bp then [bpVar D] else []) ++
      [z1Var D j o] ++ innerVars D j D.rows 0 (zUb D))

/-- `LinearConstraint` of type '>', constraints.py 104-123. -/
structure Lin where
  a : List ℝ
  b : ℝ

/-- `a.dot(X) - b`, constraints.py 145. -/
noncomputable def Lin.val (c : Lin) (X : List ℝ) : ℝ := (List.zipWith (· * ·) c.a X).sum - c.b

/-- `vertical_row_distance_constraints`, end_plate.py 101-132. -/
noncomputable def rowCon (D : Data) (vars : List Var) (i : ℕ) : Lin :=
  { a := vars.map (fun v => if v.name = .z i then 1 else if v.name = .z (i + 1) then -1 else 0), b := 22 / 10 * D.d0 }

/-- `extension_edge_distance`, end_plate.py 134-152. -/
noncomputable def extCon (D : Data) (vars : List Var) : Lin :=
  { a := vars.map (fun v => if v.name = .eTop then 1 else if v.name = .z 1 then -1 else 0), b := 12 / 10 * D.d0 - 1 / 2 * D.hb }

/-- `plate_edge_distance`, end_plate.py 154-176. -/
noncomputable def edgeCon (D : Data) (vars : List Var) : Lin :=
  { a := vars.map (fun v => if v.name = .bp then 1 / 2 else if v.name = .x then -1 else 0), b := max (12 / 10 * D.d0) (1 / 2 * D.dw) }

/-- Is row `i` there and not a shear row? end_plate.py 296. -/
def isTension (D : Data) (i : ℕ) : Bool :=
  match D.rows[i]? with
  | some r => !r.shear
  | none => false

/-- Geometry constraints, end_plate.py 294-317. -/
noncomputable def geomCons (D : Data) (o : Opts) (vars : List Var) : List Lin :=
  ((List.range' 1 (D.rows.length - 1)).filter (isTension D)).map (rowCon D vars) ++
    (if o.etop then [extCon D vars] else []) ++ (if o.bp then [edgeCon D vars] else [])

/-- `max(var.lb, min(x, var.ub))`, structopt.py 728. -/
noncomputable def clip (v : Var) (x : ℝ) : ℝ := max v.lb (min x v.ub)

/-- `problem.substitute_variables(xvals)`, structopt.py 724-741: effect on the joint. -/
noncomputable def substJ (D : Data) : List Var → List ℝ → Joint → Joint
  | v :: vs, x :: xs, j => substJ D vs xs (setT D j v.target (clip v x))
  | _, _, j => j

/-- Values of the variables after the substitution. -/
noncomputable def vals (vars : List Var) (xs : List ℝ) : List ℝ := List.zipWith clip vars xs

/-- `problem.feasible(x)` restricted to the geometry constraints, structopt.py 206-217, with `con_tol = 1e-4`. -/
def geomFeasible (D : Data) (o : Opts) (vars : List Var) (xs : List ℝ) : Prop :=
  ∀ c ∈ geomCons D o vars, -(1 / 10000) ≤ c.val (vals vars xs)

/-- The joint seen by the objective: `ObjectiveFunction.__call__` substitutes (objective.py 67), then the objective function substitutes again (end_plate.py 485, 489, 493). -/
noncomputable def evalJoint (D : Data) (vars : List Var) (xs : List ℝ) (j : Joint) : Joint :=
  substJ D vars xs (substJ D vars xs j)

/-- The starting point `[var.value for var in problem.vars]`, end_plate.py 698. -/
def start (vars : List Var) : List ℝ := vars.map (·.value)

/-- Constraint flags, end_plate.py 267-275. -/
structure Flags where
  bending : Bool
  shear : Bool
  target : Bool
  rigid : Bool
  pinned : Bool
  initial : Bool

/-- Actions and computed properties of the joint: moment [kNm], shear force [kN], resistances [Nmm, N], rotational and initial stiffness [Nmm/rad]. -/
structure Resp where
  M : ℝ
  V : ℝ
  MRd : ℝ
  VRd : ℝ
  Sj : ℝ
  Sini : ℝ

/-- A constraint value with its type (`gt` for '>'). -/
structure ConVal where
  gt : Bool
  g : ℝ

/-- `Mcon`, end_plate.py 182-186. -/
noncomputable def mcon (r : Resp) : Except PyErr ConVal :=
  if r.MRd = 0 then .error .zeroDivision else .ok { gt := false, g := r.M / (r.MRd / 1000000) - 1 }

/-- `Vcon`, end_plate.py 197-200. -/
noncomputable def vcon (r : Resp) : ConVal := { gt := false, g := r.V - r.VRd / 1000 }

/-- Stiffness read by the target constraint, end_plate.py 224-227. -/
noncomputable def Resp.stiff (r : Resp) (initial : Bool) : ℝ := if initial then r.Sini else r.Sj

/-- `Scon_ub` and `Scon_lb`, end_plate.py 220-237; `dev` is the deviation in percent. -/
noncomputable def scons (r : Resp) (initial : Bool) (target dev : ℝ) : List ConVal :=
  [{ gt := false, g := 1 / 100 * (r.stiff initial / 1000000 - (1 + dev / 100) * target) },
   { gt := true, g := 1 / 100 * (r.stiff initial / 1000000 - (1 - dev / 100) * target) }]

/-- `Scon_rigid`, end_plate.py 254-259. -/
noncomputable def rcon (r : Resp) (Srigid : ℝ) : ConVal := { gt := true, g := r.Sini / 1000000 - Srigid }

/-- The other constraints, end_plate.py 320-356, in order; without target stiffness the flag of it is cleared (73-74). -/
noncomputable def forceCons (f : Flags) (r : Resp) (target : Option ℝ) (dev Srigid : ℝ) : Except PyErr (List ConVal) := do
  let m ← if f.bending then (mcon r).map (fun c => [c]) else pure []
  let v := if f.shear then [vcon r] else []
  let s := match f.target, target with
    | true, some t => scons r f.initial t dev
    | _, _ => []
  let k := if f.rigid then [rcon r Srigid] else []
  pure (m ++ v ++ s ++ k)

/-- Feasibility test of one constraint value, structopt.py 208-217. -/
def ConVal.ok (c : ConVal) : Prop := if c.gt then -(1 / 10000) ≤ c.g else c.g ≤ 1 / 10000

end Metku.EPOpt
