import Verif.Model.TrussJoint

/-!
Model of `minimize_eccentricity` in `metku/raami/raami_truss_opt.py` (24-163): the optimization problem whose variables are the local coordinates of the brace intersections of a tubular truss.

Simplifications: floats are real numbers. A vector of values of the variables is given as a function of joint number and coordinate; the list of variables has no repetitions because every joint has its own number.
The equality of nodes (object identity) is equality of node numbers.
-/
noncomputable section

namespace Metku.Ecc

open Metku Metku.Truss

/-- `target['property']` of a variable. -/
inductive Coord
  | xloc | yloc
  deriving DecidableEq

/-- A joint of the truss: number, node number, the data of a K gap joint, whether it is `truss.ridge_joint`, whether it is a `TubularKGapJoint`, `h0`, `b0`, `beta()`, `sum(t)`. -/
structure EJoint where
  key : ℕ
  node : ℕ
  point : KPoint
  isRidge : Bool
  isK : Bool
  h0 : ℝ
  b0 : ℝ
  beta : ℝ
  tsum : ℝ

/-- A design variable: joint, property, bounds and start value. -/
structure EVar where
  joint : EJoint
  prop : Coord
  lb : ℝ
  ub : ℝ
  value : ℝ

/-- `gub`, raami_truss_opt.py 38. -/
def gub (j : EJoint) : ℝ := 3 / 2 * j.b0 * (1 - j.beta)

/-- `glb`, raami_truss_opt.py 40. -/
def glb (minGap : ℝ) (j : EJoint) : ℝ := max (max (1 / 2 * j.b0 * (1 - j.beta)) minGap) j.tsum

/-- `gap_ub`, raami_truss_opt.py 42-47, for the gap of the joint. -/
def gapUb (j : EJoint) (gap : ℝ) : ℝ := gap - gub j

/-- `gap_lb`, raami_truss_opt.py 49-54. -/
def gapLb (minGap : ℝ) (j : EJoint) (gap : ℝ) : ℝ := -gap + glb minGap j

/-- The variable `y_key`, raami_truss_opt.py 93-94, 104-105. -/
def yVar (j : EJoint) : EVar := ⟨j, .yloc, -(11 / 20) * j.h0, 1 / 4 * j.h0, 1 / 10 * j.h0⟩

/-- The variable `x_key`, raami_truss_opt.py 82-83, 106-107. -/
def xVar (j : EJoint) : EVar := ⟨j, .xloc, -200, 200, 0⟩

/-- The variables of one joint, raami_truss_opt.py 88-120. -/
def jointVars (span : ℝ) (j : EJoint) : List EVar :=
  if j.point.node.1 ≤ 1 / 2 * span then
    if j.isRidge then [yVar j] else if j.isK then [yVar j, xVar j] else []
  else []

/-- `P.vars`. -/
def vars (span : ℝ) (js : List EJoint) : List EVar := js.flatMap (jointVars span)

/-- `minimize_eccentricity`: the list of variables, or the exception: a ridge joint that is not a K gap joint has three braces, and its `beta()` is `None`, raami_plane_truss.py 2611-2613, 3546. -/
def build (span : ℝ) (js : List EJoint) : Except PyErr (List EVar) :=
  if ∃ j ∈ js, j.point.node.1 ≤ 1 / 2 * span ∧ j.isRidge = true ∧ j.isK = false then .error .typeError else .ok (vars span js)

/-- The joints that have gap constraints. -/
def gapJoints (span : ℝ) (js : List EJoint) : List EJoint := js.filter fun j => decide (j.point.node.1 ≤ 1 / 2 * span) && (j.isRidge || j.isK)

/-- The value of a variable. -/
abbrev Vec := ℕ → Coord → ℝ

/-- `obj_value`, raami_truss_opt.py 59-71. -/
def objValue (vs : List EVar) (x : Vec) : ℝ := 1 / 100 * (((vs.filter fun v => v.prop = .yloc).map fun v => x v.joint.key v.prop ^ 2).sum)

/-- `obj_grad`, raami_truss_opt.py 73-78: the component of a variable. -/
def objGrad (x : Vec) (v : EVar) : ℝ := if v.prop = .yloc then 2 / 100 * x v.joint.key v.prop else 0

/-- The component along x of the direction in which a variable moves a brace intersection: `dir_vector[0]` or `perpendicular[0]` of `chords[0]`. -/
def dirX (v : EVar) : ℝ := match v.prop with
  | .xloc => v.joint.point.u.1
  | .yloc => v.joint.point.p.1

/-- The coefficient of a variable in the constraint of a vertical brace with the nodes `n1` and `n2`, raami_truss_opt.py 135-151. -/
def coeff (n1 n2 : ℕ) (v : EVar) : ℝ := if v.joint.node = n1 then dirX v else if v.joint.node = n2 then -dirX v else 0

/-- The linear form `a·x` of the constraint of a vertical brace. -/
def braceForm (vs : List EVar) (n1 n2 : ℕ) (x : Vec) : ℝ := (vs.map fun v => coeff n1 n2 v * x v.joint.key v.prop).sum

/-- `any(a)`: only then is the constraint added, raami_truss_opt.py 153-154. -/
def hasConstraint (vs : List EVar) (n1 n2 : ℕ) : Prop := ∃ v ∈ vs, coeff n1 n2 v ≠ 0

/-- Substitution of the values: first the y, then the x variable of a joint, with `sym_joint` `s`. -/
def place (x : Vec) (j : EJoint) (s : Option KPoint) : KPoint × Option KPoint :=
  let r := setY (x j.key .yloc) j.point s
  if j.isRidge then r else setX (x j.key .xloc) r.1 r.2

end Metku.Ecc

end
