import Mathlib.Algebra.Order.Group.Abs
import Verif.Model.OptProblem

/-!
Specification vocabulary for the optimisation properties.  Only the data types of the model are used, none of its functions
that are under test.
-/
namespace Metku.Opt

variable {K : Type}

/-- Number of unlocked variables before position `i` of the variable list: the position at which the entry for variable `i` is
    found in a design vector. -/
def freeBefore (vs : List (Var K)) (i : Nat) : Nat := ((vs.take i).filter (! ·.locked)).length

/-- `y` is `x` clipped to `[lb, ub]`. -/
def ClippedTo [LinearOrder K] (lb ub x y : K) : Prop :=
  lb ≤ y ∧ y ≤ ub ∧ (lb ≤ x → x ≤ ub → y = x) ∧ (x < lb → y = lb) ∧ (ub < x → y = ub)

/-- A constraint value respects the constraint type within tolerance `tol`. -/
def Respects [AddGroup K] [LinearOrder K] (tol : K) : CType → K → Prop
  | .lt, g => g ≤ tol
  | .gt, g => -tol ≤ g
  | .eq, g => |g| ≤ tol

/-- The attribute `(o, a)` is among those a substitution into `v` may assign. -/
def Touches (v : Var K) (o : Nat) (a : String) : Prop :=
  ∃ t, v.target = some t ∧ o ∈ t.objects ∧
    match t.prop, v.kind with
    | .many ps, _ => a ∈ ps
    | .one p, .crossSection => a = "cross_section." ++ p
    | .one p, .binary _ => a = p ∨ a = "active"
    | .one p, _ => a = p

/-- Plain kinds: one property, assigned directly. -/
def VKind.plain : VKind K → Bool
  | .cont | .integer | .boolean | .discrete _ => true
  | _ => false

/-- Every analysis that is flagged as done was made for the present structure. -/
def Fresh (p : Prob K) : Prop :=
  ∀ id, p.feaDone.lookup id = some true → p.results id = some p.struct

/-- The design vector with the values of the locked variables filled in: entry `i` is the value of variable `i` if it is locked,
    otherwise the entry of `x` belonging to it. -/
def FullVector (p : Prob K) (x : List K) (full : List (Option K)) : Prop :=
  full.length = p.vars.length ∧
  ∀ (i : Nat) (v : Var K), p.vars[i]? = some v →
    (v.locked = true → full[i]? = some v.value) ∧
    (v.locked = false → full[i]? = some (x[freeBefore p.vars i]?))

/-- No attribute is a target of two variables. -/
def DisjointTargets (p : Prob K) : Prop :=
  ∀ (i j : Nat) (v w : Var K) (o : Nat) (a : String), p.vars[i]? = some v → p.vars[j]? = some w → i ≠ j → Touches v o a → ¬ Touches w o a

/-- The structure carries the values of the (plain, single-property) variables. -/
def Synced [Mul K] (p : Prob K) : Prop :=
  ∀ (v : Var K), v ∈ p.vars → v.kind.plain = true → ∀ (a : String) (objs : List Nat),
    v.target = some ⟨.one a, objs⟩ → ∀ y, v.value = some y → ∀ o ∈ objs, p.struct o a = y * v.scaling

end Metku.Opt
