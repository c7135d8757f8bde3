import Verif.Model.SimpleTruss
import Verif.Model.TrussMilp

/-!
Model of `metku/optimization/problems/truss_optimization.py`: the linear program `truss_lp` (627-727), the stress and displacement constraints (331-348, 368-395, 450-530), `scale_design` (581-624) and `fsd` (533-579).

Simplifications: as in `SimpleTruss`, members are single rods, supports hold both displacements of a node, and lengths are any numbers. Design variables of `TrussOptimization` are areas of sections; every member belongs to one variable. Continuous variables are neither locked nor scaled. The displacements found by the solver are a function of the areas; what is known about it is a hypothesis of the theorems. Printing is left out.
-/
namespace Metku.TOpt

open Metku Metku.STruss

variable {K : Type} [Field K] [LinearOrder K] [IsStrictOrderedRing K]

/-! ### Linear program -/

/-- A bound given as a number or as a list with a number for each member. -/
inductive Bnd (K : Type)
  | num (v : K)
  | lst (l : List K)

/-- `Alb*np.ones(nmem)` or the list itself, 645-661, and its element `i`. -/
def Bnd.get (nmem : ℕ) (b : Bnd K) (i : ℕ) : Except PyErr K :=
  match (match b with | .num v => List.replicate nmem v | .lst l => l)[i]? with
  | some v => .ok v
  | none => .error .indexError

/-- Values of a bound for all members. -/
def Bnd.all (nmem : ℕ) (b : Bnd K) : Except PyErr (List K) := (List.range nmem).mapM (b.get nmem)

/-- Stress limits: the default refers to the undefined name `t`, 651-655. -/
def limit (b : Option (Bnd K)) : Except PyErr (Bnd K) :=
  match b with
  | none => .error .nameError
  | some b => .ok b

/-- Unsupported degrees of freedom: node, and whether it is the second displacement; `np.delete(..., supp_dofs)`. -/
def freeDofs {n : ℕ} (fixed : Fin n → Bool) : List (Fin n × Bool) :=
  (List.finRange n).flatMap fun i => if fixed i then [] else [(i, false), (i, true)]

/-- Component of a vector. -/
def comp (p : K × K) (y : Bool) : K := if y then p.2 else p.1

/-- Entry of the column of a member in `statics_matrix`, framefem.py 906-923: the dofs of the first node get `-c`, `-s`, those of the second one `c`, `s`. -/
def bEntry {n : ℕ} {S : Type} (pos : Fin n → K × K) (len : ℕ → K) (m : Mem n S) (d : Fin n × Bool) : K :=
  if m.b = d.1 then Fem.dirCos (comp (pos m.b) d.2 - comp (pos m.a) d.2) (len m.id)
  else if m.a = d.1 then -Fem.dirCos (comp (pos m.b) d.2 - comp (pos m.a) d.2) (len m.id)
  else 0

/-- Row of the statics matrix. -/
def bRow {n : ℕ} {S : Type} (pos : Fin n → K × K) (len : ℕ → K) (ms : List (Mem n S)) (d : Fin n × Bool) : ℕ → K :=
  fun i => match ms[i]? with
  | some m => bEntry pos len m d
  | none => 0

/-- Bounds of the variables, 672-684: areas, then the forces of every load case. -/
def lpVars (nmem nlc : ℕ) (al au : List K) : List (Milp.MVar K) :=
  List.zipWith (fun l u => .cont l u) al au ++ List.replicate (nlc * nmem) (.cont (-(10 ^ 9)) (10 ^ 9))

/-- Coefficients of the objective, 676, 685. -/
def lpObj {n : ℕ} {S : Type} (len : ℕ → K) (ms : List (Mem n S)) : ℕ → K :=
  fun t => match ms[t]? with
  | some m => len m.id
  | none => 0

/-- Equilibrium of the load cases from number `j` on, 698-710. -/
def lpEq {n : ℕ} {S : Type} (pos : Fin n → K × K) (len : ℕ → K) (ms : List (Mem n S)) (fixed : Fin n → Bool) :
    ℕ → List (Fin n → K × K) → List (Milp.Con K)
  | _, [] => []
  | j, p :: ps =>
    (freeDofs fixed).map (fun d =>
      ⟨fun t => if (j + 1) * ms.length ≤ t ∧ t < (j + 2) * ms.length then bRow pos len ms d (t - (j + 1) * ms.length) else 0,
        comp (p d.1) d.2, true⟩) ++ lpEq pos len ms fixed (j + 1) ps

/-- `a[i] = v` -/
def put (a : ℕ → K) (i : ℕ) (v : K) : ℕ → K := fun t => if t = i then v else a t

/-- Stress constraints of one member, 717-725. -/
def strRows (nmem j i : ℕ) (su sl : K) : List (Milp.Con K) :=
  let a := put (put (fun _ => 0) i (-su)) ((j + 1) * nmem + i) 1
  [⟨a, 0, false⟩, ⟨put (put a i (-sl)) ((j + 1) * nmem + i) (-1), 0, false⟩]

/-- Stress constraints, 716-725. -/
def lpStr (nmem nlc : ℕ) (su sl : List K) : List (Milp.Con K) :=
  (List.range nlc).flatMap fun j => (List.range nmem).flatMap fun i => strRows nmem j i (su.getD i 0) (sl.getD i 0)

/-- `truss_lp`, 627-727. -/
def trussLp {n : ℕ} {S : Type} (pos : Fin n → K × K) (len : ℕ → K) (ms : List (Mem n S)) (fixed : Fin n → Bool)
    (loads : List (Fin n → K × K)) (alb aub : Bnd K) (slb sub : Option (Bnd K)) : Except PyErr (Milp.Prob K) := do
  let slb ← limit slb
  let sub ← limit sub
  let al ← alb.all ms.length
  let au ← aub.all ms.length
  let su ← (if loads = [] then .ok (List.replicate ms.length 0) else sub.all ms.length)
  let sl ← (if loads = [] then .ok (List.replicate ms.length 0) else slb.all ms.length)
  .ok ⟨lpVars ms.length loads.length al au, lpObj len ms,
    lpEq pos len ms fixed 0 loads ++ lpStr ms.length loads.length su sl⟩

/-! ### Area variables and constraints -/

/-- A displacement constraint: node, whether it is the second displacement, whether the bound is an upper one, and the bound. -/
structure Disp (n : ℕ) (K : Type) where
  node : Fin n
  y : Bool
  upper : Bool
  bound : K

/-- A problem: the truss, its area variables with bounds, the variable of each member, stress limits and displacement constraints. -/
structure Task (n : ℕ) (K : Type) where
  pos : Fin n → K × K
  len : ℕ → K
  ms : List (Mem n K)
  fixed : Fin n → Bool
  nvar : ℕ
  lb : ℕ → K
  ub : ℕ → K
  group : ℕ → ℕ
  smax : ℕ → K
  disps : List (Disp n K)

/-- Members with the areas of a design `x`; the section of a member of the task is its modulus of elasticity. -/
def Task.mems {n : ℕ} (T : Task n K) (x : ℕ → K) : List (Mem n (K × K)) :=
  T.ms.map fun m => ⟨m.id, m.a, m.b, (m.sec, x (T.group m.id))⟩

/-- `substitute_variables` moves the values into their bounds, structopt.py 724. -/
def Task.clip {n : ℕ} (T : Task n K) (x : ℕ → K) : ℕ → K := 
  fun i => if i < T.nvar then max (T.lb i) (min (x i) (T.ub i)) else x i

/-- `disp_upper_bound` and `disp_lower_bound`, 480-508. -/
def dispValue (upper : Bool) (b u : K) : K :=
  if upper then
    if 0 < b then u / b - 1 else if b < 0 then 1 - u / b else u
  else
    if b < 0 then u / b - 1 else if 0 < b then 1 - u / b else -u

/-- Value of a displacement constraint for displacements. -/
def Disp.value {n : ℕ} (c : Disp n K) (u : Fin n → K × K) : K := dispValue c.upper c.bound (comp (u c.node) c.y)

/-- `compression` and `tension` of a member, 384-388. -/
def stressValues {n : ℕ} (T : Task n K) (x : ℕ → K) (u : Fin n → K × K) (m : Mem n (K × K)) : List K :=
  [-axial T.pos T.len u m / (T.smax m.id * x (T.group m.id)) - 1,
    axial T.pos T.len u m / (T.smax m.id * x (T.group m.id)) - 1]

/-- Values of the displacement constraints and of the stress constraints of all members (331-348, 584-592), where `sol` gives the displacements of the first load case for the areas. -/
def Task.values {n : ℕ} (T : Task n K) (sol : (ℕ → K) → Fin n → K × K) (x : ℕ → K) : List K :=
  let z := T.clip x
  T.disps.map (fun c => c.value (sol z)) ++ (T.mems z).flatMap (stressValues T z (sol z))

/-! ### Scaling -/

/-- `min(mu, b)` with `none` for infinity. -/
def minInf (a : Option K) (b : K) : Option K := match a with | none => some b | some a => some (min a b)
/-- `max(mu, b)` with `none` for minus infinity. -/
def maxInf (a : Option K) (b : K) : Option K := match a with | none => some b | some a => some (max a b)

/-- Upper bound of the factor, 598-604. -/
def Task.muU {n : ℕ} (T : Task n K) (x : ℕ → K) : Option K :=
  ((List.range T.nvar).map fun i => T.ub i / x i).foldl minInf none

/-- Lower bound of the factor, 599-616. -/
def Task.muL {n : ℕ} (T : Task n K) (sol : (ℕ → K) → Fin n → K × K) (x : ℕ → K) : Option K :=
  (((List.range T.nvar).map fun i => T.lb i / x i) ++ (T.values sol x).map (· + 1)).foldl maxInf none

/-- The factor, 618-624; without variables there is nothing to scale. -/
def Task.factor {n : ℕ} (T : Task n K) (sol : (ℕ → K) → Fin n → K × K) (x : ℕ → K) : K :=
  match T.muL sol x, T.muU x with
  | some l, some u => if u < l then 1 else l
  | _, _ => 1

/-- `scale_design`, 581-624. -/
def Task.scale {n : ℕ} (T : Task n K) (sol : (ℕ → K) → Fin n → K × K) (x : ℕ → K) : ℕ → K :=
  fun i => T.factor sol x * x i

/-! ### Fully stressed design -/

/-- Kinds of structures: `Frame2D.calculate` has no argument `design`, frame2d.py 497; `Raami.calculate` has one, raami.py 376. -/
inductive Kind
  | frame2d
  | raami
deriving DecidableEq

/-- A member in `fsd`: the axial forces stored in the sections of its `SteelMember`, and the yield strength. -/
structure FMem (K : Type) where
  ned : List K
  fy : K

/-- `SteelMember.NEd`, steel_member.py 179-182; the maximum of an empty list is an error. -/
def nEd (l : List K) : Except PyErr K :=
  match l with
  | [] => .error .valueError
  | a :: l => .ok (l.foldl (fun m b => max m |b|) |a|)

/-- A variable in `fsd`: bounds, members, value. -/
structure FVar (K : Type) where
  lb : K
  ub : K
  mems : List (FMem K)
  val : K

/-- Update rule, 566-577. -/
def fsdMem (lb ub : K) (m : FMem K) : Except PyErr K := do
  let N ← nEd m.ned
  if m.fy = 0 then .error .zeroDivision else .ok (min (max (N / m.fy) lb) ub)

/-- All members of a variable, 563-577. -/
def fsdLoop (lb ub : K) : List (FMem K) → K → Except PyErr K
  | [], v => .ok v
  | m :: ms, _ => do fsdLoop lb ub ms (← fsdMem lb ub m)

/-- One variable. -/
def fsdVar (v : FVar K) : Except PyErr (FVar K) := do
  let x ← fsdLoop v.lb v.ub v.mems v.val
  .ok { v with val := x }

/-- `OptimizationProblem.fea`, structopt.py 550-559: `calculate` with `design=False`, so that `Raami` leaves the forces of the `SteelMember`s alone (raami.py 364-373, frame_member.py 1179-1194). -/
def fea (k : Kind) (vs : List (FVar K)) : Except PyErr (List (FVar K)) :=
  match k with
  | .frame2d => .error .typeError
  | .raami => .ok vs

/-- One load case, 551-577. -/
def fsdCase (k : Kind) (vs : List (FVar K)) : Except PyErr (List (FVar K)) := do
  (← fea k vs).mapM fsdVar

/-- `c` rounds over load cases. -/
def fsdCases (k : Kind) : ℕ → List (FVar K) → Except PyErr (List (FVar K))
  | 0, vs => .ok vs
  | c + 1, vs => do fsdCases k c (← fsdCase k vs)

/-- `fsd`, 533-579: ten passes over the load cases. -/
def fsd (k : Kind) (nlc : ℕ) (vs : List (FVar K)) : Except PyErr (List (FVar K)) := fsdCases k (10 * nlc) vs

end Metku.TOpt
