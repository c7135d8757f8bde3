import Mathlib.Algebra.BigOperators.Group.Finset.Basic
import Mathlib.Algebra.Order.Floor.Ring
import Mathlib.Algebra.Order.Field.Basic
import Verif.Model.PyErr

/-!
Model of `metku/optimization/problems/truss_milp.py`: the mixed-integer linear program of a truss whose members pick
their profile from a list.

Floats are elements of an ordered field with a floor.  The truss is given by what the class reads of it: length, modulus
and end nodes of the members, the statics matrix, the load vectors without supported dofs, the supports.  Areas,
resistances and weights of the profiles, and the buckling resistance of a member with a profile, are numbers of the input.
A coefficient vector is a function of the position of the variable; entries beyond the last variable are not read.
Names of variables and constraints are left out, except that the member number in the name of a profile variable is kept
in its slot.  The substitution of a design and the plots are not modelled.
-/
namespace Metku.Milp

open Metku

variable {K : Type*} [Field K] [LinearOrder K] [IsStrictOrderedRing K] [FloorRing K]

/-- A profile that a member may have: area, axial resistance, buckling resistance of the member with this profile
    (`mem.NbRd[0]`), weight per length. -/
structure Prof (K : Type*) where
  (A NRd NbRd weight : K)

/-- A member: length, modulus, its list of profiles (in the order of `mem['profiles']`), its end nodes. -/
structure Member (K : Type*) where
  (L E : K)
  (profs : List (Prof K))
  (ends : List ℕ)

/-- A group of members: member numbers and number of profiles in its list. -/
structure Group where
  (members : List ℕ)
  (nprof : ℕ)

/-- What the class reads: scaling factors, displacement bounds, number of free dofs, statics matrix (dof, member),
    load vectors by load case, members, number of nodes, supports (node, number of fixed dofs), groups. -/
structure Inp (K : Type*) where
  (scaleN scaleU ulb uub : K)
  (ndof : ℕ)
  (B : ℕ → ℕ → K)
  (loads : List (ℕ → K))
  (members : List (Member K))
  (nnodes : ℕ)
  (supports : List (ℕ × ℕ))
  (groups : Option (List Group))

/-! ### Profile lists of the members -/

/-- One step of the loops of truss_milp.py 97-108: `self.member_profiles[mem] = profiles`. -/
def setProfiles (l : List (List ℕ)) (mem : ℕ) (profs : List ℕ) : Except PyErr (List (List ℕ)) :=
  if mem < l.length then .ok (l.set mem profs) else .error .indexError

/-- truss_milp.py 90-108: every member may have every profile, then the lists of the groups, then the lists given for single
    members. -/
def memberProfiles (nprof nmem : ℕ) (groups : List (List ℕ × List ℕ)) (single : List (ℕ × List ℕ)) :
    Except PyErr (List (List ℕ)) := do
  let l ← groups.foldlM (fun l g => g.1.foldlM (fun l mem => setProfiles l mem g.2) l) (List.replicate nmem (List.range nprof))
  single.foldlM (fun l s => setProfiles l s.1 s.2) l

/-! ### Data of the constructor -/

/-- Data of a profile of a member, `self.members[i]`: the member number, and for the profile the axial stiffness `k0`,
    area, resistances, force bounds and weight. -/
structure Slot (K : Type*) where
  (mem : ℕ)
  (k0 A NRd NbRd Nlb Nub w : K)

/-- `self.scaling['A']`, truss_milp.py 66. -/
def Inp.scaleA (P : Inp K) : K := P.scaleU ^ 2

/-- `self.scaling['E']`, truss_milp.py 67. -/
def Inp.scaleE (P : Inp K) : K := P.scaleN / P.scaleU ^ 2

/-- `nlb` of a member, truss_milp.py 144, with the bounds as given. -/
def nlb (P : Inp K) (i : ℕ) : K :=
  (∑ d ∈ Finset.range P.ndof, max (P.B d i) 0 * P.ulb) + ∑ d ∈ Finset.range P.ndof, min (P.B d i) 0 * P.uub

/-- `nub` of a member, truss_milp.py 145. -/
def nub (P : Inp K) (i : ℕ) : K :=
  (∑ d ∈ Finset.range P.ndof, min (P.B d i) 0 * P.ulb) + ∑ d ∈ Finset.range P.ndof, max (P.B d i) 0 * P.uub

/-- The data of one profile of member `i`, truss_milp.py 79, 124-130, 136-161. -/
def mkSlot (P : Inp K) (i : ℕ) (m : Member K) (p : Prof K) : Slot K :=
  let L := m.L * P.scaleU
  let k0 := m.E / L * P.scaleE
  { mem := i, k0 := k0, A := p.A
    NRd := (⌊p.NRd⌋ : K) * P.scaleA
    NbRd := (⌊p.NbRd⌋ : K) * P.scaleN
    Nlb := k0 * p.A * nlb P i * P.scaleA
    Nub := k0 * p.A * nub P i * P.scaleA
    w := p.weight / P.scaleU * L }

/-- The profile variables in the order of the vector of variables: member by member, profile by profile
    (truss_milp.py 146-155 and 487-489), numbered from member `i`. -/
def slotsFrom (P : Inp K) (i : ℕ) : List (Member K) → List (Slot K)
  | [] => []
  | m :: ms => m.profs.map (mkSlot P i m) ++ slotsFrom P (i + 1) ms

/-- All profile variables. -/
def slots (P : Inp K) : List (Slot K) := slotsFrom P 0 P.members

/-- `nprof_vars`, truss_milp.py 222-225. -/
def Inp.ny (P : Inp K) : ℕ := (slots P).length

/-- A variable: `BinaryVariable`, or `Variable` with bounds. -/
inductive MVar (K : Type*)
  | bin
  | cont (lb ub : K)

/-- A `LinearConstraint`: coefficients, right-hand side, and whether its type is "=" (else "<"). -/
structure Con (K : Type*) where
  (a : ℕ → K)
  (rhs : K)
  (eq : Bool)

/-- The optimization problem: variables, objective `c'x`, constraints. -/
structure Prob (K : Type*) where
  (vars : List (MVar K))
  (obj : ℕ → K)
  (cons : List (Con K))

/-- `a'x` over the variables of the problem. -/
def dotv (n : ℕ) (a x : ℕ → K) : K := ∑ t ∈ Finset.range n, a t * x t

/-! ### Vectors of coefficients -/

/-- `np.zeros(nx)`. -/
def zeros : ℕ → K := fun _ => 0

/-- `a[i] = v`. -/
def put (a : ℕ → K) (i : ℕ) (v : K) : ℕ → K := fun t => if t = i then v else a t

/-- `a[s:e] = g`. -/
def putRange (a : ℕ → K) (s e : ℕ) (g : ℕ → K) : ℕ → K := fun t => if s ≤ t ∧ t < e then g (t - s) else a t

/-- `a[s:e] *= -1`. -/
def negRange (a : ℕ → K) (s e : ℕ) : ℕ → K := fun t => if s ≤ t ∧ t < e then a t * (-1) else a t

/-! ### Constraints -/

/-- The two constraints of one profile in `compatibility_constraints`, truss_milp.py 291-303. -/
def compRows (P : Inp K) (ustart yndx Nndx : ℕ) (s : Slot K) : List (Con K) :=
  let uend := ustart + P.ndof
  let ub := putRange (put (put zeros yndx s.Nub) Nndx (-1)) ustart uend (fun d => s.k0 * s.A * P.B d s.mem * P.scaleA)
  let lb := negRange (put (put ub Nndx 1) yndx (-s.Nlb)) ustart uend
  [⟨ub, s.Nub, false⟩, ⟨lb, -s.Nlb, false⟩]

/-- The loop over the members and profiles in a load case, truss_milp.py 289-306. -/
def compLoop (P : Inp K) (ustart : ℕ) : ℕ → ℕ → List (Slot K) → List (Con K)
  | _, _, [] => []
  | yndx, Nndx, s :: ss => compRows P ustart yndx Nndx s ++ compLoop P ustart (yndx + 1) (Nndx + 1) ss

/-- The loop over the load cases, truss_milp.py 282-306: `Nndx` runs on from case to case. -/
def compCases (P : Inp K) : ℕ → ℕ → ℕ → List (Con K)
  | _, _, 0 => []
  | k, Nndx, n + 1 =>
    compLoop P (P.ny + (k + 1) * P.ny + k * P.ndof) 0 Nndx (slots P) ++ compCases P (k + 1) (Nndx + P.ny) n

/-- `compatibility_constraints`, truss_milp.py 277-306. -/
def compatibility (P : Inp K) : List (Con K) := compCases P 0 P.ny P.loads.length

/-- The two constraints of one profile in `strength_constraints`, truss_milp.py 320-330. -/
def strRows (yndx Nndx : ℕ) (s : Slot K) : List (Con K) :=
  let ub := put (put zeros yndx (-s.NRd)) Nndx 1
  let lb := put (put ub Nndx (-1)) yndx (-min s.NRd s.NbRd)
  [⟨ub, 0, false⟩, ⟨lb, 0, false⟩]

/-- The loop over the members and profiles in a load case, truss_milp.py 317-333. -/
def strLoop : ℕ → ℕ → List (Slot K) → List (Con K)
  | _, _, [] => []
  | yndx, Nndx, s :: ss => strRows yndx Nndx s ++ strLoop (yndx + 1) (Nndx + 1) ss

/-- The loop over the load cases, truss_milp.py 315-335: `Nndx` skips the displacements. -/
def strCases (P : Inp K) : ℕ → ℕ → List (Con K)
  | _, 0 => []
  | Nndx, n + 1 => strLoop 0 Nndx (slots P) ++ strCases P (Nndx + P.ny + P.ndof) n

/-- `strength_constraints`, truss_milp.py 308-335. -/
def strength (P : Inp K) : List (Con K) := strCases P P.ny P.loads.length

/-- Row `d` of the augmented statics matrix `B0`, truss_milp.py 550-562: the columns of the forces of the first load
    case, `start` advanced by the number of profiles of each member. -/
def eqRow (P : Inp K) (d : ℕ) : ℕ → ℕ → List (Member K) → (ℕ → K)
  | _, _, [] => zeros
  | start, i, m :: ms => fun t =>
      (if start ≤ t ∧ t < start + m.profs.length then P.B d i else 0) + eqRow P d (start + m.profs.length) (i + 1) ms t

/-- The equilibrium constraints, truss_milp.py 564-573: the same rows for every load case. -/
def equilibrium (P : Inp K) : List (Con K) :=
  P.loads.flatMap fun p => (List.range P.ndof).map fun d => ⟨eqRow P d P.ny 0 P.members, p d * P.scaleN, true⟩

/-- Row `i` of `Aeq`, truss_milp.py 520-530: the profile variables whose name has the member number `i`. -/
def pickRow (P : Inp K) (i : ℕ) : ℕ → K := fun t =>
  match (slots P)[t]? with
  | some s => if s.mem = i then 1 else 0
  | none => 0

/-- `weight_obj`, truss_milp.py 262-275. -/
def weightObj (P : Inp K) : ℕ → K := fun t => ((slots P)[t]?.map Slot.w).getD 0

/-- The force and displacement variables of the load cases, truss_milp.py 163-186 and 491-497. -/
def stateVars (P : Inp K) : List (MVar K) :=
  P.loads.flatMap fun _ => (slots P).map (fun s => .cont s.Nlb s.Nub) ++ List.replicate P.ndof (.cont P.ulb P.uub)

/-- The profile, force and displacement variables, truss_milp.py 485-497. -/
def baseVars (P : Inp K) : List (MVar K) := (slots P).map (fun _ => .bin) ++ stateVars P

/-! ### Topology -/

/-- The members of a node, truss_milp.py 363-365. -/
def nodeMembers (P : Inp K) (j : ℕ) : List ℕ :=
  (P.members.zipIdx.filter fun m => m.1.ends.contains j).map Prod.snd

/-- `node['supported']`, truss_milp.py 367-368: the number of fixed dofs of the last support at the node, else 0. -/
def supported (P : Inp K) (j : ℕ) : ℕ :=
  ((P.supports.reverse.find? fun s => s.1 == j).map Prod.snd).getD 0

/-- `start_ndx('member')`, truss_milp.py 253-254. -/
def Inp.ystart (P : Inp K) : ℕ := (baseVars P).length

/-- `start_ndx('node')`, truss_milp.py 255-256. -/
def Inp.zstart (P : Inp K) : ℕ := P.ystart + P.members.length

/-- `start_ndx('group')`, truss_milp.py 257-258. -/
def Inp.wstart (P : Inp K) : ℕ := P.zstart + P.nnodes

/-- `add_top_opt_vars`, truss_milp.py 337-355: a binary variable for each member, node and profile of a group. -/
def topVars (P : Inp K) : List (MVar K) :=
  List.replicate P.members.length .bin ++ List.replicate P.nnodes .bin ++
    match P.groups with
    | none => []
    | some gs => List.replicate (gs.map Group.nprof).sum .bin

/-- Constraints 1, truss_milp.py 382-389, for all nodes and their members. -/
def con1 (P : Inp K) : List (Con K) :=
  (List.range P.nnodes).flatMap fun j => (nodeMembers P j).map fun m =>
    ⟨put (put zeros (P.zstart + j) 1) (P.ystart + m) (-1), 0, false⟩

/-- Constraints 2, truss_milp.py 391-402. -/
def con2 (P : Inp K) : List (Con K) :=
  (List.range P.nnodes).map fun j =>
    ⟨put (fun t => if t ∈ (nodeMembers P j).map (fun m => m + P.ystart) then -1 else 0) (P.zstart + j)
      (if supported P j ≠ 0 then 1 else 2), 0, false⟩

/-- Constraint 3, truss_milp.py 404-415. -/
def con3 (P : Inp K) : Con K :=
  ⟨fun t => if P.zstart ≤ t ∧ t < P.zstart + P.nnodes then 2 - (supported P (t - P.zstart) : K)
            else if P.ystart ≤ t ∧ t < P.ystart + P.members.length then -1 else 0, 0, false⟩

/-- Constraint 4, truss_milp.py 417-424. -/
def con4 (P : Inp K) : Con K :=
  ⟨fun t => if P.zstart ≤ t ∧ t < P.zstart + P.nnodes ∧ supported P (t - P.zstart) ≠ 0 then -1 else 0, -2, false⟩

/-- Position of profile `j` of member `i` among the profile variables: `self.milp.vars.index(...)`,
    truss_milp.py 443 and 460. -/
def pos : List (Member K) → ℕ → ℕ → ℕ
  | [], _, j => j
  | _ :: _, 0, j => j
  | m :: ms, i + 1, j => m.profs.length + pos ms i j

/-- `self.vars['profile'][mem][j]` exists. -/
def hasVar (P : Inp K) (mem j : ℕ) : Bool :=
  match P.members[mem]? with
  | some m => decide (j < m.profs.length)
  | none => false

/-- The constraints of one group, truss_milp.py 431-464, with `dW` variables of earlier groups. -/
def groupRows (P : Inp K) (dW : ℕ) (g : Group) : Except PyErr (List (Con K)) :=
  let w := P.wstart + dW
  if g.members.all fun mem => hasVar P mem 0 && (List.range g.nprof).all fun j => hasVar P mem j then
    .ok (⟨putRange zeros w (w + g.nprof) (fun _ => 1), 1, false⟩ ::
      (g.members.flatMap fun mem => (List.range g.nprof).map fun j =>
        ⟨put (put zeros (w + j) (-1)) (pos P.members mem 0 + j) 1, 0, false⟩) ++
      ((List.range g.nprof).map fun j =>
        ⟨g.members.foldl (fun a mem => put a (pos P.members mem j) (-1)) (put zeros (w + j) 1), 0, false⟩))
  else .error .indexError

/-- The loop over the groups, truss_milp.py 426-467. -/
def groupLoop (P : Inp K) : ℕ → List Group → Except PyErr (List (Con K))
  | _, [] => .ok []
  | dW, g :: gs => do
    let r ← groupRows P dW g
    let rs ← groupLoop P (dW + g.nprof) gs
    .ok (r ++ rs)

/-- `add_topology_constraints`, truss_milp.py 370-467. -/
def topologyCons (P : Inp K) : Except PyErr (List (Con K)) := do
  let gs ← match P.groups with
    | none => .ok []
    | some gs => groupLoop P 0 gs
  .ok (con1 P ++ con2 P ++ [con3 P, con4 P] ++ gs)

/-- The problem that `create_milp` stores in `self.milp`, truss_milp.py 473-577. -/
def buildMilp (P : Inp K) (topology : Bool) : Except PyErr (Prob K) := do
  let top ← if topology then topologyCons P else .ok []
  let pick : List (Con K) := (List.range P.members.length).map fun i =>
    if topology then ⟨put (pickRow P i) (P.ystart + i) (-1), 0, true⟩ else ⟨pickRow P i, 1, true⟩
  .ok { vars := baseVars P ++ if topology then topVars P else []
        obj := weightObj P
        cons := pick ++ top ++ equilibrium P ++ compatibility P ++ strength P }

/-- `create_milp`, truss_milp.py 473-580: the value returned and the problem stored.  The last line returns `lp`, a name
    that the module does not define when it is imported. -/
def createMilp (P : Inp K) (topology : Bool) : Except PyErr Unit × Option (Prob K) :=
  match buildMilp P topology with
  | .error e => (.error e, none)
  | .ok p => (.error .nameError, some p)

end Metku.Milp
