import Mathlib.Algebra.Order.Field.Basic
import Verif.Model.FrameGeom

/-!
Results and member design of a `Raami` frame.

Source: metku/raami/frame_member.py 188-201 (section of a member), 265-284 (local coordinates), 358-371
(displacements), 373-415 (`calc_nodal_forces`), 480-518 (`get_max_forces`), 1171-1203 (`is_section`, `design`),
1205-1260 (`SteelFrameMember.optimum_design`), 1413-1530 (`MemberGroup`: section, `design`, `optimum_design`),
metku/raami/raami.py 323-374 (`structural_analysis` of all cases), 413-456 (`optimize_members`).

Simplifications: a section is its name, width, area, second moment of area and steel grade; its class, the analysis of the frame, the
slenderness of a member and its utilization for given forces (`SteelMember.design`, modelled in `SteelMember`) are
functions given in a `Setup`; forces are of any type; loads are the load cases of the frame, which are the same in `load_ids`
and `load_cases`, and utilizations are those of these load cases; members of groups are single-span members.
-/
namespace Metku.Raami

variable {K : Type} [Field K] [LinearOrder K] [IsStrictOrderedRing K]

/-! ### Internal forces -/

/-- `absmax`, frame_member.py 378-385. -/
def absmax (lo hi : K) : K := if max |lo| |hi| = |lo| then lo else hi

/-- `min(vals)`; an empty list gives a ValueError. -/
def pyMin : List K → Except PyErr K
  | [] => .error .valueError
  | x :: xs => .ok (xs.foldl min x)

/-- `max(vals)`; an empty list gives a ValueError. -/
def pyMax : List K → Except PyErr K
  | [] => .error .valueError
  | x :: xs => .ok (xs.foldl max x)

/-- A quantity of the elements of a member at their first and second nodes, frame_member.py 395-408: the values at the
first nodes, and the value at the second node of the last element. -/
def nodalValues (elems : List (K × K)) : Except PyErr (List K) :=
  match elems.getLast? with
  | none => .error .indexError
  | some e => .ok (elems.map (fun e => e.1) ++ [e.2])

/-- The design value of a quantity, frame_member.py 410-413. -/
def designValue (elems : List (K × K)) : Except PyErr K := do
  let vs ← nodalValues elems
  let lo ← pyMin vs
  let hi ← pyMax vs
  .ok (absmax lo hi)

/-- The forces of a member in a load case: one list for each of `N`, `Vz` and `My`, of the same length. -/
structure Forces (K : Type) where
  N : List K
  Vz : List K
  My : List K
deriving DecidableEq, Repr

/-- The keys of `nodal_forces[load_id]`, frame_member.py 393. -/
inductive FKey
  | N
  | Vz
  | My
deriving DecidableEq, Repr

/-- The list of a key. -/
def Forces.get (f : Forces K) : FKey → List K
  | .N => f.N
  | .Vz => f.Vz
  | .My => f.My

/-- An entry of the result of `get_max_forces`: the three forces at the same node, and the load case; no load case means that the entry is
the empty one. -/
structure Entry (K : Type) where
  N : K
  Vz : K
  My : K
  load : Option ℕ
deriving DecidableEq, Repr

/-- The force of a key in an entry. -/
def Entry.get (e : Entry K) : FKey → K
  | .N => e.N
  | .Vz => e.Vz
  | .My => e.My

/-- The smallest or the largest value of a list that starts with `x`. -/
def extreme (isMax : Bool) (x : K) (xs : List K) : K := if isMax then xs.foldl max x else xs.foldl min x

/-- The entry of the forces at the node `i`, frame_member.py 512, 515. -/
def entryAt (f : Forces K) (i : ℕ) (load : ℕ) : Except PyErr (Entry K) :=
  match f.N[i]?, f.Vz[i]?, f.My[i]? with
  | some n, some v, some m => .ok ⟨n, v, m, some load⟩
  | _, _, _ => .error .indexError

/-- One step of the loop of `get_max_forces` for one key and one function, frame_member.py 507-516. -/
def maxStep (key : FKey) (isMax : Bool) (cur : Entry K) (c : ℕ × Forces K) : Except PyErr (Entry K) :=
  match c.2.get key with
  | [] => .error .valueError
  | x :: xs =>
    let val := extreme isMax x xs
    if cur.load = none ∨ |cur.get key| < |val| then entryAt c.2 ((x :: xs).idxOf val) c.1 else .ok cur

/-- The entry `'min N'`, `'max N'`, … of `get_max_forces`, for the load cases in the order asked for. -/
def maxForces (key : FKey) (isMax : Bool) (cases : List (ℕ × Forces K)) : Except PyErr (Entry K) :=
  cases.foldlM (maxStep key isMax) ⟨0, 0, 0, none⟩

/-! ### Local coordinates and displacements -/

/-- `local_to_global`, frame_member.py 265-272, for a member of the length `l`. -/
def toGlobal (p q : K × K) (l t : K) : K × K := (p.1 + l * t * ((q.1 - p.1) / l), p.2 + l * t * ((q.2 - p.2) / l))

/-- `global_to_local`, frame_member.py 274-284. -/
def toLocal (p q : K × K) (l : K) (x : K × K) : K := ((x.1 - p.1) * ((q.1 - p.1) / l) + (x.2 - p.2) * ((q.2 - p.2) / l)) / l

/-- Insertion into a list sorted by the first component. -/
def insertBy {α : Type} (a : K × α) : List (K × α) → List (K × α)
  | [] => [a]
  | b :: bs => if a.1 ≤ b.1 then a :: b :: bs else b :: insertBy a bs

/-- `sorted(zip(local_coords, displacements))`, frame_member.py 369; equal local coordinates (which would compare arrays) do not
occur for the nodes of a member. -/
def sortBy {α : Type} (l : List (K × α)) : List (K × α) := l.foldr insertBy []

/-- `calc_nodal_displacements`, frame_member.py 358-370, for the FEM nodes (position and displacement) of a member. -/
def nodalDisplacements {α : Type} (p q : K × K) (l : K) (nodes : List ((K × K) × α)) : List α :=
  (sortBy (nodes.map (fun n => (toLocal p q l n.1, n.2)))).map (fun n => n.2)

/-! ### Design -/

/-- A section: a profile of a steel grade. -/
structure Prof (K : Type) where
  name : ℕ
  grade : ℕ
  b : K
  area : K
  inertia : K
deriving DecidableEq, Repr

/-- What is not modelled here: the profiles of the family of a section in the order of the catalogue, the class of a section in compression, the slenderness of a member, the
forces of a member in a load case for the sections of all members, and the utilization of a member. -/
structure Setup (K F : Type) where
  profs : Prof K → List (Prof K)
  cls : Prof K → ℕ
  slender : ℕ → Prof K → K
  force : List (Prof K) → ℕ → ℕ → F
  util : ℕ → Prof K → F → K

/-- The arguments of `optimum_design`, frame_member.py 1205-1207. -/
structure Limits (K : Type) where
  material : ℕ
  cls : ℕ
  util : K
  bmin : K
  bmax : K
  slender : K

/-- The frame: sections, forces of the last analysis, and utilizations. -/
structure DState (K F : Type) where
  sections : List (Prof K)
  forces : ℕ → ℕ → F
  util : ℕ → ℕ → K

variable {F : Type}

/-- `member.design(load_id)`, frame_member.py 1179-1203. -/
def DState.design (S : Setup K F) (s : DState K F) (m l : ℕ) : DState K F :=
  match s.sections[m]? with
  | none => s
  | some p => { s with util := fun m' l' => if m' = m ∧ l' = l then S.util m p (s.forces m l) else s.util m' l' }

/-- `member.cross_section = p`, frame_member.py 188-201: the symmetry pair gets the section too. -/
def DState.setSection (pair : ℕ → Option ℕ) (s : DState K F) (m : ℕ) (p : Prof K) : DState K F :=
  match pair m with
  | none => { s with sections := s.sections.set m p }
  | some m' => { s with sections := (s.sections.set m p).set m' p }

/-- Design of a member and its symmetry pair for all load cases, frame_member.py 1235-1240. -/
def DState.designBoth (S : Setup K F) (pair : ℕ → Option ℕ) (s : DState K F) (m : ℕ) (loads : List ℕ) : DState K F :=
  loads.foldl (fun s l => match pair m with
    | none => s.design S m l
    | some m' => (s.design S m l).design S m' l) s

/-- The conditions before the design of a profile, frame_member.py 1226-1233. -/
def skipped (S : Setup K F) (lim : Limits K) (m : ℕ) (p : Prof K) : Bool :=
  decide (p.b < lim.bmin ∨ lim.bmax < p.b) || decide (lim.cls < S.cls p) || decide (lim.slender < S.slender m p)

/-- The condition for ending the search, frame_member.py 1243-1250. -/
def DState.fits (pair : ℕ → Option ℕ) (s : DState K F) (m : ℕ) (loads : List ℕ) (u : K) : Bool :=
  loads.all (fun l => decide (s.util m l ≤ u)) && (match pair m with
    | none => true
    | some m' => loads.all (fun l => decide (s.util m' l ≤ u)))

/-- `make_section(profile)` of the grade `material`, frame_member.py 1223-1225. -/
def Prof.graded (p : Prof K) (g : ℕ) : Prof K := { p with grade := g }

/-- The loop over the profiles, frame_member.py 1219-1250. -/
def searchMember (S : Setup K F) (lim : Limits K) (pair : ℕ → Option ℕ) (loads : List ℕ) (m : ℕ) : List (Prof K) → DState K F → DState K F
  | [], s => s
  | p' :: ps, s =>
    let p := p'.graded lim.material
    let s1 := s.setSection pair m p
    if skipped S lim m p then searchMember S lim pair loads m ps s1
    else
      let s2 := s1.designBoth S pair m loads
      if s2.fits pair m loads lim.util then s2 else searchMember S lim pair loads m ps s2

/-- `is_section`, frame_member.py 1171-1176. -/
def sameSection (p q : Prof K) : Bool := decide ((p.area - q.area) ^ 2 + (p.inertia - q.inertia) ^ 2 < 1 / 1000000)

/-- `SteelFrameMember.optimum_design`, frame_member.py 1205-1259: the result tells whether the profile changed. -/
def optimumMember (S : Setup K F) (lim : Limits K) (pair : ℕ → Option ℕ) (loads : List ℕ) (s : DState K F) (m : ℕ) : DState K F × Bool :=
  match s.sections[m]? with
  | none => (s, false)
  | some p0 =>
    let s' := searchMember S lim pair loads m (S.profs p0) s
    match s'.sections[m]? with
    | none => (s', false)
    | some p => (s', !sameSection p p0)

/-- `MemberGroup.cross_section = p`, frame_member.py 1413-1421. -/
def setAll (pair : ℕ → Option ℕ) (ms : List ℕ) (p : Prof K) (s : DState K F) : DState K F := ms.foldl (fun s m => s.setSection pair m p) s

/-- `MemberGroup.design` of one load case, frame_member.py 1453-1467: the largest utilization, at least zero. -/
def designGroup (S : Setup K F) (s : DState K F) (ms : List ℕ) (l : ℕ) : DState K F × K :=
  ms.foldl (fun r m => let s1 := r.1.design S m l; (s1, max r.2 (s1.util m l))) (s, 0)

/-- `MemberGroup.design` of all load cases and the condition for ending the search, frame_member.py 1516-1520. -/
def designGroupAll (S : Setup K F) (u : K) (ms : List ℕ) (loads : List ℕ) (s : DState K F) : DState K F × Bool :=
  loads.foldl (fun r l => let d := designGroup S r.1 ms l; (d.1, r.2 && decide (d.2 ≤ u))) (s, true)

/-- The loop over the profiles, frame_member.py 1487-1520. The check of the slenderness, 1504-1513, has no effect: `continue` continues
the loop over the members. -/
def searchGroup (S : Setup K F) (lim : Limits K) (pair : ℕ → Option ℕ) (loads : List ℕ) (ms : List ℕ) : List (Prof K) → DState K F → DState K F
  | [], s => s
  | p' :: ps, s =>
    let p := p'.graded lim.material
    let s1 := setAll pair ms p s
    if decide (p.b < lim.bmin ∨ lim.bmax < p.b) || decide (lim.cls < S.cls p) then searchGroup S lim pair loads ms ps s1
    else
      let r := designGroupAll S lim.util ms loads s1
      if r.2 then r.1 else searchGroup S lim pair loads ms ps r.1

/-- `MemberGroup.optimum_design`, frame_member.py 1469-1530; `MemberGroup.cross_section` is the section of the first member. -/
def optimumGroup (S : Setup K F) (lim : Limits K) (pair : ℕ → Option ℕ) (loads : List ℕ) (s : DState K F) (ms : List ℕ) : DState K F :=
  match ms.head?.bind (fun m => s.sections[m]?) with
  | none => s
  | some p0 => searchGroup S lim pair loads ms (S.profs p0) s

/-- `structural_analysis('all')`, raami.py 323-374, with the design of all members. -/
def DState.analyse (S : Setup K F) (s : DState K F) (loads : List ℕ) : DState K F :=
  let s1 := { s with forces := S.force s.sections }
  loads.foldl (fun s l => (List.range s.sections.length).foldl (fun s m => s.design S m l) s) s1

/-- The members that are not in a group, raami.py 437-447: the state, the members explored, and whether a profile changed. -/
def memberStep (S : Setup K F) (lim : Limits K) (pair : ℕ → Option ℕ) (loads : List ℕ) (r : DState K F × List ℕ × Bool) (m : ℕ) : DState K F × List ℕ × Bool :=
  if m ∈ r.2.1 then r
  else
    let o := optimumMember S lim pair loads r.1 m
    (o.1, r.2.1 ++ [m] ++ (pair m).toList, r.2.2 || o.2)

/-- One iteration of `optimize_members`, raami.py 422-451. -/
def iteration (S : Setup K F) (lim : Limits K) (pair : ℕ → Option ℕ) (groups : List (List ℕ)) (loads : List ℕ) (s : DState K F) : DState K F × Bool :=
  let s1 := s.analyse S loads
  let s2 := groups.foldl (optimumGroup S lim pair loads) s1
  let r := (List.range s.sections.length).foldl (memberStep S lim pair loads) (s2, groups.flatten, false)
  (r.1, r.2.2)

/-- The loop of `optimize_members`, raami.py 419-453: the state, and whether it ended because nothing changed. -/
def optimizeLoop (S : Setup K F) (lim : Limits K) (pair : ℕ → Option ℕ) (groups : List (List ℕ)) (loads : List ℕ) : ℕ → DState K F → DState K F × Bool
  | 0, s => (s, false)
  | k + 1, s =>
    let r := iteration S lim pair groups loads s
    if r.2 then optimizeLoop S lim pair groups loads k r.1 else (r.1, true)

/-- `optimize_members`: `k` runs from 1 to 9, with the default limits of `optimum_design`. -/
def optimizeMembers (S : Setup K F) (pair : ℕ → Option ℕ) (groups : List (List ℕ)) (loads : List ℕ) (s : DState K F) : DState K F × Bool :=
  optimizeLoop S ⟨355, 3, 1, 10, 100000, 5⟩ pair groups loads 9 s

end Metku.Raami
