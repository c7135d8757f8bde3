import Verif.Model.Elements

/-!
Model of the pin-jointed trusses `metku/raami/raami_simple_truss.py` (24-124: `SimpleTruss` and its members; 126-258: example trusses) and `metku/frame2d/simple_truss.py` (28-110, 112-230).

Simplifications: coordinates are numbers of an ordered field, not rounded. A section is the pair of its modulus of elasticity and area. A member has one rod element (`nel=1`, `num_elements=1`); its length is any number, since the finite element rounds it (framefem.py 1638-1651). Displacements are two numbers for each node: rods have no rotations.
-/
namespace Metku.STruss

open Metku Matrix

variable {K : Type} [Field K] [LinearOrder K] [IsStrictOrderedRing K]

/-- A member: its number, its end nodes and its section. -/
structure Mem (n : ℕ) (S : Type) where
  id : ℕ
  a : Fin n
  b : Fin n
  sec : S

/-- Kinds of members: `truss_type` `'general'`, `'steel'` and other strings. -/
inductive TType
  | general
  | steel
  | other
deriving DecidableEq

/-- Position of `nodes[i]` in a list of `n` nodes; negative numbers count from the end. -/
def resolve (n : ℕ) (i : ℤ) : Except PyErr (Fin n) :=
  if h : 0 ≤ i ∧ i < n then .ok ⟨i.toNat, by omega⟩
  else if h : i < 0 ∧ 0 ≤ i + n then .ok ⟨(i + n).toNat, by omega⟩
  else .error .indexError

/-- `add` of a member, raami_simple_truss.py 79-97 for general members, raami.py 108-122 for steel members (which are no `SimpleTrussMember`). -/
def addMem {n : ℕ} {S : Type} (ms : List (Mem n S)) (a b : Fin n) (s : S) : List (Mem n S) :=
  ms ++ [⟨ms.length, a, b, s⟩]

/-- The loop over members and profiles, raami_simple_truss.py 69-75: other types create no member. -/
def buildLoop {S : Type} (n : ℕ) (t : TType) :
    List (ℤ × ℤ) → List S → List (Mem n S) → Except PyErr (List (Mem n S))
  | m :: ms, p :: ps, acc => do
    let a ← resolve n m.1
    let b ← resolve n m.2
    buildLoop n t ms ps (if t = .other then acc else addMem acc a b p)
  | _, _, acc => .ok acc

/-- `SimpleTruss.__init__`, raami_simple_truss.py 39-75, for `n` nodes; simple_truss.py 43-70 is the type `general`. -/
def build {S : Type} (n : ℕ) (t : TType) (members : List (ℤ × ℤ)) (profiles : List S) :
    Except PyErr (List (Mem n S)) := buildLoop n t members profiles []

/-! ### Analysis -/

/-- Forces of a rod on its end nodes for given displacements: `Rod.stiffness_matrix` (rod.py 80-90) times the displacements of the end nodes. -/
def rodNodal {n : ℕ} (pos : Fin n → K × K) (len : ℕ → K) (u : Fin n → K × K) (m : Mem n (K × K)) : Fin 4 → K :=
  Fem.rodK2 m.sec.1 m.sec.2 (len m.id)
      (Fem.dirCos ((pos m.b).1 - (pos m.a).1) (len m.id))
      (Fem.dirCos ((pos m.b).2 - (pos m.a).2) (len m.id)) *ᵥ
    ![(u m.a).1, (u m.a).2, (u m.b).1, (u m.b).2]

/-- Assembled stiffness matrix times displacements at node `i`, framefem.py 396-425. -/
def nodal {n : ℕ} (pos : Fin n → K × K) (len : ℕ → K) (ms : List (Mem n (K × K))) (u : Fin n → K × K)
    (i : Fin n) : K × K :=
  (ms.map fun m => (if m.a = i then (rodNodal pos len u m 0, rodNodal pos len u m 1) else 0) +
    (if m.b = i then (rodNodal pos len u m 2, rodNodal pos len u m 3) else 0)).sum

/-- The equations solved by `linear_statics`: supported nodes do not move, the other ones are in equilibrium with their loads. -/
def Solves {n : ℕ} (pos : Fin n → K × K) (len : ℕ → K) (ms : List (Mem n (K × K))) (fixed : Fin n → Bool)
    (load u : Fin n → K × K) : Prop :=
  ∀ i, if fixed i then u i = 0 else nodal pos len ms u i = load i

/-- Axial force of a member, `Rod.internal_forces`, rod.py 144-153. -/
def axial {n : ℕ} (pos : Fin n → K × K) (len : ℕ → K) (u : Fin n → K × K) (m : Mem n (K × K)) : K :=
  (Fem.rodForces2 m.sec.1 m.sec.2 (len m.id)
    (Fem.dirCos ((pos m.b).1 - (pos m.a).1) (len m.id))
    (Fem.dirCos ((pos m.b).2 - (pos m.a).2) (len m.id))
    ![(u m.a).1, (u m.a).2, (u m.b).1, (u m.b).2]).1

/-! ### Example trusses -/

/-- Nodes of `three_bar_truss`, raami_simple_truss.py 140, simple_truss.py 117; `c` is `sqrt(3) * L`, rounded in simple_truss.py. -/
def threePos (L c : K) : Fin 4 → K × K := ![(0, 0), (-L, L), (0, L), (c, L)]
/-- Members, raami_simple_truss.py 145. -/
def threeMems : List (ℤ × ℤ) := [(0, 1), (0, 2), (0, 3)]
/-- Supports, raami_simple_truss.py 163-165. -/
def threeFixed : Fin 4 → Bool := ![false, true, true, true]
/-- Loads of the load cases, raami_simple_truss.py 168-175: `(load_id, load of node 0)`. -/
def threeLoads (F1 F2 : K) (nlc : ℕ) : List (ℕ × (K × K)) :=
  if nlc = 1 then [(0, (F2, F1))] else [(2, (F2, 0)), (3, (0, F1))]
/-- A load at node 0 only. -/
def threeLoad (p : K × K) : Fin 4 → K × K := ![p, 0, 0, 0]

/-- Nodes of `ten_bar_truss`, raami_simple_truss.py 191-197. -/
def tenPos (L : K) : Fin 6 → K × K := ![(2 * L, L), (2 * L, 0), (L, L), (L, 0), (0, 0), (0, L)]
/-- Members, raami_simple_truss.py 199. -/
def tenMems : List (ℤ × ℤ) :=
  [(4, 2), (2, 0), (5, 3), (3, 1), (2, 3), (0, 1), (4, 3), (5, 2), (2, 1), (3, 0)]
/-- Supports, raami_simple_truss.py 211-212. -/
def tenFixed : Fin 6 → Bool := ![false, false, false, false, true, true]
/-- Loads, raami_simple_truss.py 208-209. -/
def tenLoad (F : K) : Fin 6 → K × K := ![0, (0, -F), 0, (0, -F), 0, 0]

/-- Nodes of `fifteen_bar_truss`, simple_truss.py 196-204 (raami_simple_truss.py 225-233 is the same, but ends with AttributeError at 252: there is no `generate`). -/
def fifteenPos (L h : K) : Fin 8 → K × K :=
  ![(0, h), (L / 3, h), (2 * L / 3, h), (L, h), (0, 0), (L / 3, 0), (2 * L / 3, 0), (L, 0)]
/-- Members, raami_simple_truss.py 235-239. -/
def fifteenMems : List (ℤ × ℤ) :=
  [(0, 1), (1, 2), (2, 3), (4, 5), (5, 6), (6, 7), (5, 1), (6, 2), (7, 3), (0, 5), (4, 1), (1, 6), (5, 2),
    (2, 7), (6, 3)]
/-- Supports, raami_simple_truss.py 249-250. -/
def fifteenFixed : Fin 8 → Bool := ![true, false, false, false, true, false, false, false]

end Metku.STruss
