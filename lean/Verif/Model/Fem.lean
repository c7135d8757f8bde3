import Mathlib.Data.Matrix.Mul
import Mathlib.Algebra.Order.Field.Basic
import Verif.Model.PyErr

/-!
Model of `metku/framefem/framefem.py`, class `FrameFEM`: numbering of degrees of freedom, assembly
of stiffness matrix and load vector, and linear statics.

Simplifications used throughout:
* floats are elements of an exact field `K`;
* nodes are referred to by their position in `model.nodes` (the code holds references to the node objects);
* a numpy matrix is a function `Nat → Nat → K` (resp. `Nat → K`) together with the bound `dofs`;
* the element stiffness `elem.stiffness_matrix()` is a stored function `ke` (its values are modelled in
  `Verif.Model.Elements`).
-/
namespace Metku.Fem

open Metku

/-- Look-up that raises when nothing is found (Python's `d[key]`, `l[i]`, or a failing solver call). -/
def getOr {α : Type} (o : Option α) (e : PyErr) : Except PyErr α :=
  match o with
  | some a => .ok a
  | none => .error e

/-- Element kinds, by their `init_dofs` / `global_dofs`:
    `rod d`     `elements/rod.py` 41-57 and `elements/springs.py` 47-59 (`dim = d`),
    `beam2`     `elements/ebbeam.py` 77-93,
    `beam3`     `elements/ebbeam.py` 707-713, 769-777. -/
inductive Kind
  | rod (dim : Nat) | beam2 | beam3
  deriving DecidableEq, Repr

/-- Number of leading entries of `node.dofs` set to 0 by `init_dofs`
    (rod.py 48-57: entries 0,1 and, if `dim == 3`, entry 2; springs.py 54-59: `[:dim]`;
    ebbeam.py 77-82: `[:3]`; ebbeam.py 707-713: `[:6]`). -/
def Kind.lead : Kind → Nat
  | .rod d => if d = 3 then 3 else 2
  | .beam2 => 3
  | .beam3 => 6

/-- Number of leading entries of `node.dofs` that `global_dofs` takes from each node
    (rod.py 41-44: `dofs[:dim]`; ebbeam.py 93, 777: all of them, i.e. `none`). -/
def Kind.taken : Kind → Option Nat
  | .rod d => some d
  | .beam2 => none
  | .beam3 => none

/-- An element of the model: kind, its two nodes, and its global stiffness matrix
    (framefem.py 1571-1592 `Element.__init__`). -/
structure Elem (K : Type) where
  kind : Kind
  n1 : Nat
  n2 : Nat
  ke : Nat → Nat → K

/-- `Support(sid, node, dof)`, framefem.py 1195-1212.  The prescribed value `val` is stored by the code
    but never read, so it is left out; Python's negative indices in `dof` are not modelled. -/
structure Support where
  sid : Nat
  node : Nat
  dof : List Nat

/-- `PointLoad` (framefem.py 1280-1288) and `LineLoad` (1344-1357); of the line load only the vector
    returned by `equivalent_nodal_loads` is kept (modelled in `Verif.Model.Elements`). -/
inductive Load (K : Type)
  | point (sid node : Nat) (v : List K) (f : K)
  | line (sid elem : Nat) (F : List K)

/-- `load.sid`, framefem.py 1231-1232. -/
def Load.sid {K : Type} : Load K → Nat
  | .point s _ _ _ => s
  | .line s _ _ => s

/-- `LoadCase(support, load)`, framefem.py 1419-1421. -/
structure LoadCase where
  support : Nat
  load : Nat

/-- State of a `FrameFEM` object as far as linear statics is concerned, framefem.py 47-83.
    `dofv` are the arrays `node.dofs`, `u lc` the arrays `node.u[lc]` (missing key = `none`),
    `dofs` the attribute `self.dofs`, `p` the attribute `self.p` (absent until set). -/
structure Model (K : Type) where
  dofv : List (List Int)
  u : Nat → Option (List (List K))
  elems : List (Elem K)
  supports : List Support
  loads : List (Load K)
  loadcases : Nat → Option LoadCase
  dofs : Nat
  p : Option (List (List K))

/-- Fresh `node.dofs`: framefem.py 1475 (3D) and 1482 (2D). -/
def freshDofs (dim : Nat) : List Int := if dim = 3 then List.replicate 6 (-1) else List.replicate 3 (-1)

/-- `n.dofs[:k] = 0`, ebbeam.py 82 and 713, springs.py 59, rod.py 53-57. -/
def initNode (k : Nat) (dofs : List Int) : List Int :=
  dofs.mapIdx fun i d => if i < k then 0 else d

/-- `elem.init_dofs()`: both end nodes are initialised (rod.py 52, ebbeam.py 81). -/
def initElem {K : Type} (dofv : List (List Int)) (e : Elem K) : List (List Int) :=
  (dofv.modify e.n1 (initNode e.kind.lead)).modify e.n2 (initNode e.kind.lead)

/-- Inner loop over the entries of one node's `dofs`, framefem.py 355-365;
    the counter is `self.dofs`. -/
def numberNode : List Int → Nat → List Int × Nat
  | [], c => ([], c)
  | d :: ds, c =>
    if d ≥ 0 then
      let r := numberNode ds (c + 1)
      ((c : Int) :: r.1, r.2)
    else
      let r := numberNode ds c
      (d :: r.1, r.2)

/-- Outer loop over the nodes, framefem.py 354. -/
def numberNodes : List (List Int) → Nat → List (List Int) × Nat
  | [], c => ([], c)
  | n :: ns, c =>
    let r := numberNode n c
    let s := numberNodes ns r.2
    (r.1 :: s.1, s.2)

/-- `FrameFEM.nodal_dofs`, framefem.py 336-366. -/
def nodalDofs {K : Type} (m : Model K) : Model K :=
  let r := numberNodes (m.elems.foldl initElem m.dofv) 0
  { m with dofv := r.1, dofs := r.2 }

/-- The part of `node.dofs` used by an element (rod.py 43-44, ebbeam.py 93). -/
def takeDofs (k : Option Nat) (d : List Int) : List Int :=
  match k with
  | none => d
  | some k => d.take k

/-- `elem.global_dofs()`: rod.py 41-44, ebbeam.py 85-93, 769-777.
    (A node outside the model has no dofs here; the properties assume nodes of the model.) -/
def globalDofs {K : Type} (dofv : List (List Int)) (e : Elem K) : List Int :=
  takeDofs e.kind.taken ((dofv[e.n1]?).getD []) ++ takeDofs e.kind.taken ((dofv[e.n2]?).getD [])

/-- numpy's `A[idx] += vals` for index arrays, used in framefem.py 429, 461, 523:
    the old values are gathered once, then written one after another – when an index repeats,
    the last write wins. -/
def fancyAdd {ι K : Type} [DecidableEq ι] [Add K] (A : ι → K) (W : List (ι × K)) : ι → K :=
  W.foldl (fun M w => Function.update M w.1 (A w.1 + w.2)) A

/-- `nz = ve >= 0; q = ve[nz]`, framefem.py 418-419: the pairs (position in the element vector,
    global number) of the active entries. -/
def activeIdx (ve : List Int) : List (Nat × Nat) :=
  ve.zipIdx.filterMap fun da => if 0 ≤ da.1 then some (da.2, da.1.toNat) else none

/-- The write requests of `K[np.ix_(q,q)] += ke[np.ix_(nz,nz)]`, framefem.py 429. -/
def elemWrites {K : Type} (ke : Nat → Nat → K) (ve : List Int) : List ((Nat × Nat) × K) :=
  (activeIdx ve).flatMap fun r => (activeIdx ve).map fun c => ((r.2, c.2), ke r.1 c.1)

/-- `FrameFEM.global_stiffness_matrix`, framefem.py 396-431; entries with an index `≥ dofs` do not exist
    in the code (that no write goes there is theorem `C02_no_out_of_range`). -/
def globalStiffness {K : Type} [Field K] (dofv : List (List Int)) (elems : List (Elem K)) : Nat × Nat → K :=
  elems.foldl (fun M e => fancyAdd M (elemWrites e.ke (globalDofs dofv e))) (fun _ => 0)

/-- `F[nzero_dofs], dofs[nzero_dofs]`, framefem.py 1304-1320 and 1384-1395; a Boolean mask of another
    length raises `IndexError`. -/
def maskLoad {K : Type} (dofs : List Int) (F : List K) : Except PyErr (List (Nat × K)) :=
  if dofs.length = F.length then
    .ok ((dofs.zip F).filterMap fun dx => if 0 ≤ dx.1 then some (dx.1.toNat, dx.2) else none)
  else .error .indexError

/-- `load.load_and_dofs()`: PointLoad framefem.py 1290-1320, LineLoad 1359-1395. -/
def loadAndDofs {K : Type} [Field K] (dofv : List (List Int)) (elems : List (Elem K)) :
    Load K → Except PyErr (List (Nat × K))
  | .point _ n v f => maskLoad ((dofv[n]?).getD []) (v.map (f * ·))
  | .line _ e F =>
    match elems[e]? with
    | some el => maskLoad (globalDofs dofv el) F
    | none => .error .indexError

/-- `FrameFEM.global_load_vector`, framefem.py 498-526. -/
def globalLoad {K : Type} [Field K] (dofv : List (List Int)) (elems : List (Elem K)) (loads : List (Load K))
    (sid : Nat) : Except PyErr (Nat → K) :=
  loads.foldlM (fun g l =>
    if l.sid = sid then do
      let W ← loadAndDofs dofv elems l
      pure (fancyAdd g W)
    else pure g) (fun _ => 0)

/-- Loop over supports collecting the supported numbers, framefem.py 603-619 (`REM` branch):
    `i = node_dofs[dof]; if i > -1: rem_dofs.append(i)`. -/
def remDofs (dofv : List (List Int)) (supports : List Support) (sid : Nat) : Except PyErr (List Nat) := do
  let ls ← (supports.filter (·.sid = sid)).mapM fun s => do
    let is ← s.dof.mapM fun j => getOr ((dofv[s.node]?).getD [])[j]? .indexError
    pure (is.filterMap fun i => if i > -1 then some i.toNat else none)
  pure ls.flatten

/-- `np.delete(np.arange(dofs), rem_dofs)`, framefem.py 600 and 633. -/
def keepDofs (n : Nat) (rem : List Nat) : List Nat :=
  (List.range n).filter (· ∉ rem)

/-- `np.linalg.solve` for one right-hand side: a parameter; `none` is `LinAlgError`. -/
abbrev Solver (K : Type) := (n : Nat) → Matrix (Fin n) (Fin n) K → (Fin n → K) → Option (Fin n → K)

/-- `node.u[lc][np.where(node.dofs==d)] = ui` for one node, framefem.py 678. -/
def scatterNode {K : Type} (dofs : List Int) (u : List K) (d : Nat) (ui : K) : List K :=
  List.zipWith (fun x y => if x = (d : Int) then ui else y) dofs u

/-- `for ui, d in zip(u, glob_dofs): for node in nodes: ...`, framefem.py 673-680. -/
def scatter {K : Type} (dofv : List (List Int)) (u : List (List K)) (sol : List (Nat × K)) : List (List K) :=
  sol.foldl (fun u du => List.zipWith (fun ds v => scatterNode ds v du.1 du.2) dofv u) u

/-- The reduced matrix `np.delete(np.delete(K,rem,0),rem,1)`, framefem.py 627-628. -/
def reducedK {K : Type} (Kg : Nat × Nat → K) (keep : List Nat) :
    Matrix (Fin keep.length) (Fin keep.length) K :=
  fun a b => Kg (keep[a], keep[b])

/-- `if not self.dofs: self.nodal_dofs()`, framefem.py 556-557. -/
def ensureNumbered {K : Type} (m : Model K) : Model K :=
  if m.dofs = 0 then nodalDofs m else m

/-- One load case of `FrameFEM.linear_statics(lc, support_method='REM')` after the numbering step,
    framefem.py 559-684 up to (not including) the element internal forces.
    Returns the new state. -/
def staticsREM {K : Type} [Field K] (solve : Solver K) (m : Model K) (lc : Nat) :
    Except PyErr (Model K) := do
  let Kg := globalStiffness m.dofv m.elems
  let case ← getOr (m.loadcases lc) .keyError
  let p ← globalLoad m.dofv m.elems m.loads case.load
  let rem ← remDofs m.dofv m.supports case.support
  let keep := keepDofs m.dofs rem
  let sol ← getOr (solve keep.length (reducedK Kg keep) (fun a => p keep[a])) .linAlgError
  let u0 ← getOr (m.u lc) .keyError
  let pairs := List.ofFn fun a : Fin keep.length => (keep[a], sol a)
  pure { m with
    u := Function.update m.u lc (some (scatter m.dofv u0 pairs))
    p := some [List.ofFn fun a : Fin keep.length => p keep[a]] }

/-- `FrameFEM.linear_statics(lc, support_method='REM')`, framefem.py 540-684. -/
def linearStaticsREM {K : Type} [Field K] (solve : Solver K) (m : Model K) (lc : Nat) :
    Except PyErr (Model K) :=
  staticsREM solve (ensureNumbered m) lc

/-- `FrameFEM.linear_statics(lc)` with the default `support_method='ZERO'`, framefem.py 540-684.
    `np.linalg.solve(K, self.p)` reads the attribute `self.p`, which only the `REM` branch sets
    (line 639); on success of the solve the loop at 656-666 indexes `node.u` with the *list* `lcase`
    (set at 563-564), which raises `TypeError` at the first active degree of freedom.
    A shape mismatch of `K` and `self.p` raises `ValueError` (`LinAlgError` is a subclass). -/
def linearStaticsZERO {K : Type} [Field K] (solve : Solver K) (m0 : Model K) (lc : Nat) :
    Except PyErr (Model K) := do
  let m := ensureNumbered m0
  let Kg := globalStiffness m.dofv m.elems
  let case ← getOr (m.loadcases lc) .keyError
  let _ ← globalLoad m.dofv m.elems m.loads case.load
  let rem ← remDofs m.dofv m.supports case.support
  let Kz : Matrix (Fin m.dofs) (Fin m.dofs) K := fun a b =>
    if a.1 ∈ rem ∨ b.1 ∈ rem then (if a = b then 1 else 0) else Kg (a, b)
  match m.p with
  | none => .error .attributeError
  | some cols =>
    if cols.all (fun c => c.length = m.dofs) then
      match cols.mapM (fun c => solve m.dofs Kz (fun a => c.getD a 0)) with
      | none => .error .linAlgError
      | some _ =>
        if m.dofv.any (fun ds => ds.any (fun d => 0 ≤ d)) then .error .typeError else .ok m
    else .error .valueError

end Metku.Fem
