import Verif.Model.Fem

/-!
Model of complete analyses of `FrameFEM` (framefem.py 540-904): linear statics up to and including the element forces,
second-order analysis and linear buckling with the supports removed (`'REM'`).

Python looks methods up by class and checks the number of arguments at the call: the element classes do not all offer the
methods the analyses call.  That is what `Cls` records.  Which of two errors of one analysis is raised first is only modelled as far
as the order of the steps given here.
-/
namespace Metku.Fem

open Metku

/-- Element classes: `Rod` (elements/rod.py 15), `LinearSpring` (elements/springs.py 20), `EBBeam` (elements/ebbeam.py 15),
    `EBSemiRigidBeam` (elements/eb_semi_rigid_beam.py 27), `EBBeam3D` (elements/ebbeam.py 627). -/
inductive Cls | rod | spring | beam | semi | beam3
  deriving DecidableEq

/-- Whether `transformation_matrix(initial)` can be called with an argument, as `Element.local_displacements` does
    (framefem.py 1730): rod.py 32 and ebbeam.py 58 have the parameter; springs.py 39, eb_semi_rigid_beam.py 75 and
    ebbeam.py 752 have none, so the call raises `TypeError`. -/
def Cls.acceptsInitial : Cls → Bool
  | .rod => true
  | .beam => true
  | _ => false

/-- Whether `equivalent_nodal_loads(load, order)` can be called with two arguments, as `LineLoad.load_and_dofs` does
    (framefem.py 1381): only ebbeam.py 360; rod.py 121, springs.py 118, eb_semi_rigid_beam.py 231 and ebbeam.py 861 take one. -/
def Cls.acceptsOrder : Cls → Bool
  | .beam => true
  | _ => false

/-- What else belongs to an element, besides its stiffness (`Elem.ke`): its class, the end forces its `internal_forces` stores for
    a load case from its nodal displacements (modelled in `Verif.Model.Elements`; the stored `floc` is part of the function), and,
    from such stored forces, the geometric stiffness (ebbeam.py 226-244), the second-order stiffness
    (ebbeam.py 246-357, it may raise) and the second-order end forces (586-625), all in global directions. -/
structure ElInfo (K : Type) where
  cls : Cls
  force : Nat → List K → List K
  geo : List K → Nat → Nat → K
  stiff2 : List K → Except PyErr (Nat → Nat → K)
  force2 : Nat → List K → List K → List K

/-- A model with the additional data of its elements and the vectors of all loads for second-order analysis
    (`load.load_and_dofs(order=2)`, framefem.py 1359-1395, which reads the stored forces). -/
structure AModel (K : Type) where
  fem : Model K
  info : List (ElInfo K)
  loads2 : List (List K) → Except PyErr (List (Load K))

/-- The part of a node's displacements an element takes: `u[:dim]` (rod.py 163, springs.py 136) or all (framefem.py 1711-1716). -/
def takeU {K : Type} (k : Option Nat) (u : List K) : List K :=
  match k with
  | none => u
  | some k => u.take k

/-- `nodal_displacements(lcase)`, framefem.py 1699-1717, rod.py 156-163. -/
def nodalDisp {K : Type} (e : Elem K) (u : List (List K)) : List K :=
  takeU e.kind.taken ((u[e.n1]?).getD []) ++ takeU e.kind.taken ((u[e.n2]?).getD [])

/-- `el.internal_forces(lcase)`: every version starts with `self.local_displacements(lcase)` (rod.py 147, springs.py 125,
    ebbeam.py 552, 1013), framefem.py 1719-1733. -/
def internalForces {K : Type} (lc : Nat) (u : List (List K)) (p : Elem K × ElInfo K) : Except PyErr (List K) :=
  if p.2.cls.acceptsInitial then .ok (p.2.force lc (nodalDisp p.1 u)) else .error .typeError

/-- The line loads of a case sit on elements that take them: one step of `global_load_vector`, framefem.py 513-523, 1381. -/
def lineCheck {K : Type} (info : List (ElInfo K)) (sid : Nat) (l : Load K) : Except PyErr Unit :=
  match l with
  | .point _ _ _ _ => .ok ()
  | .line s e _ =>
    if s = sid then
      match info[e]? with
      | some i => if i.cls.acceptsOrder then .ok () else .error .typeError
      | none => .error .indexError
    else .ok ()

/-- `FrameFEM.linear_statics(lc, support_method='REM')`, framefem.py 540-690, to its end: the new state and the stored forces of the
    elements in the order of `model.elements`.  (When the last step raises, the displacements have been stored.) -/
def linearStatics {K : Type} [Field K] (solve : Solver K) (m : AModel K) (lc : Nat) :
    Except PyErr (Model K × List (List K)) := do
  let case ← getOr (m.fem.loadcases lc) .keyError
  let _ ← m.fem.loads.mapM (lineCheck m.info case.load)
  let m1 ← linearStaticsREM solve m.fem lc
  let u ← getOr (m1.u lc) .keyError
  let fs ← (m1.elems.zip m.info).mapM (internalForces lc u)
  pure (m1, fs)

/-- `elem.second_order_stiffness_matrix(lcase)`, framefem.py 484: only `EBBeam` (and its subclass) has it. -/
def stiff2Of {K : Type} (p : (Elem K × ElInfo K) × List K) : Except PyErr (Elem K) :=
  if p.1.2.cls = .beam then do
    let k ← p.1.2.stiff2 p.2
    pure { p.1.1 with ke := k }
  else .error .attributeError

/-- `FrameFEM.second_order_analysis(lc, support_method='REM')`, framefem.py 690-757.  The state carries the second-order
    displacements `node.u2[lc]` separately (`u2`).  The stiffness is assembled as in linear statics (467-495), the load vector is
    taken for the id `lc` (702), the supported numbers are those found by `linear_statics` (714-717), the result is distributed in
    the same way (745-753); so the second half is `staticsREM` of a model with the second-order data. -/
def secondOrder {K : Type} [Field K] (solve : Solver K) (m : AModel K) (u2 : Nat → Option (List (List K))) (lc : Nat) :
    Except PyErr (Model K × Model K × List (List K)) := do
  let (m1, fs) ← linearStatics solve m lc
  let els2 ← ((m1.elems.zip m.info).zip fs).mapM stiff2Of
  let loads2 ← m.loads2 fs
  let case ← getOr (m1.loadcases lc) .keyError
  let m2 ← staticsREM solve
    { m1 with u := u2, elems := els2, loads := loads2, loadcases := fun _ => some ⟨case.support, lc⟩ } lc
  let u ← getOr (m2.u lc) .keyError
  pure (m1, m2, ((m1.elems.zip m.info).zip fs).map fun p => p.1.2.force2 lc p.2 (nodalDisp p.1.1 u))

/-- `elem.geometric_stiffness_matrix(lcase)`, framefem.py 450: `EBBeam` (ebbeam.py 226) has it; those of `Rod` (rod.py 104-117)
    and `LinearSpring` (springs.py 100-116) start with `np.array` of rows of different lengths, which raises `ValueError`
    (and go on to the attribute `find`, which does not exist); `EBBeam3D` has none. -/
def geoOf {K : Type} (p : (Elem K × ElInfo K) × List K) : Except PyErr (Elem K) :=
  match p.1.2.cls with
  | .beam => .ok { p.1.1 with ke := p.1.2.geo p.2 }
  | .semi => .ok { p.1.1 with ke := p.1.2.geo p.2 }
  | .rod => .error .valueError
  | .spring => .error .valueError
  | .beam3 => .error .attributeError

/-- `scipy.sparse.linalg.eigsh(K, k, M=-KG, …)`: a parameter; it returns load factors with vectors, `none` stands for an
    exception. -/
abbrev EigSolver (K : Type) :=
  (n : Nat) → Matrix (Fin n) (Fin n) K → Matrix (Fin n) (Fin n) K → Nat → Option (List (K × (Fin n → K)))

/-- `node.v`: all zero, then the entries of the mode, framefem.py 886-902; the free numbers (`global_free_dofs`, 391-394, a set)
    are taken in increasing order, which is the order CPython gives for such sets. -/
def modeAtNodes {K : Type} [Zero K] (dofv : List (List Int)) (keep : List Nat) (x : Fin keep.length → K) : List (List K) :=
  scatter dofv (dofv.map fun d => d.map fun _ => 0) (List.ofFn fun a : Fin keep.length => (keep[a], x a))

/-- `FrameFEM.linear_buckling(lc, k)`, framefem.py 797-904: load factors with the modes stored at the nodes. -/
def linearBuckling {K : Type} [Field K] (solve : Solver K) (eig : EigSolver K) (m : AModel K) (lc k : Nat) :
    Except PyErr (Model K × List (K × List (List K))) := do
  let (m1, fs) ← linearStatics solve m lc
  let els ← ((m1.elems.zip m.info).zip fs).mapM geoOf
  let case ← getOr (m1.loadcases lc) .keyError
  let rem ← remDofs m1.dofv m1.supports case.support
  let keep := keepDofs m1.dofs rem
  let ws ← getOr (eig keep.length (reducedK (globalStiffness m1.dofv m1.elems) keep)
    (-reducedK (globalStiffness m1.dofv els) keep) k) .valueError
  pure (m1, ws.map fun wx => (wx.1, modeAtNodes m1.dofv keep wx.2))

end Metku.Fem
