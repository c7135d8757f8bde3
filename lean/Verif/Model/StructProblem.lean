import Mathlib.Algebra.Order.Field.Basic
import Mathlib.Data.List.Basic
import Verif.Model.PyErr

/-!
Model of `metku/optimization/problems/structural_problem.py`: the optimisation problem of a frame or truss, with its
design variables, its constraints and the grouping of both.

Floats are elements of an ordered field.  A constraint function takes no part of the vector of variables: it reads the
structure.  A constraint is therefore given with the value that its function has in the state of the structure at hand.
Resistances, internal forces, utilisations and dimensions are numbers of that state.  Angles of braces are in degrees
(`np.degrees` of the code is left out).  Two constraint objects are never equal (no class defines `__eq__`), so that `add`
always appends.  The objective and the plots are not modelled.
-/
namespace Metku.SProb

open Metku

variable {K : Type} [Field K] [LinearOrder K] [IsStrictOrderedRing K]

/-- Division of Python floats (used throughout structural_problem.py). -/
def fdiv (x y : K) : Except PyErr K := if y = 0 then .error .zeroDivision else .ok (x / y)

/-- `min(list)` and `max(list)` of Python (lines 438, 441, 450). -/
def pymin : List K → Except PyErr K
  | [] => .error .valueError
  | a :: l => .ok (l.foldl min a)

/-- See `pymin`. -/
def pymax : List K → Except PyErr K
  | [] => .error .valueError
  | a :: l => .ok (l.foldl max a)

/-! ### What the class reads of a structure -/

/-- A finite element: number, and the attributes of the object that hold a pair of numbers, one for each end. -/
structure Elem (K : Type) where
  (eid : ℕ)
  (attrs : String → Option (K × K))

/-- Reading an attribute of an object. -/
def Elem.get (e : Elem K) (a : String) : Except PyErr (K × K) :=
  match e.attrs a with
  | some v => .ok v
  | none => .error .attributeError

/-- An element as `Element.__init__` makes it, framefem.py 1571-1585: the internal forces of a load case are in `fint`;
    `axial_force`, `shear_force` and `bending_moment` are commented out, and no subclass sets them
    (ebbeam.py 576-580 is inside a string). -/
def Elem.new (eid : ℕ) : Elem K := ⟨eid, fun _ => none⟩

/-- `isinstance` of a cross-section, as far as it is asked for. -/
inductive SecKind
  | rhs | isec | wisec | other
  deriving DecidableEq, Repr

/-- A cross-section: kind, width and thickness of the web (`cw, tw` or `c_web, T`) and of the flange (`cf_top, tt` or
    `c_flange, T`), `eps`. -/
structure Sec (K : Type) where
  (kind : SecKind)
  (cw tw cf tf eps : K)

/-- A steel member of a frame member (`mem.members`): axial forces and moments at its sections, buckling resistances,
    moment resistance to lateral-torsional buckling, `check_beamcolumn` by section class, kind of its profile. -/
structure Sub (K : Type) where
  (ned myed : List K)
  (NbRd : K × K)
  (MbRd : K)
  (beamcol : ℕ → K × K)
  (profile : SecKind)

/-- A frame member: number, cross-section, steel members, elements, section resistances, displacements by load case
    (`nodal_displacements[lcase] = {node: u}`, frame2d.py 2385-2393). -/
structure Mem (K : Type) where
  (id : ℕ)
  (sec : Sec K)
  (subs : List (Sub K))
  (elems : List (Elem K))
  (NRd VRd MRd : K)
  (disp : List (ℕ → Option (K × K)))

/-- A hollow section of a joint. -/
structure Tube (K : Type) where
  (H B T : K)

/-- Resistances of the joint design class and the forces in the joint. -/
structure YStrength (K : Type) where
  (ned face web brace : K)

/-- See `YStrength`; pairs are for the two braces. -/
structure KStrength (K : Type) where
  (ned face punch shear brace : K × K)
  (N0 N0Rd : K)

/-- A truss joint of type Y, K or KT. -/
inductive Joint (K : Type)
  | y (chord w1 : Tube K) (theta1 : K) (s : YStrength K)
  | k (chord w1 w2 : Tube K) (theta1 theta2 g1 e : K) (s : KStrength K)
  | kt

/-- A structure: members and the joints of its trusses. -/
structure Struct (K : Type) where
  (members : List (Mem K))
  (trusses : List (List (Joint K)))

/-! ### Constraint functions -/

/-- `cross_section_constraints(mem, elem)`, lines 393-430: the four functions by name. -/
def sectionFuns (m : Mem K) (e : Elem K) : List (String × Except PyErr K) :=
  [ ("compression", do let n ← e.get "axial_force"; return (← fdiv (-n.1) m.NRd) - 1),
    ("tension", do let n ← e.get "axial_force"; return (← fdiv n.1 m.NRd) - 1),
    ("shear", do let v ← e.get "shear_force"; return (← fdiv |v.1| m.VRd) - 1),
    ("bending_moment", do let b ← e.get "bending_moment"; return (← fdiv |b.1| m.MRd) - 1) ]

/-- `stability_constraints(mem, section_class)`, lines 432-467. -/
def stabilityFuns (s : Sub K) (cls : ℕ) : List (String × Except PyErr K) :=
  [ ("buckling_y", do return (← fdiv (-(← pymin s.ned)) s.NbRd.1) - 1),
    ("buckling_z", do return (← fdiv (-(← pymin s.ned)) s.NbRd.2) - 1),
    ("compression_bending_y", .ok ((s.beamcol cls).1 - 1)),
    ("compression_bending_z", .ok ((s.beamcol cls).2 - 1)) ] ++
  (if s.profile = .rhs then [("lt_buckling", do return (← fdiv |← pymax s.myed| s.MbRd) - 1)] else [])

/-- A value of the dict of wanted constraints: `None`, a truth value or a number. -/
inductive Arg (K : Type)
  | none | flag (b : Bool) | num (v : K)

/-- Truth of a Python value. -/
def Arg.truthy : Arg K → Bool
  | .none => false
  | .flag b => b
  | .num v => decide (v ≠ 0)

/-- The number a value stands for. -/
def Arg.val : Arg K → K
  | .none => 0
  | .flag b => if b then 1 else 0
  | .num v => v

/-- One value of the list of `deflection_y`, lines 479-482: `l[0][1]` where `l` is the dict of a load case. -/
def dispAt (d : ℕ → Option (K × K)) : Except PyErr (K × K) :=
  match d 0 with
  | some u => .ok u
  | none => .error .keyError

/-- `abs_max / limit - 1` over the load cases, lines 479-489. -/
def deflVal (f : K × K → K) (m : Mem K) (limit : K) : Except PyErr K := do
  let vals ← m.disp.mapM fun d => do return |f (← dispAt d)|
  return (← fdiv (← pymax vals) limit) - 1

/-- `deflection_constraints(mem, limit_x, limit_y)`, lines 469-496. -/
def deflFuns (m : Mem K) (lx ly : Arg K) : List (String × Except PyErr K) :=
  (if lx.truthy then [("deflection_x", deflVal Prod.fst m lx.val)] else []) ++
  (if ly.truthy then [("deflection_y", deflVal Prod.snd m ly.val)] else [])

/-- `K_web` and `K_flange`, lines 505-506, for the classes 0 to 3 (`inf` of class 4 is never read). -/
def kWeb : ℕ → K := fun c => [0, 33, 38, 42].getD c 0

/-- See `kWeb`. -/
def kFlange : ℕ → K := fun c => [0, 9, 10, 14].getD c 0

/-- `web_class(x)`, lines 508-520, with `column_class = 3`, `tube_class = 2` (the only call gives neither, line 623). -/
def webClass (s : Sec K) : Except PyErr K :=
  match s.kind with
  | .isec | .wisec => do return (← fdiv s.cw s.tw) - kWeb 3 * s.eps
  | .rhs => do return (← fdiv s.cw s.tw) - kWeb 2 * s.eps
  | .other => .error .unboundLocal

/-- `flange_class(x)`, lines 522-534. -/
def flangeClass (s : Sec K) : Except PyErr K :=
  match s.kind with
  | .isec | .wisec => do return (← fdiv s.cf s.tf) - kFlange 3 * s.eps
  | .rhs => do return (← fdiv s.cf s.tf) - kWeb 2 * s.eps
  | .other => .error .unboundLocal

/-- `cross_section_class_constraints(mem)`, lines 498-540. -/
def classFuns (m : Mem K) : List (String × Except PyErr K) :=
  [("web_class", webClass m.sec), ("flange_class", flangeClass m.sec)]

/-- `joint.rhs_joint.beta()` of a K joint, rhs_joints.py 396-397. -/
def kBeta (c w1 w2 : Tube K) : K := (w1.B + w2.B + (w1.H + w2.H)) / (4 * c.B)

/-- `joint_geometry_constraints(joint)`, lines 112-277. -/
def geomFuns : Joint K → List (String × Except PyErr K)
  | .y c w1 th _ =>
    [ ("b", do return (← fdiv w1.B c.B) - 1),
      ("b1_min", do return (← fdiv ((35 / 100) * c.B) w1.B) - 1),
      ("theta1_min", do return (← fdiv 30 th) - 1) ]
  | .k c w1 w2 th1 th2 g e _ =>
    [ ("beta", do return (← fdiv (w1.B + w2.B + w1.H + w2.H) (4 * c.B)) - 1),
      ("b1b0", do return (← fdiv (1 / 10 + (← fdiv ((1 / 100) * c.B) c.T)) (← fdiv w1.B c.B)) - 1),
      ("b2b0", do return (← fdiv (1 / 10 + (← fdiv ((1 / 100) * c.B) c.T)) (← fdiv w2.B c.B)) - 1),
      ("g_min", fdiv (w1.T + w2.T - g) |g|),
      ("g_min_beta", do return (← fdiv ((1 / 2) * (1 - kBeta c w1 w2) * c.B) |g|) - 1),
      ("g_max_beta", do return (← fdiv g ((3 / 2) * (1 - kBeta c w1 w2) * c.B)) - 1),
      ("b1_min", do return (← fdiv ((35 / 100) * c.B) w1.B) - 1),
      ("b1_max", do return (← fdiv (-(85 / 100) * c.B) w1.B) + 1),
      ("b2_min", do return (← fdiv ((35 / 100) * c.B) w2.B) - 1),
      ("b2_max", do return (← fdiv (-(85 / 100) * c.B) w2.B) + 1),
      ("theta1_min", do return (← fdiv 30 th1) - 1),
      ("theta1_max", do return (← fdiv th1 90) - 1),
      ("theta2_min", do return (← fdiv 30 th2) - 1),
      ("theta2_max", do return (← fdiv th2 90) - 1),
      ("e_pos", do return (← fdiv e ((1 / 4) * c.H)) - 1),
      ("e_neg", do return -1 - (← fdiv e ((55 / 100) * c.H))) ]
  | .kt => []

/-- `joint_strength_constraints(joint)`, lines 279-391. -/
def strengthFuns : Joint K → List (String × Except PyErr K)
  | .y _ _ _ s =>
    [ ("chord face failure", do return (← fdiv s.ned s.face) - 1),
      ("chord web buckling", do return (← fdiv (-s.ned) s.web) - 1),
      ("brace failure", do return (← fdiv |s.ned| s.brace) - 1) ]
  | .k _ _ _ _ _ _ _ s =>
    [ ("chord face failure 1", do return (← fdiv |s.ned.1| s.face.1) - 1),
      ("chord face failure 2", do return (← fdiv |s.ned.2| s.face.2) - 1),
      ("punching shear 1", do return (← fdiv |s.ned.1| s.punch.1) - 1),
      ("punching shear 2", do return (← fdiv |s.ned.2| s.punch.2) - 1),
      ("chord shear 0", do return (← fdiv s.N0 s.N0Rd) - 1),
      ("chord shear 1", do return (← fdiv |s.ned.1| s.shear.1) - 1),
      ("chord shear 2", do return (← fdiv |s.ned.2| s.shear.2) - 1),
      ("brace failure 1", do return (← fdiv |s.ned.1| s.brace.1) - 1),
      ("brace failure 2", do return (← fdiv |s.ned.2| s.brace.2) - 1) ]
  | .kt => []

/-! ### The list of constraints -/

/-- A constraint of the problem, always of type `<`: key in its name, member that it belongs to (`vars`, nothing for a
    joint), number of the steel member or element in its name, whether it needs an analysis, value. -/
structure Con (K : Type) where
  (key : String)
  (mem : Option ℕ)
  (part : Option ℕ)
  (fea : Bool)
  (val : Except PyErr K)

/-- The dict of wanted constraints; the first entry of a key counts. -/
abbrev Req (K : Type) := List (String × Arg K)

/-- Value of a key; every keyword of `create_constraints` has a false default, lines 542-559. -/
def Req.arg (r : Req K) (key : String) : Arg K := (r.lookup key).getD .none

/-- `eval(key.lower())` as a condition; the keys of the function dicts are lower case. -/
def Req.wants (r : Req K) (key : String) : Bool := (r.arg key).truthy

/-- The keywords of `create_constraints`, lines 542-559, apart from `members`. -/
def keywords : List String :=
  ["joint_geometry_constraints", "joint_strength_constraints", "compression", "tension", "shear", "bending_moment",
   "buckling_y", "buckling_z", "lt_buckling", "compression_bending_y", "compression_bending_z", "deflection_y",
   "deflection_x", "web_class", "flange_class", "alpha_cr"]

/-- `available_constraints()`, lines 91-110. -/
def available : List (String × Arg K) :=
  [("joint_geometry_constraints", .flag false), ("joint_strength_constraints", .flag false),
   ("compression", .flag false), ("tension", .flag false), ("shear", .flag false), ("bending_moment", .flag false),
   ("buckling_y", .flag false), ("buckling_z", .flag false), ("LT_buckling", .flag false),
   ("compression_bending_y", .flag false), ("compression_bending_z", .flag false), ("deflection_y", .none),
   ("deflection_x", .none), ("web_class", .none), ("flange_class", .none), ("alpha_cr", .none)]

/-- The wanted ones of a dict of functions become constraints. -/
def pick (r : Req K) (mem part : Option ℕ) (fea : Bool) (funs : List (String × Except PyErr K)) : List (Con K) :=
  (funs.filter fun p => r.wants p.1).map fun p => ⟨p.1, mem, part, fea, p.2⟩

/-- Section class for the stability check, lines 594-597. -/
def stabClass (k : SecKind) : ℕ := if k = .wisec then 3 else 2

/-- The constraints of a member, lines 591-645. -/
def memCons (r : Req K) (m : Mem K) : List (Con K) :=
  (m.subs.zipIdx.flatMap fun p =>
    pick r (some m.id) (some p.2) true (stabilityFuns p.1 (stabClass m.sec.kind))) ++
  (m.elems.flatMap fun e => pick r (some m.id) (some e.eid) true (sectionFuns m e)) ++
  pick r (some m.id) none false (classFuns m) ++
  pick r (some m.id) none true (deflFuns m (r.arg "deflection_x") (r.arg "deflection_y"))

/-- The constraints of a joint, lines 647-662. -/
def jointCons (r : Req K) (j : Joint K) : List (Con K) :=
  (if r.wants "joint_geometry_constraints" then (geomFuns j).map fun p => ⟨p.1, none, none, false, p.2⟩ else []) ++
  (if r.wants "joint_strength_constraints" then (strengthFuns j).map fun p => ⟨p.1, none, none, true, p.2⟩ else [])

/-- The new constraints of a call, for the members given. -/
def newCons (S : Struct K) (r : Req K) (ms : List (Mem K)) : List (Con K) :=
  ms.flatMap (memCons r) ++ S.trusses.flatMap fun t => t.flatMap (jointCons r)

/-- `create_constraints(**r, members=…)`, lines 542-662: the list of constraints afterwards. -/
def createConstraints (S : Struct K) (r : Req K) (members : Option (List (Mem K))) (cons : List (Con K)) :
    Except PyErr (List (Con K)) :=
  if r.all fun p => p.1 ∈ keywords then
    match members with
    | none => .ok (newCons S r S.members)
    | some ms => .ok (cons ++ newCons S r ms)
  else .error .typeError

/-- `for con in self.cons: if …: self.cons.remove(con)`, lines 806-810.  The loop goes by position: when the constraint
    at hand is removed, the next one moves to its place and is not looked at. -/
def sweep {α : Type} (p : α → Bool) : List α → List α
  | [] => []
  | [x] => if p x then [] else [x]
  | x :: y :: l => if p x then y :: sweep p l else x :: sweep p (y :: l)

/-- `obj in con.vars`. -/
def Con.of (m : Mem K) (c : Con K) : Bool := c.mem = some m.id

/-- A group of members with constraints of their own. -/
structure CGroup (K : Type) where
  (objects : List (Mem K))
  (constraints : Option (Req K))

/-- The body of the loop over the objects of a group, lines 805-814. -/
def groupStep (S : Struct K) (base own : Req K) (objs : List (Mem K)) (cons : List (Con K)) (m : Mem K) :
    Except PyErr (List (Con K)) :=
  createConstraints S (own ++ base) (some objs) (sweep (Con.of m) cons)

/-- `group_constraints()`, lines 797-814; `base` is `self.constraints`.  The filtered list of line 800 is not used. -/
def groupConstraints (S : Struct K) (base : Req K) : Option (List (CGroup K)) → List (Con K) →
    Except PyErr (List (Con K))
  | none, cons => .ok cons
  | some gs, cons => gs.foldlM (fun cs g => match g.constraints with
      | none => .error .keyError
      | some own => g.objects.foldlM (groupStep S base own g.objects) cs) cons

/-- Constraints that are used when none are given, lines 72-78. -/
def defaultReq : Req K :=
  [("compression", .flag true), ("tension", .flag true), ("shear", .flag true), ("bending_moment", .flag true)]

/-- The constraints of a new problem, lines 72-82. -/
def problemCons (S : Struct K) (constraints : Option (Req K)) (groups : Option (List (CGroup K))) :
    Except PyErr (List (Con K)) := do
  let base := constraints.getD defaultReq
  let cons ← createConstraints S base none []
  groupConstraints S base groups cons

/-! ### Design variables -/

/-- Kind of a member as far as `index_to_binary` asks for it. -/
inductive MType
  | web | column | chord | other
  deriving DecidableEq, Repr

/-- An object that a variable changes: a section, or a member of some kind. -/
inductive Obj
  | section (id : ℕ) | member (id : ℕ) (mtype : MType)
  deriving DecidableEq, Repr

/-- A variable group, a dict; a missing key is `none`. -/
structure VGroup (K : Type) where
  (name : String)
  (varType : String)
  (value : Option K)
  (values : Option (List String))
  (numbers : Option (List K))
  (property : Option String)
  (objects : Option (List Obj))
  (lb ub : Option K)
  (properties : Option (List String))
  (bounds : Option (List (K × K)))

/-- What a design variable chooses from. -/
inductive Dom (K : Type)
  | range (lb ub : K) | nums (l : List K) | index (l : List String)

/-- A design variable: name, domain, current value, target. -/
structure Var (K : Type) where
  (name : String)
  (dom : Dom K)
  (value : K)
  (prop : String)
  (objs : List Obj)

/-- Reading a key of a dict. -/
def key {α : Type} : Option α → Except PyErr α
  | some a => .ok a
  | none => .error .keyError

/-- The variables of a group, lines 688-744.  The key `values` of the dict is `values` for profile names (index
    variables) and `numbers` for numbers (other variables). -/
def groupVars (g : VGroup K) : Except PyErr (List (Var K)) :=
  if g.varType = "discrete" then do
    let vs ← key g.numbers; let v ← key g.value; let p ← key g.property; let o ← key g.objects
    if vs = [] then .error .valueError else .ok [⟨g.name, .nums vs, v, p, o⟩]
  else if g.varType = "continuous" then
    match g.properties with
    | some ps => do
      let bs ← key g.bounds
      if bs.length ≠ ps.length then .error .valueError else do
        let vs ← key g.numbers
        if (bs.zip (ps.zip vs)) = [] then .ok [] else do
          let o ← key g.objects
          return (bs.zip (ps.zip vs)).map fun t => ⟨g.name, .range t.1.1 t.1.2, t.2.2, t.2.1, o⟩
    | none => do
      let lb ← key g.lb; let ub ← key g.ub; let v ← key g.value; let p ← key g.property; let o ← key g.objects
      return [⟨g.name, .range lb ub, v, p, o⟩]
  else if g.varType = "index" then do
    let v ← key g.value; let vs ← key g.values; let p ← key g.property; let o ← key g.objects
    return [⟨g.name, .index vs, v, p, o⟩]
  else if g.varType = "binary" then .ok []
  else .error .valueError

/-- The group made for a member when no groups are given, lines 674-685: the profile names are under the key
    `profiles`, which is not read. -/
def defaultGroup (mem : ℕ × MType) : VGroup K :=
  ⟨s!"{mem.1}", "index", some 0, none, none, some "profile", some [.member mem.1 mem.2], none, none, none, none⟩

/-- `create_variables()`, lines 664-745: one group after the other. -/
def createVariables (members : List (ℕ × MType)) (groups : Option (List (VGroup K))) : Except PyErr (List (Var K)) := do
  let vss ← (groups.getD (members.map defaultGroup)).mapM groupVars
  return vss.flatten

/-- Sections of the profiles: `mem.cross_section.__getattribute__(param)` after `mem.profile = profile`, lines
    779-781. -/
abbrev Attrs (K : Type) := String → String → Except PyErr K

/-- `var.id`: no variable has this attribute (variables.py 20-106). -/
def varId (_ : Var K) : Except PyErr ℕ := .error .attributeError

/-- The profiles for a kind of member, lines 770-777; `none` is the `break`. -/
def profilesFor (chord web col : List String) : MType → Option (List String)
  | .web => some web
  | .column => some col
  | .chord => some chord
  | .other => none

/-- The new variables for one index variable with profile names `l`, lines 756-792.  Arguments of a call are evaluated
    in order: name, values, value, id. -/
def binaryVars (attr : Attrs K) (ids : Var K → Except PyErr ℕ) (params chord web col : List String)
    (idx : Var K → ℕ) (v : Var K) (l : List String) : Except PyErr (List (Var K)) :=
  match v.objs with
  | [] => .error .indexError
  | .section _ :: _ => do
    if l.length ≤ idx v then .error .indexError else do
      let _ ← ids v
      return [⟨v.name, .index l, v.value, v.prop, v.objs⟩]
  | .member _ mt :: _ =>
    match profilesFor chord web col mt with
    | none => .ok []
    | some profs => params.mapM fun par => do
        let values ← profs.mapM fun pr => attr pr par
        match values[min (idx v) (values.length - 1)]? with
        | none => .error .indexError
        | some x => do
          let _ ← ids v
          return ⟨v.name ++ " " ++ par, .nums values, x, par, v.objs⟩

/-- `index_to_binary`, lines 747-795: for each index variable the new variables are appended and it is removed. -/
def indexToBinary (attr : Attrs K) (ids : Var K → Except PyErr ℕ) (params chord web col : List String)
    (idx : Var K → ℕ) (vs : List (Var K)) : Except PyErr (List (Var K)) := do
  let news ← vs.mapM fun v => match v.dom with
    | .index l => binaryVars attr ids params chord web col idx v l
    | _ => .ok []
  return (vs.filter fun v => match v.dom with | .index _ => false | _ => true) ++ news.flatten

end Metku.SProb
