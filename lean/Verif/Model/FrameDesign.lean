import Mathlib.Algebra.Order.Field.Basic
import Mathlib.Algebra.Order.Group.Unbundled.Abs
import Verif.Model.OptVars
import Verif.Model.PyErr

/-!
Model of results and design of `frame2d` members: `Frame2D.calculate` (frame2d/frame2d.py 497-533), `optimize_members`
(537-551), `design_members` (553-558), `FrameMember.calc_nodal_forces` (2372-2454), `assign_forces` (2519-2540), `design`
(2588-2605), `optimum_design` (2609-2674), `get_absmax_force_value`, `NEd`, `VEd`, `MEd` (1623-1658), and the names of profiles:
`profile` (1876-1986), `h` (1824-1851), with the constructors and `__repr__` of the sections (sections/steel/ISection.py 91-92,
484-700, RHS.py 25-86, 409-418, CHS.py 21-48, wi.py 97-108).

Simplifications: numbers are elements of an ordered field; the linear analysis (forces at the ends of the elements from the
sections of all members and the load case) and `SteelMember.design` (utilization from the section and the forces assigned) are
arguments of the model (the subject of Model/Analysis and Model/SteelMember) and raise no error; a generated member has at
least one element and one node more than elements, its nodes have different locations; the load cases of a member are those
of the frame (each was added to the model in `generate`).
-/
namespace Metku.FDesign

open Metku

section Forces

variable {K : Type} [Field K] [LinearOrder K]

/-- Internal forces of a plane element at its two ends in one load case, ebbeam.py 582-584. -/
structure EF (K : Type) where
  fx : K × K
  fz : K × K
  my : K × K

/-- Keys of `fint` that members read, framefem.py 1740-1757. -/
inductive Comp
  | fx | fy | fz | my
  deriving DecidableEq

/-- `fint[load_id][force]`; a plane element writes `fx`, `fz` and `my`, `fy` keeps the zeros of the place holder, framefem.py 1753, ebbeam.py 582-584. -/
def EF.get (e : EF K) : Comp → K × K
  | .fx => e.fx
  | .fy => (0, 0)
  | .fz => e.fz
  | .my => e.my

/-- `absmax` of the two end values, frame2d.py 2378-2385. -/
def absmax (v : K × K) : K := if max |min v.1 v.2| |max v.1 v.2| = |min v.1 v.2| then min v.1 v.2 else max v.1 v.2

/-- Axial force, shear force and bending moment (list of three, lines 2419-2421). -/
structure NF (K : Type) where
  n : K
  v : K
  m : K

/-- The three values an element gives to a node, lines 2401-2421. -/
def nodeForce (e : EF K) : NF K := ⟨absmax e.fx, absmax e.fz, absmax e.my⟩

/-- `node_forces`, lines 2395-2449: element `i` gives its values to node `i`, the last one also to the last node. -/
def nodalOf (nid : ℕ → ℕ) : ℕ → List (EF K) → List (ℕ × NF K)
  | _, [] => []
  | i, [e] => [(nid i, nodeForce e), (nid (i + 1), nodeForce e)]
  | i, e :: es => (nid i, nodeForce e) :: nodalOf nid (i + 1) es

/-- `if abs(v) > abs(cur): cur = v`, lines 2402-2413. -/
def larger (cur v : K) : K := if |v| > |cur| then v else cur

/-- `max_ned`, `max_ved`, `max_med`, lines 2388-2413 (the repetition for the last node, lines 2427-2440, changes nothing). -/
def maxOf (f : EF K → K × K) (es : List (EF K)) : K := es.foldl (fun cur e => larger cur (absmax (f e))) 0

/-- `get_absmax_force_value`, lines 1623-1633: first end of the first element and second ends of all. -/
def absMaxValue (c : Comp) : List (EF K) → Except PyErr K
  | [] => .error .indexError
  | e :: es =>
    let lo := ((e :: es).map (fun x => (x.get c).2)).foldl min (e.get c).1
    let hi := ((e :: es).map (fun x => (x.get c).2)).foldl max (e.get c).1
    .ok (if hi > |lo| then hi else lo)

/-- `NEd`, `VEd`, `MEd` in a load case, lines 1635-1658: the keys `fx`, `fy`, `my`. -/
def NEd (es : List (EF K)) : Except PyErr K := absMaxValue .fx es

/-- `VEd` in a load case, line 1647. -/
def VEd (es : List (EF K)) : Except PyErr K := absMaxValue .fy es

/-- `MEd` in a load case, line 1655. -/
def MEd (es : List (EF K)) : Except PyErr K := absMaxValue .my es

/-- `assign_forces`, lines 2519-2540: first end of every element, second end of the last one. -/
def secsOf (loc : ℕ → K) : ℕ → List (EF K) → List (K × NF K)
  | _, [] => []
  | i, [e] => [(loc i, ⟨e.fx.1, e.fz.1, e.my.1⟩), (loc (i + 1), ⟨e.fx.2, e.fz.2, e.my.2⟩)]
  | i, e :: es => (loc i, ⟨e.fx.1, e.fz.1, e.my.1⟩) :: secsOf loc (i + 1) es

end Forces

/-! ## Design -/

/-- Classes of sections, ISection.py 484-700, RHS.py 25, 409, CHS.py 21, wi.py. -/
inductive Cls
  | ipe | hea | heaa | heb | hec | hem | customI | rhs | shs | chs | wi
  deriving DecidableEq

/-- Lists of profiles, frame2d.py 2637-2646. -/
inductive Fam
  | ipe | h | rhs | chs | shs
  deriving DecidableEq

/-- `prof_type == "CURRENT"`, lines 2620-2635: tests by `isinstance` in this order (`SHS` is a subclass of `RHS`); other classes get the IPE list. -/
def familyOf : Cls → Fam
  | .ipe => .ipe
  | .hea => .h
  | .heb => .h
  | .rhs => .rhs
  | .shs => .rhs
  | .chs => .chs
  | _ => .ipe

variable {K P : Type} [Field K] [LinearOrder K]

/-- What a frame is designed with: element forces from the sections of all members (`linear_statics`), utilization of a member
(`SteelMember.design`), locations and identifiers of its nodes, lists of profiles, class and name of a section. -/
structure Env (K P : Type) where
  analysis : (ℕ → P) → ℕ → ℕ → List (EF K)
  util : ℕ → P → List (K × NF K) → K
  loc : ℕ → ℕ → K
  nid : ℕ → ℕ → ℕ
  cat : Fam → List P
  cls : P → Cls
  name : P → ℕ

/-- The attributes of a member that design reads and writes, lines 1503-1563. -/
structure Member (K P : Type) where
  sec : P
  secs : List (K × NF K)
  nodal : List (ℕ × List (ℕ × NF K))
  ned : K
  ved : K
  med : K
  r : List (ℕ × K)
  strong : Bool

/-- Assignment to a key of a dictionary. -/
def setKey {α : Type} (l : List (ℕ × α)) (k : ℕ) (v : α) : List (ℕ × α) := (k, v) :: l.filter (fun p => p.1 ≠ k)

/-- Value of a key of a dictionary. -/
def getKey {α : Type} (l : List (ℕ × α)) (k : ℕ) : Option α := (l.find? (fun p => p.1 = k)).map (·.2)

/-- `calc_nodal_forces`, lines 2451-2454. -/
def calcForces (E : Env K P) (m l : ℕ) (es : List (EF K)) (s : Member K P) : Member K P :=
  { s with nodal := setKey s.nodal l (nodalOf (E.nid m) 0 es), ned := maxOf EF.fx es, ved := maxOf EF.fz es, med := maxOf EF.my es }

/-- `assign_forces`, lines 2519-2540. -/
def assign (E : Env K P) (m : ℕ) (es : List (EF K)) (s : Member K P) : Member K P := { s with secs := secsOf (E.loc m) 0 es }

/-- `FrameMember.design`, lines 2588-2605. -/
def design (E : Env K P) (m : ℕ) (s : Member K P) (l : ℕ) : Member K P :=
  { s with strong := !decide (E.util m s.sec s.secs > 1), r := setKey s.r l (E.util m s.sec s.secs) }

/-- `Frame2D.calculate` for one load case, lines 526-531. -/
def calculate (E : Env K P) (s : ℕ → Member K P) (l : ℕ) : ℕ → Member K P := fun m =>
  let es := E.analysis (fun i => (s i).sec) l m
  design E m (assign E m es (calcForces E m l es (s m))) l

/-- `calculate('all')`, lines 519-525: the load cases in turn. -/
def calculateAll (E : Env K P) (loads : List ℕ) (s : ℕ → Member K P) : ℕ → Member K P := loads.foldl (calculate E) s

/-- `for load_id in self.load_ids: self.design(load_id)`, lines 2653-2654. -/
def designAll (E : Env K P) (m : ℕ) (loads : List ℕ) (s : Member K P) : Member K P := loads.foldl (design E m) s

/-- The loop over the profiles, lines 2650-2657. -/
def search (E : Env K P) (m : ℕ) (loads : List ℕ) : List P → Member K P → Member K P
  | [], s => s
  | p :: ps, s =>
    let s' := designAll E m loads { s with sec := p }
    if s'.r.all (fun x => decide (x.2 ≤ 1)) then s' else search E m loads ps s'

/-- The list of profiles for the argument `prof_type` (`none` is `CURRENT`), lines 2616-2648. -/
def profiles (E : Env K P) (t : Option Fam) (p : P) : List P := match t with
  | none => E.cat (familyOf (E.cls p))
  | some f => E.cat f

/-- `optimum_design`, lines 2609-2674: the member and whether the name of its profile changed. -/
def optimum (E : Env K P) (m : ℕ) (loads : List ℕ) (t : Option Fam) (s : Member K P) : Member K P × Bool :=
  let s' := search E m loads (profiles E t s.sec) s
  (s', decide (E.name s'.sec ≠ E.name s.sec))

/-- One member of the loop of `optimize_members`, lines 547-548: the flag is that of the member. -/
def passStep (E : Env K P) (loads : List ℕ) (t : Option Fam) (st : (ℕ → Member K P) × Bool) (m : ℕ) : (ℕ → Member K P) × Bool :=
  (Function.update st.1 m (optimum E m loads t (st.1 m)).1, (optimum E m loads t (st.1 m)).2)

/-- One iteration of `optimize_members`, lines 546-548; the flag before it is `True`. -/
def pass (E : Env K P) (ids loads : List ℕ) (t : Option Fam) (s : ℕ → Member K P) : (ℕ → Member K P) × Bool :=
  ids.foldl (passStep E loads t) (calculateAll E loads s, true)

/-- `while PROFILES_CHANGED and k < kmax`, lines 545-551. -/
def optimizeLoop (E : Env K P) (ids loads : List ℕ) (t : Option Fam) : ℕ → (ℕ → Member K P) → (ℕ → Member K P) × Bool
  | 0, s => (s, true)
  | k + 1, s => if (pass E ids loads t s).2 then optimizeLoop E ids loads t k (pass E ids loads t s).1 else pass E ids loads t s

/-- `optimize_members`, lines 537-551: at most ten iterations. -/
def optimizeMembers (E : Env K P) (ids loads : List ℕ) (t : Option Fam) (s : ℕ → Member K P) : (ℕ → Member K P) × Bool :=
  optimizeLoop E ids loads t 10 s

/-! ## Names of profiles -/

section Names

variable [FloorRing K]

/-- Letters of HE profiles. -/
inductive Letter
  | A | AA | B | C | M | other
  deriving DecidableEq

/-- A section with the data its class is made from: number of rolled profiles, dimensions of the others. -/
inductive Sec (K : Type)
  | ipe (n : ℤ)
  | he (n : ℤ) (l : Letter)
  | customI (H B tf tw r : K)
  | rhs (H B T : K)
  | shs (H T : K)
  | chs (D T : K)
  | wi (h tw b1 tf1 b2 tf2 : K)

/-- The texts that name a profile, split at spaces: type and one whole number, `HE` with number and letter, a type with numbers
separated by `X`, a text without a space (`WI500-...`). Texts `WI ...` with a space are not modelled. -/
inductive Tx (K : Type)
  | num (c : Cls) (n : ℤ)
  | he (n : ℤ) (l : Letter)
  | dims (c : Cls) (xs : List K)
  | joined

/-- Heights in the dictionary `profile` of the catalogue, catalogue.py 22-150: IPE by number, HE by number and letter. -/
structure Catalogue (K : Type) where
  ipe : ℤ → Option K
  he : ℤ → Letter → Option K

/-- The constructor called for a text, frame2d.py 1911-1973, with the errors of the constructors: `IPE` prints a message and then reads an
unassigned variable (ISection.py 492-501), the other HE sections raise `KeyError`, `HEB` takes formulas; an unknown letter leaves the section. -/
def parse (C : Catalogue K) (cur : Sec K) : Tx K → Except PyErr (Sec K)
  | .num .ipe n => if (C.ipe n).isSome then .ok (.ipe n) else .error .unboundLocal
  | .num _ _ => .error .typeError
  | .he _ .other => .ok cur
  | .he n .B => .ok (.he n .B)
  | .he n l => if (C.he n l).isSome then .ok (.he n l) else .error .keyError
  | .dims .chs [D, T] => .ok (.chs D T)
  | .dims .rhs [H, B, T] => .ok (.rhs H B T)
  | .dims .shs [H, B, T] => .ok (.rhs H B T)
  | .dims .shs [H, T] => .ok (.shs H T)
  | .dims .rhs [_, _] => .error .unboundLocal
  | .dims .chs [D, _, T] => .ok (.chs D T)
  | .dims _ [_, _] => .error .valueError
  | .dims _ [_, _, _] => .error .valueError
  | .dims _ _ => .error .typeError
  | .joined => .error .indexError

/-- `f"{x:.0f}"`. -/
def fmt0 (x : K) : ℤ := Opt.pyRound x

/-- `f"{x:.1f}"`. -/
def fmt1 (x : K) : K := (Opt.pyRound (10 * x) : K) / 10

/-- Height of a section, frame2d.py 1824-1832 (ISection.py 492-505, RHS.py 69-71); a circular section has neither `h` nor `H`. -/
def height (C : Catalogue K) : Sec K → Except PyErr K
  | .ipe n => match C.ipe n with
    | some h => .ok h
    | none => .error .keyError
  | .he n l => match C.he n l with
    | some h => .ok h
    | none => .ok n
  | .customI H _ _ _ _ => .ok H
  | .rhs H _ _ => .ok H
  | .shs H _ => .ok H
  | .chs _ _ => .error .attributeError
  | .wi h _ _ _ _ _ => .ok h

/-- Height of a rolled profile for its name (`self.h:.0f`). -/
def rolledHeight (C : Catalogue K) (n : ℤ) (l : Letter) : K := (C.he n l).getD n

/-- `str(self.cross_section)`, ISection.py 91-92, 547-548, 623-624, RHS.py 85-86, 417-418, CHS.py 47-48, wi.py 97-108. -/
def nameOf (C : Catalogue K) : Sec K → Tx K
  | .ipe n => .num .ipe (fmt0 ((C.ipe n).getD n))
  | .he n .A => .he n .A
  | .he n .B => .he n .B
  | .he n .AA => .num .heaa (fmt0 (rolledHeight C n .AA))
  | .he n .C => .num .hec (fmt0 (rolledHeight C n .C))
  | .he n .M => .num .hem (fmt0 (rolledHeight C n .M))
  | .he n .other => .he n .other
  | .customI H _ _ _ _ => .num .customI (fmt0 H)
  | .rhs H B T => .dims .rhs [(fmt0 H : K), (fmt0 B : K), fmt1 T]
  | .shs H T => .dims .shs [(fmt0 H : K), (fmt0 H : K), fmt1 T]
  | .chs D T => .dims .chs [(fmt0 D : K), fmt1 T]
  | .wi _ _ _ _ _ _ => .joined

/-- Setter of `profile` with a text, frame2d.py 1884-1986. -/
def setProfile (C : Catalogue K) (s : Sec K) (t : Tx K) : Except PyErr (Sec K) := parse C s t

/-- Setter of `h` with a whole number, lines 1834-1851: by the number of words of the name; other types of two words are left as they are. -/
def setHeight (C : Catalogue K) (s : Sec K) (v : ℤ) : Except PyErr (Sec K) := match nameOf C s with
  | .num .ipe _ => setProfile C s (.num .ipe v)
  | .dims .shs _ =>
    setProfile C s (.dims .shs [((max v 25 : ℤ) : K), ((max v 25 : ℤ) : K), ((max (Opt.pyRound (((max v 25 : ℤ) : K) / 20)) 2 : ℤ) : K)])
  | .he _ l => setProfile C s (.he v l)
  | _ => .ok s

end Names

end Metku.FDesign
