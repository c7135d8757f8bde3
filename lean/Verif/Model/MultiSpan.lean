import Mathlib.Analysis.Real.Sqrt
import Verif.Model.PyErr

/-!
Model of members with several spans (`MultiSpanMember`, `MultiSpanSteelMember`, raami/frame_member.py 838-1112, 1262-1373)
with the parts of `FrameMember` they use (188-201, 219-272, 335-355, 576-642).

Simplifications: plane frames; numbers are exact reals; a span that is divided into elements is generated after its lists have been cleared
(`Raami.generate_fem` clears first, raami.py 290); the utilization of a span for a section and a load case (`SteelFrameMember.design`
with the forces of the last analysis) is an argument.
-/
namespace Metku.MSpan

open Metku

/-- A point of the plane. -/
abbrev Pt := ℝ × ℝ

/-! ## Geometry -/

/-- `np.linalg.norm(q - p)`. -/
noncomputable def dist (p q : Pt) : ℝ := √((q.1 - p.1) ^ 2 + (q.2 - p.2) ^ 2)

/-- `dir_vector` of a span, frame_member.py 255-263. -/
noncomputable def dir (p q : Pt) : Pt := ((q.1 - p.1) / dist p q, (q.2 - p.2) / dist p q)

/-- A span: its end nodes and number of elements. -/
structure Span where
  p : Pt
  q : Pt
  nel : ℕ

/-- `local_to_global` of a span, lines 265-272. -/
noncomputable def Span.point (s : Span) (t : ℝ) : Pt := (s.p.1 + dist s.p s.q * t * (dir s.p s.q).1, s.p.2 + dist s.p s.q * t * (dir s.p s.q).2)

/-- `calc_nodal_coordinates` of a span, lines 340-354: `np.linspace(0, 1, nel + 1)`. -/
noncomputable def Span.points (s : Span) : List Pt := (List.range (s.nel + 1)).map (fun i : ℕ => s.point ((i : ℝ) / (s.nel : ℝ)))

/-- The argument `nel`: one number for all spans or a list, lines 892-898. -/
inductive Nel
  | all (n : ℕ)
  | list (l : List ℕ)

/-- `num_elements`, lines 895-898. -/
def Nel.per (nodes : List Pt) : Nel → List ℕ
  | .all n => List.replicate (nodes.length - 1) n
  | .list l => l

/-- The spans made by the constructor, lines 1284-1290: `zip(num_elements, nodes[:-1], nodes[1:])`. -/
def mkSpans (nodes : List Pt) (nel : Nel) : List Span :=
  List.zipWith (fun n (pq : Pt × Pt) => ⟨pq.1, pq.2, n⟩) (nel.per nodes) (List.zip nodes.dropLast nodes.tail)

/-- `length`, lines 979-982: distance of the end nodes. -/
noncomputable def length (nodes : List Pt) : Except PyErr ℝ := match nodes.head?, nodes.getLast? with
  | some p, some q => .ok (dist p q)
  | _, _ => .error .indexError

/-- `weight`, lines 984-989. -/
noncomputable def weight (A density : ℝ) (nodes : List Pt) : Except PyErr ℝ := match length nodes with
  | .ok L => .ok (A * L * density)
  | .error e => .error e

/-- `weight` of a span, lines 232-238. -/
noncomputable def Span.weight (A density : ℝ) (s : Span) : ℝ := A * dist s.p s.q * density

/-- `calc_nodal_coordinates`, lines 1036-1052, without new numbers of elements: the points of the spans, common ones once. -/
noncomputable def points (spans : List Span) : Except PyErr (List Pt) := match spans.getLast? with
  | none => .error .indexError
  | some s => match s.points.getLast? with
    | none => .error .indexError
    | some x => .ok (spans.flatMap (fun s => s.points.dropLast) ++ [x])

/-- `local_to_global`, lines 1010-1017: from the first node in the direction of the first span. -/
noncomputable def localToGlobal (nodes : List Pt) (spans : List Span) (t : ℝ) : Except PyErr Pt := match nodes.head?, spans.head?, length nodes with
  | some p, some s, .ok L => .ok (p.1 + L * t * (dir s.p s.q).1, p.2 + L * t * (dir s.p s.q).2)
  | _, _, _ => .error .indexError

/-- `global_to_local`, lines 1019-1033: distance from the first node divided by the length. -/
noncomputable def globalToLocal (nodes : List Pt) (x : Pt) : Except PyErr ℝ := match nodes.head?, length nodes with
  | some p, .ok L => .ok (dist p x / L)
  | _, _ => .error .indexError

/-! ## Sections of spans and elements -/

/-- A finite element: its section and `releases`. -/
structure El (P : Type) where
  sec : P
  releases : List ℕ

/-- A span of a member: section, buckling length factors, number of elements, elements (positions in the list of all elements ever made). -/
structure SpanS (P : Type) where
  sec : P
  lcr : ℝ × ℝ
  nel : ℕ
  elems : List ℕ

/-- A member with several spans, lines 868-913: the spans, its own list of elements, the hinge flags, and all elements made so far. -/
structure M (P : Type) where
  sec : P
  lcr : ℝ × ℝ
  hinges : Bool × Bool
  spans : List (SpanS P)
  elems : List ℕ
  store : List (El P)

variable {P : Type}

/-- The constructor, lines 1264-1291: every span gets section and buckling length factors. -/
def M.make (p : P) (lcr : ℝ × ℝ) (hinges : Bool × Bool) (nels : List ℕ) : M P :=
  { sec := p, lcr := lcr, hinges := hinges, spans := nels.map (fun n => ⟨p, lcr, n, []⟩), elems := [], store := [] }

/-- `update_element_sections` of a span, lines 636-640. -/
def setElems (store : List (El P)) (ids : List ℕ) (p : P) : List (El P) := ids.foldl (fun st i => st.modify i (fun e => { e with sec := p })) store

/-- Setter of `cross_section`, lines 927-935: every span gets the section, with its elements (188-196). -/
def M.setSection (m : M P) (p : P) : M P :=
  { m with sec := p, spans := m.spans.map (fun s => { s with sec := p }), store := m.spans.foldl (fun st s => setElems st s.elems p) m.store }

/-- Setter of `lcr`, lines 941-947. -/
def M.setLcr (m : M P) (v : ℝ × ℝ) : M P := { m with lcr := v, spans := m.spans.map (fun s => { s with lcr := v }) }

/-- `clear_fem`, lines 1087-1092. -/
def M.clearFem (m : M P) : M P := { m with spans := m.spans.map (fun s => { s with elems := [] }), elems := [] }

/-- `generate_elements` of one span, lines 576-624: `nel` new elements with its section. -/
def genSpan (st : List (El P) × List (SpanS P)) (s : SpanS P) : List (El P) × List (SpanS P) :=
  (st.1 ++ List.replicate s.nel ⟨s.sec, []⟩, st.2 ++ [{ s with elems := List.range' st.1.length s.nel }])

/-- `releases` of the first and the last element, lines 1075-1085. -/
def setReleases (store : List (El P)) (ids : List ℕ) (h : Bool × Bool) : List (El P) :=
  let st1 := if h.1 then (match ids.head? with
    | some i => store.modify i (fun e => { e with releases := [2] })
    | none => store) else store
  if h.2 then (match ids.getLast? with
    | some i => st1.modify i (fun e => { e with releases := [5] })
    | none => st1) else st1

/-- `generate_elements`, lines 1068-1085, after `clear_fem`. -/
def M.generate (m : M P) : M P :=
  let g := m.clearFem.spans.foldl genSpan (m.store, [])
  let ids := g.2.flatMap (fun s => s.elems)
  { m with spans := g.2, elems := ids, store := setReleases g.1 ids m.hinges }

/-- What a user does with the member. -/
inductive Op (P : Type)
  | section (p : P)
  | lcr (v : ℝ × ℝ)
  | clear
  | generate

/-- One action. -/
def M.step (m : M P) : Op P → M P
  | .section p => m.setSection p
  | .lcr v => m.setLcr v
  | .clear => m.clearFem
  | .generate => m.generate

/-! ## Design -/

/-- Utilization of span `i` with a section in a load case (`SteelFrameMember.design`, lines 1179-1203), class of a section in compression, lists of profiles. -/
structure Env (P : Type) where
  util : ℕ → P → ℕ → ℝ
  cls : P → ℕ

/-- Section, utilization by load case (in order of entry), verdict, allowable utilization (`allowable_utilization`, line 871). -/
structure D (P : Type) where
  sec : P
  util : List (ℕ × ℝ)
  check : Bool
  allow : ℝ

/-- `design`, lines 1317-1331: the largest utilization of the spans, at least zero; the verdict compares with one. -/
noncomputable def rmax (E : Env P) (n : ℕ) (p : P) (l : ℕ) : ℝ := (List.range n).foldl (fun r i => max r (E.util i p l)) 0

/-- `design`, lines 1317-1331. -/
noncomputable def design (E : Env P) (n : ℕ) (d : D P) (l : ℕ) : D P :=
  { d with check := !decide (rmax E n d.sec l > 1), util := (l, rmax E n d.sec l) :: d.util.filter (fun x => x.1 ≠ l) }

/-- The loop over the profiles, lines 1347-1364: a profile of a higher class is set and passed over. -/
noncomputable def search (E : Env P) (n : ℕ) (loads : List ℕ) (cls : ℕ) : List P → D P → D P
  | [], d => d
  | p :: ps, d =>
    if E.cls p > cls then search E n loads cls ps { d with sec := p }
    else
      let d' := loads.foldl (design E n) { d with sec := p }
      if d'.util.all (fun x => decide (x.2 ≤ d.allow)) then d' else search E n loads cls ps d'

/-- `optimum_design(sec_class, max_utility)`, lines 1333-1373, with the profiles of the list: the argument `max_utility` is not read. -/
noncomputable def optimum (E : Env P) (n : ℕ) (loads : List ℕ) (cls : ℕ) (_maxUtility : ℝ) (ps : List P) (d : D P) : D P := search E n loads cls ps d

end Metku.MSpan
