import Verif.Props.RaamiLoads
import Verif.Spec.Raami

/-! Load combinations of a `Raami` frame. -/
namespace Metku.Raami

open Metku.Frame2D (dictSet freshName KeysOk NoDigit dictSet_fresh noDigit_default)
open Metku.RaamiSpec

set_option linter.unusedSectionVars false

variable {K : Type} [Field K]

/-- The program went from `w` to `w'` and put new loads `news` of the id `id` into the frame, nothing
else in the frame changed. -/
def Extends (w w' : World K) (id : ℕ) (news : List (Action K × K)) : Prop :=
  (∃ ls, w'.heap = w.heap ++ ls) ∧ ∃ tail, w'.dict = w.dict ++ tail ∧
    tail.map (fun e => (w'.heap[e.2]?).map (fun l : Load K => (l.act, l.loadId, l.f))) = news.map (fun n => some (n.1, id, n.2))

theorem extends_refl (w : World K) (id : ℕ) : Extends w w id [] := ⟨⟨[], by simp⟩, [], by simp, rfl⟩

theorem heap_ext {w w' : World K} {ls : List (Load K)} (h : w'.heap = w.heap ++ ls) {r : ℕ} {l : Load K} (hr : w.heap[r]? = some l) : w'.heap[r]? = some l := by
  rw [h, List.getElem?_append_left (List.getElem?_eq_some_iff.mp hr).1, hr]

theorem extends_trans {w w' w'' : World K} {id : ℕ} {a b : List (Action K × K)} (h : Extends w w' id a) (h' : Extends w' w'' id b) : Extends w w'' id (a ++ b) := by
  obtain ⟨⟨ls, h1⟩, tail, h2, h3⟩ := h
  obtain ⟨⟨ls', g1⟩, tail', g2, g3⟩ := h'
  refine ⟨⟨ls ++ ls', by rw [g1, h1, List.append_assoc]⟩, tail ++ tail', by rw [g2, h2, List.append_assoc], ?_⟩
  rw [List.map_append, List.map_append, g3]
  congr 1
  rw [← h3]
  apply List.map_congr_left
  intro e he
  have : (w'.heap[e.2]?).map (fun l : Load K => (l.act, l.loadId, l.f)) ∈ a.map (fun n => some (n.1, id, n.2)) := by
    rw [← h3]
    exact List.mem_map_of_mem he
  rw [List.mem_map] at this
  obtain ⟨n, -, hn⟩ := this
  cases hx : w'.heap[e.2]? with
  | none => rw [hx] at hn; simp at hn
  | some l => rw [heap_ext g1 hx]

theorem acting_aux (heap : List (Load K)) (id j : ℕ) (tail : List (String × ℕ)) (news : List (Action K × K))
    (h : tail.map (fun e => (heap[e.2]?).map (fun l : Load K => (l.act, l.loadId, l.f))) = news.map (fun n => some (n.1, id, n.2))) :
    tail.filterMap (fun e => (heap[e.2]?).bind (fun l => if l.loadId = j then some (l.act, l.f) else none)) = if j = id then news else [] := by
  induction tail generalizing news with
  | nil =>
    cases news with
    | nil => simp
    | cons n t => simp at h
  | cons e t ih =>
    cases news with
    | nil => simp at h
    | cons n t' =>
      simp only [List.map_cons, List.cons.injEq] at h
      have ih := ih t' h.2
      cases hx : heap[e.2]? with
      | none => rw [hx] at h; simp at h
      | some l =>
        rw [hx] at h
        simp only [Option.map_some, Option.some.injEq, Prod.mk.injEq] at h
        rcases n with ⟨a, f⟩
        obtain ⟨⟨h1, h2, h3⟩, -⟩ := h
        simp only at h1 h3
        rw [List.filterMap_cons, hx]
        simp only [Option.bind_some]
        by_cases hj : j = id
        · rw [if_pos (by rw [h2, hj])]
          simp only
          rw [ih, if_pos hj, if_pos hj, h1, h3]
        · rw [if_neg (by rw [h2]; exact fun e => hj e.symm)]
          simp only
          rw [ih, if_neg hj, if_neg hj]

/-- The loads that act after new loads came to the frame. -/
theorem extends_acting {w w' : World K} (hw : Inv w) {id : ℕ} {news : List (Action K × K)} (h : Extends w w' id news) (j : ℕ) :
    w'.acting j = w.acting j ++ if j = id then news else [] := by
  obtain ⟨⟨ls, h1⟩, tail, h2, h3⟩ := h
  unfold World.acting
  rw [h2, List.filterMap_append, acting_aux _ _ _ _ _ h3]
  congr 1
  apply List.filterMap_congr
  intro e he
  rw [heap_ext h1 (List.getElem?_eq_getElem (hw.dictRefs e he)), List.getElem?_eq_getElem (hw.dictRefs e he)]

/-- Adding a load object that is not yet in the frame, with a plain name. -/
theorem addNew_ok {w : World K} (hw : Inv w) (hk : KeysOk w.dict) {l : Load K} (hl : NoDigit l.name) :
    ∃ w', (w.newLoad l).1.addLoad (w.newLoad l).2 = .ok w' ∧ Inv w' ∧ KeysOk w'.dict ∧ Extends w w' l.loadId [(l.act, l.f)] ∧ Grows w w' l.loadId ∧
      w'.members = w.members ∧ w'.selfWeight = w.selfWeight := by
  have hw1 : Inv (w.newLoad l).1 := by
    refine ⟨hw.ids, ?_, ?_⟩
    · intro e he; have := hw.dictRefs e he; simp only [World.newLoad, List.length_append]; omega
    · intro k hk r hr; have := hw.caseRefs k hk r hr; simp only [World.newLoad, List.length_append]; omega
  have hr : (w.newLoad l).1.heap[(w.newLoad l).2]? = some l := by simp [World.newLoad]
  obtain ⟨w', h1, h2, h3, h4, h5, -, h7, h8, -⟩ := addLoad_ok hw1 hr
  have hnot : (w.newLoad l).2 ∉ (w.newLoad l).1.dict.map Prod.snd := by
    intro h
    rw [List.mem_map] at h
    obtain ⟨e, he, h⟩ := h
    have := hw.dictRefs e he
    simp only [World.newLoad] at h
    omega
  obtain ⟨d1, d2⟩ := dictSet_fresh hk hl w.heap.length
  have hd : w'.dict = w.dict ++ [(freshName w.dict l.name, w.heap.length)] := by
    rw [h4]
    unfold dictAfter
    rw [if_neg (fun h => hnot h.2)]
    exact d1
  have hheap : w'.heap = w.heap ++ [{ l with name := freshName w.dict l.name }] := by
    rw [h3]
    apply List.ext_getElem?
    intro i
    rw [List.getElem?_modify]
    simp only [World.newLoad]
    rcases Nat.lt_trichotomy i w.heap.length with hi | hi | hi
    · rw [List.getElem?_append_left hi, List.getElem?_append_left hi]
      have : w.heap.length ≠ i := by omega
      simp [this]
    · subst hi; simp
    · rw [List.getElem?_eq_none (by simp; omega), List.getElem?_eq_none (by simp; omega)]; rfl
  refine ⟨w', h1, h2, by rw [hd]; exact d2, ⟨⟨_, hheap⟩, _, hd, ?_⟩, h5, h7, h8⟩
  simp [hheap]

/-- The factor of the code is that of the specification. -/
theorem factor_wanted (l : Load K) (hf : l.f = 1) (t : CombType) (lead : Bool) :
    (l.act, (l.factored t lead).f) = wanted t lead l := by
  unfold wanted Load.factored factor gammaF psi0 Variable
  rw [hf]
  cases l.ltype <;> cases t <;> cases lead <;> simp

/-- A factored copy goes to the frame. -/
theorem addCopy_ok {w : World K} (hw : Inv w) (hk : KeysOk w.dict) (id : ℕ) (t : CombType) (lead : Bool) {r : ℕ} {l : Load K} (hr : w.heap[r]? = some l)
    (hl : NoDigit l.name) (hf : l.f = 1) :
    ∃ w', w.addCopy id t lead r = .ok w' ∧ Inv w' ∧ KeysOk w'.dict ∧ Extends w w' id [wanted t lead l] ∧ Grows w w' id := by
  obtain ⟨w', h1, h2, h3, h4, h5, -, -⟩ := addNew_ok hw hk (l := { l.factored t lead with loadId := id }) hl
  refine ⟨w', ?_, h2, h3, ?_, h5⟩
  · unfold World.addCopy
    rw [hr]
    exact h1
  · have := factor_wanted l hf t lead
    rw [← this]
    exact h4

theorem addCopies_ok (id : ℕ) (t : CombType) (lead : Bool) : ∀ (rs : List ℕ) {w : World K}, Inv w → KeysOk w.dict → (∀ r ∈ rs, ∃ l, w.heap[r]? = some l ∧ NoDigit l.name ∧ l.f = 1) →
    ∃ w', rs.foldlM (fun w r => w.addCopy id t lead r) w = .ok w' ∧ Inv w' ∧ KeysOk w'.dict ∧
      Extends w w' id ((rs.filterMap (fun r => w.heap[r]?)).map (wanted t lead)) ∧ Grows w w' id
  | [], w, hw, hk, _ => ⟨w, rfl, hw, hk, extends_refl w id, Grows.refl w id⟩
  | r :: rs, w, hw, hk, hrs => by
    obtain ⟨l, hr, hl, hf⟩ := hrs r (by simp)
    obtain ⟨w1, h1, h2, h3, h4, h5⟩ := addCopy_ok hw hk id t lead hr hl hf
    obtain ⟨ls, hls⟩ := h4.1
    obtain ⟨w2, g1, g2, g3, g4, g5⟩ := addCopies_ok id t lead rs h2 h3 (fun r' hr' => by
      obtain ⟨l', hl', hp⟩ := hrs r' (by simp [hr'])
      exact ⟨l', heap_ext hls hl', hp⟩)
    refine ⟨w2, ?_, g2, g3, ?_, h5.trans g5⟩
    · rw [List.foldlM_cons, h1]
      exact g1
    · have he : rs.filterMap (fun r => w1.heap[r]?) = rs.filterMap (fun r => w.heap[r]?) := by
        apply List.filterMap_congr
        intro r' hr'
        obtain ⟨l', hl', -⟩ := hrs r' (by simp [hr'])
        rw [hl', heap_ext hls hl']
      rw [he] at g4
      rw [List.filterMap_cons, hr]
      exact extends_trans h4 g4

/-- The load cases of a combination can be combined: they exist, they do not have the id of the
combination, and their loads have plain names and no factor of their own. -/
def Combinable (w : World K) (id : ℕ) (cases : List ℕ) : Prop :=
  ∀ c ∈ cases, ∃ k : Case, w.cases[c]? = some k ∧ k.id ≠ id ∧ ∀ r ∈ k.loads, ∃ l : Load K, w.heap[r]? = some l ∧ NoDigit l.name ∧ l.f = 1

theorem combinable_ext {w w' : World K} {id : ℕ} {cases : List ℕ} {news : List (Action K × K)} (h : Combinable w id cases) (he : Extends w w' id news) (hg : Grows w w' id) :
    Combinable w' id cases := by
  intro c hc
  obtain ⟨k, h1, h2, h3⟩ := h c hc
  obtain ⟨k', g1, -, g3⟩ := hg c k h1
  obtain rfl := g3 h2
  obtain ⟨ls, hls⟩ := he.1
  refine ⟨k', g1, h2, fun r hr => ?_⟩
  obtain ⟨l, hl, hp⟩ := h3 r hr
  exact ⟨l, heap_ext hls hl, hp⟩

theorem loadsOf_ext {w w' : World K} {id : ℕ} {cases : List ℕ} {news : List (Action K × K)} (h : Combinable w id cases) (he : Extends w w' id news) (hg : Grows w w' id)
    {c : ℕ} (hc : c ∈ cases) : loadsOf w' c = loadsOf w c := by
  obtain ⟨k, h1, h2, h3⟩ := h c hc
  obtain ⟨k', g1, -, g3⟩ := hg c k h1
  obtain rfl := g3 h2
  obtain ⟨ls, hls⟩ := he.1
  unfold loadsOf
  rw [g1, h1]
  apply List.filterMap_congr
  intro r hr
  obtain ⟨l, hl, -⟩ := h3 r hr
  rw [hl, heap_ext hls hl]

theorem combineCases_ok (b : Comb) : ∀ (cs : List ℕ) {w : World K}, Inv w → KeysOk w.dict → Combinable w b.id cs →
    ∃ w', cs.foldlM (fun w c => w.combineCase b c) w = .ok w' ∧ Inv w' ∧ KeysOk w'.dict ∧ Extends w w' b.id (combined w b.type cs b.lead) ∧ Grows w w' b.id
  | [], w, hw, hk, _ => ⟨w, rfl, hw, hk, extends_refl w b.id, Grows.refl w b.id⟩
  | c :: cs, w, hw, hk, hc => by
    obtain ⟨k, h1, h2, h3⟩ := hc c (by simp)
    obtain ⟨w1, e1, e2, e3, e4, e5⟩ := addCopies_ok b.id b.type (decide (b.lead = some c)) k.loads hw hk h3
    have hc' : Combinable w b.id cs := fun c' h => hc c' (by simp [h])
    obtain ⟨w2, g1, g2, g3, g4, g5⟩ := combineCases_ok b cs e2 e3 (combinable_ext hc' e4 e5)
    refine ⟨w2, ?_, g2, g3, ?_, e5.trans g5⟩
    · rw [List.foldlM_cons]
      have : w.combineCase b c = .ok w1 := by unfold World.combineCase; rw [h1]; exact e1
      rw [this]
      exact g1
    · have hcomb : combined w b.type (c :: cs) b.lead = (k.loads.filterMap (fun r => w.heap[r]?)).map (wanted b.type (decide (b.lead = some c))) ++ combined w1 b.type cs b.lead := by
        unfold combined
        rw [List.flatMap_cons]
        congr 1
        · unfold loadsOf; rw [h1]; rfl
        · apply List.flatMap_congr
          intro c' h
          rw [loadsOf_ext hc' e4 e5 h]
      rw [hcomb]
      exact extends_trans e4 g4

theorem clear_inv {w : World K} (hw : Inv w) (id : ℕ) : Inv (w.clear id) :=
  ⟨hw.ids, fun e he => hw.dictRefs e (List.mem_of_mem_filter he), hw.caseRefs⟩

/-- The loads of other ids stay when a combination is cleared. -/
theorem clear_acting (w : World K) (id j : ℕ) : (w.clear id).acting j = if j = id then [] else w.acting j := by
  unfold World.acting World.clear
  simp only
  induction w.dict with
  | nil => simp
  | cons e t ih =>
    rw [List.filter_cons]
    cases hx : w.heap[e.2]? with
    | none =>
      simp only [Option.map_none]
      rw [if_pos (by simp)]
      rw [List.filterMap_cons, List.filterMap_cons, hx]
      exact ih
    | some l =>
      simp only [Option.map_some]
      by_cases hl : l.loadId = id
      · rw [if_neg (by simp [hl]), ih]
        split_ifs with hj
        · rfl
        · rw [List.filterMap_cons, hx]
          simp only [Option.bind_some]
          rw [if_neg (by rw [hl]; exact fun e => hj e.symm)]
      · rw [if_pos (by simp [hl]), List.filterMap_cons, List.filterMap_cons, hx]
        simp only [Option.bind_some]
        by_cases hj : l.loadId = j
        · rw [if_pos hj]
          simp only
          rw [ih]
          have : j ≠ id := by rw [← hj]; exact hl
          simp [this]
        · rw [if_neg hj]
          exact ih

/-- Combining in terms of the loads that act. -/
theorem combine_ok {w : World K} (hw : Inv w) (b : Comb) (hk : KeysOk (w.clear b.id).dict) (hc : Combinable w b.id b.cases) :
    ∃ w', w.combine b = .ok w' ∧ Inv w' ∧ KeysOk w'.dict ∧ Extends (w.clear b.id) w' b.id (combined w b.type b.cases b.lead) ∧ Grows w w' b.id :=
  combineCases_ok b b.cases (w := w.clear b.id) (clear_inv hw b.id) hk hc

/-- C182. A combination with an id of its own brings to the frame exactly the loads of its load cases, each
multiplied by its partial factor and, unless its load case leads, by its combination factor; the loads of all
other ids stay as they are. Missing: loads whose name ends in a digit, loads with a factor of their own (see
`C182_violation_factor`), and a combination that shares its id with one of its load cases (`C182_violation_id`). -/
theorem C182_partial {w : World K} (hw : Inv w) (b : Comb) (hk : KeysOk w.dict) (hfresh : w.acting b.id = [])
    (hc : Combinable w b.id b.cases) :
    ∃ w', w.combine b = .ok w' ∧ w'.acting b.id = combined w b.type b.cases b.lead ∧ ∀ j, j ≠ b.id → w'.acting j = w.acting j := by
  have hclear : (w.clear b.id).dict = w.dict := by
    unfold World.clear
    simp only
    rw [List.filter_eq_self]
    intro e he
    have hlt := hw.dictRefs e he
    rw [List.getElem?_eq_getElem hlt]
    simp only [Option.map_some, ne_eq, Option.some.injEq, decide_not, Bool.not_eq_true', decide_eq_false_iff_not]
    intro h
    have : ((w.heap[e.2]).act, (w.heap[e.2]).f) ∈ w.acting b.id := by
      unfold World.acting
      rw [List.mem_filterMap]
      refine ⟨e, he, ?_⟩
      rw [List.getElem?_eq_getElem hlt]
      simp [h]
    rw [hfresh] at this
    cases this
  obtain ⟨w', h1, h2, h3, h4, h5⟩ := combine_ok hw b (by rw [hclear]; exact hk) hc
  refine ⟨w', h1, ?_, fun j hj => ?_⟩
  · rw [extends_acting (clear_inv hw _) h4, clear_acting]; simp
  · rw [extends_acting (clear_inv hw _) h4, clear_acting]; simp [hj]

/-- C183. Combining again changes nothing: the frame has the same loads in every load case. Missing: other
combinations made in between (see `C183_violation_other`). -/
theorem C183_partial {w w1 w2 : World K} (hw : Inv w) (b : Comb) (hk : KeysOk (w.clear b.id).dict) (hc : Combinable w b.id b.cases)
    (h1 : w.combine b = .ok w1) (h2 : w1.combine b = .ok w2) : ∀ j, w2.acting j = w1.acting j := by
  obtain ⟨w1', e1, e2, e3, e4, e5⟩ := combine_ok hw b hk hc
  rw [h1] at e1
  obtain rfl := Except.ok.inj e1
  -- clearing again leaves what was there before the first combination
  have hclear : (w1.clear b.id).dict = (w.clear b.id).dict := by
    obtain ⟨⟨ls, hls⟩, tail, htail, hnews⟩ := e4
    unfold World.clear at htail hls ⊢
    simp only at htail hls ⊢
    rw [htail, List.filter_append]
    have ha : (w.dict.filter (fun e => decide ((w.heap[e.2]?).map Load.loadId ≠ some b.id))).filter (fun e => decide ((w1.heap[e.2]?).map Load.loadId ≠ some b.id)) =
        w.dict.filter (fun e => decide ((w.heap[e.2]?).map Load.loadId ≠ some b.id)) := by
      rw [List.filter_eq_self]
      intro e he
      rw [List.mem_filter] at he
      have hlt := hw.dictRefs e he.1
      have hx : w1.heap[e.2]? = w.heap[e.2]? := by rw [hls, List.getElem?_append_left hlt]
      rw [hx]
      exact he.2
    have hb : tail.filter (fun e => decide ((w1.heap[e.2]?).map Load.loadId ≠ some b.id)) = [] := by
      rw [List.filter_eq_nil_iff]
      intro e he
      have : (w1.heap[e.2]?).map (fun l : Load K => (l.act, l.loadId, l.f)) ∈ (combined w b.type b.cases b.lead).map (fun n => some (n.1, b.id, n.2)) := by
        rw [← hnews]
        exact List.mem_map_of_mem he
      rw [List.mem_map] at this
      obtain ⟨n, -, hn⟩ := this
      cases hx : w1.heap[e.2]? with
      | none => rw [hx] at hn; simp at hn
      | some l =>
        rw [hx] at hn
        simp only [Option.map_some, Option.some.injEq, Prod.mk.injEq] at hn
        simp [hn.2.1]
    rw [ha, hb, List.append_nil]
  have hcl : Combinable w1 b.id b.cases := by
    have : Combinable (w.clear b.id) b.id b.cases := hc
    exact combinable_ext this e4 e5
  obtain ⟨w2', g1, g2, g3, g4, g5⟩ := combine_ok e2 b (by rw [hclear]; exact hk) hcl
  rw [h2] at g1
  obtain rfl := Except.ok.inj g1
  have hcomb : combined w1 b.type b.cases b.lead = combined w b.type b.cases b.lead := by
    unfold combined
    apply List.flatMap_congr
    intro c hcc
    have : Combinable (w.clear b.id) b.id b.cases := hc
    rw [loadsOf_ext this e4 e5 hcc]
    rfl
  intro j
  rw [extends_acting (clear_inv e2 _) g4, hcomb, clear_acting, extends_acting (clear_inv hw _) e4, clear_acting]
  by_cases hj : j = b.id
  · simp [hj]
  · simp [hj]

/-! ### Violations and examples -/

/-- `frame.add(load)` with a load object made for it. -/
def World.add (w : World K) (l : Load K) : Except PyErr (World K) := (w.newLoad l).1.addLoad (w.newLoad l).2

/-- `frame.add(LoadCase(id, loads))` with load objects made for it. -/
def World.newLoads (w : World K) (ls : List (Load K)) : World K × List ℕ := ({ w with heap := w.heap ++ ls }, List.range' w.heap.length ls.length)

/-- `frame.add(LoadCase(id, loads))` with load objects made for it. -/
def World.addNewCase (w : World K) (id : ℕ) (ls : List (Load K)) : Except PyErr (World K) :=
  (((w.newLoads ls).1.newCase id (w.newLoads ls).2).1).addCase ((w.newLoads ls).1.newCase id (w.newLoads ls).2).2

/-- A line load of `v` on member `m`. -/
def line (m : ℕ) (v : ℚ) (id : ℕ) (t : LType) (name : String) (f : ℚ := 1) : Load ℚ := ⟨.line m v v, id, t, name, f⟩

/-- A frame with a dead load in load case 1 and a live and a wind load in load cases 2 and 3. -/
def exampleFrame : Except PyErr (World ℚ) := do
  let w ← (World.empty [1, 1]).add (line 0 (-2) 1 .dead "roof")
  let w ← w.add (line 0 (-5) 2 .live "crowd")
  w.add (line 1 3 3 .wind "wind")

/-- A frame whose live load has the factor 1.1 of its own. -/
def scaledFrame : Except PyErr (World ℚ) := (World.empty [1]).add (line 0 (-5) 2 .live "crowd" (11 / 10))

/-- The loads that act, as a list of values. -/
def values (r : Except PyErr (World ℚ)) (id : ℕ) : Option (List (Action ℚ × ℚ)) :=
  match r with
  | .error _ => none
  | .ok w => some (w.acting id)

/-- The combination of the given load cases of a frame. -/
def combineAs (r : Except PyErr (World ℚ)) (id : ℕ) (t : CombType) (cases : List ℕ) : Except PyErr (World ℚ) :=
  match r with
  | .error e => .error e
  | .ok w => w.combine (w.newComb id t cases)

/-- The same combination object combined once more: its leading load case was chosen before. -/
def again (r : Except PyErr (World ℚ)) (b : Comb) : Except PyErr (World ℚ) :=
  match r with
  | .error e => .error e
  | .ok w => w.combine b

example : values (combineAs exampleFrame 10 .uls [0, 1, 2]) 10 = some [(.line 0 (-2) (-2), 23 / 20), (.line 0 (-5) (-5), 3 / 2), (.line 1 3 3, 9 / 10)] := by decide +kernel

/-- A load's own factor is lost in a combination: the live load of 1.1·5 counts as 5. -/
theorem C182_violation_factor : values scaledFrame 2 = some [(.line 0 (-5) (-5), 11 / 10)] ∧
    values (combineAs scaledFrame 10 .uls [0]) 10 = some [(.line 0 (-5) (-5), 3 / 2)] ∧
    (match scaledFrame with
      | .error _ => none
      | .ok w => some (combined w .uls [0] (leader w [0]))) = some [(.line 0 (-5) (-5), 33 / 20)] := by
  refine ⟨?_, ?_, ?_⟩ <;> decide +kernel

/-- However a load was scaled, its factor in a combination is the same. -/
theorem C182_violation_factor_any (l : Load K) (f : K) (t : CombType) (lead : Bool) : ({ l with f := f }.factored t lead).f = (l.factored t lead).f := rfl

/-- A combination with the id of a load case takes the loads of that load case out of the frame, here a dead load
of 2 in load case 1, of which only 2.3 remains. -/
theorem C182_violation_id : values exampleFrame 1 = some [(.line 0 (-2) (-2), 1)] ∧ values (combineAs exampleFrame 1 .uls [0]) 1 = some [(.line 0 (-2) (-2), 23 / 20)] := by
  refine ⟨?_, ?_⟩ <;> decide +kernel

/-- Two combinations of a frame; the first one is then combined again. -/
def twoCombs : Except PyErr (World ℚ) := combineAs (combineAs ((World.empty [1]).add (line 0 (-5) 2 .live "crowd")) 10 .uls [0]) 20 .sls [0]

/-- When the first of two combinations is combined again, its load takes the name of the load of the second one and
replaces it: the second combination has no loads any more. -/
theorem C183_violation_other : values twoCombs 10 = some [(.line 0 (-5) (-5), 3 / 2)] ∧ values twoCombs 20 = some [(.line 0 (-5) (-5), 1)] ∧
    values (again twoCombs ⟨10, .uls, [0], some 0⟩) 10 = some [(.line 0 (-5) (-5), 3 / 2)] ∧
    values (again twoCombs ⟨10, .uls, [0], some 0⟩) 20 = some [] := by
  refine ⟨?_, ?_, ?_, ?_⟩ <;> decide +kernel

/-- The hypotheses of `C182_partial` and `C183_partial` hold for a new frame and stay true when loads with plain
names are added and when they are combined. -/
theorem inv_empty (ms : List K) : Inv (World.empty ms) ∧ KeysOk (World.empty ms).dict :=
  ⟨⟨by simp [World.empty], by simp [World.empty], by simp [World.empty]⟩, by simp [World.empty, KeysOk]⟩

theorem add_ok {w : World K} (hw : Inv w) (hk : KeysOk w.dict) {l : Load K} (hl : NoDigit l.name) :
    ∃ w', w.add l = .ok w' ∧ Inv w' ∧ KeysOk w'.dict ∧ ∀ j, w'.acting j = w.acting j ++ if j = l.loadId then [(l.act, l.f)] else [] := by
  obtain ⟨w', h1, h2, h3, h4, -, -, -⟩ := addNew_ok hw hk hl
  exact ⟨w', h1, h2, h3, extends_acting hw h4⟩

theorem noDigit_of {s : String} {l : List Char} {c : Char} (h : s.toList = l ++ [c]) (hc : c.isDigit = false) : NoDigit s := ⟨l, c, h, hc⟩

example : ∃ w : World ℚ, Inv w ∧ KeysOk w.dict ∧ w.acting 10 = [] ∧ w.acting 2 = [(.line 0 (-5) (-5), 1)] ∧ Combinable w 10 [0] ∧
    combined w .uls [0] (some 0) = [(.line 0 (-5) (-5), 3 / 2)] := by
  obtain ⟨w, h, hi, hk, ha⟩ := add_ok (inv_empty [(1 : ℚ)]).1 (inv_empty [(1 : ℚ)]).2 (l := line 0 (-5) 2 .live "crowd")
    (noDigit_of (l := ['c', 'r', 'o', 'w']) (c := 'd') (by decide) (by decide))
  have hw : w = ⟨[line 0 (-5) 2 .live "crowd"], [⟨2, [0]⟩], [("crowd", 0)], [2, 2], [(2, 0)], false, [(1, false)]⟩ := by
    have h' : (World.empty [(1 : ℚ)]).add (line 0 (-5) 2 .live "crowd") = .ok ⟨[line 0 (-5) 2 .live "crowd"], [⟨2, [0]⟩], [("crowd", 0)], [2, 2], [(2, 0)], false, [(1, false)]⟩ := by
      decide +kernel
    rw [h] at h'
    exact Except.ok.inj h'
  refine ⟨w, hi, hk, ?_, ?_, ?_, ?_⟩
  · rw [hw]; decide +kernel
  · rw [hw]; decide +kernel
  · rw [hw]
    intro c hc
    rw [List.mem_singleton] at hc
    subst hc
    refine ⟨⟨2, [0]⟩, rfl, by decide, fun r hr => ?_⟩
    rw [List.mem_singleton] at hr
    subst hr
    exact ⟨_, rfl, noDigit_of (l := ['c', 'r', 'o', 'w']) (c := 'd') (by decide) (by decide), rfl⟩
  · rw [hw]; decide +kernel

end Metku.Raami
