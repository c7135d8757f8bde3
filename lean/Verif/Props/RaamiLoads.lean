import Verif.Model.RaamiLoads
import Verif.Props.FrameLoads

/-! Loads, load cases and load combinations of a `Raami` frame: how the registers change. -/
namespace Metku.Raami

open Metku.Frame2D (dictSet freshName KeysOk NoDigit dictSet_fresh)

set_option linter.unusedSectionVars false

variable {K : Type} [Field K]

/-- The registers of a frame fit together: every noted id has a load case of that id, and all
references are to existing objects. -/
structure Inv (w : World K) : Prop where
  ids : ∀ id ∈ w.loadIds, ∃ (c : ℕ) (k : Case), w.caseOf.lookup id = some c ∧ w.cases[c]? = some k ∧ k.id = id
  dictRefs : ∀ e ∈ w.dict, e.2 < w.heap.length
  caseRefs : ∀ k ∈ w.cases, ∀ r ∈ k.loads, r < w.heap.length

/-- Load cases stay what they are, except that those of one id may have more loads. -/
def Grows (w w' : World K) (id : ℕ) : Prop :=
  ∀ (c : ℕ) (k : Case), w.cases[c]? = some k → ∃ k' : Case, w'.cases[c]? = some k' ∧ k'.id = k.id ∧ (k.id ≠ id → k' = k)

theorem Grows.refl (w : World K) (id : ℕ) : Grows w w id := fun _ k h => ⟨k, h, rfl, fun _ => rfl⟩

theorem Grows.trans {w w' w'' : World K} {id : ℕ} (h : Grows w w' id) (h' : Grows w' w'' id) : Grows w w'' id := by
  intro c k hk
  obtain ⟨k', h1, h2, h3⟩ := h c k hk
  obtain ⟨k'', g1, g2, g3⟩ := h' c k' h1
  exact ⟨k'', g1, g2.trans h2, fun hne => by rw [g3 (by rwa [h2]), h3 hne]⟩

theorem modify_self {α : Type} (l : List α) (r : ℕ) (g : α → α) (h : ∀ x, l[r]? = some x → g x = x) : l.modify r g = l := by
  apply List.ext_getElem?
  intro i
  rw [List.getElem?_modify]
  split_ifs with hi
  · subst hi
    cases hx : l[r]? with
    | none => rfl
    | some x => simp [h x hx]
  · cases l[i]? <;> rfl

theorem lookup_map_set (d : List (ℕ × ℕ)) (id c j : ℕ) :
    (d.map (fun e => if e.1 = id then (id, c) else e)).lookup j = if j = id ∧ id ∈ d.map Prod.fst then some c else d.lookup j := by
  induction d with
  | nil => simp
  | cons e t ih =>
    rcases e with ⟨a, b⟩
    rw [List.map_cons]
    by_cases ha : a = id
    · subst ha
      by_cases hj : j = a
      · subst hj; simp [List.lookup]
      · have hb : (j == a) = false := by simpa using hj
        simp only [if_true, List.lookup, hb]
        rw [ih]
        simp [hj]
    · simp only [ha, if_false]
      by_cases hj : j = a
      · subst hj
        simp [List.lookup, ha]
      · have hb : (j == a) = false := by simpa using hj
        simp only [List.lookup, hb]
        rw [ih]
        have h1 : id ≠ a := fun e => ha e.symm
        simp only [List.map_cons, List.mem_cons, h1, false_or]

theorem lookup_append_new (d : List (ℕ × ℕ)) (id c j : ℕ) (h : id ∉ d.map Prod.fst) :
    (d ++ [(id, c)]).lookup j = if j = id then some c else d.lookup j := by
  induction d with
  | nil =>
    by_cases hj : j = id
    · subst hj; simp [List.lookup]
    · have hb : (j == id) = false := by simpa using hj
      simp [List.lookup, hj, hb]
  | cons e t ih =>
    rcases e with ⟨a, b⟩
    simp only [List.map_cons, List.mem_cons, not_or] at h
    have ih := ih h.2
    rw [List.cons_append]
    by_cases hj : j = a
    · subst hj
      have : j ≠ id := fun e => h.1 e.symm
      simp [List.lookup, this]
    · have hb : (j == a) = false := by simpa using hj
      simp only [List.lookup, hb]
      rw [ih]

theorem register_lookup (w : World K) (id c j : ℕ) : (w.register id c).caseOf.lookup j = if j = id then some c else w.caseOf.lookup j := by
  unfold World.register
  simp only
  split_ifs with h1 h2 h2
  · rw [lookup_map_set, if_pos ⟨h2, h1⟩]
  · rw [lookup_map_set, if_neg (fun h => h2 h.1)]
  · rw [lookup_append_new _ _ _ _ h1, if_pos h2]
  · rw [lookup_append_new _ _ _ _ h1, if_neg h2]

theorem register_ids (w : World K) (id c j : ℕ) : j ∈ (w.register id c).loadIds ↔ j = id ∨ j ∈ w.loadIds := by
  unfold World.register
  simp only
  split_ifs with h
  · constructor
    · exact Or.inr
    · rintro (rfl | h')
      · exact h
      · exact h'
  · rw [List.mem_append, List.mem_singleton]; tauto

theorem register_inv {w : World K} (hw : Inv w) {id c : ℕ} {k : Case} (hk : w.cases[c]? = some k) (hid : k.id = id) : Inv (w.register id c) := by
  refine ⟨?_, hw.dictRefs, hw.caseRefs⟩
  intro j hj
  rw [register_lookup]
  split_ifs with h
  · exact ⟨c, k, rfl, hk, by rw [hid, h]⟩
  · rcases (register_ids w id c j).mp hj with h' | h'
    · exact absurd h' h
    · exact hw.ids j h'

/-- Adding a load to a load case of the same id. -/
theorem caseAdd_same {w : World K} {c r : ℕ} {k : Case} (hk : w.cases[c]? = some k) (hr : ∀ l, w.heap[r]? = some l → l.loadId = k.id) :
    (w.caseAdd c r).heap = w.heap ∧ (w.caseAdd c r).dict = w.dict ∧ (w.caseAdd c r).loadIds = w.loadIds ∧ (w.caseAdd c r).caseOf = w.caseOf ∧
      (w.caseAdd c r).members = w.members ∧ (w.caseAdd c r).selfWeight = w.selfWeight ∧
      (w.caseAdd c r).cases = w.cases.modify c (fun k => if r ∈ k.loads then k else { k with loads := k.loads ++ [r] }) := by
  unfold World.caseAdd
  simp only [hk]
  split_ifs with h
  · refine ⟨rfl, rfl, rfl, rfl, rfl, rfl, ?_⟩
    rw [modify_self]
    intro x hx
    rw [hk] at hx
    obtain rfl := Option.some.inj hx
    rw [if_pos h]
  · refine ⟨?_, rfl, rfl, rfl, rfl, rfl, ?_⟩
    · refine modify_self _ _ _ fun l hl => ?_
      have := hr l hl
      rcases l with ⟨a, b, c', d, e⟩
      simp only at this
      rw [this]
    · apply List.ext_getElem?
      intro i
      simp only [List.getElem?_modify]
      split_ifs with hi
      · subst hi
        rw [hk]
        simp [h]
      · rfl

theorem mem_modify {α : Type} {l : List α} {c : ℕ} {g : α → α} {x : α} (h : x ∈ l.modify c g) : x ∈ l ∨ ∃ y ∈ l, x = g y := by
  obtain ⟨i, hi⟩ := List.mem_iff_getElem?.mp h
  rw [List.getElem?_modify] at hi
  cases hy : l[i]? with
  | none => rw [hy] at hi; simp at hi
  | some y =>
    rw [hy] at hi
    have hm := List.mem_of_getElem? hy
    split_ifs at hi
    · simp only [Functor.map, Option.map_some, Option.some.injEq] at hi
      exact Or.inr ⟨y, hm, hi.symm⟩
    · simp only [Functor.map, Option.map_some, Option.some.injEq, id] at hi
      exact Or.inl (hi ▸ hm)

theorem caseAdd_inv {w : World K} (hw : Inv w) {c r : ℕ} {k : Case} (hk : w.cases[c]? = some k) (hr : ∀ l, w.heap[r]? = some l → l.loadId = k.id)
    (hlt : r < w.heap.length) : Inv (w.caseAdd c r) ∧ Grows w (w.caseAdd c r) k.id := by
  obtain ⟨h1, h2, h3, h4, -, -, h7⟩ := caseAdd_same hk hr
  have hgrow : Grows w (w.caseAdd c r) k.id := by
    intro c' k' hk'
    rw [h7, List.getElem?_modify, hk']
    by_cases hc : c = c'
    · subst hc
      rw [hk] at hk'
      obtain rfl := Option.some.inj hk'
      refine ⟨_, rfl, ?_, fun h => absurd rfl h⟩
      simp only [if_true]
      split_ifs <;> rfl
    · refine ⟨k', ?_, rfl, fun _ => rfl⟩
      simp [hc]
  refine ⟨⟨?_, ?_, ?_⟩, hgrow⟩
  · rw [h3, h4]
    intro id hid
    obtain ⟨c', k', g1, g2, g3⟩ := hw.ids id hid
    obtain ⟨k'', e1, e2, -⟩ := hgrow c' k' g2
    exact ⟨c', k'', g1, e1, e2.trans g3⟩
  · rw [h1, h2]; exact hw.dictRefs
  · rw [h1, h7]
    intro k' hk' r' hr'
    rcases mem_modify hk' with h | ⟨y, hy, rfl⟩
    · exact hw.caseRefs k' h r' hr'
    · split_ifs at hr' with hin
      · exact hw.caseRefs y hy r' hr'
      · simp only [List.mem_append, List.mem_singleton] at hr'
        rcases hr' with h | rfl
        · exact hw.caseRefs y hy r' h
        · exact hlt

/-- The dictionary after adding a load object. -/
def dictAfter (w : World K) (r : ℕ) (l : Load K) : List (String × ℕ) :=
  if l.act.isPoint ∧ r ∈ w.dict.map Prod.snd then w.dict else dictSet w.dict (freshName w.dict l.name) r

theorem mem_dictSet {α : Type} {d : List (String × α)} {n : String} {x : α} {e : String × α} (h : e ∈ dictSet d n x) : e ∈ d ∨ e.2 = x := by
  unfold dictSet at h
  split_ifs at h
  · rw [List.mem_map] at h
    obtain ⟨a, ha, rfl⟩ := h
    split_ifs
    · exact Or.inr rfl
    · exact Or.inl ha
  · rw [List.mem_append, List.mem_singleton] at h
    rcases h with h | rfl
    · exact Or.inl h
    · exact Or.inr rfl

/-- Adding a load object to a frame whose registers fit together. -/
theorem addLoad_ok {w : World K} (hw : Inv w) {r : ℕ} {l : Load K} (hl : w.heap[r]? = some l) :
    ∃ w', w.addLoad r = .ok w' ∧ Inv w' ∧ w'.heap = w.heap.modify r (fun l => { l with name := freshName w.dict l.name }) ∧ w'.dict = dictAfter w r l ∧
      Grows w w' l.loadId ∧ (∀ j, j ∈ w'.loadIds ↔ j = l.loadId ∨ j ∈ w.loadIds) ∧ w'.members = w.members ∧ w'.selfWeight = w.selfWeight ∧
      w.cases.length ≤ w'.cases.length := by
  have hlt : r < w.heap.length := (List.getElem?_eq_some_iff.mp hl).1
  -- the world after renaming and storing
  obtain ⟨w2, hw2⟩ : ∃ w2 : World K, w2 = (if l.act.isPoint ∧ r ∈ w.dict.map Prod.snd then w.modify r (fun l => { l with name := freshName w.dict l.name })
      else { w.modify r (fun l => { l with name := freshName w.dict l.name }) with dict := dictSet w.dict (freshName w.dict l.name) r }) := ⟨_, rfl⟩
  have e1 : w2.heap = w.heap.modify r (fun l => { l with name := freshName w.dict l.name }) := by rw [hw2]; split_ifs <;> rfl
  have e2 : w2.dict = dictAfter w r l := by rw [hw2]; unfold dictAfter; split_ifs <;> rfl
  have e3 : w2.cases = w.cases := by rw [hw2]; split_ifs <;> rfl
  have e4 : w2.loadIds = w.loadIds := by rw [hw2]; split_ifs <;> rfl
  have e5 : w2.caseOf = w.caseOf := by rw [hw2]; split_ifs <;> rfl
  have e6 : w2.members = w.members := by rw [hw2]; split_ifs <;> rfl
  have e7 : w2.selfWeight = w.selfWeight := by rw [hw2]; split_ifs <;> rfl
  have hheap : ∀ (i : ℕ) (x : Load K), w2.heap[i]? = some x → ∃ y : Load K, w.heap[i]? = some y ∧ x.loadId = y.loadId := by
    intro i x hx
    rw [e1, List.getElem?_modify] at hx
    cases hy : w.heap[i]? with
    | none => rw [hy] at hx; simp at hx
    | some y =>
      rw [hy] at hx
      refine ⟨y, rfl, ?_⟩
      split_ifs at hx <;> · simp only [Functor.map, Option.map_some, Option.some.injEq] at hx; subst hx; rfl
  have hinv2 : Inv w2 := by
    refine ⟨by rw [e3, e4, e5]; exact hw.ids, ?_, ?_⟩
    · rw [e1, e2, List.length_modify]
      intro e he
      unfold dictAfter at he
      split_ifs at he
      · exact hw.dictRefs e he
      · rcases mem_dictSet he with h | h
        · exact hw.dictRefs e h
        · rw [h]; exact hlt
    · rw [e1, e3, List.length_modify]; exact hw.caseRefs
  have hr2 : ∀ x : Load K, w2.heap[r]? = some x → x.loadId = l.loadId := by
    intro x hx
    obtain ⟨y, hy, he⟩ := hheap r x hx
    rw [hl] at hy
    rw [he, Option.some.inj hy]
  have hlt2 : r < w2.heap.length := by rw [e1, List.length_modify]; exact hlt
  unfold World.addLoad
  simp only [hl]
  rw [← hw2]
  by_cases hid : l.loadId ∈ w.loadIds
  · rw [if_pos hid]
    obtain ⟨c, k, g1, g2, g3⟩ := hw.ids _ hid
    rw [g1]
    have hk2 : w2.cases[c]? = some k := by rw [e3]; exact g2
    have hr2' : ∀ x : Load K, w2.heap[r]? = some x → x.loadId = k.id := fun x hx => (hr2 x hx).trans g3.symm
    obtain ⟨h1, h2, h3, h4, h5, h6, h7⟩ := caseAdd_same hk2 hr2'
    obtain ⟨hi, hg⟩ := caseAdd_inv hinv2 hk2 hr2' hlt2
    refine ⟨_, rfl, hi, h1.trans e1, h2.trans e2, ?_, ?_, h5.trans e6, h6.trans e7, by rw [h7, List.length_modify, e3]⟩
    · intro c' k' hk'
      rw [← g3]
      exact hg c' k' (by rw [e3]; exact hk')
    · intro j
      rw [h3, e4]
      constructor
      · exact Or.inr
      · rintro (rfl | h)
        · exact hid
        · exact h
  · rw [if_neg hid]
    simp only [World.newCase, List.foldl_cons, List.foldl_nil]
    -- the new load case
    obtain ⟨w3, hw3⟩ : ∃ w3 : World K, w3 = { w2 with cases := w2.cases ++ [(⟨l.loadId, []⟩ : Case)] } := ⟨_, rfl⟩
    have hk3 : w3.cases[w2.cases.length]? = some ⟨l.loadId, []⟩ := by rw [hw3]; simp
    have hold : ∀ (c : ℕ) (k : Case), w2.cases[c]? = some k → w3.cases[c]? = some k := by
      intro c k hk
      rw [hw3]
      simp only
      rw [List.getElem?_append_left (List.getElem?_eq_some_iff.mp hk).1]
      exact hk
    have hinv3 : Inv w3 := by
      refine ⟨?_, ?_, ?_⟩
      · intro id h
        rw [hw3] at h
        obtain ⟨c, k, g1, g2, g3⟩ := hinv2.ids id h
        exact ⟨c, k, by rw [hw3]; exact g1, hold c k g2, g3⟩
      · rw [hw3]; exact hinv2.dictRefs
      · rw [hw3]
        intro k hk
        rw [List.mem_append, List.mem_singleton] at hk
        rcases hk with h | rfl
        · exact hinv2.caseRefs k h
        · simp
    have h3heap : w3.heap = w2.heap := by rw [hw3]
    rw [← hw3]
    obtain ⟨h1, h2, h3, h4, h5, h6, h7⟩ := caseAdd_same hk3 (r := r) (fun x hx => hr2 x (by rw [← h3heap]; exact hx))
    obtain ⟨hi, hg⟩ := caseAdd_inv hinv3 hk3 (r := r) (fun x hx => hr2 x (by rw [← h3heap]; exact hx)) (by rw [h3heap]; exact hlt2)
    obtain ⟨k4, hk4, hid4, -⟩ := hg _ _ hk3
    have hreg := register_inv hi hk4 hid4
    refine ⟨_, rfl, ⟨?_, hreg.dictRefs, hreg.caseRefs⟩, ?_, ?_, ?_, ?_, ?_, ?_, ?_⟩
    · intro j hj
      simp only [List.mem_append, List.mem_singleton] at hj
      rcases hj with hj | rfl
      · exact hreg.ids j hj
      · exact hreg.ids _ ((register_ids _ _ _ _).mpr (Or.inl rfl))
    · show (w3.caseAdd w2.cases.length r).heap = _
      rw [h1, h3heap, e1]
    · show (w3.caseAdd w2.cases.length r).dict = _
      rw [h2, hw3]; exact e2
    · intro c k hk
      exact hg c k (hold c k (by rw [e3]; exact hk))
    · intro j
      simp only [List.mem_append, List.mem_singleton]
      rw [register_ids, h3, hw3]
      simp only
      rw [e4]
      tauto
    · show (w3.caseAdd w2.cases.length r).members = _
      rw [h5, hw3]; exact e6
    · show (w3.caseAdd w2.cases.length r).selfWeight = _
      rw [h6, hw3]; exact e7
    · show _ ≤ (w3.caseAdd w2.cases.length r).cases.length
      rw [h7, List.length_modify, hw3]; simp [e3]

end Metku.Raami
