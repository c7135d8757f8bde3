import Verif.Props.RaamiComb

/-! Leading actions, load cases, registers and self weight of a `Raami` frame. -/
namespace Metku.Raami

open Metku.Frame2D (dictSet freshName KeysOk NoDigit dictSet_fresh noDigit_default)
open Metku.RaamiSpec

set_option linter.unusedSectionVars false

variable {K : Type} [Field K]

/-! ### The leading action -/

/-- The load case has loads, all of one known type. -/
def Uniform (w : World K) (c : ℕ) : Prop :=
  ∃ (k : Case) (t : LType), w.cases[c]? = some k ∧ k.loads ≠ [] ∧ (t = .dead ∨ Variable t) ∧ ∀ r ∈ k.loads, ∃ l : Load K, w.heap[r]? = some l ∧ l.ltype = t

theorem uniform_type {w : World K} {c : ℕ} (h : Uniform w c) :
    (w.caseType c ≠ some LType.dead) ↔ (loadsOf w c).any (fun l => decide (Variable l.ltype)) = true := by
  obtain ⟨k, t, hk, hne, ht, hall⟩ := h
  obtain ⟨r, rs, hrs⟩ := List.exists_cons_of_ne_nil hne
  obtain ⟨l, hl, hlt⟩ := hall r (by rw [hrs]; simp)
  have h1 : w.caseType c = some t := by unfold World.caseType; simp [hk, hrs, hl, hlt]
  rw [h1]
  constructor
  · intro hd
    have hv : Variable t := ht.resolve_left (fun e => hd (by rw [e]))
    rw [List.any_eq_true]
    refine ⟨l, ?_, by rw [hlt]; exact decide_eq_true hv⟩
    unfold loadsOf
    rw [hk]
    simp only [Option.map_some, Option.getD_some, List.mem_filterMap]
    exact ⟨r, by rw [hrs]; simp, hl⟩
  · intro ha
    rw [List.any_eq_true] at ha
    obtain ⟨x, hx, hv⟩ := ha
    unfold loadsOf at hx
    rw [hk] at hx
    simp only [Option.map_some, Option.getD_some, List.mem_filterMap] at hx
    obtain ⟨r', hr', hx⟩ := hx
    obtain ⟨l', hl', hlt'⟩ := hall r' hr'
    rw [hl'] at hx
    obtain rfl := Option.some.inj hx
    have hv : Variable l'.ltype := of_decide_eq_true hv
    rw [hlt'] at hv
    intro e
    obtain rfl := Option.some.inj e
    rcases hv with h | h | h <;> cases h

/-- C184. In a combination the first load case with variable actions leads, and no other. Missing: load cases
without loads (see `C184_violation_empty`), load cases with permanent and variable loads (`C184_violation_mixed`)
and unknown types of loads. -/
theorem C184_partial (w : World K) (id : ℕ) (t : CombType) (cases : List ℕ) (h : ∀ c ∈ cases, Uniform w c) : (w.newComb id t cases).lead = leader w cases := by
  unfold World.newComb leader
  simp only
  induction cases with
  | nil => rfl
  | cons c cs ih =>
    rw [List.find?_cons, List.find?_cons]
    have hc := uniform_type (h c (by simp))
    have ih := ih (fun c' hc' => h c' (by simp [hc']))
    by_cases hd : w.caseType c ≠ some LType.dead
    · rw [decide_eq_true hd, hc.mp hd]
    · rw [decide_eq_false hd]
      have : (loadsOf w c).any (fun l => decide (Variable l.ltype)) = false := by
        rw [Bool.eq_false_iff]
        exact fun e => hd (hc.mpr e)
      rw [this]
      exact ih

/-- A frame with a dead load (case 1), a load case 7 that has no loads yet, and a live load (case 2). -/
def emptyCaseFrame : Except PyErr (World ℚ) := do
  let w ← (World.empty [1]).addNewCase 1 [line 0 (-2) 1 .dead "roof"]
  let w ← w.addNewCase 7 []
  w.addNewCase 2 [line 0 (-5) 2 .live "crowd"]

/-- A load case without loads takes the lead, and the only variable load is reduced as if it accompanied
another one: 1.05 instead of 1.5. -/
theorem C184_violation_empty : values (combineAs emptyCaseFrame 10 .uls [0, 1, 2]) 10 = some [(.line 0 (-2) (-2), 23 / 20), (.line 0 (-5) (-5), 21 / 20)] ∧
    (match emptyCaseFrame with
      | .error _ => none
      | .ok w => leader w [0, 1, 2]) = some 2 := by
  refine ⟨?_, ?_⟩ <;> decide +kernel

/-- A load case whose first load is a dead load and whose second load is a live load, and a load case of wind. -/
def mixedCaseFrame : Except PyErr (World ℚ) := do
  let w ← (World.empty [1]).addNewCase 1 [line 0 (-2) 1 .dead "roof", line 0 (-5) 1 .live "crowd"]
  w.addNewCase 2 [line 0 3 2 .wind "wind"]

/-- A load case with a live load does not lead if its first load is a dead load; alone it is reduced to 1.05. -/
theorem C184_violation_mixed : values (combineAs mixedCaseFrame 10 .uls [0]) 10 = some [(.line 0 (-2) (-2), 23 / 20), (.line 0 (-5) (-5), 21 / 20)] ∧
    (match mixedCaseFrame with
      | .error _ => none
      | .ok w => leader w [0]) = some 0 := by
  refine ⟨?_, ?_⟩ <;> decide +kernel

/-- The load cases of a frame as the theorem wants them. -/
example : ∃ w : World ℚ, exampleFrame = .ok w ∧ (∀ c ∈ [0, 1, 2], Uniform w c) ∧ leader w [0, 1, 2] = some 1 := by
  have h : exampleFrame = .ok ⟨[line 0 (-2) 1 .dead "roof", line 0 (-5) 2 .live "crowd", line 1 3 3 .wind "wind"], [⟨1, [0]⟩, ⟨2, [1]⟩, ⟨3, [2]⟩],
      [("roof", 0), ("crowd", 1), ("wind", 2)], [1, 1, 2, 2, 3, 3], [(1, 0), (2, 1), (3, 2)], false, [(1, false), (1, false)]⟩ := by decide +kernel
  refine ⟨_, h, ?_, by decide +kernel⟩
  intro c hc
  simp only [List.mem_cons, List.not_mem_nil, or_false] at hc
  rcases hc with rfl | rfl | rfl
  · exact ⟨⟨1, [0]⟩, .dead, rfl, by simp, Or.inl rfl, by simp [line]⟩
  · exact ⟨⟨2, [1]⟩, .live, rfl, by simp, Or.inr (Or.inl rfl), by simp [line]⟩
  · exact ⟨⟨3, [2]⟩, .wind, rfl, by simp, Or.inr (Or.inr (Or.inl rfl)), by simp [line]⟩

/-! ### Adding a load case -/

theorem mem_dict_snd {w : World K} (hw : Inv w) {r : ℕ} (h : w.heap.length ≤ r) : r ∉ w.dict.map Prod.snd := by
  intro hr
  rw [List.mem_map] at hr
  obtain ⟨e, he, rfl⟩ := hr
  have := hw.dictRefs e he
  omega

/-- Adding, one after another, loads of one id that are not in the frame and whose names are new and different. -/
theorem addUnnamed_fold (id : ℕ) : ∀ (rs : List ℕ) {w : World K}, Inv w → rs.Nodup →
    (∀ r ∈ rs, r ∉ w.dict.map Prod.snd ∧ ∃ l : Load K, w.heap[r]? = some l ∧ l.loadId = id ∧ l.name ∉ w.dict.map Prod.fst) →
    ((rs.filterMap (fun r => w.heap[r]?)).map Load.name).Nodup →
    ∃ w', rs.foldlM (fun w r => w.addUnnamed r) w = .ok w' ∧ Inv w' ∧ w'.heap = w.heap ∧
      w'.dict = w.dict ++ rs.filterMap (fun r => (w.heap[r]?).map (fun l => (l.name, r)))
  | [], w, hw, _, _, _ => ⟨w, rfl, hw, rfl, by simp⟩
  | r :: rs, w, hw, hnd, hrs, hnames => by
    obtain ⟨hr1, l, hl, hlid, hname⟩ := hrs r (by simp)
    obtain ⟨w1, h1, h2, h3, h4, -, -, -, -, -⟩ := addLoad_ok hw hl
    have hfresh : freshName w.dict l.name = l.name := by unfold freshName; rw [if_neg hname]
    have hheap : w1.heap = w.heap := by
      rw [h3]
      refine modify_self _ _ _ fun x hx => ?_
      rw [hl] at hx
      obtain rfl := Option.some.inj hx
      rw [hfresh]
    have hdict : w1.dict = w.dict ++ [(l.name, r)] := by
      rw [h4]
      unfold dictAfter
      rw [if_neg (fun h => hr1 h.2), hfresh]
      unfold dictSet
      rw [if_neg hname]
    rw [List.filterMap_cons, hl] at hnames
    simp only [List.map_cons, List.nodup_cons] at hnames
    rw [List.nodup_cons] at hnd
    obtain ⟨w2, g1, g2, g3, g4⟩ := addUnnamed_fold id rs h2 hnd.2 (fun r' hr' => by
      obtain ⟨a, l', hl', b, c⟩ := hrs r' (by simp [hr'])
      refine ⟨?_, l', by rw [hheap]; exact hl', b, ?_⟩
      · rw [hdict, List.map_append, List.mem_append, not_or]
        refine ⟨a, ?_⟩
        simp only [List.map_cons, List.map_nil, List.mem_singleton]
        rintro rfl
        exact hnd.1 hr'
      · rw [hdict, List.map_append, List.mem_append, not_or]
        refine ⟨c, ?_⟩
        simp only [List.map_cons, List.map_nil, List.mem_singleton]
        intro e
        apply hnames.1
        rw [← e]
        exact List.mem_map_of_mem (List.mem_filterMap.mpr ⟨r', hr', hl'⟩)) (by rw [hheap]; exact hnames.2)
    refine ⟨w2, ?_, g2, g3.trans hheap, ?_⟩
    · rw [List.foldlM_cons]
      have : w.addUnnamed r = .ok w1 := by
        unfold World.addUnnamed
        simp only [hl]
        rw [if_neg hname]
        exact h1
      rw [this]
      exact g1
    · rw [g4, hdict, hheap, List.filterMap_cons, hl]
      simp

/-- C185. A load case that is added to a frame brings all its loads to the frame, in their order and each once, and changes
nothing else. Missing: loads whose names are not different from those of the other loads of the case and of the frame (see
`C185_violation_names` and `C185_violation_defaults`). -/
theorem C185_partial {w : World K} (hw : Inv w) {c : ℕ} {k : Case} (hk : w.cases[c]? = some k) (hnd : k.loads.Nodup)
    (hnew : ∀ r ∈ k.loads, r ∉ w.dict.map Prod.snd ∧ ∃ l : Load K, w.heap[r]? = some l ∧ l.loadId = k.id ∧ l.name ∉ w.dict.map Prod.fst)
    (hnames : ((loadsOf w c).map Load.name).Nodup) :
    ∃ w', w.addCase c = .ok w' ∧ w'.acting k.id = w.acting k.id ++ (loadsOf w c).map (fun l => (l.act, l.f)) ∧ ∀ j, j ≠ k.id → w'.acting j = w.acting j := by
  have hl : loadsOf w c = k.loads.filterMap (fun r => w.heap[r]?) := by unfold loadsOf; rw [hk]; rfl
  rw [hl] at hnames
  obtain ⟨w', h1, h2, h3, h4⟩ := addUnnamed_fold k.id k.loads (register_inv hw hk rfl) hnd hnew hnames
  change w'.heap = w.heap at h3
  have h4 : w'.dict = w.dict ++ k.loads.filterMap (fun r => (w.heap[r]?).map (fun l => (l.name, r))) := h4
  have hext : Extends w w' k.id ((loadsOf w c).map (fun l => (l.act, l.f))) := by
    refine ⟨⟨[], by simp [h3]⟩, _, h4, ?_⟩
    rw [hl, h3]
    clear h1 h2 h3 h4 hnames hl hk hnd
    revert hnew
    induction k.loads with
    | nil => intro _; rfl
    | cons r rs ih =>
      intro hnew
      obtain ⟨-, l, hl, hid, -⟩ := hnew r (by simp)
      rw [List.filterMap_cons, List.filterMap_cons, hl]
      simp only [Option.map_some, List.map_cons, hl, hid]
      rw [ih (fun r' hr' => hnew r' (by simp [hr']))]
  refine ⟨w', ?_, ?_, fun j hj => ?_⟩
  · unfold World.addCase
    rw [hk]
    exact h1
  · rw [extends_acting hw hext, if_pos rfl]
  · rw [extends_acting hw hext, if_neg hj, List.append_nil]

/-- Of two loads of one name in a load case only the first one reaches the frame. -/
theorem C185_violation_names : values ((World.empty [(1 : ℚ), 1]).addNewCase 1 [line 0 (-2) 1 .live "LineLoad", line 1 (-3) 1 .live "LineLoad"]) 1 = some [(.line 0 (-2) (-2), 1)] := by
  decide +kernel

/-- A second load case whose load has the default name too stays without loads. -/
theorem C185_violation_defaults : values (do
      let w ← (World.empty [(1 : ℚ)]).addNewCase 1 [line 0 (-2) 1 .live "LineLoad"]
      w.addNewCase 2 [line 0 3 2 .wind "LineLoad"]) 2 = some [] ∧
    values (do
      let w ← (World.empty [(1 : ℚ)]).addNewCase 1 [line 0 (-2) 1 .live "LineLoad"]
      w.addNewCase 2 [line 0 3 2 .wind "Wind"]) 2 = some [(.line 0 3 3, 1)] := by
  refine ⟨?_, ?_⟩ <;> decide +kernel

/-- In general: a load case whose only load has a name that is taken adds no load. -/
theorem C185_violation_taken {w : World K} {c r : ℕ} {id : ℕ} {l : Load K} (hk : w.cases[c]? = some ⟨id, [r]⟩) (hl : w.heap[r]? = some l) (hname : l.name ∈ w.dict.map Prod.fst) :
    ∃ w', w.addCase c = .ok w' ∧ ∀ j, w'.acting j = w.acting j := by
  refine ⟨w.register id c, ?_, fun j => rfl⟩
  unfold World.addCase
  rw [hk]
  simp only [List.foldlM_cons, List.foldlM_nil]
  have : (w.register id c).addUnnamed r = .ok (w.register id c) := by
    unfold World.addUnnamed
    have e1 : (w.register id c).heap[r]? = some l := hl
    simp only [e1]
    rw [if_pos (show l.name ∈ (w.register id c).dict.map Prod.fst from hname)]
  rw [this]
  rfl

/-- A load case that meets the hypotheses of `C185_partial`. -/
example : ∃ (w : World ℚ) (k : Case), Inv w ∧ w.cases[0]? = some k ∧ k.loads.Nodup ∧
    (∀ r ∈ k.loads, r ∉ w.dict.map Prod.snd ∧ ∃ l : Load ℚ, w.heap[r]? = some l ∧ l.loadId = k.id ∧ l.name ∉ w.dict.map Prod.fst) ∧
    ((loadsOf w 0).map Load.name).Nodup ∧ (loadsOf w 0).map (fun l => (l.act, l.f)) = [(.line 0 (-2) (-2), 1), (.line 1 (-3) (-3), 1)] := by
  refine ⟨⟨[line 0 (-2) 1 .live "a", line 1 (-3) 1 .live "b"], [⟨1, [0, 1]⟩], [], [], [], false, [(1, false), (1, false)]⟩, ⟨1, [0, 1]⟩, ⟨by simp, by simp, by simp⟩, rfl, by decide, ?_, by decide +kernel, by decide +kernel⟩
  intro r hr
  simp only [List.mem_cons, List.not_mem_nil, or_false] at hr
  rcases hr with rfl | rfl
  · exact ⟨by simp, _, rfl, rfl, by simp⟩
  · exact ⟨by simp, _, rfl, rfl, by simp⟩

/-! ### The registers -/

/-- What a program does with a frame. -/
inductive Cmd (K : Type)
  | load (l : Load K)
  | loadCase (id : ℕ) (ls : List (Load K))
  | comb (id : ℕ) (t : CombType) (cases : List ℕ)

/-- One step of a program; a combination is made of load cases that exist. -/
def World.step (w : World K) : Cmd K → Except PyErr (World K)
  | .load l => w.add l
  | .loadCase id ls => w.addNewCase id ls
  | .comb id t cases => w.combine (w.newComb id t (cases.filter (fun c => decide (c < w.cases.length))))

/-- A program. -/
def World.run (w : World K) (cmds : List (Cmd K)) : Except PyErr (World K) := cmds.foldlM (fun w c => w.step c) w

/-- The registers fit together, and every load in the frame belongs to a load case of the frame. -/
def Sound (w : World K) : Prop := Inv w ∧ ∀ e ∈ w.dict, ∀ l, w.heap[e.2]? = some l → l.loadId ∈ w.loadIds

/-- A step works, and no object is lost. -/
def Fine (w : World K) (r : Except PyErr (World K)) : Prop := ∃ w', r = .ok w' ∧ Sound w' ∧ w.heap.length ≤ w'.heap.length ∧ w.cases.length ≤ w'.cases.length

theorem addLoad_sound {w : World K} (hw : Sound w) {r : ℕ} (hr : r < w.heap.length) : Fine w (w.addLoad r) := by
  have hl : w.heap[r]? = some w.heap[r] := List.getElem?_eq_getElem hr
  generalize w.heap[r] = l at hl
  obtain ⟨w', h1, h2, h3, h4, -, h6, -, -, h9⟩ := addLoad_ok hw.1 hl
  refine ⟨w', h1, ⟨h2, ?_⟩, by rw [h3, List.length_modify], h9⟩
  have hheap : ∀ (i : ℕ) (x : Load K), w'.heap[i]? = some x → ∃ y : Load K, w.heap[i]? = some y ∧ x.loadId = y.loadId := by
    intro i x hx
    rw [h3, List.getElem?_modify] at hx
    cases hy : w.heap[i]? with
    | none => rw [hy] at hx; simp at hx
    | some y =>
      rw [hy] at hx
      refine ⟨y, rfl, ?_⟩
      split_ifs at hx <;> · simp only [Functor.map, Option.map_some, Option.some.injEq] at hx; subst hx; rfl
  intro e he x hx
  obtain ⟨y, hy, hxy⟩ := hheap e.2 x hx
  rw [h6, hxy]
  have hor : e ∈ w.dict ∨ e.2 = r := by
    rw [h4] at he
    unfold dictAfter at he
    split_ifs at he
    · exact Or.inl he
    · exact mem_dictSet he
  rcases hor with h | h
  · exact Or.inr (hw.2 e h y hy)
  · rw [h, hl] at hy
    rw [Option.some.inj hy]
    exact Or.inl rfl

theorem newLoad_sound {w : World K} (hw : Sound w) (l : Load K) : Sound (w.newLoad l).1 := by
  refine ⟨⟨hw.1.ids, ?_, ?_⟩, ?_⟩
  · intro e he; have := hw.1.dictRefs e he; simp only [World.newLoad, List.length_append]; omega
  · intro k hk r hr; have := hw.1.caseRefs k hk r hr; simp only [World.newLoad, List.length_append]; omega
  · intro e he x hx
    have hlt := hw.1.dictRefs e he
    simp only [World.newLoad] at hx
    rw [List.getElem?_append_left hlt] at hx
    exact hw.2 e he x hx

theorem addNewLoad_sound {w : World K} (hw : Sound w) (l : Load K) : Fine w ((w.newLoad l).1.addLoad (w.newLoad l).2) := by
  obtain ⟨w', h1, h2, h3, h4⟩ := addLoad_sound (newLoad_sound hw l) (r := (w.newLoad l).2) (by simp [World.newLoad])
  refine ⟨w', h1, h2, ?_, h4⟩
  simp only [World.newLoad, List.length_append, List.length_singleton] at h3
  omega

theorem foldlM_sound {f : World K → ℕ → Except PyErr (World K)} {P : World K → ℕ → Prop}
    (hP : ∀ w w' r, P w r → w.heap.length ≤ w'.heap.length → w.cases.length ≤ w'.cases.length → P w' r) (h : ∀ w r, Sound w → P w r → Fine w (f w r)) :
    ∀ (rs : List ℕ) {w : World K}, Sound w → (∀ r ∈ rs, P w r) → Fine w (rs.foldlM f w)
  | [], w, hw, _ => ⟨w, rfl, hw, le_refl _, le_refl _⟩
  | r :: rs, w, hw, hr => by
    rw [List.foldlM_cons]
    obtain ⟨w1, h1, h2, h3, h4⟩ := h w r hw (hr r (by simp))
    rw [h1]
    obtain ⟨w2, g1, g2, g3, g4⟩ := foldlM_sound hP h rs h2 (fun r' hr' => hP w w1 r' (hr r' (by simp [hr'])) h3 h4)
    exact ⟨w2, g1, g2, h3.trans g3, h4.trans g4⟩

theorem addUnnamed_sound {w : World K} (hw : Sound w) {r : ℕ} (hr : r < w.heap.length) : Fine w (w.addUnnamed r) := by
  unfold World.addUnnamed
  rw [List.getElem?_eq_getElem hr]
  simp only
  split_ifs
  · exact ⟨w, rfl, hw, le_refl _, le_refl _⟩
  · exact addLoad_sound hw hr

theorem addCopy_sound {w : World K} (hw : Sound w) (id : ℕ) (t : CombType) (lead : Bool) {r : ℕ} (hr : r < w.heap.length) : Fine w (w.addCopy id t lead r) := by
  unfold World.addCopy
  rw [List.getElem?_eq_getElem hr]
  exact addNewLoad_sound hw _

theorem addCase_sound {w : World K} (hw : Sound w) {c : ℕ} (hc : c < w.cases.length) : Fine w (w.addCase c) := by
  unfold World.addCase
  have hk : w.cases[c]? = some w.cases[c] := List.getElem?_eq_getElem hc
  generalize w.cases[c] = k at hk
  rw [hk]
  refine foldlM_sound (P := fun w r => r < w.heap.length) (fun _ _ _ h h' _ => lt_of_lt_of_le h h') (fun w r h hr => addUnnamed_sound h hr) k.loads (w := w.register k.id c)
    ⟨register_inv hw.1 hk rfl, fun e he l hl => (register_ids _ _ _ _).mpr (Or.inr (hw.2 e he l hl))⟩ ?_
  exact fun r hr => hw.1.caseRefs k (List.mem_of_getElem? hk) r hr

theorem combine_sound {w : World K} (hw : Sound w) (b : Comb) (hb : ∀ c ∈ b.cases, c < w.cases.length) : Fine w (w.combine b) := by
  have hc : Sound (w.clear b.id) := ⟨clear_inv hw.1 _, fun e he l hl => hw.2 e (List.mem_of_mem_filter he) l hl⟩
  refine foldlM_sound (P := fun w c => c < w.cases.length) (fun _ _ _ h _ h' => lt_of_lt_of_le h h') (fun w c h hlt => ?_) b.cases hc hb
  unfold World.combineCase
  have hk : w.cases[c]? = some w.cases[c] := List.getElem?_eq_getElem hlt
  generalize w.cases[c] = k at hk
  rw [hk]
  refine foldlM_sound (P := fun w r => r < w.heap.length) (fun _ _ _ h h' _ => lt_of_lt_of_le h h') (fun w r h hr => addCopy_sound h b.id b.type _ hr) k.loads h ?_
  exact fun r hr => h.1.caseRefs k (List.mem_of_getElem? hk) r hr

theorem caseAdd_sound {w : World K} (hw : Sound w) (c r : ℕ) (hr : r ∉ w.dict.map Prod.snd) (hlt : r < w.heap.length) :
    Sound (w.caseAdd c r) ∧ (w.caseAdd c r).dict = w.dict ∧ (w.caseAdd c r).heap.length = w.heap.length ∧ (w.caseAdd c r).cases.length = w.cases.length := by
  unfold World.caseAdd
  cases hk : w.cases[c]? with
  | none => exact ⟨hw, rfl, rfl, rfl⟩
  | some k =>
    simp only
    split_ifs with h
    · exact ⟨hw, rfl, rfl, rfl⟩
    · refine ⟨⟨⟨?_, ?_, ?_⟩, ?_⟩, rfl, by simp [World.modify], by simp⟩
      · intro id hid
        obtain ⟨c', k', g1, g2, g3⟩ := hw.1.ids id hid
        by_cases hc : c = c'
        · refine ⟨c', { k' with loads := k'.loads ++ [r] }, g1, ?_, g3⟩
          simp [hc, g2]
        · refine ⟨c', k', g1, ?_, g3⟩
          simp [hc, g2]
      · intro e he
        have := hw.1.dictRefs e he
        simpa [World.modify] using this
      · intro k' hk' r' hr'
        simp only [World.modify, List.length_modify]
        rcases mem_modify hk' with h | ⟨y, hy, rfl⟩
        · exact hw.1.caseRefs k' h r' hr'
        · simp only [List.mem_append, List.mem_singleton] at hr'
          rcases hr' with h | rfl
          · exact hw.1.caseRefs y hy r' h
          · exact hlt
      · intro e he l hl
        have hne : r ≠ e.2 := by
          rintro rfl
          exact hr (List.mem_map_of_mem he)
        simp only [World.modify, List.getElem?_modify, hne, if_false] at hl
        cases hx : w.heap[e.2]? with
        | none => rw [hx] at hl; simp at hl
        | some x =>
          rw [hx] at hl
          simp only [Option.map_eq_map, Option.map_some, Option.some.injEq] at hl
          rw [← hl]
          exact hw.2 e he x hx

theorem caseAdds_sound (c : ℕ) : ∀ (rs : List ℕ) {w : World K}, Sound w → (∀ r ∈ rs, r ∉ w.dict.map Prod.snd ∧ r < w.heap.length) →
    Sound (rs.foldl (fun v r => v.caseAdd c r) w) ∧ (rs.foldl (fun v r => v.caseAdd c r) w).heap.length = w.heap.length ∧
      (rs.foldl (fun v r => v.caseAdd c r) w).cases.length = w.cases.length
  | [], _, hw, _ => ⟨hw, rfl, rfl⟩
  | r :: rs, w, hw, hr => by
    obtain ⟨h1, h2, h3, h4⟩ := caseAdd_sound hw c r (hr r (by simp)).1 (hr r (by simp)).2
    rw [List.foldl_cons]
    obtain ⟨g1, g2, g3⟩ := caseAdds_sound c rs h1 (fun r' hr' => by rw [h2, h3]; exact hr r' (by simp [hr']))
    exact ⟨g1, g2.trans h3, g3.trans h4⟩

theorem addNewCase_sound {w : World K} (hw : Sound w) (id : ℕ) (ls : List (Load K)) : Fine w (w.addNewCase id ls) := by
  have h1 : Sound (w.newLoads ls).1 := by
    refine ⟨⟨hw.1.ids, ?_, ?_⟩, ?_⟩
    · intro e he; have := hw.1.dictRefs e he; simp only [World.newLoads, List.length_append]; omega
    · intro k hk r hr; have := hw.1.caseRefs k hk r hr; simp only [World.newLoads, List.length_append]; omega
    · intro e he x hx
      have hlt := hw.1.dictRefs e he
      simp only [World.newLoads] at hx
      rw [List.getElem?_append_left hlt] at hx
      exact hw.2 e he x hx
  have h2 : Sound { (w.newLoads ls).1 with cases := (w.newLoads ls).1.cases ++ [⟨id, []⟩] } := by
    refine ⟨⟨?_, h1.1.dictRefs, ?_⟩, h1.2⟩
    · intro j hj
      obtain ⟨c, k, g1, g2, g3⟩ := h1.1.ids j hj
      exact ⟨c, k, g1, by rw [List.getElem?_append_left (List.getElem?_eq_some_iff.mp g2).1]; exact g2, g3⟩
    · intro k hk
      rw [List.mem_append, List.mem_singleton] at hk
      rcases hk with h | rfl
      · exact h1.1.caseRefs k h
      · simp
  obtain ⟨g1, g2, g3⟩ := caseAdds_sound (w.newLoads ls).1.cases.length (w.newLoads ls).2 h2 (fun r hr => by
    simp only [World.newLoads] at hr ⊢
    rw [List.mem_range'_1] at hr
    exact ⟨mem_dict_snd hw.1 hr.1, by rw [List.length_append]; exact hr.2⟩)
  obtain ⟨w', e1, e2, e3, e4⟩ := addCase_sound g1 (c := (w.newLoads ls).1.cases.length) (by rw [g3]; simp)
  refine ⟨w', e1, e2, ?_, ?_⟩
  · rw [g2] at e3
    simp only [World.newLoads, List.length_append] at e3
    omega
  · rw [g3] at e4
    simp only [World.newLoads, List.length_append] at e4
    omega

theorem step_sound {w : World K} (hw : Sound w) (c : Cmd K) : Fine w (w.step c) := by
  cases c with
  | load l => exact addNewLoad_sound hw l
  | loadCase id ls => exact addNewCase_sound hw id ls
  | comb id t cases =>
    refine combine_sound hw _ fun c hc => ?_
    simpa using (List.mem_filter.mp hc).2

theorem run_sound : ∀ (cmds : List (Cmd K)) {w : World K}, Sound w → ∃ w', w.run cmds = .ok w' ∧ Sound w'
  | [], w, hw => ⟨w, rfl, hw⟩
  | c :: cmds, w, hw => by
    unfold World.run
    rw [List.foldlM_cons]
    obtain ⟨w', h1, h2, -, -⟩ := step_sound hw c
    rw [h1]
    exact run_sound cmds h2

/-- C186. Whatever loads (of whatever names), load cases and combinations of load cases a program adds to a frame, in whatever
order: adding never fails, and every load in the frame has a load case of the frame with its id. Missing: the list of
ids has some of them twice (see `C186_violation_twice`). -/
theorem C186_partial (ms : List K) (cmds : List (Cmd K)) :
    ∃ w, (World.empty ms).run cmds = .ok w ∧ (∀ e ∈ w.dict, ∃ l : Load K, w.heap[e.2]? = some l ∧ l.loadId ∈ w.loadIds) ∧
      ∀ id ∈ w.loadIds, ∃ (c : ℕ) (k : Case), w.caseOf.lookup id = some c ∧ w.cases[c]? = some k ∧ k.id = id := by
  obtain ⟨w, h1, h2⟩ := run_sound cmds (w := World.empty ms) ⟨(inv_empty ms).1, by simp [World.empty]⟩
  refine ⟨w, h1, fun e he => ?_, h2.1.ids⟩
  have hlt := h2.1.dictRefs e he
  exact ⟨w.heap[e.2], List.getElem?_eq_getElem hlt, h2.2 e he _ (List.getElem?_eq_getElem hlt)⟩

/-- A program with two loads of one name, a load case and two combinations. -/
example : ((World.empty [(1 : ℚ)]).run [.load (line 0 (-5) 2 .live "q"), .load (line 0 (-3) 2 .live "q"), .loadCase 3 [line 0 1 3 .wind "w"], .comb 10 .uls [0, 1], .comb 20 .sls [0]]).map
    (fun w => (w.dict.map Prod.fst, w.loadIds, w.caseOf)) =
    .ok (["q", "q1", "w", "q3", "q14", "w5", "q6", "q17"], [2, 2, 3, 10, 10, 20, 20], [(2, 0), (3, 1), (10, 2), (20, 3)]) := by decide +kernel

theorem caseAdd_loadIds (v : World K) (c r : ℕ) : (v.caseAdd c r).loadIds = v.loadIds := by
  unfold World.caseAdd
  split
  · rfl
  · split_ifs <;> rfl

/-- The first load of a new id puts this id twice into the list of ids. -/
theorem C186_violation_twice (w : World K) (l : Load K) (h : l.loadId ∉ w.loadIds) : ∃ w', w.add l = .ok w' ∧ w'.loadIds.count l.loadId = 2 := by
  unfold World.add World.addLoad
  have hr : (w.newLoad l).1.heap[(w.newLoad l).2]? = some l := by simp [World.newLoad]
  simp only [hr]
  rw [if_neg (show l.loadId ∉ (w.newLoad l).1.loadIds from h)]
  refine ⟨_, rfl, ?_⟩
  have key : ∀ v : World K, l.loadId ∉ v.loadIds → ∀ r c : ℕ, (((v.newCase l.loadId [r]).1.register l.loadId c).loadIds ++ [l.loadId]).count l.loadId = 2 := by
    intro v hv r c
    have e : (v.newCase l.loadId [r]).1.loadIds = v.loadIds := by
      simp only [World.newCase, List.foldl_cons, List.foldl_nil]
      rw [caseAdd_loadIds]
    have e' : ((v.newCase l.loadId [r]).1.register l.loadId c).loadIds = v.loadIds ++ [l.loadId] := by
      unfold World.register
      simp only
      rw [if_neg (by rw [e]; exact hv), e]
    rw [e', List.count_append, List.count_append, List.count_eq_zero_of_not_mem hv]
    simp
  refine key _ ?_ _ _
  split_ifs <;> exact h

/-! ### Self weight -/

/-- The self weight of the members: a uniform load of the weight per length on each. -/
def weightLoads (ms : List K) (i : ℕ) : List (Action K × K) := ms.mapIdx (fun j v => (.line (i + j) (-v) (-v), 1))

theorem selfWeight_plain : NoDigit "self-weight" := noDigit_of (l := "self-weigh".toList) (c := 't') (by decide) (by decide)

theorem addMemberWeight_ok {w : World K} (hw : Inv w) (hk : KeysOk w.dict) {m : ℕ} {v : K} (hm : w.members[m]? = some (v, false)) :
    ∃ w', w.addMemberWeight m = .ok w' ∧ Inv w' ∧ KeysOk w'.dict ∧ Extends w w' selfWeightId [(.line m (-v) (-v), 1)] ∧ w'.members = w.members.set m (v, true) ∧ w'.selfWeight = w.selfWeight := by
  obtain ⟨w', h1, h2, h3, h4, -, h6, h7⟩ := addNew_ok (w := { w with members := w.members.set m (v, true) }) ⟨hw.ids, hw.dictRefs, hw.caseRefs⟩ hk
    (l := ⟨.line m (-v) (-v), selfWeightId, .dead, "self-weight", 1⟩) selfWeight_plain
  refine ⟨w', ?_, h2, h3, h4, h6, h7⟩
  unfold World.addMemberWeight
  rw [hm]
  exact h1

theorem addWeights_fold (ms : List K) : ∀ (n i : ℕ) {w : World K}, Inv w → KeysOk w.dict → n + i = ms.length → w.members.length = ms.length →
    (∀ j, i ≤ j → w.members[j]? = ms[j]?.map (fun v => (v, false))) → (∀ j, j < i → w.members[j]? = ms[j]?.map (fun v => (v, true))) →
    ∃ w', (List.range' i n).foldlM (fun w m => w.addMemberWeight m) w = .ok w' ∧ Inv w' ∧ KeysOk w'.dict ∧ Extends w w' selfWeightId (weightLoads (ms.drop i) i) ∧
      w'.members = ms.map (fun v => (v, true)) ∧ w'.selfWeight = w.selfWeight
  | 0, i, w, hw, hk, hn, hlen, _, hdone => by
    refine ⟨w, rfl, hw, hk, ?_, ?_, rfl⟩
    · have : ms.drop i = [] := List.drop_eq_nil_of_le (by omega)
      rw [this]
      exact extends_refl w _
    · apply List.ext_getElem?
      intro j
      rw [List.getElem?_map]
      by_cases hj : j < i
      · exact hdone j hj
      · rw [List.getElem?_eq_none (by omega), List.getElem?_eq_none (by omega)]; rfl
  | n + 1, i, w, hw, hk, hn, hlen, htodo, hdone => by
    have hi : i < ms.length := by omega
    have hm : w.members[i]? = some (ms[i], false) := by rw [htodo i (le_refl _), List.getElem?_eq_getElem hi]; rfl
    obtain ⟨w1, h1, h2, h3, h4, h5, h6⟩ := addMemberWeight_ok hw hk hm
    obtain ⟨w2, g1, g2, g3, g4, g5, g6⟩ := addWeights_fold ms n (i + 1) h2 h3 (by omega) (by rw [h5, List.length_set, hlen])
      (fun j hj => by rw [h5, List.getElem?_set_ne (by omega)]; exact htodo j (by omega))
      (fun j hj => by
        rw [h5]
        by_cases e : j = i
        · subst e
          rw [List.getElem?_set_self (by omega), List.getElem?_eq_getElem hi]; rfl
        · rw [List.getElem?_set_ne (by omega)]
          exact hdone j (by omega))
    refine ⟨w2, ?_, g2, g3, ?_, g5, g6.trans h6⟩
    · rw [List.range'_succ, List.foldlM_cons, h1]
      exact g1
    · have : weightLoads (ms.drop i) i = [(.line i (-ms[i]) (-ms[i]), 1)] ++ weightLoads (ms.drop (i + 1)) (i + 1) := by
        rw [List.drop_eq_getElem_cons hi]
        unfold weightLoads
        rw [List.mapIdx_cons]
        simp only [Nat.add_zero, List.singleton_append]
        congr 2
        funext j v
        rw [show i + (j + 1) = i + 1 + j by omega]
      rw [this]
      exact extends_trans h4 g4

theorem addWeights_ok {w : World K} (hw : Inv w) (hk : KeysOk w.dict) {ms : List K} (hms : w.members = ms.map (fun v => (v, false))) :
    ∃ w', w.addWeights = .ok w' ∧ Inv w' ∧ KeysOk w'.dict ∧ Extends w w' selfWeightId (weightLoads ms 0) ∧ w'.members = ms.map (fun v => (v, true)) ∧ w'.selfWeight = true := by
  obtain ⟨w', h1, h2, h3, h4, h5, h6⟩ := addWeights_fold ms ms.length 0 (w := { w with selfWeight := true }) ⟨hw.ids, hw.dictRefs, hw.caseRefs⟩ hk rfl (by simp [hms])
    (fun j _ => by simp [hms]) (fun j hj => by omega)
  refine ⟨w', ?_, h2, h3, h4, h5, h6⟩
  unfold World.addWeights
  have : w.members.length = ms.length := by simp [hms]
  rw [this, List.range_eq_range']
  exact h1

/-- C187. Adding self weight to a frame that has none puts on each member a uniform downward load of its weight per length, once, in the
load case of self weight, and changes no other load case. Missing: adding it again (see `C187_violation_again`). -/
theorem C187_partial {w : World K} (hw : Inv w) (hk : KeysOk w.dict) {ms : List K} (hms : w.members = ms.map (fun v => (v, false))) (hs : w.selfWeight = false) :
    ∃ w', w.addSelfWeight = .ok w' ∧ w'.acting 100 = w.acting 100 ++ ms.mapIdx (fun j v => (.line j (-v) (-v), 1)) ∧ ∀ j, j ≠ 100 → w'.acting j = w.acting j := by
  obtain ⟨w', h1, h2, h3, h4, h5, h6⟩ := addWeights_ok hw hk hms
  refine ⟨w', ?_, ?_, fun j hj => ?_⟩
  · unfold World.addSelfWeight
    rw [hs]
    exact h1
  · have := extends_acting hw h4 100
    rw [if_pos (show 100 = selfWeightId from rfl)] at this
    rw [this]
    unfold weightLoads
    simp only [Nat.zero_add]
  · have := extends_acting hw h4 j
    rw [if_neg (show j ≠ selfWeightId from hj), List.append_nil] at this
    exact this

/-- C187 (partial), for single members: a member without self weight gets it once, and asking it again changes nothing. -/
theorem C187_partial_member {w : World K} (hw : Inv w) (hk : KeysOk w.dict) {m : ℕ} {v : K} {flag : Bool} (hm : w.members[m]? = some (v, flag)) :
    ∃ w1, w.addMemberWeight m = .ok w1 ∧ w1.addMemberWeight m = .ok w1 ∧ w1.acting 100 = w.acting 100 ++ (if flag then [] else [(.line m (-v) (-v), 1)]) := by
  cases flag with
  | true =>
    have e : w.addMemberWeight m = .ok w := by
      unfold World.addMemberWeight
      rw [hm]
      rfl
    exact ⟨w, e, e, by simp⟩
  | false =>
    obtain ⟨w1, h1, h2, h3, h4, h5, -⟩ := addMemberWeight_ok hw hk hm
    refine ⟨w1, h1, ?_, ?_⟩
    · unfold World.addMemberWeight
      rw [h5, List.getElem?_set_self (List.getElem?_eq_some_iff.1 hm).1]
      rfl
    · have := extends_acting hw h4 100
      rw [if_pos (show 100 = selfWeightId from rfl)] at this
      rw [this]
      rfl

/-- Adding self weight once more doubles it: it is never taken away. -/
theorem C187_violation_again {w w1 : World K} (hw : Inv w) (hk : KeysOk w.dict) {ms : List K} (hms : w.members = ms.map (fun v => (v, false))) (hs : w.selfWeight = false)
    (h0 : w.acting 100 = []) (h1 : w.addSelfWeight = .ok w1) :
    ∃ w2, w1.addSelfWeight = .ok w2 ∧ w1.acting 100 = ms.mapIdx (fun j v => (.line j (-v) (-v), 1)) ∧ w2.acting 100 = w1.acting 100 ++ w1.acting 100 := by
  obtain ⟨w', e1, e2, e3, e4, e5, e6⟩ := addWeights_ok hw hk hms
  have : w' = w1 := by
    unfold World.addSelfWeight at h1
    rw [hs] at h1
    simp only [Bool.false_eq_true, if_false] at h1
    rw [e1] at h1
    exact Except.ok.inj h1
  subst this
  have ha : w'.acting 100 = weightLoads ms 0 := by
    have := extends_acting hw e4 100
    rw [if_pos (show 100 = selfWeightId from rfl), h0, List.nil_append] at this
    exact this
  have hms' : w'.removeWeights.members = ms.map (fun v => (v, false)) := by
    unfold World.removeWeights
    simp [e5]
  obtain ⟨w2, g1, g2, g3, g4, g5, g6⟩ := addWeights_ok (w := w'.removeWeights) ⟨e2.ids, e2.dictRefs, e2.caseRefs⟩ e3 hms'
  refine ⟨w2, ?_, ?_, ?_⟩
  · unfold World.addSelfWeight
    rw [e6]
    exact g1
  · rw [ha]
    unfold weightLoads
    simp only [Nat.zero_add]
  · have := extends_acting (w := w'.removeWeights) ⟨e2.ids, e2.dictRefs, e2.caseRefs⟩ g4 100
    rw [if_pos (show 100 = selfWeightId from rfl)] at this
    rw [this]
    show w'.acting 100 ++ _ = _
    rw [ha]

/-- A new frame meets the hypotheses. -/
example : Inv (World.empty [(2 : ℚ), 3]) ∧ KeysOk (World.empty [(2 : ℚ), 3]).dict ∧ (World.empty [(2 : ℚ), 3]).members = [(2 : ℚ), 3].map (fun v => (v, false)) ∧
    values ((World.empty [(2 : ℚ), 3]).addSelfWeight) 100 = some [(.line 0 (-2) (-2), 1), (.line 1 (-3) (-3), 1)] :=
  ⟨(inv_empty _).1, (inv_empty _).2, rfl, by decide +kernel⟩

end Metku.Raami
