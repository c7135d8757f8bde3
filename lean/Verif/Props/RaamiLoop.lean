import Verif.Props.RaamiOpt

/-! `optimize_members`: profiles for all members of a frame. -/
set_option linter.unusedSectionVars false

namespace Metku.Raami

variable {K : Type} [Field K] [LinearOrder K] [IsStrictOrderedRing K] {F : Type}

/-! ### One iteration without groups and symmetry -/

/-- No member has a symmetry pair. -/
abbrev alone : ℕ → Option ℕ := fun _ => none

/-- What the design of the member `i` of the section `p0` leads to. -/
structure Chosen (S : Setup K F) (lim : Limits K) (loads : List ℕ) (forces : ℕ → ℕ → F) (i : ℕ) (p0 p : Prof K) : Prop where
  known : p = p0 ∨ ∃ q ∈ S.profs p0, p = q.graded lim.material
  suits : (∃ q ∈ S.profs p0, Suits S lim alone loads forces i (q.graded lim.material)) → Suits S lim alone loads forces i p

theorem optimumMember_chosen {S : Setup K F} {lim : Limits K} {loads : List ℕ} {s : DState K F} {m : ℕ} {p0 : Prof K} (hm : s.sections[m]? = some p0) :
    ∃ p, (optimumMember S lim alone loads s m).1.sections[m]? = some p ∧ (optimumMember S lim alone loads s m).2 = !sameSection p p0
    ∧ Chosen S lim loads s.forces m p0 p ∧ Kept [m] s (optimumMember S lim alone loads s m).1 := by
  have k := gsearch_kept S (skipped S lim m) lim.util (T := reach alone m) (D := reach alone m) (loads := loads) (fun _ h => h) ((S.profs p0).map (fun p => p.graded lim.material)) s
  rw [← optimumMember_state hm] at k
  by_cases h : ∃ q ∈ S.profs p0, Suits S lim alone loads s.forces m (q.graded lim.material)
  · obtain ⟨pre, q, post, hc, hq, hpre⟩ := first_of h
    have h1 := ((C193_partial hm (by simp) hc hq hpre).1 m (.inl rfl)).1
    exact ⟨q.graded lim.material, h1, optimumMember_flag hm h1, ⟨.inr ⟨q, by rw [hc]; simp, rfl⟩, fun _ => hq⟩, k⟩
  · cases hl : (S.profs p0).getLast? with
    | none =>
      have he : S.profs p0 = [] := by simpa using hl
      have h1 : (optimumMember S lim alone loads s m).1.sections[m]? = some p0 := by
        rw [optimumMember_state hm, he]
        exact hm
      exact ⟨p0, h1, optimumMember_flag hm h1, ⟨.inl rfl, fun h' => absurd h' h⟩, k⟩
    | some q =>
      have h1 := (C193_violation_none (pair := alone) (loads := loads) (lim := lim) hm (by simp) hl (fun r hr hs => h ⟨r, hr, hs⟩)).1
      exact ⟨q.graded lim.material, h1, optimumMember_flag hm h1, ⟨.inr ⟨q, List.mem_of_getLast? hl, rfl⟩, fun h' => absurd h' h⟩, k⟩

theorem fold_members {S : Setup K F} {lim : Limits K} {loads : List ℕ} : ∀ (L : List ℕ) (s : DState K F) (ex : List ℕ) (b : Bool), L.Nodup → (∀ i ∈ L, i ∉ ex) →
    (∀ i ∈ L, i < s.sections.length) →
    Kept L s (L.foldl (memberStep S lim alone loads) (s, ex, b)).1
    ∧ (∀ i ∈ L, ∀ p0, s.sections[i]? = some p0 → ∃ p, (L.foldl (memberStep S lim alone loads) (s, ex, b)).1.sections[i]? = some p ∧ Chosen S lim loads s.forces i p0 p
      ∧ ((L.foldl (memberStep S lim alone loads) (s, ex, b)).2.2 = false → sameSection p p0 = true))
    ∧ ((L.foldl (memberStep S lim alone loads) (s, ex, b)).2.2 = false → b = false)
  | [], s, ex, b, _, _, _ => ⟨Kept.refl _ s, by simp, fun h => h⟩
  | m :: L, s, ex, b, hn, he, hl => by
    obtain ⟨hmL, hn⟩ := List.nodup_cons.mp hn
    have hm := List.getElem?_eq_getElem (hl m (by simp))
    obtain ⟨p, h1, h2, h3, h4⟩ := optimumMember_chosen (S := S) (lim := lim) (loads := loads) hm
    have e : memberStep S lim alone loads (s, ex, b) m = ((optimumMember S lim alone loads s m).1, ex ++ [m] ++ [], b || (optimumMember S lim alone loads s m).2) := by
      unfold memberStep
      rw [if_neg (he m (by simp))]
      rfl
    rw [List.foldl_cons, e]
    obtain ⟨g1, g2, g3⟩ := fold_members (S := S) (lim := lim) (loads := loads) L (optimumMember S lim alone loads s m).1 (ex ++ [m] ++ []) (b || (optimumMember S lim alone loads s m).2) hn
      (fun i hi h => by
        rw [List.append_nil, List.mem_append, List.mem_singleton] at h
        rcases h with h | rfl
        · exact he i (by simp [hi]) h
        · exact hmL hi)
      (fun i hi => by rw [h4.length]; exact hl i (by simp [hi]))
    refine ⟨⟨g1.forces.trans h4.forces, g1.length.trans h4.length, fun i hi => ?_, fun i l hi => ?_⟩, fun i hi p0 hp0 => ?_, fun h => ?_⟩
    · rw [List.mem_cons, not_or] at hi
      rw [g1.others i hi.2, h4.others i (by simpa using hi.1)]
    · rw [List.mem_cons, not_or] at hi
      rw [g1.util i l hi.2, h4.util i l (by simpa using hi.1)]
    · rcases List.mem_cons.mp hi with rfl | hi
      · rw [hm] at hp0
        obtain rfl := Option.some.inj hp0
        refine ⟨p, by rw [g1.others i hmL, h1], h3, fun h => ?_⟩
        have := g3 h
        rw [Bool.or_eq_false_iff, h2] at this
        simpa using this.2
      · have hne : i ≠ m := fun h => hmL (h ▸ hi)
        obtain ⟨q, q1, q2, q3⟩ := g2 i hi p0 (by rw [h4.others i (by simpa using hne)]; exact hp0)
        rw [h4.forces] at q2
        exact ⟨q, q1, q2, q3⟩
    · have := g3 h
      rw [Bool.or_eq_false_iff] at this
      exact this.1

theorem analyse_spec (S : Setup K F) (s : DState K F) (loads : List ℕ) : (s.analyse S loads).sections = s.sections ∧ (s.analyse S loads).forces = S.force s.sections := by
  have aux : ∀ (L : List ℕ) (t : DState K F), (L.foldl (fun s l => (List.range s.sections.length).foldl (fun s m => s.design S m l) s) t).sections = t.sections
      ∧ (L.foldl (fun s l => (List.range s.sections.length).foldl (fun s m => s.design S m l) s) t).forces = t.forces := by
    intro L
    induction L with
    | nil => intro t; exact ⟨rfl, rfl⟩
    | cons l L ih =>
      intro t
      rw [List.foldl_cons]
      obtain ⟨h1, h2⟩ := ih ((List.range t.sections.length).foldl (fun s m => s.design S m l) t)
      obtain ⟨g1, g2, _⟩ := designList_spec S l (List.range t.sections.length) t
      exact ⟨h1.trans g1, h2.trans g2⟩
  exact aux loads _

/-- One iteration: the forces are those of the sections before it, and every member gets what its design leads to. -/
theorem iteration_alone (S : Setup K F) (lim : Limits K) (loads : List ℕ) (s : DState K F) :
    (iteration S lim alone [] loads s).1.forces = S.force s.sections ∧ (iteration S lim alone [] loads s).1.sections.length = s.sections.length
    ∧ ∀ (i : ℕ) (p0 : Prof K), s.sections[i]? = some p0 → ∃ p, (iteration S lim alone [] loads s).1.sections[i]? = some p ∧ Chosen S lim loads (S.force s.sections) i p0 p
      ∧ ((iteration S lim alone [] loads s).2 = false → sameSection p p0 = true) := by
  obtain ⟨a1, a2⟩ := analyse_spec S s loads
  obtain ⟨h1, h2, _⟩ := fold_members (S := S) (lim := lim) (loads := loads) (List.range s.sections.length) (s.analyse S loads) [] false List.nodup_range (by simp)
    (fun i hi => by rw [a1]; exact List.mem_range.mp hi)
  rw [a1, a2] at h2
  refine ⟨h1.forces.trans a2, h1.length.trans (by rw [a1]), fun i p0 hp => h2 i (List.mem_range.mpr (List.getElem?_eq_some_iff.mp hp).1) p0 hp⟩

/-- If the loop ends since nothing changed, it does so with an iteration from a state of known sections. -/
theorem loop_alone {S : Setup K F} {lim : Limits K} {loads : List ℕ} {Q : Prof K → Prop} (hQ : ∀ p, Q p → ∀ q ∈ S.profs p, Q (q.graded lim.material)) {s' : DState K F} :
    ∀ (k : ℕ) (s : DState K F), (∀ p ∈ s.sections, Q p) → optimizeLoop S lim alone [] loads k s = (s', true) →
    ∃ t, (∀ p ∈ t.sections, Q p) ∧ iteration S lim alone [] loads t = (s', false)
  | 0, s, _, h => by simp [optimizeLoop] at h
  | k + 1, s, hs, h => by
    rw [optimizeLoop] at h
    split at h
    · refine loop_alone hQ k _ (fun p hp => ?_) h
      obtain ⟨i, hi⟩ := List.mem_iff_getElem?.mp hp
      obtain ⟨-, h2, h3⟩ := iteration_alone S lim loads s
      have hlt := (List.getElem?_eq_some_iff.mp hi).1
      rw [h2] at hlt
      obtain ⟨p', q1, q2, -⟩ := h3 i _ (List.getElem?_eq_getElem hlt)
      rw [hi] at q1
      obtain rfl := Option.some.inj q1
      have h0 := hs _ (List.getElem_mem hlt)
      rcases q2.known with rfl | ⟨q, hq, rfl⟩
      · exact h0
      · exact hQ _ h0 q hq
    · rename_i hf
      refine ⟨s, hs, ?_⟩
      obtain ⟨rfl, -⟩ := Prod.mk.inj h
      exact Prod.ext rfl (by simpa using hf)

/-- C195: in a frame without groups and symmetry, if the forces depend on the sections only by area and second moment of area, if two profiles that the
comparison of sections takes for the same are the same in these, and if the search ended since no section changed, then the forces that the frame shows are those of the
final sections; and if for these forces some profile suits each member, then the final section of each member suits it, for these forces. -/
theorem C195_partial {S : Setup K F} {loads : List ℕ} {s s' : DState K F} {Q : Prof K → Prop} (hs : ∀ p ∈ s.sections, Q p)
    (hQ : ∀ p, Q p → ∀ q ∈ S.profs p, Q { q with grade := 355 } ∧ S.profs { q with grade := 355 } = S.profs p)
    (hd : ∀ p q, Q p → Q q → (p.area - q.area) ^ 2 + (p.inertia - q.inertia) ^ 2 < 1 / 1000000 → p.area = q.area ∧ p.inertia = q.inertia)
    (hf : ∀ a b : List (Prof K), a.map (fun p => (p.area, p.inertia)) = b.map (fun p => (p.area, p.inertia)) → S.force a = S.force b)
    (h : optimizeMembers S (fun _ => none) [] loads s = (s', true)) :
    s'.forces = S.force s'.sections
    ∧ ∀ (i : ℕ) (p : Prof K), s'.sections[i]? = some p → (∃ q ∈ S.profs p, Suits S ⟨355, 3, 1, 10, 100000, 5⟩ (fun _ => none) loads (S.force s'.sections) i { q with grade := 355 }) →
      Suits S ⟨355, 3, 1, 10, 100000, 5⟩ (fun _ => none) loads (S.force s'.sections) i p := by
  obtain ⟨t, ht, hit⟩ := loop_alone (Q := Q) (lim := ⟨355, 3, 1, 10, 100000, 5⟩) (fun p hp q hq => (hQ p hp q hq).1) 9 s hs h
  obtain ⟨h1, h2, h3⟩ := iteration_alone S ⟨355, 3, 1, 10, 100000, 5⟩ loads t
  rw [hit] at h1 h2 h3
  simp only at h1 h2 h3
  have hsame : S.force s'.sections = S.force t.sections := by
    apply hf
    apply List.ext_getElem?
    intro i
    rw [List.getElem?_map, List.getElem?_map]
    cases hp : t.sections[i]? with
    | none =>
      rw [List.getElem?_eq_none_iff] at hp
      rw [List.getElem?_eq_none_iff.mpr (by omega)]
    | some p0 =>
      obtain ⟨p, q1, q2, q3⟩ := h3 i p0 hp
      have h0 := ht p0 (List.mem_of_getElem? hp)
      have hQp : Q p := by
        rcases q2.known with rfl | ⟨q, hq, rfl⟩
        · exact h0
        · exact (hQ _ h0 q hq).1
      have := q3 trivial
      rw [sameSection, decide_eq_true_eq] at this
      obtain ⟨e1, e2⟩ := hd p p0 hQp h0 this
      rw [q1]
      simp [e1, e2]
  refine ⟨h1.trans hsame.symm, fun i p hp hex => ?_⟩
  have hlt := (List.getElem?_eq_some_iff.mp hp).1
  rw [h2] at hlt
  obtain ⟨p', q1, q2, -⟩ := h3 i _ (List.getElem?_eq_getElem hlt)
  rw [hp] at q1
  obtain rfl := Option.some.inj q1
  have h0 := ht _ (List.getElem_mem hlt)
  have hprofs : S.profs p = S.profs (t.sections[i]) := by
    rcases q2.known with e | ⟨q, hq, e⟩
    · rw [e]
    · rw [e]; exact (hQ _ h0 q hq).2
  rw [hprofs] at hex
  rw [hsame] at hex ⊢
  exact q2.suits hex

/-! ### What may go wrong -/

theorem memberStep_explored (S : Setup K F) (lim : Limits K) (pair : ℕ → Option ℕ) (loads : List ℕ) : ∀ (L : List ℕ) (r : DState K F × List ℕ × Bool), (∀ i ∈ L, i ∈ r.2.1) →
    L.foldl (memberStep S lim pair loads) r = r
  | [], _, _ => rfl
  | m :: L, r, h => by
    rw [List.foldl_cons, memberStep, if_pos (h m (by simp))]
    exact memberStep_explored S lim pair loads L r (fun i hi => h i (by simp [hi]))

/-- Both profiles for one member; its force is 1 with the large one and 2 with the small one. -/
def rising : Setup ℚ ℚ := { twoProfiles (fun a _ _ => if a = [large] then 1 else 2) with slender := fun _ _ => 1 }

/-- A member of the section `p`, not analysed. -/
def single (p : Prof ℚ) : DState ℚ ℚ := ⟨[p], fun _ _ => 0, fun _ _ => 0⟩

/-- Changes in groups are not noticed: with all members in groups there is one iteration, with the forces of the sections that the frame had before. Here the profile of
the group is changed for a smaller one, which is overloaded for its own forces, while the frame shows the utilization of the old forces. -/
theorem C195_violation_groups : (∀ (S : Setup K F) (pair : ℕ → Option ℕ) (groups : List (List ℕ)) (loads : List ℕ) (s : DState K F),
      (∀ i < s.sections.length, i ∈ groups.flatten) → optimizeMembers S pair groups loads s
        = (groups.foldl (optimumGroup S ⟨355, 3, 1, 10, 100000, 5⟩ pair loads) (s.analyse S loads), true))
    ∧ ∃ (S : Setup ℚ ℚ) (s s' : DState ℚ ℚ), optimizeMembers S (fun _ => none) [[0]] [0] s = (s', true) ∧ s.sections = [large] ∧ s'.sections = [small] ∧ s'.util 0 0 = 1
      ∧ S.util 0 small (S.force s'.sections 0 0) = 2 ∧ S.util 0 large (S.force [large] 0 0) ≤ 1 := by
  refine ⟨fun S pair groups loads s hg => ?_, rising, single large, (optimizeMembers rising (fun _ => none) [[0]] [0] (single large)).1, Prod.ext rfl ?_, rfl, ?_, ?_, ?_, ?_⟩
  · have hi : iteration S ⟨355, 3, 1, 10, 100000, 5⟩ pair groups loads s = (groups.foldl (optimumGroup S ⟨355, 3, 1, 10, 100000, 5⟩ pair loads) (s.analyse S loads), false) := by
      unfold iteration
      simp only
      rw [memberStep_explored _ _ _ _ _ _ (fun i hi => hg i (List.mem_range.mp hi))]
    unfold optimizeMembers
    rw [optimizeLoop, hi]
    rfl
  all_goals decide +kernel

/-- If no profile bears the forces, the search ends as if all were well. -/
theorem C195_violation_none : ∃ (S : Setup ℚ ℚ) (s s' : DState ℚ ℚ), optimizeMembers S (fun _ => none) [] [0] s = (s', true) ∧ s'.sections = [large]
    ∧ S.util 0 large (S.force s'.sections 0 0) = 9 / 2 := by
  refine ⟨twoProfiles (fun _ _ _ => 9), single small, (optimizeMembers (twoProfiles (fun _ _ _ => 9)) (fun _ => none) [] [0] (single small)).1, Prod.ext rfl ?_, ?_, ?_⟩ <;> decide +kernel

/-- The search ends after nine iterations whatever the result: here the profile changes in each of them, and the last one is overloaded for its own forces, although the
other profile bears its forces. -/
theorem C195_violation_limit : ∃ (S : Setup ℚ ℚ) (s s' : DState ℚ ℚ), optimizeMembers S (fun _ => none) [] [0] s = (s', false) ∧ s.sections = [large] ∧ s'.sections = [small]
    ∧ S.util 0 small (S.force s'.sections 0 0) = 2 ∧ S.util 0 large (S.force s.sections 0 0) ≤ 1 := by
  refine ⟨rising, single large, (optimizeMembers rising (fun _ => none) [] [0] (single large)).1, Prod.ext rfl ?_, rfl, ?_, ?_, ?_⟩ <;> decide +kernel

/-- A member that gets a larger profile: the hypotheses of `C195_partial` are met. -/
example : ∃ s' : DState ℚ ℚ, optimizeMembers (twoProfiles (fun _ _ _ => 2)) (fun _ => none) [] [0] (single small) = (s', true) ∧ s'.sections = [large]
    ∧ Suits (twoProfiles (fun _ _ _ => 2)) defaults (fun _ => none) [0] (fun _ _ => 2) 0 large := by
  have h : optimizeMembers (twoProfiles (fun _ _ _ => 2)) (fun _ => none) [] [0] (single small)
      = ((optimizeMembers (twoProfiles (fun _ _ _ => 2)) (fun _ => none) [] [0] (single small)).1, true) := Prod.ext rfl (by decide +kernel)
  have hl : (optimizeMembers (twoProfiles (fun _ _ _ => 2)) (fun _ => none) [] [0] (single small)).1.sections = [large] := by decide +kernel
  refine ⟨_, h, hl, ?_⟩
  refine (C195_partial (Q := fun p => p = small ∨ p = large) ?_ ?_ ?_ (fun _ _ _ => rfl) h).2 0 large ?_ ⟨large, by decide +kernel, ?_⟩
  · intro p hp
    exact .inl (List.mem_singleton.mp hp)
  · intro p _ q hq
    refine ⟨?_, rfl⟩
    rcases List.mem_cons.mp hq with rfl | hq
    · exact .inl rfl
    · exact .inr (by rw [List.mem_singleton.mp hq]; rfl)
  · rintro p q (rfl | rfl) (rfl | rfl) h
    · exact ⟨rfl, rfl⟩
    · exact absurd h (by decide +kernel)
    · exact absurd h (by decide +kernel)
    · exact ⟨rfl, rfl⟩
  · rw [hl]; rfl
  · refine ⟨by decide +kernel, by decide +kernel, by decide +kernel, by decide +kernel, fun l _ => ⟨?_, by simp⟩⟩
    change (2 : ℚ) / 2 ≤ 1
    norm_num

end Metku.Raami
