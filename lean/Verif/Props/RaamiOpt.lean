import Verif.Props.RaamiDesign

/-! Choice of profiles: one member, a group, the whole frame. -/
set_option linter.unusedSectionVars false

namespace Metku.Raami

variable {K : Type} [Field K] [LinearOrder K] [IsStrictOrderedRing K] {F : Type}

/-! ### One member -/

/-- The section keeps all limits for the member `m`, and neither the member nor its symmetry pair is overloaded with it. -/
def Suits (S : Setup K F) (lim : Limits K) (pair : ℕ → Option ℕ) (loads : List ℕ) (forces : ℕ → ℕ → F) (m : ℕ) (p : Prof K) : Prop :=
  lim.bmin ≤ p.b ∧ p.b ≤ lim.bmax ∧ S.cls p ≤ lim.cls ∧ S.slender m p ≤ lim.slender
  ∧ ∀ l ∈ loads, S.util m p (forces m l) ≤ lim.util ∧ ∀ m', pair m = some m' → S.util m' p (forces m' l) ≤ lim.util

theorem skipped_false {S : Setup K F} {lim : Limits K} {m : ℕ} {p : Prof K} :
    skipped S lim m p = false ↔ lim.bmin ≤ p.b ∧ p.b ≤ lim.bmax ∧ S.cls p ≤ lim.cls ∧ S.slender m p ≤ lim.slender := by
  unfold skipped
  simp only [Bool.or_eq_false_iff, decide_eq_false_iff_not, not_or, not_lt]
  tauto

theorem mem_reach {pair : ℕ → Option ℕ} {m x : ℕ} : x ∈ reach pair m ↔ x = m ∨ pair m = some x := by
  unfold reach
  rw [List.mem_cons, Option.mem_toList]

theorem okay_suits {S : Setup K F} {lim : Limits K} {pair : ℕ → Option ℕ} {loads : List ℕ} {forces : ℕ → ℕ → F} {m : ℕ} {p : Prof K} :
    Okay S (skipped S lim m) lim.util (reach pair m) loads forces p ↔ Suits S lim pair loads forces m p := by
  unfold Okay Suits
  rw [skipped_false]
  simp only [mem_reach, forall_eq_or_imp]
  tauto

theorem first_of {α : Type} {P : α → Prop} : ∀ {l : List α}, (∃ a ∈ l, P a) → ∃ pre a post, l = pre ++ a :: post ∧ P a ∧ ∀ b ∈ pre, ¬ P b
  | [], h => by simp at h
  | x :: l, h => by
    classical
    by_cases hx : P x
    · exact ⟨[], x, l, rfl, hx, by simp⟩
    · obtain ⟨a, ha, hP⟩ := h
      rcases List.mem_cons.mp ha with rfl | ha
      · exact absurd hP hx
      · obtain ⟨pre, b, post, rfl, hb, hpre⟩ := first_of ⟨a, ha, hP⟩
        exact ⟨x :: pre, b, post, rfl, hb, fun c hc => (List.mem_cons.mp hc).elim (fun e => e ▸ hx) (hpre c)⟩

theorem optimumMember_state {S : Setup K F} {lim : Limits K} {pair : ℕ → Option ℕ} {loads : List ℕ} {s : DState K F} {m : ℕ} {p0 : Prof K} (hm : s.sections[m]? = some p0) :
    (optimumMember S lim pair loads s m).1
      = gsearch S (skipped S lim m) lim.util (reach pair m) (reach pair m) loads ((S.profs p0).map (fun p => p.graded lim.material)) s := by
  unfold optimumMember
  rw [hm]
  simp only
  rw [← searchMember_eq]
  split <;> rfl

theorem optimumMember_flag {S : Setup K F} {lim : Limits K} {pair : ℕ → Option ℕ} {loads : List ℕ} {s : DState K F} {m : ℕ} {p0 p : Prof K} (hm : s.sections[m]? = some p0)
    (hp : (optimumMember S lim pair loads s m).1.sections[m]? = some p) : (optimumMember S lim pair loads s m).2 = !sameSection p p0 := by
  have h := hp
  rw [optimumMember_state hm, ← searchMember_eq] at h
  unfold optimumMember
  rw [hm]
  simp only
  rw [h]

theorem reach_lt {pair : ℕ → Option ℕ} {s : DState K F} {m : ℕ} {p0 : Prof K} (hm : s.sections[m]? = some p0) (hpair : ∀ m', pair m = some m' → m' < s.sections.length) :
    ∀ i ∈ reach pair m, i < s.sections.length := by
  intro i hi
  rcases mem_reach.mp hi with rfl | h
  · exact (List.getElem?_eq_some_iff.mp hm).1
  · exact hpair i h

/-- C193: if a profile of the catalogue suits a member and its symmetry pair, `optimum_design` gives both the first such profile in the order of the
catalogue, in the grade asked for, with the utilizations of this profile, and no other member changes; it returns whether area or second moment of area changed. -/
theorem C193_partial {S : Setup K F} {lim : Limits K} {pair : ℕ → Option ℕ} {loads : List ℕ} {s : DState K F} {m : ℕ} {p0 p : Prof K} {pre post : List (Prof K)}
    (hm : s.sections[m]? = some p0) (hpair : ∀ m', pair m = some m' → m' < s.sections.length) (hc : S.profs p0 = pre ++ p :: post)
    (hp : Suits S lim pair loads s.forces m (p.graded lim.material)) (hpre : ∀ q ∈ pre, ¬ Suits S lim pair loads s.forces m (q.graded lim.material)) :
    (∀ x, x = m ∨ pair m = some x → (optimumMember S lim pair loads s m).1.sections[x]? = some { p with grade := lim.material }
      ∧ ∀ l ∈ loads, (optimumMember S lim pair loads s m).1.util x l = S.util x { p with grade := lim.material } (s.forces x l)
        ∧ (optimumMember S lim pair loads s m).1.util x l ≤ lim.util)
    ∧ (∀ i, i ≠ m → pair m ≠ some i → (optimumMember S lim pair loads s m).1.sections[i]? = s.sections[i]?
      ∧ ∀ l, (optimumMember S lim pair loads s m).1.util i l = s.util i l)
    ∧ ((optimumMember S lim pair loads s m).2 = true ↔ 1 / 1000000 ≤ (p.area - p0.area) ^ 2 + (p.inertia - p0.inertia) ^ 2) := by
  have hT := reach_lt hm hpair
  have k := gsearch_kept S (skipped S lim m) lim.util (T := reach pair m) (D := reach pair m) (loads := loads) (fun _ h => h) ((S.profs p0).map (fun p => p.graded lim.material)) s
  obtain ⟨h1, h2⟩ := gsearch_first S (skipped S lim m) lim.util (T := reach pair m) (D := reach pair m) (loads := loads) (fun _ h => h) (p := p.graded lim.material)
    (post := post.map (fun p => p.graded lim.material)) (pre.map (fun p => p.graded lim.material)) s hT (fun q hq => by
      obtain ⟨q', hq', rfl⟩ := List.mem_map.mp hq
      exact fun h => hpre q' hq' (okay_suits.mp h)) (okay_suits.mpr hp)
  have e : pre.map (fun p => p.graded lim.material) ++ p.graded lim.material :: post.map (fun p => p.graded lim.material) = (S.profs p0).map (fun p => p.graded lim.material) := by
    rw [hc, List.map_append, List.map_cons]
  rw [e, ← optimumMember_state hm] at h1 h2
  rw [← optimumMember_state hm] at k
  refine ⟨fun x hx => ⟨h1 x (mem_reach.mpr hx), fun l hl => ?_⟩, fun i hi hi' => ?_, ?_⟩
  · have := h2 x (mem_reach.mpr hx) l hl
    refine ⟨this, ?_⟩
    rw [this]
    rcases hx with rfl | hx
    · exact (hp.2.2.2.2 l hl).1
    · exact (hp.2.2.2.2 l hl).2 x hx
  · have : i ∉ reach pair m := fun h => (mem_reach.mp h).elim hi hi'
    exact ⟨k.others i this, fun l => k.util i l this⟩
  · rw [optimumMember_flag hm (h1 m (mem_reach.mpr (.inl rfl)))]
    simp only [sameSection, Bool.not_eq_true', decide_eq_false_iff_not, not_lt]
    rfl

/-- If no profile suits, the last profile of the catalogue stays in the member, and the result only tells whether the section changed. -/
theorem C193_violation_none {S : Setup K F} {lim : Limits K} {pair : ℕ → Option ℕ} {loads : List ℕ} {s : DState K F} {m : ℕ} {p0 p : Prof K}
    (hm : s.sections[m]? = some p0) (hpair : ∀ m', pair m = some m' → m' < s.sections.length) (hlast : (S.profs p0).getLast? = some p)
    (hn : ∀ q ∈ S.profs p0, ¬ Suits S lim pair loads s.forces m (q.graded lim.material)) :
    (optimumMember S lim pair loads s m).1.sections[m]? = some { p with grade := lim.material }
    ∧ ((optimumMember S lim pair loads s m).2 = true ↔ 1 / 1000000 ≤ (p.area - p0.area) ^ 2 + (p.inertia - p0.inertia) ^ 2) := by
  obtain ⟨ps, hps⟩ := List.getLast?_eq_some_iff.mp hlast
  have hT := reach_lt hm hpair
  have h1 := gsearch_none S (skipped S lim m) lim.util (T := reach pair m) (D := reach pair m) (loads := loads) (fun _ h => h) (p := p.graded lim.material)
    (ps.map (fun p => p.graded lim.material)) s hT (fun q hq => by
      have : q ∈ (S.profs p0).map (fun p => p.graded lim.material) := by rw [hps, List.map_append]; exact hq
      obtain ⟨q', hq', rfl⟩ := List.mem_map.mp this
      exact fun h => hn q' hq' (okay_suits.mp h))
  have e : ps.map (fun p => p.graded lim.material) ++ [p.graded lim.material] = (S.profs p0).map (fun p => p.graded lim.material) := by rw [hps, List.map_append]; rfl
  rw [e, ← optimumMember_state hm] at h1
  have h2 := h1 m (mem_reach.mpr (.inl rfl))
  refine ⟨h2, ?_⟩
  rw [optimumMember_flag hm h2]
  simp only [sameSection, Bool.not_eq_true', decide_eq_false_iff_not, not_lt]
  rfl

/-! ### A group -/

/-- The section keeps the limits of width and class, and no member of the group is overloaded with it. -/
def SuitsGroup (S : Setup K F) (lim : Limits K) (loads : List ℕ) (forces : ℕ → ℕ → F) (ms : List ℕ) (p : Prof K) : Prop :=
  lim.bmin ≤ p.b ∧ p.b ≤ lim.bmax ∧ S.cls p ≤ lim.cls ∧ ∀ l ∈ loads, ∀ m ∈ ms, S.util m p (forces m l) ≤ lim.util

theorem okay_group {S : Setup K F} {lim : Limits K} {loads : List ℕ} {forces : ℕ → ℕ → F} {ms : List ℕ} {p : Prof K} :
    Okay S (groupSkip S lim) lim.util ms loads forces p ↔ SuitsGroup S lim loads forces ms p := by
  unfold Okay SuitsGroup groupSkip
  simp only [Bool.or_eq_false_iff, decide_eq_false_iff_not, not_or, not_lt]
  tauto

/-- The search for a group whose first member has the section `p0`. -/
theorem optimumGroup_state {S : Setup K F} {lim : Limits K} {pair : ℕ → Option ℕ} {loads : List ℕ} {s : DState K F} {m : ℕ} {ms : List ℕ} {p0 : Prof K} (hu : 0 ≤ lim.util)
    (hm : s.sections[m]? = some p0) : optimumGroup S lim pair loads s (m :: ms)
      = gsearch S (groupSkip S lim) lim.util ((m :: ms).flatMap (reach pair)) (m :: ms) loads ((S.profs p0).map (fun p => p.graded lim.material)) s := by
  unfold optimumGroup
  rw [List.head?_cons, Option.bind_some, hm]
  exact searchGroup_eq S lim hu pair loads (m :: ms) (S.profs p0) s

/-- C194: if a profile suits all members of a group, `optimum_design` of the group gives the first such profile to each of them, with its utilizations;
members outside the group that are not the symmetry pair of one keep their sections. -/
theorem C194_partial {S : Setup K F} {lim : Limits K} {pair : ℕ → Option ℕ} {loads : List ℕ} {s : DState K F} {m : ℕ} {ms : List ℕ} {p0 p : Prof K} {pre post : List (Prof K)}
    (hu : 0 ≤ lim.util) (hm : s.sections[m]? = some p0) (hms : ∀ i ∈ m :: ms, i < s.sections.length) (hpair : ∀ i ∈ m :: ms, ∀ m', pair i = some m' → m' < s.sections.length)
    (hc : S.profs p0 = pre ++ p :: post)
    (hp : SuitsGroup S lim loads s.forces (m :: ms) (p.graded lim.material)) (hpre : ∀ q ∈ pre, ¬ SuitsGroup S lim loads s.forces (m :: ms) (q.graded lim.material)) :
    (∀ x ∈ m :: ms, (optimumGroup S lim pair loads s (m :: ms)).sections[x]? = some { p with grade := lim.material }
      ∧ ∀ l ∈ loads, (optimumGroup S lim pair loads s (m :: ms)).util x l = S.util x { p with grade := lim.material } (s.forces x l)
        ∧ (optimumGroup S lim pair loads s (m :: ms)).util x l ≤ lim.util)
    ∧ ∀ i, i ∉ m :: ms → (∀ x ∈ m :: ms, pair x ≠ some i) → (optimumGroup S lim pair loads s (m :: ms)).sections[i]? = s.sections[i]?
      ∧ ∀ l, (optimumGroup S lim pair loads s (m :: ms)).util i l = s.util i l := by
  have hD : ∀ x ∈ m :: ms, x ∈ (m :: ms).flatMap (reach pair) := fun x hx => List.mem_flatMap.mpr ⟨x, hx, mem_reach.mpr (.inl rfl)⟩
  have hT : ∀ i ∈ (m :: ms).flatMap (reach pair), i < s.sections.length := by
    intro i hi
    obtain ⟨x, hx, h⟩ := List.mem_flatMap.mp hi
    rcases mem_reach.mp h with rfl | h
    · exact hms i hx
    · exact hpair x hx i h
  have k := gsearch_kept S (groupSkip S lim) lim.util (loads := loads) hD ((S.profs p0).map (fun p => p.graded lim.material)) s
  obtain ⟨h1, h2⟩ := gsearch_first S (groupSkip S lim) lim.util (loads := loads) hD (p := p.graded lim.material)
    (post := post.map (fun p => p.graded lim.material)) (pre.map (fun p => p.graded lim.material)) s hT (fun q hq => by
      obtain ⟨q', hq', rfl⟩ := List.mem_map.mp hq
      exact fun h => hpre q' hq' (okay_group.mp h)) (okay_group.mpr hp)
  have e : pre.map (fun p => p.graded lim.material) ++ p.graded lim.material :: post.map (fun p => p.graded lim.material) = (S.profs p0).map (fun p => p.graded lim.material) := by
    rw [hc, List.map_append, List.map_cons]
  rw [e, ← optimumGroup_state hu hm] at h1 h2
  rw [← optimumGroup_state hu hm] at k
  refine ⟨fun x hx => ⟨h1 x (hD x hx), fun l hl => ?_⟩, fun i hi hi' => ?_⟩
  · have := h2 x hx l hl
    refine ⟨this, ?_⟩
    rw [this]
    exact hp.2.2.2 l hl x hx
  · have : i ∉ (m :: ms).flatMap (reach pair) := by
      intro h
      obtain ⟨x, hx, h⟩ := List.mem_flatMap.mp h
      rcases mem_reach.mp h with rfl | h
      · exact hi hx
      · exact hi' x hx h
    exact ⟨k.others i this, fun l => k.util i l this⟩

theorem searchGroup_slender (S : Setup K F) (lim : Limits K) (x : K) (pair : ℕ → Option ℕ) (loads ms : List ℕ) : ∀ (ps : List (Prof K)) (s : DState K F),
    searchGroup S { lim with slender := x } pair loads ms ps s = searchGroup S lim pair loads ms ps s
  | [], s => rfl
  | p :: ps, s => by
    simp only [searchGroup]
    rw [searchGroup_slender S lim x pair loads ms ps, searchGroup_slender S lim x pair loads ms ps]

/-! Witnesses: profiles 0 and 1 of areas 1 and 2, slenderness 8 and 4; the utilization is force over area. -/

/-- A small and a large profile. -/
def small : Prof ℚ := ⟨0, 355, 100, 1, 1⟩
/-- A small and a large profile. -/
def large : Prof ℚ := ⟨1, 355, 100, 2, 2⟩

/-- A catalogue of the two profiles, with the forces of the analysis as given. -/
def twoProfiles (force : List (Prof ℚ) → ℕ → ℕ → ℚ) : Setup ℚ ℚ where
  profs := fun _ => [small, large]
  cls := fun _ => 1
  slender := fun _ p => 8 / p.area
  force := force
  util := fun _ p n => n / p.area

/-- The default arguments of `optimum_design`. -/
def defaults : Limits ℚ := ⟨355, 3, 1, 10, 100000, 5⟩

/-- The largest slenderness has no effect on the design of a group: the small profile, of slenderness 8, is taken although at most 5 is asked for and the large one would do. -/
theorem C194_violation_slender : (∀ (S : Setup K F) (lim : Limits K) (x : K) (pair : ℕ → Option ℕ) (loads ms : List ℕ) (s : DState K F),
      optimumGroup S { lim with slender := x } pair loads s ms = optimumGroup S lim pair loads s ms)
    ∧ ∃ (S : Setup ℚ ℚ) (s : DState ℚ ℚ), (optimumGroup S defaults (fun _ => none) [0] s [0]).sections = [small] ∧ defaults.slender < S.slender 0 small
      ∧ large ∈ S.profs small ∧ Suits S defaults (fun _ => none) [0] s.forces 0 large := by
  refine ⟨fun S lim x pair loads ms s => ?_, twoProfiles (fun _ _ _ => 1), ⟨[large], fun _ _ => 1, fun _ _ => 0⟩, by decide +kernel, by decide +kernel, by decide +kernel, ?_⟩
  · unfold optimumGroup
    split
    · rfl
    · exact searchGroup_slender S lim x pair loads ms _ s
  · refine ⟨by decide +kernel, by decide +kernel, by decide +kernel, by decide +kernel, fun l hl => ⟨?_, by simp⟩⟩
    change (1 : ℚ) / 2 ≤ 1
    norm_num

/-- The symmetry pair of a member of a group gets its section, but is not designed: here it is overloaded twice, and its utilization is still the one of before. -/
theorem C194_violation_pair : ∃ (S : Setup ℚ ℚ) (s : DState ℚ ℚ), (optimumGroup S { defaults with slender := 10 } (fun m => if m = 0 then some 1 else some 0) [0] s [0]).sections = [small, small]
    ∧ (optimumGroup S { defaults with slender := 10 } (fun m => if m = 0 then some 1 else some 0) [0] s [0]).util 1 0 = 1 ∧ S.util 1 small (s.forces 1 0) = 2 :=
  ⟨twoProfiles (fun _ m _ => m + 1), ⟨[large, large], fun m _ => m + 1, fun _ _ => 1⟩, by decide +kernel, by decide +kernel, by decide +kernel⟩

/-- The design of a member of grade S235 by `C193_partial`: the second profile, in S355. -/
example : (optimumMember (twoProfiles (fun _ _ _ => 2)) defaults (fun _ => none) [0, 1] ⟨[{ small with grade := 235 }], fun _ _ => 2, fun _ _ => 2⟩ 0).1.sections[0]? = some large :=
  ((C193_partial (S := twoProfiles (fun _ _ _ => 2)) (lim := defaults) (pair := fun _ => none) (loads := [0, 1]) (s := ⟨[{ small with grade := 235 }], fun _ _ => 2, fun _ _ => 2⟩)
    (m := 0) (p0 := { small with grade := 235 }) (p := large) (pre := [small]) (post := []) rfl (by simp) rfl
    ⟨by decide +kernel, by decide +kernel, by decide +kernel, by decide +kernel, fun l _ => ⟨by show (2 : ℚ) / 2 ≤ 1; norm_num, by simp⟩⟩
    (fun q hq h => by
      obtain rfl := List.mem_singleton.mp hq
      have := (h.2.2.2.2 0 (by simp)).1
      have e : (twoProfiles (fun _ _ _ => 2)).util 0 (small.graded defaults.material) 2 = 2 := by decide +kernel
      rw [show ((⟨[{ small with grade := 235 }], fun _ _ => 2, fun _ _ => 2⟩ : DState ℚ ℚ).forces 0 0) = 2 from rfl, e] at this
      exact absurd this (by decide +kernel))).1 0 (.inl rfl)).1

/-- A force that no profile bears: the hypotheses of `C193_violation_none` are met. -/
example : (optimumMember (twoProfiles (fun _ _ _ => 9)) defaults (fun _ => none) [0] ⟨[small], fun _ _ => 9, fun _ _ => 9⟩ 0).1.sections[0]? = some large :=
  (C193_violation_none (S := twoProfiles (fun _ _ _ => 9)) (lim := defaults) (pair := fun _ => none) (loads := [0]) (s := ⟨[small], fun _ _ => 9, fun _ _ => 9⟩)
    (m := 0) (p0 := small) (p := large) rfl (by simp) rfl (fun q hq h => by
      have := (h.2.2.2.2 0 (by simp)).1
      rcases List.mem_cons.mp hq with rfl | hq
      · exact absurd this (by decide +kernel)
      · obtain rfl := List.mem_singleton.mp hq
        exact absurd this (by decide +kernel))).1

/-- A group of two members with a third one outside: the hypotheses of `C194_partial` are met. -/
example : (optimumGroup (twoProfiles (fun _ _ _ => 2)) defaults (fun _ => none) [0] ⟨[small, small, small], fun m _ => if m = 1 then 2 else 1, fun _ _ => 2⟩ [0, 1]).sections
    = [large, large, small] := by
  have h := C194_partial (S := twoProfiles (fun _ _ _ => 2)) (lim := defaults) (pair := fun _ => none) (loads := [0])
    (s := ⟨[small, small, small], fun m _ => if m = 1 then 2 else 1, fun _ _ => 2⟩) (m := 0) (ms := [1]) (p0 := small) (p := large) (pre := [small]) (post := [])
    (by decide +kernel) rfl (by decide +kernel) (by simp) rfl (by unfold SuitsGroup; decide +kernel) (fun q hq h => by
      obtain rfl := List.mem_singleton.mp hq
      revert h
      unfold SuitsGroup
      decide +kernel)
  have h0 := (h.1 0 (by simp)).1
  have h1 := (h.1 1 (by simp)).1
  have h2 := (h.2 2 (by simp) (by simp)).1
  decide +kernel

end Metku.Raami
