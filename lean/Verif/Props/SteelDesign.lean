import Verif.Props.SteelSection

/-! Properties C40 (member design covers every check), C68 (negation), C70 (order of the sections) and C71 (more force, more utilisation). -/
namespace Metku.Steel

open Real Ec3

/-! ### Lists -/

theorem foldl_maxAbs (l : List ℝ) : ∀ r : ℝ, r ≤ l.foldl (fun r y => max r |y|) r ∧ (∀ y ∈ l, |y| ≤ l.foldl (fun r y => max r |y|) r) ∧
    (l.foldl (fun r y => max r |y|) r = r ∨ ∃ y ∈ l, l.foldl (fun r y => max r |y|) r = |y|) := by
  induction l with
  | nil => intro r; simp
  | cons x l ih =>
    intro r
    obtain ⟨h1, h2, h3⟩ := ih (max r |x|)
    simp only [List.foldl_cons]
    refine ⟨(le_max_left _ _).trans h1, ?_, ?_⟩
    · intro y hy
      rcases List.mem_cons.1 hy with rfl | hy
      · exact (le_max_right _ _).trans h1
      · exact h2 y hy
    · rcases h3 with h3 | ⟨y, hy, h3⟩
      · rcases max_choice r |x| with h | h
        · exact Or.inl (h3.trans h)
        · exact Or.inr ⟨x, List.mem_cons_self, h3.trans h⟩
      · exact Or.inr ⟨y, List.mem_cons_of_mem _ hy, h3⟩

/-- The largest absolute value. -/
theorem maxAbs_eq {l : List ℝ} {x : ℝ} (hx : x ∈ l) (h : ∀ y ∈ l, |y| ≤ |x|) : maxAbs l = .ok |x| := by
  cases l with
  | nil => cases hx
  | cons z l =>
    obtain ⟨h1, h2, h3⟩ := foldl_maxAbs l |z|
    unfold maxAbs
    refine congrArg Except.ok ?_
    apply le_antisymm
    · rcases h3 with h3 | ⟨y, hy, h3⟩
      · rw [h3]
        exact h z List.mem_cons_self
      · rw [h3]
        exact h y (List.mem_cons_of_mem _ hy)
    · rcases List.mem_cons.1 hx with rfl | hx
      · exact h1
      · exact h2 x hx

theorem foldl_minClip (l : List ℝ) : ∀ r : ℝ, l.foldl (fun r y => min r (min y 0)) r ≤ r ∧ (∀ y ∈ l, l.foldl (fun r y => min r (min y 0)) r ≤ min y 0) ∧
    (l.foldl (fun r y => min r (min y 0)) r = r ∨ ∃ y ∈ l, l.foldl (fun r y => min r (min y 0)) r = min y 0) := by
  induction l with
  | nil => intro r; simp
  | cons x l ih =>
    intro r
    obtain ⟨h1, h2, h3⟩ := ih (min r (min x 0))
    simp only [List.foldl_cons]
    refine ⟨h1.trans (min_le_left _ _), ?_, ?_⟩
    · intro y hy
      rcases List.mem_cons.1 hy with rfl | hy
      · exact h1.trans (min_le_right _ _)
      · exact h2 y hy
    · rcases h3 with h3 | ⟨y, hy, h3⟩
      · rcases min_choice r (min x 0) with h | h
        · exact Or.inl (h3.trans h)
        · exact Or.inr ⟨x, List.mem_cons_self, h3.trans h⟩
      · exact Or.inr ⟨y, List.mem_cons_of_mem _ hy, h3⟩

/-- The largest compression. -/
theorem minClip_eq {l : List ℝ} {x : ℝ} (hx : x ∈ l) (h : ∀ y ∈ l, x ≤ y) : minClip l = .ok (min x 0) := by
  cases l with
  | nil => cases hx
  | cons z l =>
    obtain ⟨h1, h2, h3⟩ := foldl_minClip l (min z 0)
    unfold minClip
    refine congrArg Except.ok ?_
    apply le_antisymm
    · rcases List.mem_cons.1 hx with rfl | hx
      · exact h1
      · exact h2 x hx
    · rcases h3 with h3 | ⟨y, hy, h3⟩
      · rw [h3]
        exact min_le_min_right _ (h z List.mem_cons_self)
      · rw [h3]
        exact min_le_min_right _ (h y (List.mem_cons_of_mem _ hy))

/-! ### C40 -/

/-- Modulus used in a class: plastic in class 1 and 2, elastic in class 3 and 4. -/
def modulus (P : Profile) (C : ℕ) : ℝ := if C ≤ 2 then P.sec.Wpl.1 else P.sec.Wel.1

/-- The utilisations of a section with axial force `N`, moment `My` and shear force `Vz`. -/
inductive SectionUtil (P : Profile) (q : Forces) : ℝ → Prop
  | axial : SectionUtil P q (|q.N| / (P.sec.A * P.fy))
  | shear : SectionUtil P q (√3 * |q.Vz| / (P.sec.Ashear.2 * P.fy))
  | bending : SectionUtil P q (|q.My| / (modulus P (sectionClass P q.N q.My) * P.fy))
  | plastic : sectionClass P q.N q.My ≤ 2 → |q.N| < P.sec.A * P.fy →
      SectionUtil P q (|q.My| / (P.sec.Wpl.1 * P.fy * min ((1 - |q.N| / (P.sec.A * P.fy)) / (1 - P.aw / 2)) 1))
  | elastic : 3 ≤ sectionClass P q.N q.My ∨ P.sec.A * P.fy ≤ |q.N| →
      SectionUtil P q (|q.N| / (P.sec.A * P.fy) + |q.My| / (modulus P (sectionClass P q.N q.My) * P.fy))

/-- The utilisations of a member: of each section; of buckling about both axes in the most compressed section; of the most compressed section together with the largest moment, in cross-section class `C`, with the factor `k` for axis y. -/
inductive MemberUtil (m : Member) (C : ℕ) (k : ℝ → ℝ) : ℝ → Prop
  | section : ∀ q ∈ m.sections, ∀ x, SectionUtil m.P q.2 x → MemberUtil m C k x
  | buckling : ∀ q ∈ m.sections, q.2.N < 0 → (∀ t ∈ m.sections, q.2.N ≤ t.2.N) → ∀ a, MemberUtil m C k (|q.2.N| / m.NbRd a)
  | beamColumn : ∀ q ∈ m.sections, ∀ p ∈ m.sections, q.2.N < 0 → (∀ t ∈ m.sections, q.2.N ≤ t.2.N) → (∀ t ∈ m.sections, |t.2.My| ≤ |p.2.My|) → 0.000001 ≤ |p.2.My| →
      MemberUtil m C k (|q.2.N| / m.NbRd .y + k (|q.2.N| / m.NbRd .y) * (|p.2.My| / (modulus m.P C * m.P.fy)))

theorem momentResistance_y (P : Profile) (C : ℕ) : momentResistance P C .y = modulus P C * P.fy := by
  unfold momentResistance modulus bendingResistance
  rw [gamma_one, div_one]
  by_cases h : C ≤ 2
  · rw [if_pos h, if_pos (by omega)]
    rfl
  · rw [if_neg h, if_neg (by omega)]
    rfl

/-- The check of one section returns the largest of its utilisations. -/
theorem checkSection_max {P : Profile} (hA : 0 < P.sec.A) (hf : 0 < P.fy) (hV : 0 < P.sec.Ashear.2) (hWp : 0 < P.sec.Wpl.1) (haw : P.aw ≤ 1 / 2) (q : Forces) :
    ∃ u, checkSection P q = .ok u ∧ SectionUtil P q u.max ∧ ∀ x, SectionUtil P q x → x ≤ u.max := by
  obtain ⟨u, hu, h1, h2, h3, h4⟩ := sectionResistance_eq P q.N (q.My, 0) (0, q.Vz) .y hA hf hV
  refine ⟨u, hu, ?_⟩
  rw [momentResistance_y] at h3 h4
  change u.v = √3 * |q.Vz| / (P.sec.Ashear.2 * P.fy) at h2
  change u.m = |q.My| / (modulus P (sectionClass P q.N q.My) * P.fy) at h3
  change u.mn = (if sectionClass P q.N q.My < 3 ∧ axialInteract P.aw u.n (modulus P (sectionClass P q.N q.My) * P.fy) > 0
        then |q.My| / axialInteract P.aw u.n (modulus P (sectionClass P q.N q.My) * P.fy) else u.n + u.m) at h4
  have hAf : 0 < P.sec.A * P.fy := by positivity
  have ha1 : 0 < 1 - 1 / 2 * P.aw := by linarith
  have hint : (axialInteract P.aw u.n (P.sec.Wpl.1 * P.fy) > 0 ↔ |q.N| < P.sec.A * P.fy) ∧
      (|q.N| < P.sec.A * P.fy → axialInteract P.aw u.n (P.sec.Wpl.1 * P.fy) = P.sec.Wpl.1 * P.fy * min ((1 - |q.N| / (P.sec.A * P.fy)) / (1 - P.aw / 2)) 1) := by
    unfold axialInteract
    have e : P.aw / 2 = 1 / 2 * P.aw := by ring
    rw [e]
    have hW : 0 < P.sec.Wpl.1 * P.fy := by positivity
    by_cases h : |q.N| < P.sec.A * P.fy
    · have n1 : u.n < 1 := by rw [h1, div_lt_one hAf]; exact h
      rw [if_neg (not_lt.2 n1.le)]
      refine ⟨⟨fun _ => h, fun _ => ?_⟩, fun _ => by rw [h1]⟩
      exact mul_pos hW (lt_min (div_pos (by linarith) ha1) one_pos)
    · refine ⟨⟨fun g => ?_, fun g => absurd g h⟩, fun g => absurd g h⟩
      exfalso
      have n1 : 1 ≤ u.n := by rw [h1, le_div_iff₀ hAf]; linarith
      split_ifs at g with g1
      · exact lt_irrefl _ g
      · have : u.n = 1 := le_antisymm (not_lt.1 g1) n1
        rw [this] at g
        norm_num at g
  -- the interaction
  have hmn : SectionUtil P q u.mn ∧ ∀ x, SectionUtil P q x → x ≤ u.max := by
    have b1 : u.n ≤ u.max := (le_max_left _ _).trans ((le_max_left _ _).trans (le_max_left _ _))
    have b2 : u.v ≤ u.max := (le_max_right _ _).trans ((le_max_left _ _).trans (le_max_left _ _))
    have b3 : u.m ≤ u.max := (le_max_right _ _).trans (le_max_left _ _)
    have b4 : u.mn ≤ u.max := le_max_right _ _
    by_cases hc : sectionClass P q.N q.My ≤ 2
    · have hmod : modulus P (sectionClass P q.N q.My) = P.sec.Wpl.1 := by rw [modulus, if_pos hc]
      by_cases h : |q.N| < P.sec.A * P.fy
      · rw [hmod] at h4
        rw [if_pos ⟨by omega, hint.1.2 h⟩, hint.2 h] at h4
        refine ⟨by rw [h4]; exact .plastic hc h, ?_⟩
        intro x hx
        cases hx with
        | axial => rw [← h1]; exact b1
        | shear => rw [← h2]; exact b2
        | bending => rw [← h3]; exact b3
        | plastic _ _ => rw [← h4]; exact b4
        | elastic g => exfalso; rcases g with g | g
                       · omega
                       · linarith
      · have h4' : u.mn = u.n + u.m := by
          rw [h4, if_neg]
          rintro ⟨_, g⟩
          rw [hmod] at g
          exact h (hint.1.1 g)
        refine ⟨by rw [h4', h1, h3]; exact .elastic (Or.inr (not_lt.1 h)), ?_⟩
        intro x hx
        cases hx with
        | axial => rw [← h1]; exact b1
        | shear => rw [← h2]; exact b2
        | bending => rw [← h3]; exact b3
        | plastic _ g => exact absurd g h
        | elastic g => rw [← h1, ← h3, ← h4']; exact b4
    · have h4' : u.mn = u.n + u.m := by
        rw [h4, if_neg]
        rintro ⟨g, _⟩
        omega
      refine ⟨by rw [h4', h1, h3]; exact .elastic (Or.inl (by omega)), ?_⟩
      intro x hx
      cases hx with
      | axial => rw [← h1]; exact b1
      | shear => rw [← h2]; exact b2
      | bending => rw [← h3]; exact b3
      | plastic g _ => exact absurd g hc
      | elastic g => rw [← h1, ← h3, ← h4']; exact b4
  refine ⟨?_, hmn.2⟩
  unfold SecUtil.max
  rcases max_choice (max (max u.n u.v) u.m) u.mn with e | e <;> rw [e]
  · rcases max_choice (max u.n u.v) u.m with e | e <;> rw [e]
    · rcases max_choice u.n u.v with e | e <;> rw [e]
      · rw [h1]; exact .axial
      · rw [h2]; exact .shear
    · rw [h3]; exact .bending
  · exact hmn.1

theorem checkSections_fold {P : Profile} (hP : ∀ q, ∃ u, checkSection P q = .ok u ∧ SectionUtil P q u.max ∧ ∀ x, SectionUtil P q x → x ≤ u.max) (l : List (ℝ × Forces)) :
    ∀ r0 : ℝ, ∃ r, l.foldlM (fun r s => do
        let u ← checkSection P s.2
        pure (max r u.max)) r0 = Except.ok r ∧ r0 ≤ r ∧ (∀ q ∈ l, ∀ x, SectionUtil P q.2 x → x ≤ r) ∧ (r = r0 ∨ ∃ q ∈ l, SectionUtil P q.2 r) := by
  induction l with
  | nil => intro r0; exact ⟨r0, rfl, le_rfl, by simp, Or.inl rfl⟩
  | cons s l ih =>
    intro r0
    obtain ⟨u, hu, h1, h2⟩ := hP s.2
    obtain ⟨r, hr, h3, h4, h5⟩ := ih (max r0 u.max)
    refine ⟨r, ?_, (le_max_left _ _).trans h3, ?_, ?_⟩
    · rw [List.foldlM_cons, hu]
      exact hr
    · intro q hq x hx
      rcases List.mem_cons.1 hq with rfl | hq
      · exact (h2 x hx).trans ((le_max_right _ _).trans h3)
      · exact h4 q hq x hx
    · rcases h5 with h5 | ⟨q, hq, h5⟩
      · rcases max_choice r0 u.max with e | e
        · exact Or.inl (h5.trans e)
        · refine Or.inr ⟨s, List.mem_cons_self, ?_⟩
          rw [h5, e]
          exact h1
      · exact Or.inr ⟨q, List.mem_cons_of_mem _ hq, h5⟩

/-- **C40 (part).** For every member not susceptible to lateral-torsional buckling, with positive data, at least one section and forces in the plane of bending about y: `design` returns the largest of 0 and all utilisations of the member. The factor for axis y is that of Annex B (class 1 and 2; see C61 for class 3 and 4)
    with the moment factor `Cmy`, and the class `C` is that for the largest compression and the moment of the section checked last.
    Missing: lateral-torsional buckling, forces in the other plane, the class for the governing moment; see `C40_violation` and `C70_violation`. -/
theorem C40_partial (m : Member) (g : m.Good) (sway : Bool) (hltb : m.LTB = false) (hV : 0 < m.P.sec.Ashear.2) (hWp : 0 < m.P.sec.Wpl.1) (haw : m.P.aw ≤ 1 / 2) (hMz : ∀ q ∈ m.sections, q.2.Mz = 0)
    {last : ℝ × Forces} (hl : m.sections.getLast? = some last) {q : ℝ × Forces} (hq : q ∈ m.sections) (hqmin : ∀ t ∈ m.sections, q.2.N ≤ t.2.N) {C : ℕ} (hC : C = sectionClass m.P q.2.N last.2.My) {k : ℝ → ℝ}
    (hk2 : C ≤ 2 → ∀ n, k n = m.cm sway * (1 + min (m.slend .y - 0.2) 0.8 * n)) (hk3 : 3 ≤ C → ∀ n, k n = m.cm sway * (1 + min (m.slend .y) 0.6 * n)) :
    ∃ r, m.design sway = .ok r ∧ 0 ≤ r ∧ (∀ x, MemberUtil m C k x → x ≤ r) ∧ (r = 0 ∨ MemberUtil m C k r) := by
  obtain ⟨r1, hr1, a1, a2, a3⟩ := checkSections_fold (checkSection_max g.A g.fy hV hWp haw) m.sections 0
  have hmin := minClip_eq (List.mem_map_of_mem (f := fun s : ℝ × Forces => s.2.N) hq) (fun y hy => by
    obtain ⟨t, ht, rfl⟩ := List.mem_map.1 hy
    exact hqmin t ht)
  have hsec : r1 = 0 ∨ MemberUtil m C k r1 := by
    rcases a3 with h | ⟨s, hs, h⟩
    · exact Or.inl h
    · exact Or.inr (.section s hs _ h)
  have hcs : m.checkSections = .ok r1 := hr1
  unfold Member.design
  simp only [hcs, hltb, hmin, bind, Except.bind, pure, Except.pure, if_false, Bool.false_eq_true]
  -- the section with the largest moment
  obtain ⟨p, hp, hpmax⟩ : ∃ p ∈ m.sections, ∀ t ∈ m.sections, |t.2.My| ≤ |p.2.My| := by
    obtain ⟨p, hp, h⟩ := Set.exists_max_image {s | s ∈ m.sections} (fun s : ℝ × Forces => |s.2.My|) (List.finite_toSet _) ⟨q, hq⟩
    exact ⟨p, hp, h⟩
  have hmax := maxAbs_eq (List.mem_map_of_mem (f := fun s : ℝ × Forces => s.2.My) hp) (fun y hy => by
    obtain ⟨t, ht, rfl⟩ := List.mem_map.1 hy
    exact hpmax t ht)
  have hmaxz := maxAbs_eq (List.mem_map_of_mem (f := fun s : ℝ × Forces => s.2.Mz) hq) (fun y hy => by
    obtain ⟨t, ht, rfl⟩ := List.mem_map.1 hy
    rw [hMz t ht, hMz q hq])
  by_cases hneg : q.2.N < 0
  · have e0 : min q.2.N 0 = q.2.N := min_eq_left hneg.le
    rw [e0, if_pos hneg]
    have hlast : m.lastMy = last.2.My := by rw [Member.lastMy, hl]
    have hb : ∀ a, m.bucklingUtil q.2.N a = |q.2.N| / m.NbRd a := fun a => rfl
    have hb0 : ∀ a, 0 ≤ |q.2.N| / m.NbRd a := by
      intro a
      exact div_nonneg (abs_nonneg _) (C39 g a).1.le
    by_cases hM : |p.2.My| < 1 / 10 ^ 6
    · have hbc : m.checkBeamColumn sway = .ok (0, 0) := by
        unfold Member.checkBeamColumn
        simp only [hmax, bind, Except.bind, pure, Except.pure]
        rw [if_pos (by rw [abs_abs]; exact hM)]
      rw [hbc]
      simp only [max_self]
      refine ⟨_, rfl, a1.trans ((le_max_left _ _).trans (le_max_left _ _)), ?_, ?_⟩
      · intro x hx
        rw [max_eq_left (a1.trans (le_max_left _ _))]
        cases hx with
        | «section» s hs _ h => exact (a2 s hs x h).trans (le_max_left _ _)
        | buckling s hs _ h a =>
          have : s.2.N = q.2.N := le_antisymm (h q hq) (hqmin s hs)
          rw [this]
          refine le_trans ?_ (le_max_right _ _)
          rw [hb, hb]
          cases a
          · exact le_max_left _ _
          · exact le_max_right _ _
        | beamColumn s hs p' hp' _ _ h1 h2 =>
          exfalso
          have := hpmax p' hp'
          norm_num at h2 hM
          linarith
      · rw [max_eq_left (a1.trans (le_max_left _ _)), hb, hb]
        rcases max_choice r1 (max (|q.2.N| / m.NbRd .y) (|q.2.N| / m.NbRd .z)) with e | e <;> rw [e]
        · exact hsec
        · right
          rcases max_choice (|q.2.N| / m.NbRd .y) (|q.2.N| / m.NbRd .z) with e | e <;> rw [e]
          · exact .buckling q hq hneg hqmin .y
          · exact .buckling q hq hneg hqmin .z
    · have hbc : m.checkBeamColumn sway = .ok (|q.2.N| / m.NbRd .y + k (|q.2.N| / m.NbRd .y) * (|p.2.My| / (modulus m.P C * m.P.fy)), |q.2.N| / m.NbRd .z) := by
        unfold Member.checkBeamColumn
        simp only [hmax, hmin, hmaxz, hltb, hMz q hq, bind, Except.bind, pure, Except.pure, if_false, Bool.false_eq_true, abs_zero, if_true]
        rw [if_neg (by rw [abs_abs]; exact hM), e0, hlast, ← hC, momentResistance_y, abs_of_neg hneg]
        congr 2
        · congr 1
          rw [← mul_div_assoc]
          congr 2
          unfold kyy
          have g1 : gammaM1 = 1 := rfl
          rw [g1]
          by_cases c : C ≤ 2
          · rw [if_pos (by omega), hk2 c]
            norm_num
          · rw [if_neg (by omega), hk3 (by omega)]
            norm_num
        · ring
      rw [hbc]
      simp only [hb]
      generalize hB : |q.2.N| / m.NbRd .y + k (|q.2.N| / m.NbRd .y) * (|p.2.My| / (modulus m.P C * m.P.fy)) = B
      have hBu : MemberUtil m C k B := by
        rw [← hB]
        refine .beamColumn q hq p hp hneg hqmin hpmax ?_
        have : (0.000001 : ℝ) = 1 / 10 ^ 6 := by norm_num
        rw [this]
        exact not_lt.1 hM
      refine ⟨_, rfl, a1.trans ((le_max_left _ _).trans (le_max_left _ _)), ?_, ?_⟩
      · intro x hx
        cases hx with
        | «section» s hs _ h => exact (a2 s hs x h).trans ((le_max_left _ _).trans (le_max_left _ _))
        | buckling s hs _ h a =>
          have : s.2.N = q.2.N := le_antisymm (h q hq) (hqmin s hs)
          rw [this]
          refine le_trans ?_ ((le_max_right _ _).trans (le_max_left _ _))
          cases a
          · exact le_max_left _ _
          · exact le_max_right _ _
        | beamColumn s hs p' hp' _ h h1 h2 =>
          have e1 : s.2.N = q.2.N := le_antisymm (h q hq) (hqmin s hs)
          have e2 : |p'.2.My| = |p.2.My| := le_antisymm (hpmax p' hp') (h1 p hp)
          rw [e1, e2, hB]
          exact (le_max_left _ _).trans (le_max_right _ _)
      · rcases max_choice (max r1 (max (|q.2.N| / m.NbRd .y) (|q.2.N| / m.NbRd .z))) (max B (|q.2.N| / m.NbRd .z)) with e | e <;> rw [e]
        · rcases max_choice r1 (max (|q.2.N| / m.NbRd .y) (|q.2.N| / m.NbRd .z)) with e | e <;> rw [e]
          · exact hsec
          · right
            rcases max_choice (|q.2.N| / m.NbRd .y) (|q.2.N| / m.NbRd .z) with e | e <;> rw [e]
            · exact .buckling q hq hneg hqmin .y
            · exact .buckling q hq hneg hqmin .z
        · right
          rcases max_choice B (|q.2.N| / m.NbRd .z) with e | e <;> rw [e]
          · exact hBu
          · exact .buckling q hq hneg hqmin .z
  · have e0 : ¬ min q.2.N 0 < 0 := by
      rw [min_eq_right (not_lt.1 hneg)]
      exact lt_irrefl 0
    rw [if_neg e0]
    refine ⟨r1, rfl, a1, ?_, hsec⟩
    intro x hx
    cases hx with
    | «section» s hs _ h => exact a2 s hs x h
    | buckling s hs h1 h a => exact absurd (lt_of_le_of_lt (hqmin s hs) h1) hneg
    | beamColumn s hs p' hp' h1 _ _ _ => exact absurd (lt_of_le_of_lt (hqmin s hs) h1) hneg

/-- Positive shear area and moduli of a hollow section. -/
theorem rhs_fine {H B T fy : ℝ} (hT : 0 < T) (hH : 2 * rhsOuterRadius T ≤ H) (hB : 2 * rhsOuterRadius T ≤ B) :
    0 < (rhsProfile H B T fy).sec.Ashear.1 ∧ 0 < (rhsProfile H B T fy).sec.Ashear.2 ∧ 0 < (rhsProfile H B T fy).sec.Wel.1 ∧ 0 < (rhsProfile H B T fy).sec.Wel.2 ∧
      0 < (rhsProfile H B T fy).sec.Wpl.1 ∧ 0 < (rhsProfile H B T fy).sec.Wpl.2 ∧ (rhsProfile H B T fy).aw ≤ 1 / 2 := by
  obtain ⟨a, i, j, w1, w2, _⟩ := C65_order hT hH hB
  have h := radius_spec hT
  have hH0 : 0 < H := by linarith
  have hB0 : 0 < B := by linarith
  have e1 : 0 < (RHS.new H B T).props.Wel.1 := by
    change 0 < rhsElasticModulus H (RHS.new H B T).props.I.1
    unfold rhsElasticModulus
    positivity
  have e2 : 0 < (RHS.new H B T).props.Wel.2 := by
    change 0 < rhsElasticModulus B (RHS.new H B T).props.I.2
    unfold rhsElasticModulus
    positivity
  refine ⟨?_, ?_, e1, e2, e1.trans_le w1, e2.trans_le w2, min_le_right _ _⟩
  · change 0 < rhsShearArea (RHS.new H B T).props.A B B
    unfold rhsShearArea
    positivity
  · change 0 < rhsShearArea (RHS.new H B T).props.A H B
    unfold rhsShearArea
    positivity

/-- A compressed and bent column of hollow section 200 by 100 by 5 with three sections. -/
example : ∃ r, Member.design ⟨rhsProfile 200 100 5 355, 4000, (1, 1), false, 0.9, [(0, ⟨-200000, 5000000, 0, 0, 2500⟩), (1 / 2, ⟨-200000, 0, 0, 0, 2500⟩), (1, ⟨-200000, -5000000, 0, 0, 2500⟩)]⟩ true = .ok r ∧
    200000 / Member.NbRd ⟨rhsProfile 200 100 5 355, 4000, (1, 1), false, 0.9, [(0, ⟨-200000, 5000000, 0, 0, 2500⟩), (1 / 2, ⟨-200000, 0, 0, 0, 2500⟩), (1, ⟨-200000, -5000000, 0, 0, 2500⟩)]⟩ .z ≤ r := by
  have hT : 2 * rhsOuterRadius 5 ≤ 100 := by norm_num [rhsOuterRadius]
  have hfine := rhs_fine (H := 200) (B := 100) (fy := 355) (T := 5) (by norm_num) (by linarith) hT
  generalize hm : (⟨rhsProfile 200 100 5 355, 4000, (1, 1), false, 0.9, [(0, ⟨-200000, 5000000, 0, 0, 2500⟩), (1 / 2, ⟨-200000, 0, 0, 0, 2500⟩), (1, ⟨-200000, -5000000, 0, 0, 2500⟩)]⟩ : Member) = m
  have g : m.Good := by rw [← hm]; exact rhs_good (by norm_num) (by linarith) hT (by norm_num) (by norm_num) (by norm_num) (by norm_num) _ _ _
  have hP : m.P = rhsProfile 200 100 5 355 := by rw [← hm]
  have hs : m.sections = [(0, ⟨-200000, 5000000, 0, 0, 2500⟩), (1 / 2, ⟨-200000, 0, 0, 0, 2500⟩), (1, ⟨-200000, -5000000, 0, 0, 2500⟩)] := by rw [← hm]
  have hmin : ∀ t ∈ m.sections, (-200000 : ℝ) ≤ t.2.N := by
    intro t ht
    simp only [hs, List.mem_cons, List.not_mem_nil, or_false] at ht
    rcases ht with rfl | rfl | rfl <;> norm_num
  have hq : ((0:ℝ), (⟨-200000, 5000000, 0, 0, 2500⟩ : Forces)) ∈ m.sections := by rw [hs]; exact List.mem_cons_self
  obtain ⟨r, hr, _, h, _⟩ := C40_partial m g true (by rw [← hm]) (by rw [hP]; exact hfine.2.1) (by rw [hP]; exact hfine.2.2.2.2.1) (by rw [hP]; exact hfine.2.2.2.2.2.2) (by
      intro t ht
      simp only [hs, List.mem_cons, List.not_mem_nil, or_false] at ht
      rcases ht with rfl | rfl | rfl <;> rfl) (last := (1, ⟨-200000, -5000000, 0, 0, 2500⟩)) (by rw [hs]; rfl) hq hmin rfl
      (k := fun n => if sectionClass m.P (-200000) (-5000000) ≤ 2 then m.cm true * (1 + min (m.slend .y - 0.2) 0.8 * n) else m.cm true * (1 + min (m.slend .y) 0.6 * n))
      (fun h n => if_pos h) (fun h n => if_neg (not_le.2 h))
  refine ⟨r, hr, ?_⟩
  have := h _ (.buckling _ hq (by norm_num) hmin .z)
  norm_num at this
  exact this

/-- **C40 is violated.** (1) With lateral-torsional buckling, compression and bending, `design` raises AttributeError. (2) Moments about z and shear forces along y are not checked: whatever they are, without other forces the utilisation is 0. (3) Without sections it raises ValueError. -/
theorem C40_violation (m : Member) (sway : Bool) (g : m.Good) (hV : 0 < m.P.sec.Ashear.2) (hWp : 0 < m.P.sec.Wpl.1) (haw : m.P.aw ≤ 1 / 2) :
    (m.LTB = true → (∃ q ∈ m.sections, q.2.N < 0) → (∃ q ∈ m.sections, 0.000001 ≤ |q.2.My|) → m.design sway = .error .attributeError) ∧
    (m.LTB = false → m.sections ≠ [] → (∀ q ∈ m.sections, q.2.N = 0 ∧ q.2.My = 0 ∧ q.2.Vz = 0) → m.design sway = .ok 0) ∧
    (m.sections = [] → m.design sway = .error .valueError) := by
  obtain ⟨r1, hr1, a1, a2, a3⟩ := checkSections_fold (checkSection_max g.A g.fy hV hWp haw) m.sections 0
  have hcs : m.checkSections = .ok r1 := hr1
  have hmin : ∀ q ∈ m.sections, (∀ t ∈ m.sections, q.2.N ≤ t.2.N) → minClip (m.sections.map (·.2.N)) = .ok (min q.2.N 0) := by
    intro q hq h
    refine minClip_eq (List.mem_map_of_mem (f := fun s : ℝ × Forces => s.2.N) hq) (fun y hy => ?_)
    obtain ⟨t, ht, rfl⟩ := List.mem_map.1 hy
    exact h t ht
  refine ⟨?_, ?_, ?_⟩
  · rintro hl ⟨q, hq, hN⟩ ⟨p, hp, hM⟩
    obtain ⟨q', hq', hqm⟩ := Set.exists_min_image {s | s ∈ m.sections} (fun s : ℝ × Forces => s.2.N) (List.finite_toSet _) ⟨q, hq⟩
    obtain ⟨p', hp', hpm⟩ := Set.exists_max_image {s | s ∈ m.sections} (fun s : ℝ × Forces => |s.2.My|) (List.finite_toSet _) ⟨p, hp⟩
    have hmax := maxAbs_eq (List.mem_map_of_mem (f := fun s : ℝ × Forces => s.2.My) hp') (fun y hy => by
      obtain ⟨t, ht, rfl⟩ := List.mem_map.1 hy
      exact hpm t ht)
    have hneg : q'.2.N < 0 := lt_of_le_of_lt (hqm q hq) hN
    have hbc : m.checkBeamColumn sway = .error .attributeError := by
      unfold Member.checkBeamColumn
      simp only [hmax, hmin q' hq' hqm, hl, bind, Except.bind, pure, Except.pure, if_true]
      rw [if_neg]
      rw [abs_abs, not_lt]
      have h1 := hpm p hp
      have : (0.000001 : ℝ) = 1 / 10 ^ 6 := by norm_num
      rw [this] at hM
      exact hM.trans h1
    unfold Member.design Member.checkLT
    simp only [hcs, hl, hmax, hmin q' hq' hqm, hbc, bind, Except.bind, pure, Except.pure, if_true]
    rw [min_eq_left hneg.le, if_pos hneg]
  · intro hl hne h
    obtain ⟨q, hq⟩ := List.exists_mem_of_ne_nil _ hne
    have hr : r1 = 0 := by
      rcases a3 with h' | ⟨s, hs, h'⟩
      · exact h'
      · obtain ⟨z1, z2, z3⟩ := h s hs
        cases h' <;> simp [z1, z2, z3]
    unfold Member.design
    simp only [hcs, hl, hmin q hq (fun t ht => by rw [(h q hq).1, (h t ht).1]), bind, Except.bind, pure, Except.pure, Bool.false_eq_true, if_false]
    rw [(h q hq).1, min_self, if_neg (lt_irrefl 0), hr]
  · intro h
    unfold Member.design Member.checkLT
    simp only [hcs, h, List.map_nil, maxAbs, minClip, bind, Except.bind, pure, Except.pure]
    cases m.LTB <;> rfl

/-- A beam bent about its weak axis by a million kNm. -/
example : Member.design ⟨rhsProfile 200 100 5 355, 4000, (1, 1), false, 0.9, [(0, ⟨0, 0, 10 ^ 12, 0, 0⟩)]⟩ true = .ok 0 := by
  have hT : 2 * rhsOuterRadius 5 ≤ 100 := by norm_num [rhsOuterRadius]
  have hfine := rhs_fine (H := 200) (B := 100) (fy := 355) (T := 5) (by norm_num) (by linarith) hT
  exact (C40_violation _ true (rhs_good (by norm_num) (by linarith) hT (by norm_num) (by norm_num) (by norm_num) (by norm_num) _ _ _) hfine.2.1 hfine.2.2.2.2.1 hfine.2.2.2.2.2.2).2.1 rfl (by simp) (by simp)

/-! ### C70 -/

theorem find_perm {l l' : List (ℝ × Forces)} (h : l.Perm l') (hn : (l.map Prod.fst).Nodup) (x : ℝ) : l.find? (fun s => s.1 = x) = l'.find? (fun s => s.1 = x) := by
  induction h with
  | nil => rfl
  | cons a _ ih =>
    rw [List.find?_cons, List.find?_cons, ih (List.nodup_cons.1 hn).2]
  | swap a b l =>
    simp only [List.find?_cons]
    by_cases h1 : a.1 = x
    · by_cases h2 : b.1 = x
      · exfalso
        simp only [List.map_cons, List.nodup_cons, List.mem_cons, not_or] at hn
        exact hn.1.1 (h2.trans h1.symm)
      · simp [h1, h2]
    · simp [h1]
  | trans h1 h2 ih1 ih2 =>
    exact (ih1 hn).trans (ih2 ((h1.map _).nodup_iff.1 hn))

/-- **C40, moment factor (part).** The factor used in the beam-column check is 0.9 for sway frames and otherwise that of Table B.3 for the moments stored at the two ends and, if any, at midspan, in whatever order
    the sections were added. Missing: see `C52_partial` for the conditions on the moments. -/
theorem C40_factor_partial (m : Member) (hn : (m.sections.map Prod.fst).Nodup) :
    m.cm true = 0.9 ∧
    ∀ {f0 f1 : Forces} {Mh psi : ℝ}, (0, f0) ∈ m.sections → (1, f1) ∈ m.sections → (f0.My = Mh ∧ f1.My = psi * Mh ∨ f1.My = Mh ∧ f0.My = psi * Mh) →
      1 / 10 ^ 6 < |Mh| → -1 ≤ psi → psi ≤ 1 → Plain (psi * Mh) →
      ((∀ f, (1 / 2, f) ∉ m.sections) → m.cm false = max (0.6 + 0.4 * psi) 0.4) ∧
      ∀ fs, (1 / 2, fs) ∈ m.sections → fs.My ≠ 0 → (fs.My = (Mh + psi * Mh) / 2 ∨ 1 / 10 ^ 6 ≤ |fs.My - (Mh + psi * Mh) / 2|) → TableB3 Mh psi fs.My true (m.cm false) := by
  have hfind : ∀ {x : ℝ} {f : Forces}, (x, f) ∈ m.sections → m.find x = some f := by
    intro x f h
    unfold Member.find
    have key : ∀ l : List (ℝ × Forces), (l.map Prod.fst).Nodup → (x, f) ∈ l → l.find? (fun s => s.1 = x) = some (x, f) := by
      intro l
      induction l with
      | nil => intro _ h; simp at h
      | cons a l ih =>
        intro hn h
        rw [List.map_cons, List.nodup_cons] at hn
        rw [List.find?_cons]
        by_cases e : a.1 = x
        · rcases List.mem_cons.1 h with h | h
          · simp [← h]
          · exact absurd (List.mem_map.2 ⟨_, h, e.symm⟩) hn.1
        · rcases List.mem_cons.1 h with h | h
          · exact absurd (by rw [← h]) e
          · simpa [e] using ih hn.2 h
    rw [key _ hn h]
    rfl
  refine ⟨by unfold Member.cm; norm_num, fun {f0 f1 Mh psi} h0 h1 hM hh hp0 hp1 hpl => ?_⟩
  constructor
  · intro hno
    have hs : m.find (1 / 2) = none := by
      unfold Member.find
      rw [Option.map_eq_none_iff, List.find?_eq_none]
      rintro ⟨x, f⟩ hx e
      simp only [decide_eq_true_eq] at e
      subst e
      exact hno f hx
    unfold Member.cm
    simp only [Bool.false_eq_true, if_false, hfind h0, hfind h1, hs, Option.map_none]
    have e : equivalentMomentFactor (psi * Mh) Mh none true = max (0.6 + 0.4 * psi) 0.4 := by
      have n0 : Mh ≠ 0 := by rintro rfl; norm_num at hh
      have hr : endRatio (psi * Mh) Mh = psi := by
        unfold endRatio
        simp only [gt_iff_lt]
        rw [if_pos hh, mul_div_cancel_right₀ _ n0, if_neg (not_lt.2 (abs_le.2 ⟨hp0, hp1⟩))]
      simp only [equivalentMomentFactor, hr, cmLinear]
      norm_num
    rcases hM with ⟨a, b⟩ | ⟨a, b⟩
    · rw [a, b, C33_swap_partial (Or.inr hh) hpl none true, e]
    · rw [a, b, e]
  · intro fs hs h3 h4
    have := C52_partial hh hp0 hp1 hpl true h3 h4
    unfold Member.cm
    simp only [Bool.false_eq_true, if_false, hfind h0, hfind h1, hfind hs, Option.map_some]
    rcases hM with ⟨a, b⟩ | ⟨a, b⟩
    · rw [a, b]; exact this.1
    · rw [a, b]; exact this.2

/-- A column with end moments of opposite sign. -/
example : Member.cm ⟨rhsProfile 200 100 5 355, 4000, (1, 1), false, 0.9, [(0, ⟨-200000, 5000000, 0, 0, 2500⟩), (1, ⟨-200000, -5000000, 0, 0, 2500⟩)]⟩ false = max (0.6 + 0.4 * (-1)) 0.4 :=
  ((C40_factor_partial ⟨rhsProfile 200 100 5 355, 4000, (1, 1), false, 0.9, [(0, ⟨-200000, 5000000, 0, 0, 2500⟩), (1, ⟨-200000, -5000000, 0, 0, 2500⟩)]⟩ (by norm_num)).2 (psi := -1) (List.mem_cons_self ..)
    (List.mem_cons_of_mem _ (List.mem_cons_self ..)) (Or.inl ⟨rfl, by norm_num⟩) (by norm_num) (by norm_num) (by norm_num) (Or.inr (by norm_num))).1 (by norm_num)

/-- **C40, lateral-torsional buckling (part).** For a member susceptible to lateral-torsional buckling without compression, `design` returns the largest of 0, the utilisations of the sections and the largest moment over the
    lateral-torsional resistance (see C69) in the class of the section checked last. Missing: compression, see `C40_violation`. -/
theorem C40_lt_partial (m : Member) (g : m.Good) (sway : Bool) (hltb : m.LTB = true) (hV : 0 < m.P.sec.Ashear.2) (hWp : 0 < m.P.sec.Wpl.1) (haw : m.P.aw ≤ 1 / 2) (hN : ∀ q ∈ m.sections, 0 ≤ q.2.N)
    {last : ℝ × Forces} (hl : m.sections.getLast? = some last) {p : ℝ × Forces} (hp : p ∈ m.sections) (hpm : ∀ t ∈ m.sections, |t.2.My| ≤ |p.2.My|) {u : ℝ}
    (hu : u = |p.2.My| / LTStrength m.P (modulus m.P (sectionClass m.P last.2.N last.2.My) * m.P.fy) (m.mcrit 1.12 0.45 1 1 0) |p.2.My| false) :
    ∃ r, m.design sway = .ok r ∧ 0 ≤ r ∧ u ≤ r ∧ (∀ q ∈ m.sections, ∀ x, SectionUtil m.P q.2 x → x ≤ r) ∧ (r = 0 ∨ r = u ∨ ∃ q ∈ m.sections, SectionUtil m.P q.2 r) := by
  obtain ⟨r1, hr1, a1, a2, a3⟩ := checkSections_fold (checkSection_max g.A g.fy hV hWp haw) m.sections 0
  have hcs : m.checkSections = .ok r1 := hr1
  obtain ⟨q, hq, hqm⟩ := Set.exists_min_image {s | s ∈ m.sections} (fun s : ℝ × Forces => s.2.N) (List.finite_toSet _) ⟨p, hp⟩
  have hmin := minClip_eq (List.mem_map_of_mem (f := fun s : ℝ × Forces => s.2.N) hq) (fun y hy => by
    obtain ⟨t, ht, rfl⟩ := List.mem_map.1 hy
    exact hqm t ht)
  have hmax := maxAbs_eq (List.mem_map_of_mem (f := fun s : ℝ × Forces => s.2.My) hp) (fun y hy => by
    obtain ⟨t, ht, rfl⟩ := List.mem_map.1 hy
    exact hpm t ht)
  have hlt : m.checkLT = .ok u := by
    unfold Member.checkLT
    simp only [hmax, bind, Except.bind, pure, Except.pure]
    refine congrArg Except.ok ?_
    rw [hu, momentResistance_y, abs_abs, Member.lastN, Member.lastMy, hl]
    norm_num
  refine ⟨max r1 u, ?_, a1.trans (le_max_left _ _), le_max_right _ _, fun s hs x hx => (a2 s hs x hx).trans (le_max_left _ _), ?_⟩
  · unfold Member.design
    simp only [hcs, hlt, hltb, hmin, bind, Except.bind, pure, Except.pure, if_true]
    rw [min_eq_right (hN q hq), if_neg (lt_irrefl 0)]
  · rcases max_choice r1 u with e | e <;> rw [e]
    · rcases a3 with h | h
      · exact Or.inl h
      · exact Or.inr (Or.inr h)
    · exact Or.inr (Or.inl rfl)

/-- A beam of a rolled section with moments at midspan. -/
example : ∃ r, Member.design ⟨iProfile 300 150 10.7 7.1 15 355, 6000, (1, 1), true, 0.9, [(0, ⟨0, 0, 0, 0, 50000⟩), (1 / 2, ⟨0, 75000000, 0, 0, 0⟩)]⟩ false = .ok r := by
  have hg := i_good (H := 300) (B := 150) (tf := 10.7) (tw := 7.1) (r := 15) (fy := 355) (L := 6000) (k1 := 1) (k2 := 1) (by norm_num) (by norm_num) (by norm_num) (by norm_num) (by norm_num) (by norm_num)
    (by norm_num) one_pos one_pos true 0.9 [(0, ⟨0, 0, 0, 0, 50000⟩), (1 / 2, ⟨0, 75000000, 0, 0, 0⟩)]
  have h1 : 0 < (iProfile 300 150 10.7 7.1 15 355).sec.Ashear.2 := by
    norm_num [iProfile, iProps]
    have := pi_lt_d2
    nlinarith
  have h2 : 0 < (iProfile 300 150 10.7 7.1 15 355).sec.Wpl.1 := by
    norm_num [iProfile, iProps]
    have := pi_lt_d2
    nlinarith
  have h3 : (iProfile 300 150 10.7 7.1 15 355).aw ≤ 1 / 2 := by
    norm_num [iProfile, iProps]
  obtain ⟨r, hr, _⟩ := C40_lt_partial _ hg false rfl h1 h2 h3 (by simp) rfl (List.mem_cons_of_mem _ (List.mem_cons_self ..)) (by simp) rfl
  exact ⟨r, hr⟩

/-- **C70 (part).** The value of `design` does not depend on the order in which sections were added (locations are distinct, as keys of a dictionary), for members not susceptible to lateral-torsional buckling loaded in one plane, if the sections added last put the cross-section under the largest compression in the same class.
    Missing: this last condition, see `C70_violation`. -/
theorem C70_partial (m : Member) (g : m.Good) (sway : Bool) (hltb : m.LTB = false) (hV : 0 < m.P.sec.Ashear.2) (hWp : 0 < m.P.sec.Wpl.1) (haw : m.P.aw ≤ 1 / 2) (hMz : ∀ q ∈ m.sections, q.2.Mz = 0)
    (hn : (m.sections.map Prod.fst).Nodup) {l : List (ℝ × Forces)} (hp : m.sections.Perm l) {a b : ℝ × Forces} (ha : m.sections.getLast? = some a) (hb : l.getLast? = some b)
    (hC : ∀ q ∈ m.sections, (∀ t ∈ m.sections, q.2.N ≤ t.2.N) → sectionClass m.P q.2.N a.2.My = sectionClass m.P q.2.N b.2.My) :
    Member.design { m with sections := l } sway = m.design sway := by
  have hmem : a ∈ m.sections := List.mem_of_getLast? ha
  obtain ⟨q, hq, hqm⟩ := Set.exists_min_image {s | s ∈ m.sections} (fun s : ℝ × Forces => s.2.N) (List.finite_toSet _) ⟨a, hmem⟩
  have hcm : Member.cm { m with sections := l } sway = m.cm sway := by
    unfold Member.cm Member.find
    rw [find_perm hp hn, find_perm hp hn, find_perm hp hn]
  have hclass := hC q hq hqm
  generalize hCC : sectionClass m.P q.2.N a.2.My = C at hclass
  let k : ℝ → ℝ := fun n => if C ≤ 2 then m.cm sway * (1 + min (m.slend .y - 0.2) 0.8 * n) else m.cm sway * (1 + min (m.slend .y) 0.6 * n)
  obtain ⟨r, hr, b1, b2, b3⟩ := C40_partial m g sway hltb hV hWp haw hMz ha hq hqm hCC.symm (k := k) (fun h n => if_pos h) (fun h n => if_neg (not_le.2 h))
  obtain ⟨r', hr', c1, c2, c3⟩ := C40_partial { m with sections := l } ⟨g.A, g.fy, g.E, g.I1, g.I2, g.L, g.k1, g.k2, g.imp1, g.imp2⟩ sway hltb hV hWp haw (fun s hs => hMz s (hp.mem_iff.2 hs)) hb
    (hp.mem_iff.1 hq) (fun t ht => hqm t (hp.mem_iff.2 ht)) hclass (k := k) (fun h n => by rw [hcm]; exact if_pos h) (fun h n => by rw [hcm]; exact if_neg (not_le.2 h))
  rw [hr, hr']
  have t1 : ∀ x, MemberUtil m C k x → MemberUtil { m with sections := l } C k x := by
    intro x hx
    cases hx with
    | «section» s hs _ h => exact .section s (hp.mem_iff.1 hs) _ h
    | buckling s hs h1 h2 d => exact .buckling (m := { m with sections := l }) s (hp.mem_iff.1 hs) h1 (fun t ht => h2 t (hp.mem_iff.2 ht)) d
    | beamColumn s hs s' hs' h1 h2 h3 h4 =>
      exact .beamColumn (m := { m with sections := l }) s (hp.mem_iff.1 hs) s' (hp.mem_iff.1 hs') h1 (fun t ht => h2 t (hp.mem_iff.2 ht)) (fun t ht => h3 t (hp.mem_iff.2 ht)) h4
  have t2 : ∀ x, MemberUtil { m with sections := l } C k x → MemberUtil m C k x := by
    intro x hx
    cases hx with
    | «section» s hs _ h => exact .section s (hp.mem_iff.2 hs) _ h
    | buckling s hs h1 h2 d => exact .buckling (m := m) s (hp.mem_iff.2 hs) h1 (fun t ht => h2 t (hp.mem_iff.1 ht)) d
    | beamColumn s hs s' hs' h1 h2 h3 h4 =>
      exact .beamColumn (m := m) s (hp.mem_iff.2 hs) s' (hp.mem_iff.2 hs') h1 (fun t ht => h2 t (hp.mem_iff.1 ht)) (fun t ht => h3 t (hp.mem_iff.1 ht)) h4
  refine congrArg Except.ok (le_antisymm ?_ ?_)
  · rcases c3 with h | h
    · rw [h]; exact b1
    · exact b2 _ (t2 _ h)
  · rcases b3 with h | h
    · rw [h]; exact c1
    · exact c2 _ (t1 _ h)

/-- A column with three sections, the first two exchanged. -/
example : Member.design ⟨rhsProfile 200 100 5 355, 4000, (1, 1), false, 0.9, [(1 / 2, ⟨-200000, 0, 0, 0, 2500⟩), (0, ⟨-200000, 5000000, 0, 0, 2500⟩), (1, ⟨-200000, -5000000, 0, 0, 2500⟩)]⟩ true =
    Member.design ⟨rhsProfile 200 100 5 355, 4000, (1, 1), false, 0.9, [(0, ⟨-200000, 5000000, 0, 0, 2500⟩), (1 / 2, ⟨-200000, 0, 0, 0, 2500⟩), (1, ⟨-200000, -5000000, 0, 0, 2500⟩)]⟩ true := by
  have hT : 2 * rhsOuterRadius 5 ≤ 100 := by norm_num [rhsOuterRadius]
  have hfine := rhs_fine (H := 200) (B := 100) (fy := 355) (T := 5) (by norm_num) (by linarith) hT
  exact C70_partial ⟨rhsProfile 200 100 5 355, 4000, (1, 1), false, 0.9, [(0, ⟨-200000, 5000000, 0, 0, 2500⟩), (1 / 2, ⟨-200000, 0, 0, 0, 2500⟩), (1, ⟨-200000, -5000000, 0, 0, 2500⟩)]⟩
    (rhs_good (by norm_num) (by linarith) hT (by norm_num) (by norm_num) (by norm_num) (by norm_num) _ _ _) true rfl hfine.2.1 hfine.2.2.2.2.1 hfine.2.2.2.2.2.2 (by simp) (by norm_num)
    (List.Perm.swap _ _ _) rfl rfl (fun _ _ _ => rfl)

set_option maxHeartbeats 1000000 in
/-- **C70 is violated.** The hollow section 300 by 100 by 5 in S235 with the same forces at the same two locations: adding the unloaded end last gives a higher utilisation than adding it first, since the class for stability is computed with the moment of the section checked last (class 4 without moment, class 2 with moment). -/
theorem C70_violation : ∃ (P : Profile) (L : ℝ) (f0 f1 : Forces) (r r' : ℝ), P = rhsProfile 300 100 5 235 ∧ 0 < L ∧
    Member.design ⟨P, L, (1, 1), false, 0.9, [(0, f0), (1, f1)]⟩ true = .ok r ∧ Member.design ⟨P, L, (1, 1), false, 0.9, [(1, f1), (0, f0)]⟩ true = .ok r' ∧ r < r' := by
  have hT : 2 * rhsOuterRadius 5 ≤ 100 := by norm_num [rhsOuterRadius]
  obtain ⟨v1, v2, e1, e2, p1, p2, haw⟩ := rhs_fine (H := 300) (B := 100) (fy := 235) (T := 5) (by norm_num) (by linarith) hT
  obtain ⟨hA0, i, j, w1, w2, hij⟩ := C65_order (H := 300) (B := 100) (T := 5) (by norm_num) (by linarith) hT
  have hij := hij (by norm_num)
  have hA : (rhsProfile 300 100 5 235).sec.A = 3600 + 75 * π := by
    show rhsArea 300 100 5 (rhsOuterRadius 5) = _
    norm_num [rhsArea, rhsOuterRadius]
    ring
  have hWp : (rhsProfile 300 100 5 235).sec.Wpl.1 = 314000 + 10500 * π + 3500 / 3 := by
    show rhsPlasticModulus 300 100 (rhsOuterRadius 5) 5 = _
    have : rhsOuterRadius 5 = 10 := by norm_num [rhsOuterRadius]
    rw [this]
    unfold rhsPlasticModulus
    have := pi_pos
    field_simp
    ring
  have hpi := pi_gt_three
  have haw0 : 0 ≤ (rhsProfile 300 100 5 235).aw := by
    show 0 ≤ min (((rhsProfile 300 100 5 235).sec.A - 2 * 100 * 5) / (rhsProfile 300 100 5 235).sec.A) (1 / 2)
    apply le_min
    · rw [hA]
      apply div_nonneg <;> linarith
    · norm_num
  have hw1 : (rhsProfile 300 100 5 235).sec.Wel.1 ≤ (rhsProfile 300 100 5 235).sec.Wpl.1 := w1
  have hI1 : 0 < (rhsProfile 300 100 5 235).sec.I.1 := i
  have hI2 : 0 < (rhsProfile 300 100 5 235).sec.I.2 := j
  have hI : (rhsProfile 300 100 5 235).sec.I.2 ≤ (rhsProfile 300 100 5 235).sec.I.1 := hij
  have hE : (rhsProfile 300 100 5 235).E = 210000 := rfl
  have hfy : (rhsProfile 300 100 5 235).fy = 235 := rfl
  have heps : epsilon 235 = 1 := by norm_num [epsilon]
  -- classes
  have hfl : (rhsProfile 300 100 5 235).flangeClass = 1 := by
    show internalCompression ((100 - 2 * rhsOuterRadius 5) / 5) (epsilon 235) = 1
    rw [heps]
    norm_num [internalCompression, fixEps, rhsOuterRadius]
  have hwc : (rhsProfile 300 100 5 235).webComp = 4 := by
    show internalCompression ((300 - 2 * rhsOuterRadius 5) / 5) (epsilon 235) = 4
    rw [heps]
    norm_num [internalCompression, fixEps, rhsOuterRadius]
  have hwcb : ∀ N M, (rhsProfile 300 100 5 235).webCompBend N M = 2 := fun _ _ => rfl
  have hcurve1 : ∃ k : Curve, (rhsProfile 300 100 5 235).imp.1 = k.imp := ⟨.c, rfl⟩
  have hcurve2 : ∃ k : Curve, (rhsProfile 300 100 5 235).imp.2 = k.imp := ⟨.c, rfl⟩
  generalize rhsProfile 300 100 5 235 = P at *
  have hA' : 0 < P.sec.A := by rw [hA]; linarith
  have hWp' : 0 < P.sec.Wpl.1 := p1
  -- length with slenderness 0.1 about z
  obtain ⟨L, hL, hL2⟩ : ∃ L : ℝ, 0 < L ∧ L ^ 2 = 1 / 100 * (π ^ 2 * 210000 * P.sec.I.2) / (P.sec.A * 235) := by
    refine ⟨√(1 / 100 * (π ^ 2 * 210000 * P.sec.I.2) / (P.sec.A * 235)), by positivity, Real.sq_sqrt (by positivity)⟩
  have hL2' : P.sec.A * 235 * L ^ 2 = 1 / 100 * (π ^ 2 * 210000 * P.sec.I.2) := by
    rw [hL2]
    field_simp
  have hNN : -(3 / 10 * (P.sec.A * 235)) ≤ -0.0001 := by rw [hA]; norm_num; linarith
  have hN0 : -(3 / 10 * (P.sec.A * 235)) < 0 := by norm_num at hNN; linarith
  have hNabs : |-(3 / 10 * (P.sec.A * 235))| = 3 / 10 * (P.sec.A * 235) := by rw [abs_of_neg hN0]; ring
  have hMM : (0.0001:ℝ) ≤ |3 / 10 * (P.sec.Wpl.1 * 235)| := by
    rw [abs_of_pos (by positivity), hWp]
    norm_num
    linarith
  have hMabs : |3 / 10 * (P.sec.Wpl.1 * 235)| = 3 / 10 * (P.sec.Wpl.1 * 235) := abs_of_pos (by positivity)
  have c4 : sectionClass P (-(3 / 10 * (P.sec.A * 235))) 0 = 4 := by
    rw [(C67_partial P).1 hNN (by norm_num), hwc, hfl]
    rfl
  have c2 : sectionClass P (-(3 / 10 * (P.sec.A * 235))) (3 / 10 * (P.sec.Wpl.1 * 235)) = 2 := by
    rw [(C67_partial P).2.1 hNN hMM, hwcb, hfl]
    rfl
  generalize hNe : -(3 / 10 * (P.sec.A * 235)) = N at *
  generalize hMe : 3 / 10 * (P.sec.Wpl.1 * 235) = M at *
  have good : ∀ s, Member.Good ⟨P, L, (1, 1), false, 0.9, s⟩ := fun s =>
    ⟨hA', by rw [hfy]; norm_num, by rw [hE]; norm_num, hI1, hI2, hL, by norm_num, by norm_num, hcurve1, hcurve2⟩
  have hNb : ∀ s a, Member.NbRd ⟨P, L, (1, 1), false, 0.9, s⟩ a = P.sec.A * 235 := by
    intro s a
    have hIa : 0 < a.of P.sec.I := (good s).I a
    have hIm : P.sec.I.2 ≤ a.of P.sec.I := by
      cases a
      · exact hI
      · exact le_rfl
    have h1 : a.of ((1:ℝ), (1:ℝ)) = 1 := by cases a <;> rfl
    have hx : 1 / 100 * (π ^ 2 * 210000 * P.sec.I.2) / (π ^ 2 * 210000 * a.of P.sec.I) ≤ (1 / 10) ^ 2 := by
      rw [div_le_iff₀ (by positivity)]
      have := mul_le_mul_of_nonneg_left hIm (by positivity : (0:ℝ) ≤ π ^ 2 * 210000)
      linarith
    have := (C39_value (good s) a (l := √(1 / 100 * (π ^ 2 * 210000 * P.sec.I.2) / (π ^ 2 * 210000 * a.of P.sec.I))) (Real.sqrt_nonneg _) (by
      simp only [hE, hfy, h1, mul_one]
      rw [Real.sq_sqrt (by positivity), hL2']
      field_simp)).1 (by
        rw [Real.sqrt_le_left (by norm_num)]
        norm_num at hx ⊢
        linarith)
    rw [this]
    simp only [hfy]
  have hsl : ∀ s, 0 ≤ Member.slend ⟨P, L, (1, 1), false, 0.9, s⟩ .y ∧ Member.slend ⟨P, L, (1, 1), false, 0.9, s⟩ .y = Member.slend ⟨P, L, (1, 1), false, 0.9, []⟩ .y :=
    fun s => ⟨Real.sqrt_nonneg _, rfl⟩
  have hsl2 : Member.slend ⟨P, L, (1, 1), false, 0.9, []⟩ .y ≤ 1 / 10 := by
    unfold Member.slend Member.ncrit
    simp only [Axis.of, hE, hfy, mul_one]
    rw [Real.sqrt_le_left (by norm_num), div_div_eq_mul_div, hL2', div_le_iff₀ (by positivity)]
    have := mul_le_mul_of_nonneg_left hI (by positivity : (0:ℝ) ≤ π ^ 2 * 210000)
    linarith
  obtain ⟨l, hl⟩ : ∃ l, l = Member.slend ⟨P, L, (1, 1), false, 0.9, []⟩ .y := ⟨_, rfl⟩
  have hl0 : 0 ≤ l := by rw [hl]; exact (hsl []).1
  rw [← hl] at hsl2
  have hV' : 0 < P.sec.Ashear.2 := v2
  have ha := C40_partial ⟨P, L, (1, 1), false, 0.9, [(0, ⟨N, 0, 0, 0, 0⟩), (1, ⟨N, M, 0, 0, 0⟩)]⟩ (good _) true rfl hV' hWp' haw (by simp) (last := (1, ⟨N, M, 0, 0, 0⟩)) rfl
    (q := (0, ⟨N, 0, 0, 0, 0⟩)) (by simp) (by simp) c2.symm (k := fun n => 9 / 10 * (1 + (l - 0.2) * n))
    (fun _ n => by
      rw [(hsl _).2, ← hl, min_eq_left (by norm_num; linarith)]
      rfl) (fun h => by omega)
  have hb := C40_partial ⟨P, L, (1, 1), false, 0.9, [(1, ⟨N, M, 0, 0, 0⟩), (0, ⟨N, 0, 0, 0, 0⟩)]⟩ (good _) true rfl hV' hWp' haw (by simp) (last := (0, ⟨N, 0, 0, 0, 0⟩)) rfl
    (q := (0, ⟨N, 0, 0, 0, 0⟩)) (by simp) (by simp) c4.symm (k := fun n => 9 / 10 * (1 + l * n))
    (fun h => by omega) (fun _ n => by
      rw [(hsl _).2, ← hl, min_eq_left (by norm_num; linarith)]
      rfl)
  obtain ⟨r, hr, r0, _, hr3⟩ := ha
  obtain ⟨r', hr', _, hr2, _⟩ := hb
  refine ⟨P, L, ⟨N, 0, 0, 0, 0⟩, ⟨N, M, 0, 0, 0⟩, r, r', rfl, hL, hr, hr', ?_⟩
  have hn : |N| / (P.sec.A * 235) = 3 / 10 := by rw [hNabs]; field_simp
  have hm : |M| / (P.sec.Wpl.1 * 235) = 3 / 10 := by rw [hMabs, ← hMe]; field_simp
  have hm' : 3 / 10 ≤ |M| / (P.sec.Wel.1 * 235) := by
    rw [hMabs, ← hMe, le_div_iff₀ (by positivity)]
    linarith [mul_le_mul_of_nonneg_right hw1 (by norm_num : (0:ℝ) ≤ 235)]
  have low : 3 / 10 + 9 / 10 * (1 + l * (3 / 10)) * (3 / 10) ≤ r' := by
    have h := hr2 _ (.beamColumn (0, ⟨N, 0, 0, 0, 0⟩) (by simp) (1, ⟨N, M, 0, 0, 0⟩) (by simp) hN0 (by simp) (by simp) (by
      show (0.000001:ℝ) ≤ |M|
      norm_num at hMM ⊢
      linarith))
    rw [hNb] at h
    simp only [hfy] at h
    rw [hn, modulus, if_neg (by norm_num)] at h
    refine le_trans ?_ h
    have : 0 ≤ 9 / 10 * (1 + l * (3 / 10)) := by positivity
    have := mul_le_mul_of_nonneg_left hm' this
    linarith
  refine lt_of_lt_of_le ?_ low
  have big : (57:ℝ) / 100 ≤ 3 / 10 + 9 / 10 * (1 + l * (3 / 10)) * (3 / 10) := by
    have : 0 ≤ 9 / 10 * (l * (3 / 10)) * (3 / 10) := by positivity
    linarith
  rcases hr3 with h | h
  · rw [h]; linarith
  · cases h with
    | «section» s hs _ h =>
      refine lt_of_lt_of_le ?_ big
      have hs' : s.2 = ⟨N, 0, 0, 0, 0⟩ ∨ s.2 = ⟨N, M, 0, 0, 0⟩ := by
        simp only [List.mem_cons, List.not_mem_nil, or_false] at hs
        rcases hs with rfl | rfl
        · exact Or.inl rfl
        · exact Or.inr rfl
      rcases hs' with hs' | hs' <;> rw [hs'] at h
      · cases h <;> simp only [hfy, hn, c4, abs_zero, mul_zero, zero_div, add_zero] at * <;> norm_num
      · have hm2 : |M| / (modulus P 2 * 235) = 3 / 10 := hm
        cases h <;> simp only [hfy, hn, c2, abs_zero, mul_zero, zero_div, hm2]
        · norm_num
        · norm_num
        · norm_num
        · have q1 : 7 / 10 ≤ min ((1 - 3 / 10) / (1 - P.aw / 2)) (1:ℝ) := by
            apply le_min
            · rw [le_div_iff₀ (by linarith)]
              linarith
            · norm_num
          rw [← div_div, hm, div_lt_iff₀ (by linarith)]
          linarith
        · rename_i h _
          exfalso
          simp only [hfy, c2, hNabs] at h
          rcases h with h | h
          · omega
          · nlinarith
    | buckling s hs _ h a =>
      rw [hNb]
      have hs' : s.2.N = N := by
        simp only [List.mem_cons, List.not_mem_nil, or_false] at hs
        rcases hs with rfl | rfl <;> rfl
      rw [hs', hn]
      linarith
    | beamColumn s hs s' hs' _ _ h1 _ =>
      have e1 : s.2.N = N := by
        simp only [List.mem_cons, List.not_mem_nil, or_false] at hs
        rcases hs with rfl | rfl <;> rfl
      have e2 : |s'.2.My| = |M| := by
        have := h1 (1, ⟨N, M, 0, 0, 0⟩) (by simp)
        simp only [List.mem_cons, List.not_mem_nil, or_false] at hs'
        rcases hs' with rfl | rfl
        · norm_num at hMM this
          simp [this]
        · rfl
      rw [e1, e2, hNb]
      simp only [hfy]
      rw [hn, modulus, if_pos (le_refl 2), hm]
      norm_num

/-! ### C68 and C71 -/

/-- Hollow section 100 by 100 by 5 in S235 under 400 kN tension: the moment 0.5 kNm passes. -/
example : ∃ u, sectionResistance (rhsProfile 100 100 5 235) 400000 (500000, 0) (0, 0) .y = .ok u ∧ ∀ x ∈ u.toList, x ≤ 1 := by
  have hT : 2 * rhsOuterRadius 5 ≤ 100 := by norm_num [rhsOuterRadius]
  obtain ⟨v1, v2, e1, e2, p1, p2, haw⟩ := rhs_fine (H := 100) (B := 100) (fy := 235) (T := 5) (by norm_num) hT hT
  have hpi := pi_gt_three
  have hA : (rhsProfile 100 100 5 235).sec.A = 1600 + 75 * π := by
    show rhsArea 100 100 5 (rhsOuterRadius 5) = _
    norm_num [rhsArea, rhsOuterRadius]
    ring
  have hW : (rhsProfile 100 100 5 235).sec.Wpl.1 = 54000 + 3000 * π + 3500 / 3 := by
    show rhsPlasticModulus 100 100 (rhsOuterRadius 5) 5 = _
    have : rhsOuterRadius 5 = 10 := by norm_num [rhsOuterRadius]
    rw [this]
    unfold rhsPlasticModulus
    have := pi_pos
    field_simp
    ring
  have hfy : (rhsProfile 100 100 5 235).fy = 235 := rfl
  obtain ⟨u, hu, _, _, _, _, h⟩ := C68_partial (rhsProfile 100 100 5 235) (N := 400000) (Med := (500000, 0)) (Ved := (0, 0)) .y (b := 100) (t := 5) (by rw [hA]; linarith) (by rw [hfy]; norm_num) v2 p1 rfl rfl rfl
  have hk : 0 ≤ (rhsProfile 100 100 5 235).aw := by
    show 0 ≤ min (((rhsProfile 100 100 5 235).sec.A - 2 * 100 * 5) / (rhsProfile 100 100 5 235).sec.A) (1 / 2)
    rw [hA]
    exact le_min (div_nonneg (by linarith) (by linarith)) (by norm_num)
  refine ⟨u, hu, h.2 ⟨?_, ?_, ?_, ?_⟩⟩
  · rw [hA, hfy, abs_of_pos (by norm_num)]
    linarith
  · simp only [Axis.shearForce, abs_zero, mul_zero]
    exact (mul_pos v2 (by rw [hfy]; norm_num)).le
  · intro _
    simp only [Axis.of, hA, hfy, hW]
    rw [abs_of_pos (by norm_num : (0:ℝ) < 500000), abs_of_pos (by norm_num : (0:ℝ) < 400000)]
    refine ⟨by linarith, ?_⟩
    have : (400000:ℝ) / ((1600 + 75 * π) * 235) ≤ 94 / 100 := by
      rw [div_le_iff₀ (by positivity)]
      linarith
    have q := mul_le_mul (show (54000:ℝ) * 235 ≤ (54000 + 3000 * π + 3500 / 3) * 235 by linarith) (show (6:ℝ) / 100 ≤ 1 - 400000 / ((1600 + 75 * π) * 235) by linarith) (by norm_num) (by positivity)
    linarith
  · intro hc
    rw [C67_violation.1 _ _ _ (by norm_num)] at hc
    omega

/-- **C68 is violated** in three ways. (1) The moment resistance is not reduced for shear: the full plastic moment together with the full plastic shear force passes. (2) Rolled I-sections cannot be checked for bending about z: ZeroDivisionError. (3) For hollow sections higher than wide the check about z uses the web share
    `(A - 2 B T)/A` instead of `(A - 2 H T)/A`: it accepts, with axial force, a moment beyond the resistance of EN 1993-1-1 6.2.9.1. -/
theorem C68_violation :
    (∀ (P : Profile) (M V : ℝ), 0 < P.sec.A → 0 < P.fy → 0 < P.sec.Ashear.2 → 0 < P.sec.Wpl.1 → 0 ≤ P.aw → P.aw ≤ 1 / 2 → sectionClass P 0 M ≤ 2 → M = P.sec.Wpl.1 * P.fy → √3 * V = P.sec.Ashear.2 * P.fy →
      ∃ u, sectionResistance P 0 (M, 0) (0, V) .y = .ok u ∧ ∀ x ∈ u.toList, x ≤ 1) ∧
    (∀ (H B tf tw r fy N : ℝ) (Med Ved : ℝ × ℝ), 0 < fy → 0 < (iProps B H tf tw r).A → sectionResistance (iProfile H B tf tw r fy) N Med Ved .z = .error .zeroDivision) ∧
    (∀ (H B T fy N n : ℝ), 0 < T → 2 * rhsOuterRadius T ≤ B → B < H → 0 < fy → n = |N| / ((rhsProfile H B T fy).sec.A * fy) → 1 / 2 ≤ n → n < 1 → sectionClass (rhsProfile H B T fy) N 0 ≤ 2 →
      ∃ M u, sectionResistance (rhsProfile H B T fy) N (0, M) (0, 0) .z = .ok u ∧ (∀ x ∈ u.toList, x ≤ 1) ∧
        (rhsProfile H B T fy).sec.Wpl.2 * fy * (1 - n) < M * (1 - min (((rhsProfile H B T fy).sec.A - 2 * H * T) / (rhsProfile H B T fy).sec.A) 0.5 / 2)) := by
  refine ⟨?_, ?_, ?_⟩
  · intro P M V hA hf hV hW haw0 haw hc hM hVV
    have hM0 : 0 < M := by rw [hM]; positivity
    have h3 : (0:ℝ) < √3 := by positivity
    have hV0 : 0 < V := by
      by_contra h
      nlinarith [mul_pos hV hf, mul_nonneg h3.le (sub_nonneg.2 (not_lt.1 h))]
    obtain ⟨u, hu, h1, h2, h3, h4⟩ := sectionResistance_eq P 0 (M, 0) (0, V) .y hA hf hV
    refine ⟨u, hu, ?_⟩
    rw [momentResistance_y] at h3 h4
    simp only at h3 h4
    rw [modulus, if_pos hc] at h3 h4
    change u.m = |M| / _ at h3
    rw [abs_of_pos hM0, hM, div_self (by positivity)] at h3
    change u.v = √3 * |V| / (P.sec.Ashear.2 * P.fy) at h2
    rw [abs_of_pos hV0, hVV, div_self (by positivity)] at h2
    rw [abs_zero, zero_div] at h1
    have hint : axialInteract P.aw 0 (P.sec.Wpl.1 * P.fy) = P.sec.Wpl.1 * P.fy := by
      rw [axialInteract, if_neg (by norm_num), min_eq_right, mul_one]
      rw [le_div_iff₀ (by linarith)]
      linarith
    rw [h1, hint, if_pos ⟨by omega, by positivity⟩] at h4
    change u.mn = |M| / _ at h4
    rw [abs_of_pos hM0, hM, div_self (by positivity)] at h4
    simp [SecUtil.toList, h1, h2, h3, h4]
  · intro H B tf tw r fy N Med Ved hf hA
    have e : pyDiv |N| (compressionResistance (iProfile H B tf tw r fy).sec.A (iProfile H B tf tw r fy).fy) = .ok (|N| / (compressionResistance (iProfile H B tf tw r fy).sec.A (iProfile H B tf tw r fy).fy)) := by
      rw [pyDiv, if_neg]
      have : 0 < (iProps B H tf tw r).A * fy / gammaM0 := by rw [gamma_one]; positivity
      exact this.ne'
    have e2 : shearFor (iProfile H B tf tw r fy) .z = 0 := by
      show (0:ℝ) * fy / √3 / gammaM0 = 0
      simp
    unfold sectionResistance
    simp only [e, bind, Except.bind]
    simp only [e2, pyDiv, if_true]
  · intro H B T fy N n hT hB hBH hf hn hn0 hn1 hc
    have hr := radius_spec hT
    have hH : 2 * rhsOuterRadius T ≤ H := by linarith
    obtain ⟨v1, v2, e1, e2, p1, p2, haw⟩ := rhs_fine (fy := fy) hT hH hB
    have hA : 0 < (rhsProfile H B T fy).sec.A := (C65_order hT hH hB).1
    have hAeq : (rhsProfile H B T fy).sec.A = 2 * T * (H + B) - 8 * rhsOuterRadius T * T + π * (2 * rhsOuterRadius T * T - T ^ 2) := by
      show rhsArea H B T (rhsOuterRadius T) = _
      unfold rhsArea
      ring
    have hpi := pi_lt_four
    have hpi0 := pi_pos
    have hA4 : (rhsProfile H B T fy).sec.A < 4 * H * T := by
      rw [hAeq]
      nlinarith [mul_pos hT hT, mul_pos hT (sub_pos.2 hBH), mul_pos hT (by linarith : 0 < rhsOuterRadius T - T), mul_pos (sub_pos.2 hpi) (mul_pos hT (by linarith : 0 < 2 * rhsOuterRadius T - T))]
    have hP : (rhsProfile H B T fy).aw = min (((rhsProfile H B T fy).sec.A - 2 * B * T) / (rhsProfile H B T fy).sec.A) (1 / 2) := rfl
    have hfy : (rhsProfile H B T fy).fy = fy := rfl
    generalize rhsProfile H B T fy = P at *
    have hk : 0 < 1 - P.aw / 2 := by linarith
    have hlt : min ((P.sec.A - 2 * H * T) / P.sec.A) 0.5 < P.aw := by
      rw [hP]
      apply lt_min
      · refine lt_of_le_of_lt (min_le_left _ _) ?_
        rw [div_lt_div_iff_of_pos_right hA]
        nlinarith
      · refine lt_of_le_of_lt (min_le_left _ _) ?_
        rw [div_lt_iff₀ hA]
        linarith
    obtain ⟨u, hu, _, _, _, _, h⟩ := C68_partial P (N := N) (Med := (0, P.sec.Wpl.2 * fy * (1 - n) / (1 - P.aw / 2))) (Ved := (0, 0)) .z (n := n) hA (by rw [hfy]; exact hf) v1 p2 rfl hP (by rw [hfy]; exact hn)
    have hM0 : 0 < P.sec.Wpl.2 * fy * (1 - n) / (1 - P.aw / 2) := div_pos (mul_pos (by positivity) (by linarith)) hk
    refine ⟨_, u, hu, h.2 ⟨?_, ?_, ?_, ?_⟩, ?_⟩
    · rw [hn, div_lt_one (by positivity)] at hn1
      rw [hfy]
      exact hn1.le
    · simp only [Axis.shearForce, abs_zero, mul_zero]
      rw [hfy]
      exact (mul_pos v1 hf).le
    · intro _
      simp only [Axis.of]
      rw [hfy, abs_of_pos hM0]
      constructor
      · rw [div_le_iff₀ hk]
        apply mul_le_mul_of_nonneg_left _ (by positivity)
        linarith
      · rw [div_mul_cancel₀ _ hk.ne']
    · intro h
      simp only at h
      omega
    · have : P.sec.Wpl.2 * fy * (1 - n) = P.sec.Wpl.2 * fy * (1 - n) / (1 - P.aw / 2) * (1 - P.aw / 2) := (div_mul_cancel₀ _ hk.ne').symm
      conv_lhs => rw [this]
      exact mul_lt_mul_of_pos_left (by linarith) hM0

/-- Hollow section 200 by 100 by 5 in S235 with a tension of half its resistance. -/
example : ∃ M u, sectionResistance (rhsProfile 200 100 5 235) ((rhsProfile 200 100 5 235).sec.A * 235 / 2) (0, M) (0, 0) .z = .ok u ∧ (∀ x ∈ u.toList, x ≤ 1) ∧
    (rhsProfile 200 100 5 235).sec.Wpl.2 * 235 * (1 - 1 / 2) < M * (1 - min (((rhsProfile 200 100 5 235).sec.A - 2 * 200 * 5) / (rhsProfile 200 100 5 235).sec.A) 0.5 / 2) := by
  have hT : 2 * rhsOuterRadius 5 ≤ 100 := by norm_num [rhsOuterRadius]
  have hA : 0 < (rhsProfile 200 100 5 235).sec.A := (C65_order (H := 200) (B := 100) (by norm_num) (by linarith) hT).1
  refine C68_violation.2.2 200 100 5 235 _ (1 / 2) (by norm_num) hT (by norm_num) (by norm_num) ?_ (by norm_num) (by norm_num) ?_
  · rw [abs_of_pos (by positivity)]
    field_simp
  · rw [(C67_partial _).2.2.2 (by positivity) (by norm_num)]
    norm_num

/-- **C71 (part).** With a larger axial force, moment and shear force no utilisation of the cross-section becomes smaller, if the class stays the same and the larger axial force is below the resistance.
    Missing: axial forces at and beyond the resistance, changes of class; see `C71_violation`. -/
theorem C71_partial (P : Profile) {N N' : ℝ} {Med Med' Ved Ved' : ℝ × ℝ} (ax : Axis) (hA : 0 < P.sec.A) (hf : 0 < P.fy) (hV : 0 < ax.shearArea P) (hWp : 0 < ax.of P.sec.Wpl) (hWe : 0 < ax.of P.sec.Wel)
    (haw : P.aw ≤ 1 / 2) (hN : |N| ≤ |N'|) (hM : |ax.of Med| ≤ |ax.of Med'|) (hVV : |ax.shearForce Ved| ≤ |ax.shearForce Ved'|) (h1 : |N'| < P.sec.A * P.fy) (hC : sectionClass P N Med.1 = sectionClass P N' Med'.1) :
    ∃ u u', sectionResistance P N Med Ved ax = .ok u ∧ sectionResistance P N' Med' Ved' ax = .ok u' ∧ u.n ≤ u'.n ∧ u.v ≤ u'.v ∧ u.m ≤ u'.m ∧ u.mn ≤ u'.mn := by
  obtain ⟨u, hu, a1, a2, a3, a4⟩ := sectionResistance_eq P N Med Ved ax hA hf hV
  obtain ⟨u', hu', b1, b2, b3, b4⟩ := sectionResistance_eq P N' Med' Ved' ax hA hf hV
  rw [hC] at a3 a4
  have hR : 0 < momentResistance P (sectionClass P N' Med'.1) ax := by
    unfold momentResistance bendingResistance
    rw [gamma_one, div_one]
    split_ifs <;> positivity
  generalize momentResistance P (sectionClass P N' Med'.1) ax = R at *
  have hAf : 0 < P.sec.A * P.fy := by positivity
  have n1 : u.n ≤ u'.n := by rw [a1, b1]; gcongr
  have m1 : u.m ≤ u'.m := by rw [a3, b3]; gcongr
  refine ⟨u, u', hu, hu', n1, ?_, m1, ?_⟩
  · rw [a2, b2]; gcongr
  · have l1 : u'.n < 1 := by rw [b1, div_lt_one hAf]; exact h1
    have hk : 0 < 1 - 1 / 2 * P.aw := by linarith
    have i1 : axialInteract P.aw u.n R = R * min ((1 - u.n) / (1 - 1 / 2 * P.aw)) 1 := by rw [axialInteract, if_neg (by linarith)]
    have i2 : axialInteract P.aw u'.n R = R * min ((1 - u'.n) / (1 - 1 / 2 * P.aw)) 1 := by rw [axialInteract, if_neg (by linarith)]
    have q2 : 0 < min ((1 - u'.n) / (1 - 1 / 2 * P.aw)) 1 := lt_min (div_pos (by linarith) hk) one_pos
    have q : min ((1 - u'.n) / (1 - 1 / 2 * P.aw)) 1 ≤ min ((1 - u.n) / (1 - 1 / 2 * P.aw)) 1 := by
      apply min_le_min_right
      gcongr
    rw [a4, b4, i1, i2]
    by_cases c : sectionClass P N' Med'.1 < 3
    · rw [if_pos ⟨c, mul_pos hR (q2.trans_le q)⟩, if_pos ⟨c, mul_pos hR q2⟩]
      gcongr
    · rw [if_neg (fun h => c h.1), if_neg (fun h => c h.1)]
      linarith

/-- Doubling the shear force of a hollow section 100 by 100 by 5 under tension and bending. -/
example : ∃ u u', sectionResistance (rhsProfile 100 100 5 235) 1000 (1000000, 0) (0, 1000) .y = .ok u ∧ sectionResistance (rhsProfile 100 100 5 235) 1000 (1000000, 0) (0, 2000) .y = .ok u' ∧
    u.n ≤ u'.n ∧ u.v ≤ u'.v ∧ u.m ≤ u'.m ∧ u.mn ≤ u'.mn := by
  have hT : 2 * rhsOuterRadius 5 ≤ 100 := by norm_num [rhsOuterRadius]
  have hA : 0 < (rhsProfile 100 100 5 235).sec.A := (C65_order (H := 100) (B := 100) (by norm_num) hT hT).1
  obtain ⟨v1, v2, e1, e2, p1, p2, haw⟩ := rhs_fine (H := 100) (B := 100) (fy := 235) (T := 5) (by norm_num) hT hT
  refine C71_partial _ .y hA (show (0:ℝ) < 235 by norm_num) v2 p1 e1 haw le_rfl le_rfl ?_ ?_ rfl
  · show |(1000:ℝ)| ≤ |2000|
    norm_num [abs_of_pos]
  · show |(1000:ℝ)| < rhsArea 100 100 5 (rhsOuterRadius 5) * 235
    norm_num [rhsArea, rhsOuterRadius, abs_of_pos]
    have := pi_gt_three
    linarith

/-- **C71 is violated.** Every profile of at least 1 N resistance: with any moment, the tension equal to the resistance gives a smaller utilisation than some smaller tension. -/
theorem C71_violation (P : Profile) {M : ℝ} (hA : 0 < P.sec.A) (hf : 0 < P.fy) (hAf : 1 ≤ P.sec.A * P.fy) (hV : 0 < P.sec.Ashear.2) (hWp : 0 < P.sec.Wpl.1) (haw : P.aw ≤ 1 / 2) (hM : M ≠ 0) :
    ∃ N N' u u', 0 < N ∧ N < N' ∧ sectionResistance P N (M, 0) (0, 0) .y = .ok u ∧ sectionResistance P N' (M, 0) (0, 0) .y = .ok u' ∧ (∃ x ∈ u.toList, ∀ y ∈ u'.toList, y < x) := by
  have hW : 0 < P.sec.Wpl.1 * P.fy := by positivity
  obtain ⟨w, hw⟩ : ∃ w, w = |M| / (P.sec.Wpl.1 * P.fy) := ⟨_, rfl⟩
  have hw0 : 0 < w := by rw [hw]; exact div_pos (abs_pos.2 hM) hW
  obtain ⟨k, hk⟩ : ∃ k, k = 1 - 1 / 2 * P.aw := ⟨_, rfl⟩
  have hk0 : 3 / 4 ≤ k := by rw [hk]; linarith
  obtain ⟨d, hd0, hd1, hd2, hd3⟩ : ∃ d : ℝ, 0 < d ∧ d ≤ 1 / 2 ∧ d ≤ k ∧ 2 * (1 + w) * d ≤ w * k := by
    refine ⟨min (1 / 2) (w * k / (2 * (1 + w))), lt_min (by norm_num) (by positivity), min_le_left _ _, (min_le_left _ _).trans (by linarith), ?_⟩
    have := min_le_right (1 / 2) (w * k / (2 * (1 + w)))
    calc 2 * (1 + w) * min (1 / 2) (w * k / (2 * (1 + w))) ≤ 2 * (1 + w) * (w * k / (2 * (1 + w))) := by gcongr
      _ = w * k := by field_simp
  have cl : ∀ N : ℝ, 1 / 2 ≤ N → sectionClass P N M = 1 := fun N h => C67_violation.1 P N M (by norm_num; linarith)
  have hN : 1 / 2 ≤ (1 - d) * (P.sec.A * P.fy) := by nlinarith
  obtain ⟨u, hu, a1, a2, a3, a4⟩ := sectionResistance_eq P ((1 - d) * (P.sec.A * P.fy)) (M, 0) (0, 0) .y hA hf hV
  obtain ⟨u', hu', b1, b2, b3, b4⟩ := sectionResistance_eq P (P.sec.A * P.fy) (M, 0) (0, 0) .y hA hf hV
  rw [momentResistance_y] at a3 a4 b3 b4
  simp only at a3 a4 b3 b4
  rw [cl _ hN] at a3 a4
  rw [cl _ (by linarith)] at b3 b4
  have hm1 : modulus P 1 = P.sec.Wpl.1 := rfl
  rw [hm1] at a3 a4 b3 b4
  change u.m = |M| / _ at a3
  change u'.m = |M| / _ at b3
  rw [← hw] at a3 b3
  have hAf0 : P.sec.A * P.fy ≠ 0 := by positivity
  rw [abs_of_pos (by linarith), mul_div_cancel_right₀ _ hAf0] at a1
  rw [abs_of_pos (by linarith), div_self hAf0] at b1
  have i1 : axialInteract P.aw u.n (P.sec.Wpl.1 * P.fy) = P.sec.Wpl.1 * P.fy * (d / k) := by
    rw [axialInteract, a1, if_neg (by linarith), ← hk, min_eq_left]
    · ring_nf
    · rw [div_le_one (by linarith)]
      linarith
  have i2 : axialInteract P.aw u'.n (P.sec.Wpl.1 * P.fy) = 0 := by
    rw [axialInteract, b1, if_neg (lt_irrefl 1)]
    norm_num
  have hdk : 0 < d / k := div_pos hd0 (by linarith)
  rw [i1, if_pos ⟨by norm_num, by positivity⟩] at a4
  change u.mn = |M| / _ at a4
  rw [← div_div, ← hw] at a4
  rw [i2, if_neg (by simp), b1, b3] at b4
  refine ⟨_, _, u, u', by linarith, ?_, hu, hu', u.mn, by simp [SecUtil.toList], ?_⟩
  · nlinarith
  · have big : 2 * (1 + w) ≤ u.mn := by
      rw [a4, div_div_eq_mul_div, le_div_iff₀ hd0]
      exact hd3
    have v0 : u'.v = 0 := by
      rw [b2]
      simp [Axis.shearForce]
    intro y hy
    simp only [SecUtil.toList, b1, v0, b3, b4, List.mem_cons, List.not_mem_nil, or_false] at hy
    rcases hy with rfl | rfl | rfl | rfl <;> linarith

end Metku.Steel
