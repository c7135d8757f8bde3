import Verif.Props.TimberLn

/-!
Buckling and lateral buckling of timber members, and their bracing.
-/
namespace Metku.Timber

open TimberSpec Real

/-! ### The sections of a segment -/

theorem firstAt_eq {m : TMember} (hnd : m.locs.Nodup) {f : Forces} (hf : f ∈ m.secs) : m.firstAt f.loc = some f := by
  unfold TMember.firstAt
  unfold TMember.locs at hnd
  generalize m.secs = l at hnd hf
  induction l with
  | nil => cases hf
  | cons a l ih =>
    rw [List.map_cons, List.nodup_cons] at hnd
    rcases List.mem_cons.1 hf with rfl | h
    · rw [List.find?_cons_of_pos (by simp)]
    · rw [List.find?_cons_of_neg]
      · exact ih hnd.2 h
      · simp only [decide_eq_true_eq]
        intro e
        exact hnd.1 (e ▸ List.mem_map_of_mem h)

theorem mem_secsIn {m : TMember} (hnd : m.locs.Nodup) {g : ℝ × ℝ} {f : Forces} : f ∈ m.secsIn g ↔ f ∈ m.secs ∧ g.1 ≤ f.loc ∧ f.loc ≤ g.2 := by
  unfold TMember.secsIn
  rw [List.mem_filterMap]
  constructor
  · rintro ⟨x, hx, hf⟩
    rw [List.mem_filter, decide_eq_true_eq] at hx
    unfold TMember.firstAt at hf
    have h1 := List.mem_of_find?_eq_some hf
    have h2 := List.find?_some hf
    rw [decide_eq_true_eq] at h2
    rw [← h2] at hx
    exact ⟨h1, hx.2⟩
  · rintro ⟨hf, hl⟩
    exact ⟨f.loc, by rw [List.mem_filter, decide_eq_true_eq]; exact ⟨List.mem_map_of_mem hf, hl⟩, firstAt_eq hnd hf⟩

theorem foldl_min_le (l : List ℝ) : ∀ a : ℝ, l.foldl min a ≤ a ∧ (∀ x ∈ l, l.foldl min a ≤ x) ∧ (l.foldl min a = a ∨ l.foldl min a ∈ l) := by
  induction l with
  | nil => exact fun a => ⟨le_rfl, by simp, .inl rfl⟩
  | cons b l ih =>
    intro a
    obtain ⟨h1, h2, h3⟩ := ih (min a b)
    rw [List.foldl_cons]
    refine ⟨h1.trans (min_le_left _ _), fun x hx => ?_, ?_⟩
    · rcases List.mem_cons.1 hx with rfl | hx
      · exact h1.trans (min_le_right _ _)
      · exact h2 x hx
    · rcases h3 with h3 | h3
      · rw [h3]
        rcases min_choice a b with e | e
        · exact .inl e
        · exact .inr (by rw [e]; exact List.mem_cons_self)
      · exact .inr (List.mem_cons_of_mem _ h3)

theorem listMin_spec {l : List ℝ} {r : ℝ} (h : listMin l = .ok r) : (∀ x ∈ l, r ≤ x) ∧ r ∈ l := by
  cases l with
  | nil => cases h
  | cons a l =>
    obtain rfl := Except.ok.inj h
    obtain ⟨h1, h2, h3⟩ := foldl_min_le l a
    refine ⟨fun x hx => ?_, ?_⟩
    · rcases List.mem_cons.1 hx with rfl | hx
      · exact h1
      · exact h2 x hx
    · rcases h3 with h3 | h3
      · rw [h3]
        exact List.mem_cons_self
      · exact List.mem_cons_of_mem _ h3

theorem foldl_abs (l : List ℝ) : ∀ a : ℝ, |a| ≤ |l.foldl (fun x y => if |x| < |y| then y else x) a| ∧ (∀ x ∈ l, |x| ≤ |l.foldl (fun x y => if |x| < |y| then y else x) a|) ∧
    (l.foldl (fun x y => if |x| < |y| then y else x) a = a ∨ l.foldl (fun x y => if |x| < |y| then y else x) a ∈ l) := by
  induction l with
  | nil => exact fun a => ⟨le_rfl, by simp, .inl rfl⟩
  | cons b l ih =>
    intro a
    rw [List.foldl_cons]
    by_cases hc : |a| < |b|
    · rw [if_pos hc]
      obtain ⟨h1, h2, h3⟩ := ih b
      refine ⟨hc.le.trans h1, fun x hx => ?_, ?_⟩
      · rcases List.mem_cons.1 hx with rfl | hx
        · exact h1
        · exact h2 x hx
      · rcases h3 with h3 | h3
        · exact .inr (by rw [h3]; exact List.mem_cons_self)
        · exact .inr (List.mem_cons_of_mem _ h3)
    · rw [if_neg hc]
      obtain ⟨h1, h2, h3⟩ := ih a
      refine ⟨h1, fun x hx => ?_, ?_⟩
      · rcases List.mem_cons.1 hx with rfl | hx
        · exact (not_lt.1 hc).trans h1
        · exact h2 x hx
      · rcases h3 with h3 | h3
        · exact .inl h3
        · exact .inr (List.mem_cons_of_mem _ h3)

theorem maxByAbs_spec {l : List ℝ} {r : ℝ} (h : maxByAbs l = .ok r) : (∀ x ∈ l, |x| ≤ |r|) ∧ r ∈ l := by
  cases l with
  | nil => cases h
  | cons a l =>
    obtain rfl := Except.ok.inj h
    obtain ⟨h1, h2, h3⟩ := foldl_abs l a
    refine ⟨fun x hx => ?_, ?_⟩
    · rcases List.mem_cons.1 hx with rfl | hx
      · exact h1
      · exact h2 x hx
    · rcases h3 with h3 | h3
      · rw [h3]
        exact List.mem_cons_self
      · exact List.mem_cons_of_mem _ h3

theorem segStress_spec {m : TMember} {g : ℝ × ℝ} {s : ℝ × ℝ × ℝ} (h : m.segStress g = .ok s) :
    (∀ f ∈ m.secsIn g, s.1 ≤ m.sigma0 f ∧ |m.sigmaY f| ≤ |s.2.1| ∧ |m.sigmaZ f| ≤ |s.2.2|) ∧
    ∃ a ∈ m.secsIn g, ∃ b ∈ m.secsIn g, ∃ c ∈ m.secsIn g, s.1 = m.sigma0 a ∧ s.2.1 = m.sigmaY b ∧ s.2.2 = m.sigmaZ c := by
  unfold TMember.segStress at h
  simp only [bind, Except.bind] at h
  split at h
  · cases h
  rename_i c hc
  split at h
  · cases h
  rename_i y hy
  split at h
  · cases h
  rename_i z hz
  obtain rfl := Except.ok.inj h
  obtain ⟨c1, c2⟩ := listMin_spec hc
  obtain ⟨y1, y2⟩ := maxByAbs_spec hy
  obtain ⟨z1, z2⟩ := maxByAbs_spec hz
  rw [List.mem_map] at c2 y2 z2
  obtain ⟨a, ha, ea⟩ := c2
  obtain ⟨b, hb, eb⟩ := y2
  obtain ⟨d, hd, ed⟩ := z2
  exact ⟨fun f hf => ⟨c1 _ (List.mem_map_of_mem hf), y1 _ (List.mem_map_of_mem hf), z1 _ (List.mem_map_of_mem hf)⟩, a, ha, b, hb, d, hd, ea.symm, eb.symm, ed.symm⟩

theorem listMax_mem {l : List ℝ} {r : ℝ} (h : listMax l = .ok r) : r ∈ l := by
  have key : ∀ (l : List ℝ) (a : ℝ), l.foldl max a = a ∨ l.foldl max a ∈ l := by
    intro l
    induction l with
    | nil => exact fun a => .inl rfl
    | cons b l ih =>
      intro a
      rw [List.foldl_cons]
      rcases ih (max a b) with e | e
      · rw [e]
        rcases max_choice a b with e' | e'
        · exact .inl e'
        · exact .inr (by rw [e']; exact List.mem_cons_self)
      · exact .inr (List.mem_cons_of_mem _ e)
  cases l with
  | nil => cases h
  | cons a l =>
    obtain rfl := Except.ok.inj h
    rcases key l a with e | e
    · rw [e]
      exact List.mem_cons_self
    · exact List.mem_cons_of_mem _ e

theorem sigma0_neg {m : TMember} (h : m.Sound) (f : Forces) : m.sigma0 f < 0 ↔ f.ned < 0 := by
  have hA := h.area_pos f.loc
  unfold TMember.area at hA
  unfold TMember.sigma0
  rw [div_lt_iff₀ hA, zero_mul]

theorem checkBuckling_inv {m : TMember} {supY supZ kcy kcz : List ℝ} {r : ℝ × ℝ} (h : m.checkBuckling supY supZ kcy kcz = .ok r) :
    ∃ sy sz uy uz, (segs supY).mapM m.segStress = .ok sy ∧ (segs supZ).mapM m.segStress = .ok sz ∧ bcast m.useY sy kcy = .ok uy ∧ bcast m.useZ sz kcz = .ok uz ∧ listMax uy = .ok r.1 ∧ listMax uz = .ok r.2 := by
  unfold TMember.checkBuckling at h
  simp only [bind, Except.bind] at h
  split at h
  · cases h
  rename_i sy hsy
  split at h
  · cases h
  rename_i sz hsz
  split at h
  · cases h
  rename_i uy huy
  split at h
  · cases h
  rename_i uz huz
  split at h
  · cases h
  rename_i a ha
  split at h
  · cases h
  rename_i b hb
  obtain rfl := Except.ok.inj h
  exact ⟨sy, sz, uy, uz, hsy, hsz, huy, huz, ha, hb⟩

/-- What one axis of the check says, for a utilisation that grows with the stresses. -/
theorem axis_spec {m : TMember} {sup kc : List ℝ} {use : ℝ × ℝ × ℝ → ℝ → ℝ} {ss : List (ℝ × ℝ × ℝ)} {us : List ℝ} {r : ℝ} (hs : (segs sup).mapM m.segStress = .ok ss) (hlen : kc.length = (segs sup).length)
    (hu : bcast use ss kc = .ok us) (hr : listMax us = .ok r) :
    (∀ (i : ℕ) (g : ℝ × ℝ) (k : ℝ), (segs sup)[i]? = some g → kc[i]? = some k → ∃ s, m.segStress g = .ok s ∧ use s k ≤ r) ∧
    ∃ (i : ℕ) (g : ℝ × ℝ) (k : ℝ) (s : ℝ × ℝ × ℝ), (segs sup)[i]? = some g ∧ kc[i]? = some k ∧ m.segStress g = .ok s ∧ r = use s k := by
  have hl : ss.length = kc.length := (mapM_length hs).trans hlen.symm
  unfold bcast at hu
  rw [if_pos hl] at hu
  obtain rfl := Except.ok.inj hu
  constructor
  · intro i g k hg hk
    obtain ⟨hi, e⟩ := List.getElem?_eq_some_iff.1 hg
    obtain ⟨s, h1, h2⟩ := mapM_get hs i hi
    rw [e] at h2
    refine ⟨s, h2, listMax_ge hr _ ?_⟩
    refine List.mem_of_getElem? (i := i) ?_
    rw [List.getElem?_zipWith, h1, hk]
  · obtain ⟨i, hi⟩ := List.mem_iff_getElem?.1 (listMax_mem hr)
    rw [List.getElem?_zipWith] at hi
    cases h1 : ss[i]? with
    | none => rw [h1] at hi; cases hi
    | some s =>
      cases h2 : kc[i]? with
      | none => rw [h1, h2] at hi; cases hi
      | some k =>
        rw [h1, h2] at hi
        have hil : i < (segs sup).length := by
          rw [← mapM_length hs]
          exact (List.getElem?_eq_some_iff.1 h1).1
        obtain ⟨s', h3, h4⟩ := mapM_get hs i hil
        rw [h1] at h3
        obtain rfl := Option.some.inj h3
        exact ⟨i, _, k, s, List.getElem?_eq_getElem hil, h2, h4, (Option.some.inj hi).symm⟩

/-- **C155** (partial).  In a member with sections at different locations and without negative moments about the weak axis, the check of buckling covers every section in compression: together with the reduction of every segment it
belongs to, and with bending about both axes.  Each result is zero or combines stresses of one segment in compression.  Without compression both results are zero. -/
theorem C155_partial (m : TMember) (h : m.Sound) (hnd : m.locs.Nodup) (hz : ∀ f ∈ m.secs, 0 ≤ f.mzed) (supY supZ kcy kcz : List ℝ) (hy1 : kcy.length = (segs supY).length) (hz1 : kcz.length = (segs supZ).length)
    (hky : ∀ k ∈ kcy, 0 < k) (hkz : ∀ k ∈ kcz, 0 < k) (r : ℝ × ℝ) (hr : m.checkBuckling supY supZ kcy kcz = .ok r) :
    (∀ (i : ℕ) (g : ℝ × ℝ) (k : ℝ), (segs supY)[i]? = some g → kcy[i]? = some k → ∀ f ∈ m.secs, g.1 ≤ f.loc → f.loc ≤ g.2 → f.ned < 0 →
      -f.ned / m.area f.loc / (k * m.fc0d) + |m.strong f| + 0.7 * |m.weak f| ≤ r.1) ∧
    (∀ (i : ℕ) (g : ℝ × ℝ) (k : ℝ), (segs supZ)[i]? = some g → kcz[i]? = some k → ∀ f ∈ m.secs, g.1 ≤ f.loc → f.loc ≤ g.2 → f.ned < 0 →
      -f.ned / m.area f.loc / (k * m.fc0d) + 0.7 * |m.strong f| + |m.weak f| ≤ r.2) ∧
    (r.1 = 0 ∨ ∃ (i : ℕ) (g : ℝ × ℝ) (k : ℝ), (segs supY)[i]? = some g ∧ kcy[i]? = some k ∧ ∃ a ∈ m.secsIn g, ∃ b ∈ m.secsIn g, ∃ c ∈ m.secsIn g, a.ned < 0 ∧
      r.1 = -a.ned / m.area a.loc / (k * m.fc0d) + |m.strong b| + 0.7 * |m.weak c|) ∧
    (r.2 = 0 ∨ ∃ (i : ℕ) (g : ℝ × ℝ) (k : ℝ), (segs supZ)[i]? = some g ∧ kcz[i]? = some k ∧ ∃ a ∈ m.secsIn g, ∃ b ∈ m.secsIn g, ∃ c ∈ m.secsIn g, a.ned < 0 ∧
      r.2 = -a.ned / m.area a.loc / (k * m.fc0d) + 0.7 * |m.strong b| + |m.weak c|) ∧
    ((∀ f ∈ m.secs, 0 ≤ f.ned) → r = (0, 0)) := by
  obtain ⟨sy, sz, uy, uz, hsy, hsz, huy, huz, ha, hb⟩ := checkBuckling_inv hr
  obtain ⟨cy, ty⟩ := axis_spec hsy hy1 huy ha
  obtain ⟨cz, tz⟩ := axis_spec hsz hz1 huz hb
  have hmem : ∀ g f, f ∈ m.secsIn g → f ∈ m.secs := fun g f hf => ((mem_secsIn hnd).1 hf).1
  have hσz : ∀ f ∈ m.secs, 0 ≤ m.sigmaZ f := by
    intro f hf
    have hH := h.H f.loc
    have hB := h.B
    exact div_nonneg (hz f hf) (by positivity)
  have hax : ∀ f, f.ned < 0 → ∀ k, |m.sigma0 f| / (k * m.fc0d) = -f.ned / m.area f.loc / (k * m.fc0d) := by
    intro f hf k
    rw [abs_of_neg ((sigma0_neg h f).2 hf)]
    unfold TMember.sigma0 TMember.area
    rw [neg_div, neg_div, neg_div]
  have hst : ∀ f, |m.sigmaY f| / m.fmd = |m.strong f| := abs_strong h
  have hwk : ∀ f ∈ m.secs, m.sigmaZ f / m.fmd = |m.weak f| := by
    intro f hf
    have h0 := hσz f hf
    unfold TMember.sigmaZ at h0 ⊢
    unfold TMember.weak
    rw [abs_of_nonneg (div_nonneg h0 h.fmd.le)]
  refine ⟨?_, ?_, ?_, ?_, ?_⟩
  · intro i g k hg hk f hf h1 h2 hn
    obtain ⟨s, hs, hle⟩ := cy i g k hg hk
    have hin : f ∈ m.secsIn g := (mem_secsIn hnd).2 ⟨hf, h1, h2⟩
    obtain ⟨p1, _, _, _, _, c, hc, _, _, e3⟩ := segStress_spec hs
    obtain ⟨q1, q2, q3⟩ := p1 f hin
    have hneg := (sigma0_neg h f).2 hn
    have hs0 : s.1 < 0 := lt_of_le_of_lt q1 hneg
    have hz3 : 0 ≤ s.2.2 := e3 ▸ hσz c (hmem g c hc)
    have hkp := hky k (List.mem_of_getElem? hk)
    have hfc := h.fc0d
    have hfm := h.fmd
    refine le_trans ?_ hle
    unfold TMember.useY
    rw [if_pos hs0, ← hax f hn k, ← hst, ← hwk f hf, mul_div_assoc]
    rw [abs_of_nonneg hz3, abs_of_nonneg (hσz f hf)] at q3
    refine add_le_add (add_le_add ?_ ?_) ?_
    · refine div_le_div_of_nonneg_right ?_ (by positivity)
      rw [abs_of_neg hneg, abs_of_neg hs0]
      linarith
    · exact div_le_div_of_nonneg_right q2 hfm.le
    · exact mul_le_mul_of_nonneg_left (div_le_div_of_nonneg_right q3 hfm.le) (by norm_num)
  · intro i g k hg hk f hf h1 h2 hn
    obtain ⟨s, hs, hle⟩ := cz i g k hg hk
    have hin : f ∈ m.secsIn g := (mem_secsIn hnd).2 ⟨hf, h1, h2⟩
    obtain ⟨p1, _, _, _, _, c, hc, _, _, e3⟩ := segStress_spec hs
    obtain ⟨q1, q2, q3⟩ := p1 f hin
    have hneg := (sigma0_neg h f).2 hn
    have hs0 : s.1 < 0 := lt_of_le_of_lt q1 hneg
    have hz3 : 0 ≤ s.2.2 := e3 ▸ hσz c (hmem g c hc)
    have hkp := hkz k (List.mem_of_getElem? hk)
    have hfc := h.fc0d
    have hfm := h.fmd
    refine le_trans ?_ hle
    unfold TMember.useZ
    rw [if_pos hs0, ← hax f hn k, ← hst, ← hwk f hf, mul_div_assoc]
    rw [abs_of_nonneg hz3, abs_of_nonneg (hσz f hf)] at q3
    refine add_le_add (add_le_add ?_ ?_) ?_
    · refine div_le_div_of_nonneg_right ?_ (by positivity)
      rw [abs_of_neg hneg, abs_of_neg hs0]
      linarith
    · exact mul_le_mul_of_nonneg_left (div_le_div_of_nonneg_right q2 hfm.le) (by norm_num)
    · exact div_le_div_of_nonneg_right q3 hfm.le
  · obtain ⟨i, g, k, s, hg, hk, hs, e⟩ := ty
    obtain ⟨-, a, ha, b, hb, c, hc, e1, e2, e3⟩ := segStress_spec hs
    unfold TMember.useY at e
    split_ifs at e with h0
    · have hn : a.ned < 0 := (sigma0_neg h a).1 (e1 ▸ h0)
      refine .inr ⟨i, g, k, hg, hk, a, ha, b, hb, c, hc, hn, ?_⟩
      rw [e, e1, e2, e3, hax a hn k, hst, mul_div_assoc, hwk c (hmem g c hc)]
    · exact .inl e
  · obtain ⟨i, g, k, s, hg, hk, hs, e⟩ := tz
    obtain ⟨-, a, ha, b, hb, c, hc, e1, e2, e3⟩ := segStress_spec hs
    unfold TMember.useZ at e
    split_ifs at e with h0
    · have hn : a.ned < 0 := (sigma0_neg h a).1 (e1 ▸ h0)
      refine .inr ⟨i, g, k, hg, hk, a, ha, b, hb, c, hc, hn, ?_⟩
      rw [e, e1, e2, e3, hax a hn k, mul_div_assoc, hst, hwk c (hmem g c hc)]
    · exact .inl e
  · intro hp
    have key : ∀ g s, m.segStress g = .ok s → ¬ s.1 < 0 := by
      intro g s hs
      obtain ⟨_, a, ha, _, _, _, _, e1, _⟩ := segStress_spec hs
      rw [e1, sigma0_neg h]
      exact not_lt.2 (hp a (hmem g a ha))
    obtain ⟨_, g, k, s, -, -, hs, e⟩ := ty
    obtain ⟨_, g', k', s', -, -, hs', e'⟩ := tz
    unfold TMember.useY at e
    unfold TMember.useZ at e'
    rw [if_neg (key g s hs)] at e
    rw [if_neg (key g' s' hs')] at e'
    exact Prod.ext e e'

theorem segs_nil : segs [] = [(0, 1)] := by
  unfold segs
  rw [edges_eq (by simp)]
  rfl

theorem secsIn_single {m : TMember} {f : Forces} (hm : m.secs = [f]) {g : ℝ × ℝ} (h1 : g.1 ≤ f.loc) (h2 : f.loc ≤ g.2) : m.secsIn g = [f] := by
  unfold TMember.secsIn TMember.locs TMember.firstAt
  rw [hm]
  simp [h1, h2]

theorem single_secs {m : TMember} {f : Forces} (hm : m.secs = [f]) (h1 : 0 ≤ f.loc) (h2 : f.loc ≤ 1) : m.secsIn (0, 1) = [f] := secsIn_single hm h1 h2

theorem single_check {m : TMember} {f : Forces} (hm : m.secs = [f]) (h1 : 0 ≤ f.loc) (h2 : f.loc ≤ 1) (ky kz : ℝ) :
    m.checkBuckling [] [] [ky] [kz] = .ok (m.useY (m.sigma0 f, m.sigmaY f, m.sigmaZ f) ky, m.useZ (m.sigma0 f, m.sigmaY f, m.sigmaZ f) kz) := by
  have hs : m.segStress (0, 1) = .ok (m.sigma0 f, m.sigmaY f, m.sigmaZ f) := by
    unfold TMember.segStress
    rw [single_secs hm h1 h2]
    rfl
  unfold TMember.checkBuckling
  simp only [segs_nil, List.mapM_cons, List.mapM_nil, hs, bind, Except.bind, pure, Except.pure, bcast, List.length_singleton, if_true, List.zipWith_cons_cons, List.zipWith_nil_left, listMax, List.foldl_nil]

/-- A strut of 4 m in one piece. -/
example : ∃ r, (demoMember [⟨-50000, 4000000, 0, 0, 0, 0, 0.5⟩]).checkBuckling [] [] [0.7] [0.3] = .ok r ∧ 50000 / 20000 / (0.7 * 14) + |(demoMember []).strong ⟨-50000, 4000000, 0, 0, 0, 0, 0.5⟩| ≤ r.1 := by
  have hr := single_check (m := demoMember [⟨-50000, 4000000, 0, 0, 0, 0, 0.5⟩]) (f := ⟨-50000, 4000000, 0, 0, 0, 0, 0.5⟩) rfl (by norm_num) (by norm_num) 0.7 0.3
  refine ⟨_, hr, ?_⟩
  have := (C155_partial (demoMember [⟨-50000, 4000000, 0, 0, 0, 0, 0.5⟩]) (demo_sound _) (by simp [TMember.locs, demoMember]) (by simp [demoMember]) [] [] [0.7] [0.3] (by simp [segs_nil]) (by simp [segs_nil]) (by norm_num)
    (by norm_num) _ hr).1 0 (0, 1) 0.7 (by simp [segs_nil]) rfl ⟨-50000, 4000000, 0, 0, 0, 0, 0.5⟩ (by simp [demoMember]) (by norm_num) (by norm_num) (by norm_num)
  refine le_trans (le_of_eq ?_) this
  norm_num [TMember.area, demoMember, TMember.weak, TMember.strong]

/-- **C155** (negation).  A negative moment about the weak axis relieves: a strut is rated below the same strut bent to the other side, and even below a strut that is not bent about this axis. -/
theorem C155_violation (m : TMember) (h : m.Sound) (f : Forces) (hm : m.secs = [f]) (h1 : 0 ≤ f.loc) (h2 : f.loc ≤ 1) (hn : f.ned < 0) (hz : f.mzed < 0) (ky kz : ℝ) :
    ∃ r r0 r', m.checkBuckling [] [] [ky] [kz] = .ok r ∧ ({ m with secs := [{ f with mzed := 0 }] } : TMember).checkBuckling [] [] [ky] [kz] = .ok r0 ∧
      ({ m with secs := [{ f with mzed := -f.mzed }] } : TMember).checkBuckling [] [] [ky] [kz] = .ok r' ∧ r.1 < r0.1 ∧ r0.1 < r'.1 ∧ r.2 < r0.2 ∧ r0.2 < r'.2 := by
  have hneg := (sigma0_neg h f).2 hn
  have hH := h.H f.loc
  have hB := h.B
  have hfm := h.fmd
  have hzneg : m.sigmaZ f < 0 := div_neg_of_neg_of_pos hz (by positivity)
  have e0 : ({ m with secs := [{ f with mzed := 0 }] } : TMember).sigmaZ { f with mzed := 0 } = 0 := by
    unfold TMember.sigmaZ
    simp
  have e1 : ({ m with secs := [{ f with mzed := -f.mzed }] } : TMember).sigmaZ { f with mzed := -f.mzed } = -m.sigmaZ f := by
    unfold TMember.sigmaZ
    rw [neg_div]
  have d1 : m.sigmaZ f / m.fmd < 0 := div_neg_of_neg_of_pos hzneg hfm
  refine ⟨_, _, _, single_check hm h1 h2 ky kz, single_check (m := { m with secs := [{ f with mzed := 0 }] }) rfl h1 h2 ky kz, single_check (m := { m with secs := [{ f with mzed := -f.mzed }] }) rfl h1 h2 ky kz, ?_⟩
  rw [e0, e1]
  unfold TMember.useY TMember.useZ
  have g0 : ({ m with secs := [{ f with mzed := 0 }] } : TMember).sigma0 { f with mzed := 0 } = m.sigma0 f := rfl
  have g1 : ({ m with secs := [{ f with mzed := -f.mzed }] } : TMember).sigma0 { f with mzed := -f.mzed } = m.sigma0 f := rfl
  have y0 : ({ m with secs := [{ f with mzed := 0 }] } : TMember).sigmaY { f with mzed := 0 } = m.sigmaY f := rfl
  have y1 : ({ m with secs := [{ f with mzed := -f.mzed }] } : TMember).sigmaY { f with mzed := -f.mzed } = m.sigmaY f := rfl
  simp only [g0, g1, y0, y1, if_pos hneg, mul_div_assoc, neg_div, zero_div]
  refine ⟨?_, ?_, ?_, ?_⟩ <;> linarith

/-- A strut under 50 kN with 1 kNm about its weak axis. -/
example : ∃ r r0 r', (demoMember [⟨-50000, 0, -1000000, 0, 0, 0, 0.5⟩]).checkBuckling [] [] [0.7] [0.3] = .ok r ∧
    ({ demoMember [⟨-50000, 0, -1000000, 0, 0, 0, 0.5⟩] with secs := [⟨-50000, 0, 0, 0, 0, 0, 0.5⟩] } : TMember).checkBuckling [] [] [0.7] [0.3] = .ok r0 ∧
    ({ demoMember [⟨-50000, 0, -1000000, 0, 0, 0, 0.5⟩] with secs := [⟨-50000, 0, - -1000000, 0, 0, 0, 0.5⟩] } : TMember).checkBuckling [] [] [0.7] [0.3] = .ok r' ∧ r.1 < r0.1 ∧ r0.1 < r'.1 ∧ r.2 < r0.2 ∧ r0.2 < r'.2 :=
  C155_violation (demoMember [⟨-50000, 0, -1000000, 0, 0, 0, 0.5⟩]) (demo_sound _) ⟨-50000, 0, -1000000, 0, 0, 0, 0.5⟩ rfl (by norm_num) (by norm_num) (by norm_num) (by norm_num) 0.7 0.3

theorem mapM_some_err {α β : Type} {f : α → Except PyErr β} {l : List α} {a : α} (ha : a ∈ l) {e : PyErr} (he : f a = .error e) : ∃ e', l.mapM f = .error e' := by
  cases h : l.mapM f with
  | error e' => exact ⟨e', rfl⟩
  | ok r =>
    obtain ⟨b, -, hb⟩ := (mapM_inv h).1 a ha
    rw [he] at hb
    cases hb

/-- **C155** (negation).  Two lateral supports with no section between them make the check raise. -/
theorem C155_violation_gap (m : TMember) (hnd : m.locs.Nodup) (supY supZ kcy kcz : List ℝ) (g : ℝ × ℝ) (hg : g ∈ segs supY) (hno : ∀ f ∈ m.secs, f.loc < g.1 ∨ g.2 < f.loc) :
    m.checkBuckling supY supZ kcy kcz = .error .valueError := by
  have hnil : m.secsIn g = [] := by
    rw [List.eq_nil_iff_forall_not_mem]
    intro f hf
    obtain ⟨h1, h2, h3⟩ := (mem_secsIn hnd).1 hf
    rcases hno f h1 with h | h
    · exact absurd h (not_lt.2 h2)
    · exact absurd h (not_lt.2 h3)
  have hs : m.segStress g = .error .valueError := by
    unfold TMember.segStress
    rw [hnil]
    rfl
  obtain ⟨e, he⟩ := mapM_some_err hg hs
  have := mapM_err (fun a _ e' he' => segStress_err he') he
  subst this
  unfold TMember.checkBuckling
  simp only [bind, Except.bind, he]

/-- A beam with sections at its ends and in its middle, and two supports in its third quarter. -/
example : (demoMember [⟨-50000, 0, 0, 0, 0, 0, 0⟩, ⟨-50000, 0, 0, 0, 0, 0, 0.5⟩, ⟨-50000, 0, 0, 0, 0, 0, 1⟩]).checkBuckling [0.6, 0.7] [] [1, 1, 1] [1] = .error .valueError := by
  refine C155_violation_gap _ (by norm_num [TMember.locs, demoMember]) _ _ _ _ (0.6, 0.7) ?_ (by norm_num [demoMember])
  have hs : sortR [0.6, 0.7] = [0.6, 0.7] := sortR_eq (List.Perm.refl _) (by norm_num)
  unfold segs
  rw [edges_eq (by norm_num), hs]
  simp

/-! ### C156: lateral buckling -/

/-- `k` is the reduction of lateral buckling of a segment of length `lc` with the depth at `x`, for the loaded edge. -/
def LateralAt (m : TMember) (t : LatMat) (lc x k : ℝ) : Prop :=
  ∃ lef, (t.edge = .compression → lef = 0.9 * lc + 2 * m.H x) ∧ (t.edge = .tension → lef = 0.9 * lc - m.H x / 2) ∧ (t.edge = .other → lef = 0.9 * lc) ∧
    LateralRed √(t.fmk / critStress t.e005 t.g005 m.B (m.H x) (torInertia (m.H x) m.B) lef) k

theorem kCritAt_spec (m : TMember) (t : LatMat) (lc x : ℝ) : LateralAt m t lc x (m.kCritAt t lc x) ∧ 0 < m.kCritAt t lc x ∧ m.kCritAt t lc x ≤ 1 := by
  refine ⟨⟨lEf t.edge lc (m.H x), ?_, ?_, ?_, kCrit_red _⟩, C152_partial.1 _⟩
  · intro h
    rw [h]
    simp only [lEf]
    ring
  · intro h
    rw [h]
    simp only [lEf]
    ring
  · intro h
    rw [h]
    simp only [lEf]
    ring

theorem pureBending_spec {m : TMember} {b : Bool} (h : m.pureBending = .ok b) : b = true ↔ (∃ q ∈ m.secs, q.myed ≠ 0) ∧ ∀ q ∈ m.secs, |q.ned| ≤ 0.1 := by
  unfold TMember.pureBending at h
  simp only [bind, Except.bind] at h
  split at h
  · cases h
  rename_i y hy
  split at h
  · cases h
  rename_i n hn
  obtain rfl := Except.ok.inj h
  obtain ⟨y1, y2⟩ := maxByAbs_spec hy
  obtain ⟨n1, n2⟩ := maxByAbs_spec hn
  rw [List.mem_map] at y2 n2
  obtain ⟨fy, hfy, ey⟩ := y2
  obtain ⟨fn, hfn, en⟩ := n2
  rw [decide_eq_true_eq]
  constructor
  · rintro ⟨h1, h2⟩
    exact ⟨⟨fy, hfy, by rw [ey]; exact h1⟩, fun q hq => (n1 _ (List.mem_map_of_mem hq)).trans h2⟩
  · rintro ⟨⟨q, hq, h1⟩, h2⟩
    refine ⟨?_, by rw [← en]; exact h2 fn hfn⟩
    rintro rfl
    have := y1 _ (List.mem_map_of_mem hq)
    rw [abs_zero] at this
    exact h1 (abs_nonpos_iff.1 this)

/-- The largest of the values of all sections of all segments. -/
theorem rows_spec {m : TMember} {sup : List ℝ} {u : ℕ → Forces → Except PyErr ℝ} {rows : List (List ℝ)} {r : ℝ}
    (hr : (List.range (segs sup).length).mapM (fun i : ℕ => ((segs sup)[i]?.elim [] m.secsIn).mapM (u i)) = .ok rows) (hm : listMax rows.flatten = .ok r) :
    (∀ (i : ℕ) (g : ℝ × ℝ), (segs sup)[i]? = some g → ∀ f ∈ m.secsIn g, ∃ x, u i f = .ok x ∧ x ≤ r) ∧ ∃ (i : ℕ) (g : ℝ × ℝ), (segs sup)[i]? = some g ∧ ∃ f ∈ m.secsIn g, u i f = .ok r := by
  constructor
  · intro i g hg f hf
    have hi : i < (segs sup).length := (List.getElem?_eq_some_iff.1 hg).1
    obtain ⟨row, hrow, e⟩ := (mapM_inv hr).1 i (List.mem_range.2 hi)
    simp only [hg, Option.elim_some] at e
    obtain ⟨x, hx, ex⟩ := (mapM_inv e).1 f hf
    exact ⟨x, ex, listMax_ge hm x (List.mem_flatten.2 ⟨row, hrow, hx⟩)⟩
  · obtain ⟨row, hrow, hx⟩ := List.mem_flatten.1 (listMax_mem hm)
    obtain ⟨i, hi, e⟩ := (mapM_inv hr).2 row hrow
    have hg : (segs sup)[i]? = some ((segs sup)[i]'(List.mem_range.1 hi)) := List.getElem?_eq_getElem _
    simp only [hg, Option.elim_some] at e
    obtain ⟨f, hf, ef⟩ := (mapM_inv e).2 r hx
    exact ⟨i, _, hg, f, hf, ef⟩

theorem checkLateral_inv {m : TMember} {t : LatMat} {sup lcz kcz : List ℝ} {r : ℝ} (h : m.checkLateral t sup lcz kcz = .ok r) :
    ∃ b, m.pureBending = .ok b ∧ (∀ (i : ℕ) (g : ℝ × ℝ), (segs sup)[i]? = some g → ∀ f ∈ m.secsIn g, ∃ x, m.lateralAt t lcz kcz b i f = .ok x ∧ x ≤ r) ∧
      ∃ (i : ℕ) (g : ℝ × ℝ), (segs sup)[i]? = some g ∧ ∃ f ∈ m.secsIn g, m.lateralAt t lcz kcz b i f = .ok r := by
  unfold TMember.checkLateral at h
  simp only [bind, Except.bind] at h
  split at h
  · cases h
  rename_i b hb
  split at h
  · cases h
  rename_i rows hrows
  exact ⟨b, hb, rows_spec hrows h⟩

theorem sigmaY_ratio {m : TMember} (f : Forces) (k : ℝ) : m.sigmaY f / (k * m.fmd) = m.strong f / k := by
  unfold TMember.sigmaY TMember.strong
  rw [div_div _ m.fmd k, mul_comm k]

theorem lateralAt_eq {m : TMember} (h : m.Sound) {t : LatMat} {lcz kcz : List ℝ} {i : ℕ} {lc kc : ℝ} (h1 : lcz[i]? = some lc) (h2 : kcz[i]? = some kc) (b : Bool) (f : Forces) :
    m.lateralAt t lcz kcz b i f = .ok (if b then m.strong f / m.kCritAt t lc f.loc else (|m.strong f| / m.kCritAt t lc f.loc) ^ 2 + |f.ned| / m.area f.loc / (kc * m.fc0d)) := by
  unfold TMember.lateralAt
  rw [pyGet_nat h1]
  have hσ : |m.sigma0 f| = |f.ned| / m.area f.loc := by
    unfold TMember.sigma0
    rw [abs_div, abs_of_pos (show 0 < m.B * m.H f.loc from h.area_pos f.loc)]
    rfl
  cases b with
  | true => simp only [bind, Except.bind, if_true, sigmaY_ratio]
  | false => simp only [bind, Except.bind, Bool.false_eq_true, if_false, pyGet_nat h2, sigmaY_ratio, hσ, div_pow, sq_abs]

/-- **C156** (partial).  The check of lateral buckling covers every section in every segment it belongs to.  With moments about the strong axis and no axial force, the moment related to the reduced strength is not above the
result for every section that sags; with an axial force, the square of that ratio together with the axial stress related to the strength reduced for buckling is not above the result, whatever the signs.  The result is attained by
one of the sections. -/
theorem C156_partial (m : TMember) (h : m.Sound) (hnd : m.locs.Nodup) (t : LatMat) (supZ lcz kcz : List ℝ) (hl : lcz.length = (segs supZ).length) (hk : kcz.length = (segs supZ).length) (r : ℝ)
    (hr : m.checkLateral t supZ lcz kcz = .ok r) :
    (∀ (i : ℕ) (g : ℝ × ℝ) (lc kc : ℝ), (segs supZ)[i]? = some g → lcz[i]? = some lc → kcz[i]? = some kc → ∀ f ∈ m.secs, g.1 ≤ f.loc → f.loc ≤ g.2 → ∃ k, LateralAt m t lc f.loc k ∧ 0 < k ∧ k ≤ 1 ∧
      (f.myed ≠ 0 → 0 ≤ f.myed → (∀ q ∈ m.secs, |q.ned| ≤ 0.1) → |m.strong f| / k ≤ r) ∧ ((∃ q ∈ m.secs, 0.1 < |q.ned|) → (|m.strong f| / k) ^ 2 + |f.ned| / m.area f.loc / (kc * m.fc0d) ≤ r)) ∧
    ∃ (i : ℕ) (g : ℝ × ℝ) (lc kc : ℝ), (segs supZ)[i]? = some g ∧ lcz[i]? = some lc ∧ kcz[i]? = some kc ∧ ∃ f ∈ m.secs, g.1 ≤ f.loc ∧ f.loc ≤ g.2 ∧ ∃ k, LateralAt m t lc f.loc k ∧ 0 < k ∧ k ≤ 1 ∧
      (r = m.strong f / k ∨ r = (|m.strong f| / k) ^ 2 + |f.ned| / m.area f.loc / (kc * m.fc0d)) := by
  obtain ⟨b, hb, hall, i, g, hg, f, hf, e⟩ := checkLateral_inv hr
  have hpb := pureBending_spec hb
  constructor
  · intro i g lc kc hg h1 h2 f hf hlo hhi
    obtain ⟨x, ex, hx⟩ := hall i g hg f ((mem_secsIn hnd).2 ⟨hf, hlo, hhi⟩)
    rw [lateralAt_eq h h1 h2] at ex
    obtain rfl := Except.ok.inj ex
    obtain ⟨s1, s2, s3⟩ := kCritAt_spec m t lc f.loc
    refine ⟨_, s1, s2, s3, fun hne hpos hax => ?_, fun ⟨q, hq, hax⟩ => ?_⟩
    · rw [if_pos (hpb.2 ⟨⟨f, hf, hne⟩, hax⟩)] at hx
      rwa [abs_of_pos ((strong_sign h f).1.2 (lt_of_le_of_ne hpos hne.symm))]
    · rwa [if_neg] at hx
      intro hbt
      exact absurd ((hpb.1 hbt).2 q hq) (not_le.2 hax)
  · have hi : i < (segs supZ).length := (List.getElem?_eq_some_iff.1 hg).1
    have h1 : lcz[i]? = some (lcz[i]'(hl ▸ hi)) := List.getElem?_eq_getElem _
    have h2 : kcz[i]? = some (kcz[i]'(hk ▸ hi)) := List.getElem?_eq_getElem _
    rw [lateralAt_eq h h1 h2] at e
    obtain ⟨m1, m2, m3⟩ := (mem_secsIn hnd).1 hf
    obtain ⟨s1, s2, s3⟩ := kCritAt_spec m t (lcz[i]'(hl ▸ hi)) f.loc
    refine ⟨i, g, _, _, hg, h1, h2, f, m1, m2, m3, _, s1, s2, s3, ?_⟩
    rw [← Except.ok.inj e]
    split_ifs
    · exact .inl rfl
    · exact .inr rfl

/-- **C156** (negation).  Beams that hog, with no axial force, never fail by lateral buckling: the result is negative for every moment. -/
theorem C156_violation (m : TMember) (h : m.Sound) (hnd : m.locs.Nodup) (t : LatMat) (supZ lcz kcz : List ℝ) (hl : lcz.length = (segs supZ).length) (hk : kcz.length = (segs supZ).length)
    (hn : ∀ f ∈ m.secs, |f.ned| ≤ 0.1) (hm : ∀ f ∈ m.secs, f.myed < 0) (r : ℝ) (hr : m.checkLateral t supZ lcz kcz = .ok r) : r < 0 := by
  obtain ⟨b, hb, -, i, g, hg, f, hf, e⟩ := checkLateral_inv hr
  have hi : i < (segs supZ).length := (List.getElem?_eq_some_iff.1 hg).1
  obtain ⟨m1, -, -⟩ := (mem_secsIn hnd).1 hf
  have hbt := (pureBending_spec hb).2 ⟨⟨f, m1, (hm f m1).ne⟩, hn⟩
  rw [lateralAt_eq h (List.getElem?_eq_getElem (hl ▸ hi)) (List.getElem?_eq_getElem (hk ▸ hi)), if_pos hbt] at e
  rw [← Except.ok.inj e]
  exact div_neg_of_neg_of_pos ((strong_sign h f).2.2 (hm f m1)) (kCritAt_spec m t _ f.loc).2.1

theorem single_lateral {m : TMember} {f : Forces} (hm : m.secs = [f]) (h1 : 0 ≤ f.loc) (h2 : f.loc ≤ 1) (h : m.Sound) (t : LatMat) (lc kc : ℝ) : ∃ r, m.checkLateral t [] [lc] [kc] = .ok r := by
  have hp : ∃ b, m.pureBending = .ok b := by
    unfold TMember.pureBending
    rw [hm]
    exact ⟨_, rfl⟩
  obtain ⟨b, hb⟩ := hp
  have hu := lateralAt_eq h (t := t) (lcz := [lc]) (kcz := [kc]) (i := 0) rfl rfl b f
  unfold TMember.checkLateral
  rw [hb]
  simp only [bind, Except.bind, segs_nil, List.length_singleton, List.range_one, List.mapM_cons, List.mapM_nil, List.getElem?_cons_zero, Option.elim_some, single_secs hm h1 h2, hu, pure, Except.pure, List.flatten_cons, List.flatten_nil,
    List.append_nil, listMax, List.foldl_nil]
  exact ⟨_, rfl⟩

/-- A beam of 4 m with 4 kNm in its middle, loaded from above. -/
example : ∃ r k, (demoMember [⟨0, 4000000, 0, 0, 0, 0, 0.5⟩]).checkLateral ⟨9400, 540, 24, .compression⟩ [] [4000] [1] = .ok r ∧ 0 < k ∧ k ≤ 1 ∧ |(demoMember [⟨0, 4000000, 0, 0, 0, 0, 0.5⟩]).strong ⟨0, 4000000, 0, 0, 0, 0, 0.5⟩| / k ≤ r := by
  obtain ⟨r, hr⟩ := single_lateral (m := demoMember [⟨0, 4000000, 0, 0, 0, 0, 0.5⟩]) rfl (by norm_num) (by norm_num) (demo_sound _) ⟨9400, 540, 24, .compression⟩ 4000 1
  obtain ⟨k, -, k1, k2, k3, -⟩ := (C156_partial _ (demo_sound _) (by simp [TMember.locs, demoMember]) ⟨9400, 540, 24, .compression⟩ [] [4000] [1] (by simp [segs_nil]) (by simp [segs_nil]) r hr).1 0 (0, 1) 4000 1 (by simp [segs_nil]) rfl
    rfl ⟨0, 4000000, 0, 0, 0, 0, 0.5⟩ (by simp [demoMember]) (by norm_num) (by norm_num)
  exact ⟨r, k, hr, k1, k2, k3 (by norm_num) (by norm_num) (by norm_num [demoMember])⟩

/-- The same beam with a hogging moment a thousand times as large. -/
example : ∃ r, (demoMember [⟨0, -4000000000, 0, 0, 0, 0, 0.5⟩]).checkLateral ⟨9400, 540, 24, .compression⟩ [] [4000] [1] = .ok r ∧ r < 0 := by
  obtain ⟨r, hr⟩ := single_lateral (m := demoMember [⟨0, -4000000000, 0, 0, 0, 0, 0.5⟩]) rfl (by norm_num) (by norm_num) (demo_sound _) ⟨9400, 540, 24, .compression⟩ 4000 1
  exact ⟨r, hr, C156_violation _ (demo_sound _) (by simp [TMember.locs, demoMember]) _ _ _ _ (by simp [segs_nil]) (by simp [segs_nil]) (by norm_num [demoMember]) (by norm_num [demoMember]) r hr⟩

/-! ### C157: bracing -/

theorem bracing_inv {m : TMember} {k : Kind} {t : LatMat} {supZ lcz : List ℝ} (hl : lcz.length = (segs supZ).length) {n : ℕ} {ks : Option ℝ} {r : ℝ × ℝ × ℝ} (h : m.bracing k t supZ lcz n ks = .ok r) :
    ∃ nd, (∀ (i : ℕ) (g : ℝ × ℝ) (lc : ℝ), (segs supZ)[i]? = some g → lcz[i]? = some lc → ∀ f ∈ m.secsIn g, (1 - m.kCritAt t lc f.loc) * (f.myed / m.H f.loc) ≤ nd) ∧
      (∃ (i : ℕ) (g : ℝ × ℝ) (lc : ℝ), (segs supZ)[i]? = some g ∧ lcz[i]? = some lc ∧ ∃ f ∈ m.secsIn g, nd = (1 - m.kCritAt t lc f.loc) * (f.myed / m.H f.loc)) ∧
      r = (nd / (m.L / (supZ.length + 1 : ℕ)), if k = .solid then nd / 50 else nd / 80, min 1 √(15 / m.L) * (n * nd / (50 * m.L))) := by
  unfold TMember.bracing at h
  simp only [bind, Except.bind] at h
  split at h
  · cases h
  rename_i nds hnds
  split at h
  · cases h
  rename_i nd hnd
  unfold TMember.edgeForces at hnds
  simp only [bind, Except.bind] at hnds
  split at hnds
  · cases hnds
  rename_i rows hrows
  obtain rfl := Except.ok.inj hnds
  obtain ⟨h1, i, g, hg, f, hf, e⟩ := rows_spec hrows hnd
  refine ⟨nd, ?_, ?_, (Except.ok.inj h).symm⟩
  · intro i g lc hg hlc f hf
    obtain ⟨x, ex, hx⟩ := h1 i g hg f hf
    rw [pyGet_nat hlc] at ex
    exact (Except.ok.inj ex).trans_le hx
  · have hi : i < (segs supZ).length := (List.getElem?_eq_some_iff.1 hg).1
    have hlc : lcz[i]? = some (lcz[i]'(hl ▸ hi)) := List.getElem?_eq_getElem _
    rw [pyGet_nat hlc] at e
    exact ⟨i, g, _, hg, hlc, f, hf, (Except.ok.inj e).symm⟩

/-- `nd` is the largest force of the compressed edge that lateral buckling does not leave to the beam. -/
def EdgeForce (m : TMember) (t : LatMat) (supZ lcz : List ℝ) (nd : ℝ) : Prop :=
  (∀ (i : ℕ) (g : ℝ × ℝ) (lc : ℝ), (segs supZ)[i]? = some g → lcz[i]? = some lc → ∀ f ∈ m.secs, g.1 ≤ f.loc → f.loc ≤ g.2 → ∃ k, LateralAt m t lc f.loc k ∧ 0 < k ∧ k ≤ 1 ∧ (1 - k) * (f.myed / m.H f.loc) ≤ nd) ∧
  ∃ (i : ℕ) (g : ℝ × ℝ) (lc : ℝ), (segs supZ)[i]? = some g ∧ lcz[i]? = some lc ∧ ∃ f ∈ m.secs, g.1 ≤ f.loc ∧ f.loc ≤ g.2 ∧ ∃ k, LateralAt m t lc f.loc k ∧ 0 < k ∧ k ≤ 1 ∧ nd = (1 - k) * (f.myed / m.H f.loc)

theorem bracing_force {m : TMember} (hnd : m.locs.Nodup) {k : Kind} {t : LatMat} {supZ lcz : List ℝ} (hl : lcz.length = (segs supZ).length) {n : ℕ} {ks : Option ℝ} {r : ℝ × ℝ × ℝ} (h : m.bracing k t supZ lcz n ks = .ok r) :
    ∃ nd, EdgeForce m t supZ lcz nd ∧ r = (nd / (m.L / (supZ.length + 1 : ℕ)), if k = .solid then nd / 50 else nd / 80, min 1 √(15 / m.L) * (n * nd / (50 * m.L))) := by
  obtain ⟨nd, h1, ⟨i, g, lc, hg, hlc, f, hf, e⟩, h3⟩ := bracing_inv hl h
  refine ⟨nd, ⟨?_, ?_⟩, h3⟩
  · intro i g lc hg hlc f hf h1' h2'
    obtain ⟨s1, s2, s3⟩ := kCritAt_spec m t lc f.loc
    exact ⟨_, s1, s2, s3, h1 i g lc hg hlc f ((mem_secsIn hnd).2 ⟨hf, h1', h2'⟩)⟩
  · obtain ⟨m1, m2, m3⟩ := (mem_secsIn hnd).1 hf
    obtain ⟨s1, s2, s3⟩ := kCritAt_spec m t lc f.loc
    exact ⟨i, g, lc, hg, hlc, f, m1, m2, m3, _, s1, s2, s3, e⟩

theorem edgeForce_unique {m : TMember} {t : LatMat} {supZ lcz : List ℝ} {a b : ℝ} (ha : EdgeForce m t supZ lcz a) (hb : EdgeForce m t supZ lcz b) : a = b := by
  have key : ∀ x k k' : ℝ, LateralRed x k → LateralRed x k' → k = k' := by
    intro x k k' ⟨p1, p2, p3⟩ ⟨q1, q2, q3⟩
    rcases le_or_gt x (3 / 4) with h | h
    · rw [p1 h, q1 h]
    · rcases le_or_gt x (7 / 5) with h' | h'
      · rw [p2 h h', q2 h h']
      · have hx : x ^ 2 ≠ 0 := by positivity
        exact mul_right_cancel₀ hx ((p3 h').trans (q3 h').symm)
  have key2 : ∀ lc x k k', LateralAt m t lc x k → LateralAt m t lc x k' → k = k' := by
    rintro lc x k k' ⟨l1, a1, a2, a3, a4⟩ ⟨l2, b1, b2, b3, b4⟩
    have : l1 = l2 := by
      rcases he : t.edge with _ | _ | _
      · rw [a1 he, b1 he]
      · rw [a2 he, b2 he]
      · rw [a3 he, b3 he]
    subst this
    exact key _ _ _ a4 b4
  have half : ∀ a b, EdgeForce m t supZ lcz a → EdgeForce m t supZ lcz b → a ≤ b := by
    rintro a b ⟨-, i, g, lc, hg, hlc, f, hf, h1, h2, k, hk, -, -, e⟩ ⟨hb, -⟩
    obtain ⟨k', hk', -, -, hle⟩ := hb i g lc hg hlc f hf h1 h2
    rw [e, key2 _ _ _ _ hk hk']
    exact hle
  exact le_antisymm (half a b ha hb) (half b a hb ha)

/-- **C157** (partial).  Bracing is designed for one force of the compressed edge: the largest one of all sections that lateral buckling does not leave to the beam.  The force of a brace is a fiftieth of it for solid timber and an
eightieth for other materials, and the load of the bracing system is not above that of the standard. -/
theorem C157_partial (m : TMember) (hL : 0 < m.L) (hnd : m.locs.Nodup) (k : Kind) (t : LatMat) (supZ lcz : List ℝ) (hl : lcz.length = (segs supZ).length) (n : ℕ) (ks : Option ℝ) (r : ℝ × ℝ × ℝ) (h : m.bracing k t supZ lcz n ks = .ok r) :
    ∃ nd, EdgeForce m t supZ lcz nd ∧ (∀ nd', EdgeForce m t supZ lcz nd' → nd' = nd) ∧ (k = .solid → r.2.1 * 50 = nd) ∧ (k ≠ .solid → r.2.1 * 80 = nd) ∧ (0 ≤ nd → r.2.2 ≤ bracingLoad nd m.L n) := by
  obtain ⟨nd, h1, rfl⟩ := bracing_force hnd hl h
  refine ⟨nd, h1, fun nd' h' => edgeForce_unique h' h1, fun hk => ?_, fun hk => ?_, fun h0 => ?_⟩
  · simp only [hk, if_true]
    ring
  · simp only [hk, if_false]
    ring
  · unfold bracingLoad
    refine mul_le_mul_of_nonneg_right (min_le_min le_rfl (Real.sqrt_le_sqrt ?_)) (by positivity)
    rw [div_div_eq_mul_div]
    exact div_le_div_of_nonneg_right (by norm_num) hL.le

/-- **C157** (negation).  The stiffness of a brace lacks the factor of the standard, whether given by the caller or not: a braced beam gets at most half of the stiffness it needs. -/
theorem C157_violation_stiffness (m : TMember) (hL : 0 < m.L) (hnd : m.locs.Nodup) (k : Kind) (t : LatMat) (supZ lcz : List ℝ) (hl : lcz.length = (segs supZ).length) (n : ℕ) (ks : Option ℝ) (r : ℝ × ℝ × ℝ)
    (h : m.bracing k t supZ lcz n ks = .ok r) (nd : ℝ) (hnd' : EdgeForce m t supZ lcz nd) (h0 : 0 < nd) (hs : supZ ≠ []) :
    r.1 * (2 + 2 * Real.cos (Real.pi / (supZ.length + 1 : ℕ))) = braceStiffness nd (m.L / (supZ.length + 1 : ℕ)) (supZ.length + 1) ∧ 2 * r.1 ≤ braceStiffness nd (m.L / (supZ.length + 1 : ℕ)) (supZ.length + 1) := by
  obtain ⟨nd', h1, rfl⟩ := bracing_force hnd hl h
  obtain rfl := edgeForce_unique hnd' h1
  have hlen : 1 ≤ supZ.length := List.length_pos_iff.2 hs
  have hc : 0 ≤ Real.cos (Real.pi / (supZ.length + 1 : ℕ)) := by
    refine Real.cos_nonneg_of_neg_pi_div_two_le_of_le ?_ ?_
    · have : 0 ≤ Real.pi / ((supZ.length + 1 : ℕ) : ℝ) := by positivity
      linarith [Real.pi_pos]
    · refine div_le_div_of_nonneg_left Real.pi_pos.le (by norm_num) ?_
      exact_mod_cast Nat.succ_le_succ hlen
  have ha : 0 < m.L / ((supZ.length + 1 : ℕ) : ℝ) := by positivity
  have hr : 0 ≤ nd / (m.L / ((supZ.length + 1 : ℕ) : ℝ)) := (div_pos h0 ha).le
  have e : nd / (m.L / ((supZ.length + 1 : ℕ) : ℝ)) * (2 + 2 * Real.cos (Real.pi / (supZ.length + 1 : ℕ))) = braceStiffness nd (m.L / (supZ.length + 1 : ℕ)) (supZ.length + 1) := by
    unfold braceStiffness
    ring
  refine ⟨e, ?_⟩
  rw [← e]
  have : 0 ≤ nd / (m.L / ((supZ.length + 1 : ℕ) : ℝ)) * Real.cos (Real.pi / (supZ.length + 1 : ℕ)) := mul_nonneg hr hc
  simp only
  linarith

/-- **C157** (negation).  The span that reduces the load of the bracing system is 15 mm instead of 15 m: beams up to 15 m get too small a load, and longer ones a load too small by the root of a thousand. -/
theorem C157_violation_load (m : TMember) (hnd : m.locs.Nodup) (k : Kind) (t : LatMat) (supZ lcz : List ℝ) (hl : lcz.length = (segs supZ).length) (n : ℕ) (hn : 0 < n) (ks : Option ℝ) (r : ℝ × ℝ × ℝ)
    (h : m.bracing k t supZ lcz n ks = .ok r) (nd : ℝ) (hnd' : EdgeForce m t supZ lcz nd) (h0 : 0 < nd) (hL : 15 < m.L) :
    r.2.2 < bracingLoad nd m.L n ∧ (m.L ≤ 15000 → r.2.2 * √(m.L / 15) = bracingLoad nd m.L n) ∧ (15000 ≤ m.L → r.2.2 * √1000 = bracingLoad nd m.L n) := by
  obtain ⟨nd', h1, rfl⟩ := bracing_force hnd hl h
  obtain rfl := edgeForce_unique hnd' h1
  have hn' : (0 : ℝ) < n := by exact_mod_cast hn
  have hL0 : 0 < m.L := by linarith
  have hq : 0 < n * nd / (50 * m.L) := by positivity
  have hs1 : √(15 / m.L) < 1 := by
    rw [Real.sqrt_lt' one_pos, one_pow, div_lt_one hL0]
    exact hL
  have hs0 : 0 < √(15 / m.L) := Real.sqrt_pos.2 (by positivity)
  have h2 : m.L ≤ 15000 → √(15 / m.L) * √(m.L / 15) = min 1 √(15 / (m.L / 1000)) := by
    intro hle
    rw [← Real.sqrt_mul (by positivity), min_eq_left]
    · rw [show 15 / m.L * (m.L / 15) = 1 by field_simp, Real.sqrt_one]
    · rw [Real.one_le_sqrt, div_div_eq_mul_div, one_le_div hL0]
      linarith
  have h3 : 15000 ≤ m.L → √(15 / m.L) * √1000 = min 1 √(15 / (m.L / 1000)) := by
    intro hle
    rw [← Real.sqrt_mul (by positivity), min_eq_right]
    · rw [div_div_eq_mul_div, div_mul_eq_mul_div]
    · rw [Real.sqrt_le_one, div_div_eq_mul_div, div_le_one hL0]
      linarith
  unfold bracingLoad
  simp only [min_eq_right hs1.le]
  have e2 : m.L ≤ 15000 → √(15 / m.L) * (n * nd / (50 * m.L)) * √(m.L / 15) = min 1 √(15 / (m.L / 1000)) * (n * nd / (50 * m.L)) := by
    intro hle
    rw [← h2 hle]
    ring
  have e3 : 15000 ≤ m.L → √(15 / m.L) * (n * nd / (50 * m.L)) * √1000 = min 1 √(15 / (m.L / 1000)) * (n * nd / (50 * m.L)) := by
    intro hle
    rw [← h3 hle]
    ring
  refine ⟨?_, e2, e3⟩
  have hp : 0 < √(15 / m.L) * (n * nd / (50 * m.L)) := mul_pos hs0 hq
  rcases le_total m.L 15000 with hle | hle
  · rw [← e2 hle]
    have : 1 < √(m.L / 15) := by
      rw [Real.lt_sqrt (by norm_num), one_pow, one_lt_div (by norm_num)]
      exact hL
    exact lt_mul_of_one_lt_right hp this
  · rw [← e3 hle]
    have : 1 < √(1000 : ℝ) := by
      rw [Real.lt_sqrt (by norm_num)]
      norm_num
    exact lt_mul_of_one_lt_right hp this

/-- A beam of 40 m with a moment of 4 kNm at its only brace, in its middle. -/
noncomputable def longBeam : TMember := { demoMember [⟨0, 4000000, 0, 0, 0, 0, 0.5⟩] with L := 40000 }

theorem segs_half : segs [0.5] = [(0, 0.5), (0.5, 1)] := by
  have hs : sortR [0.5] = [0.5] := sortR_eq (List.Perm.refl _) (by norm_num)
  unfold segs
  rw [edges_eq (by norm_num), hs]
  simp

theorem long_slender : 3 / 4 < √((24 : ℝ) / critStress 9400 540 100 200 (torInertia 200 100) (0.9 * 20000 + 2 * 200)) := by
  have ht : torInertia 200 100 ≤ 5 * 10 ^ 7 := by
    unfold torInertia
    norm_num [torAlpha, sideRatio]
  have ht0 : 0 < torInertia 200 100 := by
    unfold torInertia
    norm_num [torAlpha, sideRatio]
  have hs : √((9400 : ℝ) * (200 * 100 ^ 3 / 12) * 540 * torInertia 200 100) ≤ 7 * 10 ^ 10 := by
    rw [Real.sqrt_le_left (by norm_num)]
    nlinarith
  have hs0 : 0 < √((9400 : ℝ) * (200 * 100 ^ 3 / 12) * 540 * torInertia 200 100) := Real.sqrt_pos.2 (by positivity)
  have hc : critStress 9400 540 100 200 (torInertia 200 100) (0.9 * 20000 + 2 * 200) < 24 := by
    unfold critStress
    rw [div_lt_iff₀ (by norm_num)]
    have h4 := Real.pi_le_four
    have hp := Real.pi_pos
    calc _ ≤ 4 * (7 * 10 ^ 10) := mul_le_mul h4 hs hs0.le (by norm_num)
      _ < _ := by norm_num
  have hc0 : 0 < critStress 9400 540 100 200 (torInertia 200 100) (0.9 * 20000 + 2 * 200) := by
    unfold critStress
    have hp := Real.pi_pos
    positivity
  rw [Real.lt_sqrt (by norm_num), lt_div_iff₀ hc0]
  nlinarith

theorem long_force {nd : ℝ} (h : EdgeForce longBeam ⟨9400, 540, 24, .compression⟩ [0.5] [20000, 20000] nd) : 0 < nd := by
  obtain ⟨k, ⟨lef, e1, -, -, p1, p2, p3⟩, hk0, hk1, hle⟩ := h.1 0 (0, 0.5) 20000 (by rw [segs_half]; rfl) rfl ⟨0, 4000000, 0, 0, 0, 0, 0.5⟩ (by simp [longBeam, demoMember]) (by norm_num) (by norm_num)
  have hl : lef = 0.9 * 20000 + 2 * 200 := e1 rfl
  rw [hl] at p2 p3
  have hs := long_slender
  have hH : longBeam.H 0.5 = 200 := rfl
  have hB : longBeam.B = 100 := rfl
  simp only [hH, hB] at p2 p3 hle
  have hlt : k < 1 := by
    rcases le_or_gt √((24 : ℝ) / critStress 9400 540 100 200 (torInertia 200 100) (0.9 * 20000 + 2 * 200)) (7 / 5) with h' | h'
    · rw [p2 hs h']
      linarith
    · have := p3 h'
      nlinarith
  have : (0 : ℝ) < 4000000 / 200 := by norm_num
  nlinarith

theorem long_ok (k : Kind) (n : ℕ) (ks : Option ℝ) : ∃ r, longBeam.bracing k ⟨9400, 540, 24, .compression⟩ [0.5] [20000, 20000] n ks = .ok r := by
  have s1 : longBeam.secsIn (0, 0.5) = [⟨0, 4000000, 0, 0, 0, 0, 0.5⟩] := secsIn_single rfl (by norm_num) (by norm_num)
  have s2 : longBeam.secsIn (0.5, 1) = [⟨0, 4000000, 0, 0, 0, 0, 0.5⟩] := secsIn_single rfl (by norm_num) (by norm_num)
  have hr : List.range 2 = [0, 1] := rfl
  have g0 : pyGet [(20000 : ℝ), 20000] ((0 : ℕ) : ℤ) = .ok 20000 := rfl
  have g1 : pyGet [(20000 : ℝ), 20000] ((1 : ℕ) : ℤ) = .ok 20000 := rfl
  unfold TMember.bracing TMember.edgeForces
  simp only [segs_half, List.length_cons, List.length_nil, hr, List.mapM_cons, List.mapM_nil, List.getElem?_cons_zero, List.getElem?_cons_succ, Option.elim_some, s1, s2, g0, g1, bind, Except.bind, pure, Except.pure, List.flatten_cons,
    List.flatten_nil, List.append_nil, List.cons_append, List.nil_append, listMax]
  exact ⟨_, rfl⟩

theorem long_nodup : longBeam.locs.Nodup := by
  simp [TMember.locs, longBeam, demoMember]

/-- The brace of the long beam gets at most half of the stiffness it needs, and the bracing of three such beams a load too small by the root of a thousand, whatever factor the caller gives. -/
example (ks : Option ℝ) : ∃ r nd, longBeam.bracing .solid ⟨9400, 540, 24, .compression⟩ [0.5] [20000, 20000] 3 ks = .ok r ∧ 0 < nd ∧ r.2.1 * 50 = nd ∧ 2 * r.1 ≤ braceStiffness nd 20000 2 ∧ r.2.2 * √1000 = bracingLoad nd 40000 3 := by
  obtain ⟨r, hr⟩ := long_ok .solid 3 ks
  have hl : [(20000 : ℝ), 20000].length = (segs [0.5]).length := by rw [segs_half]; rfl
  obtain ⟨nd, h1, -, h3, -⟩ := C157_partial longBeam (by norm_num [longBeam]) long_nodup .solid _ [0.5] _ hl 3 ks r hr
  have h0 := long_force h1
  have h4 := (C157_violation_stiffness longBeam (by norm_num [longBeam]) long_nodup .solid _ [0.5] _ hl 3 ks r hr nd h1 h0 (by simp)).2
  have h5 := (C157_violation_load longBeam long_nodup .solid _ [0.5] _ hl 3 (by norm_num) ks r hr nd h1 h0 (by norm_num [longBeam])).2.2 (by norm_num [longBeam])
  refine ⟨r, nd, hr, h0, h3 rfl, ?_, h5⟩
  have e : longBeam.L / (([(0.5 : ℝ)].length + 1 : ℕ) : ℝ) = 20000 := by norm_num [longBeam]
  rwa [e] at h4

end Metku.Timber
