import Verif.Model.TimberFire
import Verif.Spec.Timber
import Mathlib.Tactic.Linarith
import Mathlib.Tactic.FieldSimp
import Mathlib.Tactic.NormNum
import Mathlib.Tactic.Positivity
import Mathlib.Tactic.Ring

/-!
Charring of timber: bare and protected sides, residual rectangular sections, charring rates.
-/
namespace Metku.Timber

open Real TimberSpec

/-! ### Rates and prepared protections -/

theorem rates_cases {rhok : ℝ} {k : Kind} {hd : Hardness} {hp b0 bn : ℝ} (h : charringRates rhok k hd hp = .ok (b0, bn)) : ∃ c, baseRates rhok k hd = some (c, bn) := by
  unfold charringRates at h
  split at h
  · cases h
  · rename_i c d hb
    split at h <;> · obtain ⟨rfl, rfl⟩ := Prod.mk.inj (Except.ok.inj h); exact ⟨c, hb⟩

theorem base_pos {rhok : ℝ} {k : Kind} {hd : Hardness} {c bn : ℝ} (h : baseRates rhok k hd = some (c, bn)) : 0.55 ≤ bn := by
  unfold baseRates at h
  split at h <;> (try split_ifs at h) <;> first | (obtain ⟨rfl, rfl⟩ := Prod.mk.inj (Option.some.inj h); norm_num) | cases h

theorem base_soft {rhok : ℝ} {k : Kind} {c bn : ℝ} (h : baseRates rhok k .softwood = some (c, bn)) : 0.7 ≤ bn := by
  cases k <;> simp only [baseRates] at h <;> (try split_ifs at h) <;> (obtain ⟨rfl, rfl⟩ := Prod.mk.inj (Option.some.inj h); norm_num)

theorem prepare_cases {p q : Protection} {rhok : ℝ} {k : Kind} {hd : Hardness} (h : p.prepare rhok k hd = .ok q) :
    ∃ c bn tf, baseRates rhok k hd = some (c, bn) ∧ 0.55 ≤ bn ∧ q.tch = p.tch ∧ q.tf = some tf ∧ q.ta = some (min (2 * tf) (25 / (2 * bn) + tf)) ∧
      (p.isF = true → tf = 12.5 / (0.73 * bn) + p.tch) ∧ (p.isF = false → p.tf = some tf) := by
  unfold Protection.prepare at h
  simp only [bind, Except.bind] at h
  split at h
  · cases h
  · rename_i v hv
    obtain ⟨b0, bn⟩ := v
    obtain ⟨c, hc⟩ := rates_cases hv
    cases hF : p.isF
    · simp only [hF, Bool.false_eq_true, if_false, Protection.setTa] at h
      split at h
      · cases h
      · rename_i tf htf
        obtain rfl := Except.ok.inj h
        exact ⟨c, bn, tf, hc, base_pos hc, rfl, htf, rfl, by simp, fun _ => htf⟩
    · simp only [hF, if_true, Protection.setTa, Protection.setTf] at h
      obtain rfl := Except.ok.inj h
      exact ⟨c, bn, _, hc, base_pos hc, rfl, rfl, rfl, fun _ => rfl, by simp⟩

/-! ### C136: charring starts at zero and never decreases -/

theorem k0_mono (fp : Option Protection) {t t' : ℝ} (h : t ≤ t') (hp : ∀ p ∈ fp, p.tch ≤ t) : charK0 fp t ≤ charK0 fp t' := by
  have e : ∀ s s' : ℝ, s ≤ s' → (if s < 20 then s / 20 else (1 : ℝ)) ≤ if s' < 20 then s' / 20 else 1 := by
    intro s s' hs
    split_ifs <;> linarith
  cases fp with
  | none => exact e t t' h
  | some p =>
    have hp' := hp p rfl
    unfold charK0
    by_cases hc : p.tch ≤ 20
    · simp only [hc, if_true]
      exact e t t' h
    · have h20 : 20 < p.tch := lt_of_not_ge hc
      simp only [hc, if_false]
      by_cases h1 : t ≤ p.tch
      · have : t = p.tch := le_antisymm h1 hp'
        have hne : p.tch ≠ 0 := by linarith
        by_cases h2 : t' ≤ p.tch
        · have : t' = p.tch := le_antisymm h2 (by linarith)
          simp [*]
        · simp only [h1, h2, if_true, if_false]
          rw [this, div_self hne]
      · have h2 : ¬ t' ≤ p.tch := by
          intro hh
          exact h1 (by linarith)
        simp [h1, h2]

theorem k0_nonneg (fp : Option Protection) {t : ℝ} (ht : 0 ≤ t) : 0 ≤ charK0 fp t := by
  cases fp with
  | none =>
    unfold charK0
    split_ifs <;> linarith
  | some p =>
    simp only [charK0]
    split_ifs
    · linarith
    · linarith
    · exact div_nonneg ht (by linarith)
    · linarith

theorem bare_eq (t bn : ℝ) : charDepth none t bn = .ok (bare bn t) := by
  unfold charDepth charK0 bare
  refine congrArg Except.ok ?_
  by_cases h : t < 20
  · rw [if_pos h, min_eq_left (by linarith)]
    ring
  · rw [if_neg h, min_eq_right (by linarith)]
    ring

theorem after_nonneg {tch tf ta t bn k0 : ℝ} (hbn : 0 ≤ bn) (hk : 0 ≤ k0) (ht : tch ≤ t) (hta : tf ≤ ta) : 0 ≤ charAfter tch tf ta t bn k0 := by
  unfold charAfter
  have h7 : 0 ≤ k0 * 7 := by linarith
  split_ifs with h1 h2 h3 h4
  · have := mul_nonneg (sub_nonneg.2 ht) hbn
    nlinarith
  · have h5 := mul_nonneg (sub_nonneg.2 h1.le) hbn
    have h6 := mul_nonneg (sub_nonneg.2 h3.1.le) hbn
    nlinarith
  · have h5 := mul_nonneg (sub_nonneg.2 h1.le) hbn
    have h6 := mul_nonneg (sub_nonneg.2 hta) hbn
    have h8 := mul_nonneg (sub_nonneg.2 (le_of_not_gt h2)) hbn
    nlinarith
  · have h6 : 0 ≤ (t - tf) * bn := mul_nonneg (by linarith) hbn
    nlinarith
  · have h6 := mul_nonneg (sub_nonneg.2 hta) hbn
    have h8 := mul_nonneg (sub_nonneg.2 (le_of_not_gt h4)) hbn
    nlinarith

theorem after_mono {tch tf ta t t' bn k k' : ℝ} (hbn : 0 ≤ bn) (hk : k ≤ k') (h : t ≤ t') (hta : tf ≤ ta) (hne : tch < tf → t ≠ tf) :
    charAfter tch tf ta t bn k ≤ charAfter tch tf ta t' bn k' := by
  unfold charAfter
  have hd := mul_nonneg (sub_nonneg.2 h) hbn
  have hA := mul_nonneg (sub_nonneg.2 hta) hbn
  by_cases h1 : tch < tf
  · have hn := hne h1
    simp only [h1, if_true]
    have hF := mul_nonneg (sub_nonneg.2 h1.le) hbn
    by_cases h2 : t < tf
    · have hG := mul_nonneg (sub_nonneg.2 h2.le) hbn
      simp only [h2, if_true]
      by_cases h3 : t' < tf
      · simp only [h3, if_true]; nlinarith
      · have hH := mul_nonneg (sub_nonneg.2 (le_of_not_gt h3)) hbn
        simp only [h3, if_false]
        split_ifs <;> nlinarith
    · have h2' : tf < t := lt_of_le_of_ne (le_of_not_gt h2) (Ne.symm hn)
      have h3 : ¬ t' < tf := by intro hh; linarith
      have h4 : tf < t' := by linarith
      simp only [h2, h3, if_false]
      by_cases h5 : t < ta
      · rw [if_pos ⟨h2', h5⟩]
        have hJ := mul_nonneg (sub_nonneg.2 h5.le) hbn
        split_ifs with h6
        · nlinarith
        · have : ta ≤ t' := by
            by_contra hc
            exact h6 ⟨h4, lt_of_not_ge hc⟩
          have hK := mul_nonneg (sub_nonneg.2 this) hbn
          nlinarith
      · have h6 : ¬ t' < ta := by intro hh; exact h5 (by linarith)
        rw [if_neg (fun hh => h5 hh.2), if_neg (fun hh => h6 hh.2)]
        nlinarith
  · simp only [h1, if_false]
    by_cases h5 : t < ta
    · have hJ := mul_nonneg (sub_nonneg.2 h5.le) hbn
      rw [if_pos h5]
      split_ifs with h6
      · nlinarith
      · have hK := mul_nonneg (sub_nonneg.2 (le_of_not_gt h6)) hbn
        nlinarith
    · rw [if_neg h5, if_neg (fun hh => h5 (by linarith))]
      nlinarith

theorem ta_ge {tf bn : ℝ} (hf : 0 ≤ tf) (hb : 0.55 ≤ bn) : tf ≤ min (2 * tf) (25 / (2 * bn) + tf) := by
  have hbp : (0 : ℝ) < bn := lt_of_lt_of_le (by norm_num) hb
  have : 0 ≤ 25 / (2 * bn) := by positivity
  exact le_min (by linarith) (by linarith)

/-- **C136** (partial).  The charring depth of a side is zero at the start of the fire and never decreases: of a bare side, and of a side with any protection that a section accepts, except from the very moment when
a protection that chars before it fails does fail. -/
theorem C136_partial (bn : ℝ) (hbn : 0 ≤ bn) :
    (charDepth none 0 bn = .ok 0 ∧ ∀ t t', 0 ≤ t → t ≤ t' → Below (charDepth none t bn) (charDepth none t' bn)) ∧
    ∀ (p q : Protection) (rhok : ℝ) (k : Kind) (hd : Hardness), p.prepare rhok k hd = .ok q → 0 < p.tch → (∀ tf, p.tf = some tf → 0 ≤ tf) →
      charDepth (some q) 0 bn = .ok 0 ∧
      ∀ t t', 0 ≤ t → t ≤ t' → (∀ tf, q.tf = some tf → p.tch < tf → t ≠ tf) → Below (charDepth (some q) t bn) (charDepth (some q) t' bn) := by
  refine ⟨⟨?_, ?_⟩, ?_⟩
  · rw [bare_eq]; unfold bare; norm_num
  · intro t t' ht h
    refine ⟨_, _, bare_eq t bn, bare_eq t' bn, ?_⟩
    unfold bare
    have h1 := mul_le_mul_of_nonneg_left h hbn
    have h2 : min (t / 20) 1 ≤ min (t' / 20) 1 := min_le_min (by linarith) le_rfl
    linarith
  · intro p q rhok k hd hpq hch hf
    obtain ⟨c, bn', tf, -, hb', e1, e2, e3, e4, e5⟩ := prepare_cases hpq
    have htf : 0 ≤ tf := by
      cases hF : p.isF
      · exact hf tf (e5 hF)
      · rw [e4 hF]
        have : (0 : ℝ) < bn' := lt_of_lt_of_le (by norm_num) hb'
        positivity
    have hta := ta_ge htf hb'
    have hval : ∀ t, q.tch ≤ t → charDepth (some q) t bn = .ok (charAfter q.tch tf (min (2 * tf) (25 / (2 * bn') + tf)) t bn (charK0 (some q) t)) := by
      intro t ht
      unfold charDepth
      simp only [not_lt.2 ht, if_false, e2, e3]
    have hzero : ∀ t, t < q.tch → charDepth (some q) t bn = .ok 0 := by
      intro t ht
      unfold charDepth
      simp only [ht, if_true]
    refine ⟨hzero 0 (by rw [e1]; exact hch), ?_⟩
    intro t t' ht h hne
    by_cases h1 : t < q.tch
    · by_cases h2 : t' < q.tch
      · exact ⟨0, 0, hzero t h1, hzero t' h2, le_rfl⟩
      · exact ⟨0, _, hzero t h1, hval t' (le_of_not_gt h2), after_nonneg hbn (k0_nonneg _ (by linarith)) (le_of_not_gt h2) hta⟩
    · have h1' := le_of_not_gt h1
      refine ⟨_, _, hval t h1', hval t' (by linarith), after_mono hbn (k0_mono _ h ?_) h hta ?_⟩
      · intro p' hp'
        obtain rfl := Option.some.inj hp'
        exact h1'
      · intro hc
        rw [e1] at hc
        exact hne tf e2 hc

/-- **C136** (negation).  At the very moment of failure the depth of a protection that chars before it fails is the depth of a later time: it is greater than at every time between the failure and the middle of
the quick charring. -/
theorem C136_violation (q : Protection) (tf ta bn : ℝ) (hbn : 0 < bn) (e2 : q.tf = some tf) (e3 : q.ta = some ta) (hch : q.tch < tf) (h20 : 20 ≤ tf) (t' : ℝ) (h1 : tf < t') (h2 : t' < (tf + ta) / 2) :
    ∃ d d', charDepth (some q) tf bn = .ok d ∧ charDepth (some q) t' bn = .ok d' ∧ d' < d := by
  have hk : ∀ t, tf ≤ t → charK0 (some q) t = 1 := by
    intro t ht
    simp only [charK0]
    split_ifs
    · linarith
    · rfl
    · exfalso; linarith
    · rfl
  have hval : ∀ t, tf ≤ t → charDepth (some q) t bn = .ok (charAfter q.tch tf ta t bn 1) := by
    intro t ht
    unfold charDepth
    have : ¬ t < q.tch := by intro hh; linarith
    simp only [this, if_false, e2, e3, hk t ht]
  refine ⟨_, _, hval tf le_rfl, hval t' h1.le, ?_⟩
  have hlt : t' < ta := by linarith
  have ea : charAfter q.tch tf ta tf bn 1 = (tf - q.tch) * 0.73 * bn + (ta - tf) * 2 * bn + (tf - ta) * bn + 1 * 7 := by
    unfold charAfter
    rw [if_pos hch, if_neg (lt_irrefl tf), if_neg (fun hh => lt_irrefl tf hh.1)]
  have eb : charAfter q.tch tf ta t' bn 1 = (tf - q.tch) * 0.73 * bn + (t' - tf) * 2 * bn + 1 * 7 := by
    unfold charAfter
    rw [if_pos hch, if_neg (not_lt.2 h1.le), if_pos ⟨h1, hlt⟩]
  rw [ea, eb]
  have : 0 < ((tf + ta) / 2 - t') * bn := mul_pos (by linarith) hbn
  nlinarith

/-- A section accepts a protection that chars from 20 minutes and fails at 30; after 30 minutes of fire 12.5 mm more are lost than directly afterwards. -/
example : ∃ q, (⟨20, some 30, none, 15, false⟩ : Protection).prepare 350 .glt .softwood = .ok q ∧ ∃ d d', charDepth (some q) 30 0.7 = .ok d ∧ charDepth (some q) 31 0.7 = .ok d' ∧ d' < d := by
  have hr : charringRates 350 .glt .softwood 15 = .ok (√(450 / 350) * √(20 / 15) * 0.65, 0.7) := by
    unfold charringRates baseRates
    norm_num
  refine ⟨⟨20, some 30, some (min (2 * 30) (25 / (2 * 0.7) + 30)), 15, false⟩, ?_, ?_⟩
  · unfold Protection.prepare
    rw [hr]
    rfl
  · refine C136_violation _ 30 _ 0.7 (by norm_num) rfl rfl (by norm_num) (by norm_num) 31 (by norm_num) ?_
    rw [lt_div_iff₀ (by norm_num)]
    have : (32.1 : ℝ) ≤ min (2 * 30) (25 / (2 * 0.7) + 30) := by
      refine le_min (by norm_num) (by norm_num)
    linarith

/-! ### C137: protection never makes charring worse -/

theorem after_le_bare {tch tf ta t bn : ℝ} {k0 : ℝ} (hbn : 0 ≤ bn) (ht : tch ≤ t) (hk : k0 ≤ min (t / 20) 1) (hta : ta ≤ 2 * tf) (hch : 0 ≤ tch)
    (h2 : tch < tf → 0.73 * (tf - tch) + ta ≤ 2 * tf) : charAfter tch tf ta t bn k0 ≤ bare bn t := by
  unfold charAfter bare
  split_ifs with h1 h3 h4 h5
  · have := mul_nonneg (sub_nonneg.2 ht) hbn
    have := mul_nonneg hch hbn
    nlinarith
  · have e := h2 h1
    have : 0 ≤ (2 * tf - ta - 0.73 * (tf - tch)) * bn := mul_nonneg (by linarith) hbn
    have : 0 ≤ (ta - t) * bn := mul_nonneg (by linarith) hbn
    nlinarith
  · have e := h2 h1
    have : 0 ≤ (2 * tf - ta - 0.73 * (tf - tch)) * bn := mul_nonneg (by linarith) hbn
    nlinarith
  · have : 0 ≤ (2 * tf - ta) * bn := mul_nonneg (by linarith) hbn
    have : 0 ≤ (ta - t) * bn := mul_nonneg (by linarith) hbn
    nlinarith
  · have : 0 ≤ (2 * tf - ta) * bn := mul_nonneg (by linarith) hbn
    nlinarith

theorem k0_le (p : Protection) {t : ℝ} (ht : p.tch ≤ t) : charK0 (some p) t ≤ min (t / 20) 1 := by
  simp only [charK0]
  split_ifs with h1 h2 h3
  · exact le_min le_rfl (by linarith)
  · exact le_min (by linarith) le_rfl
  · have e : t = p.tch := le_antisymm h3 ht
    have : (0 : ℝ) < p.tch := by linarith
    rw [← e, div_self (by linarith)]
    exact le_min (by linarith) le_rfl
  · exact le_min (by linarith) le_rfl

/-- **C137** (partial).  Before a protection lets charring start nothing is lost, and at no time does a protected side char deeper than a bare one: for every protection that fails when charring starts (boards A, H,
AA and HH, boards of wood) and for the boards F, FF and AF, whatever the grade of the section. -/
theorem C137_partial (p q : Protection) (rhok b0 bn h : ℝ) (k : Kind) (hq : p.prepare rhok k .softwood = .ok q) (hs : charringRates rhok k .softwood h = .ok (b0, bn))
    (hp : (∃ tf, p.isF = false ∧ p.tf = some tf ∧ 0 ≤ tf ∧ tf ≤ p.tch) ∨ (p.isF = true ∧ 12 ≤ p.tch)) (t : ℝ) (ht : 0 ≤ t) :
    (t < p.tch → charDepth (some q) t bn = .ok 0) ∧ Below (charDepth (some q) t bn) (.ok (bare bn t)) := by
  obtain ⟨c, bn', tf, hb, hb', e1, e2, e3, e4, e5⟩ := prepare_cases hq
  obtain ⟨c', hb2⟩ := rates_cases hs
  rw [hb] at hb2
  obtain ⟨-, rfl⟩ := Prod.mk.inj (Option.some.inj hb2)
  have hb7 := base_soft hb
  have hpos : (0 : ℝ) < bn' := by linarith
  have hzero : ∀ t, t < q.tch → charDepth (some q) t bn' = .ok 0 := by
    intro t ht
    unfold charDepth
    simp only [ht, if_true]
  refine ⟨fun h1 => hzero t (by rw [e1]; exact h1), ?_⟩
  by_cases h1 : t < q.tch
  · refine ⟨0, _, hzero t h1, rfl, ?_⟩
    unfold bare
    have : 0 ≤ min (t / 20) 1 := le_min (by linarith) (by norm_num)
    have := mul_nonneg hpos.le ht
    linarith
  · have h1' := le_of_not_gt h1
    have hval : charDepth (some q) t bn' = .ok (charAfter q.tch tf (min (2 * tf) (25 / (2 * bn') + tf)) t bn' (charK0 (some q) t)) := by
      unfold charDepth
      simp only [h1, if_false, e2, e3]
    refine ⟨_, _, hval, rfl, ?_⟩
    rcases hp with ⟨tf', hF, h2, h3, h4⟩ | ⟨hF, h12⟩
    · rw [e5 hF] at h2
      obtain rfl := Option.some.inj h2
      exact after_le_bare hpos.le h1' (k0_le q h1') (min_le_left _ _) (by rw [e1]; linarith) (fun hc => by rw [e1] at hc; linarith)
    · have htf : tf = 12.5 / (0.73 * bn') + p.tch := e4 hF
      have hx : 12.5 / (0.73 * bn') * bn' = 12.5 / 0.73 := by field_simp
      have hy : 25 / (2 * bn') * bn' = 12.5 := by field_simp; norm_num
      have hz : 0 < 12.5 / (0.73 * bn') := by positivity
      have hf0 : 0 ≤ tf := by rw [htf]; linarith
      refine after_le_bare hpos.le h1' (k0_le q h1') (min_le_left _ _) (by rw [e1]; linarith) ?_
      intro _
      have hm : min (2 * tf) (25 / (2 * bn') + tf) ≤ 25 / (2 * bn') + tf := min_le_right _ _
      rw [e1]
      have key : 0.73 * (tf - p.tch) + 25 / (2 * bn') ≤ tf := by
        rw [htf]
        refine le_of_mul_le_mul_right ?_ hpos
        have : bn' * p.tch ≥ 0.7 * 12 := mul_le_mul hb7 h12 (by norm_num) hpos.le
        have e : (0.73 * (12.5 / (0.73 * bn') + p.tch - p.tch) + 25 / (2 * bn')) * bn' = 0.73 * (12.5 / (0.73 * bn') * bn') + 25 / (2 * bn') * bn' := by ring
        rw [e, hx, hy, add_mul, hx]
        norm_num at this ⊢
        nlinarith
      linarith

/-- Every board meets the hypotheses of `C137_partial`, whatever its joints; boards without glass fibre fail when charring starts, and wide joints cost nine minutes. -/
theorem C137_boards (b : Board) (narrow : Bool) :
    (((b.make narrow).isF = false ∧ (b.make narrow).tf = some (b.make narrow).tch ∧ 0 ≤ (b.make narrow).tch) ∨ ((b.make narrow).isF = true ∧ 12 ≤ (b.make narrow).tch)) ∧
    (b.make true).tch = (b.make false).tch + 9 := by
  refine ⟨?_, by cases b <;> norm_num [Board.make]⟩
  cases b <;> cases narrow <;> first | exact .inl ⟨rfl, rfl, by norm_num [Board.make]⟩ | exact .inr ⟨rfl, by norm_num [Board.make]⟩

/-- A board of wood meets the hypotheses of `C137_partial`: it fails when charring starts, which is when it has burnt through at the one-dimensional rate of its grade. -/
theorem C137_wood (rhok hp : ℝ) (k : Kind) (hd : Hardness) (hr : 0 < rhok) (h0 : 0 < hp) (p : Protection) (h : wooden rhok k hd hp = .ok p) :
    ∃ b0 bn, charringRates rhok k hd hp = .ok (b0, bn) ∧ b0 * p.tch = hp ∧ p.isF = false ∧ p.tf = some p.tch ∧ 0 < p.tch ∧ p.hp = hp := by
  unfold wooden at h
  simp only [bind, Except.bind] at h
  split at h
  · cases h
  rename_i v hv
  obtain ⟨b0, bn⟩ := v
  obtain rfl := Except.ok.inj h
  have hb : 0 < b0 := by
    unfold charringRates at hv
    split at hv
    · cases hv
    rename_i c d hc
    have hcp : 0 < c := by
      unfold baseRates at hc
      split at hc <;> (try split_ifs at hc) <;> first | (obtain ⟨rfl, rfl⟩ := Prod.mk.inj (Option.some.inj hc); norm_num) | cases hc
    split_ifs at hv
    · obtain ⟨rfl, rfl⟩ := Prod.mk.inj (Except.ok.inj hv)
      have h1 : 0 < √(450 / rhok) := sqrt_pos.2 (by positivity)
      have h2 : 0 < √(20 / hp) := sqrt_pos.2 (by positivity)
      positivity
    · obtain ⟨rfl, rfl⟩ := Prod.mk.inj (Except.ok.inj hv)
      exact hcp
  exact ⟨b0, bn, hv, by field_simp, rfl, rfl, by positivity, rfl⟩

/-- A board of glulam of 26 mm protects for 40 minutes. -/
example : ∃ p, wooden 400 .glt .softwood 26 = .ok p ∧ p.tch = 40 := by
  have hr : charringRates 400 .glt .softwood 26 = .ok (0.65, 0.7) := by
    unfold charringRates baseRates
    norm_num
  refine ⟨⟨26 / 0.65, some (26 / 0.65), none, 26, false⟩, ?_, by norm_num⟩
  unfold wooden
  simp only [bind, Except.bind, hr]

/-- **C137** (negation).  A protection that chars after 5 minutes and fails after 15 makes half an hour of fire worse: a side of sawn timber loses more than a bare one. -/
theorem C137_violation : ∃ p q : Protection, p.prepare 350 .solid .softwood = .ok q ∧ charringRates 350 .solid .softwood 100 = .ok (0.65, 0.8) ∧ 0 < p.tch ∧
    ∃ d, charDepth (some q) 30 0.8 = .ok d ∧ bare 0.8 30 < d := by
  have hr : charringRates 350 .solid .softwood 25 = .ok (0.65, 0.8) := by
    unfold charringRates baseRates
    norm_num
  refine ⟨⟨5, some 15, none, 25, false⟩, ⟨5, some 15, some (min (2 * 15) (25 / (2 * 0.8) + 15)), 25, false⟩, ?_, ?_, by norm_num, ?_⟩
  · unfold Protection.prepare
    rw [hr]
    rfl
  · unfold charringRates baseRates
    norm_num
  · have hm : min (2 * 15) (25 / (2 * 0.8) + 15) = (30 : ℝ) := by
      rw [min_eq_left (by norm_num)]
      norm_num
    refine ⟨36.84, ?_, ?_⟩
    · simp only [charDepth, charAfter, charK0, hm]
      norm_num
    · unfold bare
      norm_num

/-! ### C138: the section that is left -/

/-- A side that a section has accepted: bare, or with a prepared protection that chars after the start of the fire. -/
def GoodSide (fp : Option Protection) : Prop :=
  ∀ q ∈ fp, ∃ (p : Protection) (rhok : ℝ) (k : Kind) (hd : Hardness), p.prepare rhok k hd = .ok q ∧ 0 < p.tch ∧ ∀ tf, p.tf = some tf → 0 ≤ tf

theorem side_depth {fp : Option Protection} (hg : GoodSide fp) {bn : ℝ} (hbn : 0 ≤ bn) :
    charDepth fp 0 bn = .ok 0 ∧ ∀ R, 0 ≤ R → ∃ d, charDepth fp R bn = .ok d ∧ 0 ≤ d ∧
      ∀ R', R ≤ R' → (∀ q ∈ fp, ∀ tf, q.tf = some tf → q.tch < tf → R ≠ tf) → ∃ d', charDepth fp R' bn = .ok d' ∧ d ≤ d' := by
  obtain ⟨⟨hz, hm⟩, hp⟩ := C136_partial bn hbn
  cases fp with
  | none =>
    refine ⟨hz, fun R hR => ?_⟩
    obtain ⟨x, y, e1, e2, h⟩ := hm 0 R le_rfl hR
    rw [hz] at e1
    obtain rfl := Except.ok.inj e1
    refine ⟨y, e2, h, fun R' hR' _ => ?_⟩
    obtain ⟨x', y', e1', e2', h'⟩ := hm R R' hR hR'
    rw [e2] at e1'
    obtain rfl := Except.ok.inj e1'
    exact ⟨y', e2', h'⟩
  | some q =>
    obtain ⟨p, rhok, k, hd, e, h0, hf⟩ := hg q rfl
    obtain ⟨hz', hm'⟩ := hp p q rhok k hd e h0 hf
    obtain ⟨-, -, -, -, -, e1, -⟩ := prepare_cases e
    refine ⟨hz', fun R hR => ?_⟩
    obtain ⟨x, y, e1', e2, h⟩ := hm' 0 R le_rfl hR (fun tf _ hc => by intro hh; linarith)
    rw [hz'] at e1'
    obtain rfl := Except.ok.inj e1'
    refine ⟨y, e2, h, fun R' hR' hne => ?_⟩
    obtain ⟨x', y', e3, e4, h'⟩ := hm' R R' hR hR' (fun tf ht hc => hne q rfl tf ht (by rw [e1]; exact hc))
    rw [e2] at e3
    obtain rfl := Except.ok.inj e3
    exact ⟨y', e4, h'⟩

theorem clamp_pos (x : ℝ) : 0 < clampSize x := by
  unfold clampSize
  split_ifs <;> [norm_num; linarith]

theorem clamp_le {x y : ℝ} (h : x ≤ y) (hy : 0.00001 ≤ y) : clampSize x ≤ y := by
  unfold clampSize
  split_ifs <;> assumption

theorem clamp_anti {x y : ℝ} (h : x ≤ y) : clampSize x ≤ max (clampSize y) 0.00001 := by
  unfold clampSize
  split_ifs
  · exact le_max_right _ _
  · exact le_max_right _ _
  · exfalso; linarith
  · exact le_max_of_le_left h

theorem make_sides {B H rhok : ℝ} {k : Kind} {r l t b g : Option Protection} {three four : Bool} {s : Section} (hs : Section.make B H rhok k r l t b g three four = .ok s)
    (hp : ∀ fp ∈ [r, l, t, b, g], ∀ p ∈ fp, 0 < p.tch ∧ ∀ tf, p.tf = some tf → 0 ≤ tf) :
    s.B0 = B ∧ s.H0 = H ∧ s.R = 0 ∧ s.fourSides = four ∧ (∃ b0, charringRates rhok k .softwood (min B H) = .ok (b0, s.betaN)) ∧
      GoodSide s.right ∧ GoodSide s.left ∧ GoodSide s.bottom ∧ GoodSide s.top := by
  have side : ∀ {fp q : Option Protection}, prepareSide fp rhok k .softwood = .ok q → (∀ p ∈ fp, 0 < p.tch ∧ ∀ tf, p.tf = some tf → 0 ≤ tf) → GoodSide q := by
    intro fp q h1 h2 q' hq'
    cases fp with
    | none =>
      obtain rfl := Except.ok.inj h1
      cases hq'
    | some p =>
      simp only [prepareSide] at h1
      cases e : p.prepare rhok k .softwood with
      | error _ => rw [e] at h1; cases h1
      | ok v =>
        rw [e] at h1
        obtain rfl := Except.ok.inj h1
        obtain rfl := Option.some.inj hq'
        exact ⟨p, rhok, k, _, e, h2 p rfl⟩
  have orelse : ∀ {a : Option Protection}, a ∈ [r, l, t, b, g] → ∀ p ∈ (a.orElse fun _ => g), 0 < p.tch ∧ ∀ tf, p.tf = some tf → 0 ≤ tf := by
    intro a ha p hpp
    cases a with
    | none => exact hp g (by simp) p hpp
    | some v => exact hp (some v) ha p hpp
  unfold Section.make at hs
  simp only [bind, Except.bind] at hs
  split at hs
  · cases hs
  rename_i v hv
  obtain ⟨b0, bn⟩ := v
  split at hs
  · cases hs
  rename_i r' hr
  split at hs
  · cases hs
  rename_i l' hl
  split at hs
  · cases hs
  rename_i b' hb
  split at hs
  · cases hs
  rename_i t' ht
  obtain rfl := Except.ok.inj hs
  refine ⟨rfl, rfl, rfl, rfl, ⟨b0, hv⟩, side hr (orelse (by simp)), side hl (orelse (by simp)), side hb (orelse (by simp)), side ht ?_⟩
  cases three
  · exact orelse (by simp)
  · exact hp t (by simp)

/-- The sizes of a section after the fire duration `R`. -/
theorem sizes {s : Section} (hbn : 0 ≤ s.betaN) (hr : GoodSide s.right) (hl : GoodSide s.left) (hb : GoodSide s.bottom) (ht : GoodSide s.top) (R : ℝ) (hR : 0 ≤ R) :
    ∃ dB dH, { s with R := R }.B = .ok (clampSize (s.B0 - dB)) ∧ { s with R := R }.H = .ok (clampSize (s.H0 - dH)) ∧ 0 ≤ dB ∧ 0 ≤ dH ∧ (R = 0 → dB = 0 ∧ dH = 0) ∧
      ∀ R', R ≤ R' → (∀ fp ∈ [s.right, s.left, s.bottom, s.top], ∀ q ∈ fp, ∀ tf, q.tf = some tf → q.tch < tf → R ≠ tf) →
        ∃ dB' dH', { s with R := R' }.B = .ok (clampSize (s.B0 - dB')) ∧ { s with R := R' }.H = .ok (clampSize (s.H0 - dH')) ∧ dB ≤ dB' ∧ dH ≤ dH' := by
  obtain ⟨zr, mr⟩ := side_depth hr hbn
  obtain ⟨zl, ml⟩ := side_depth hl hbn
  obtain ⟨zb, mb⟩ := side_depth hb hbn
  obtain ⟨zt, mt⟩ := side_depth ht hbn
  obtain ⟨r1, er, pr, nr⟩ := mr R hR
  obtain ⟨l1, el, pl, nl⟩ := ml R hR
  obtain ⟨b1, eb, pb, nb⟩ := mb R hR
  obtain ⟨t1, et, pt, nt⟩ := mt R hR
  have hB : ∀ (R x y : ℝ), charDepth s.right R s.betaN = .ok x → charDepth s.left R s.betaN = .ok y → { s with R := R }.B = .ok (clampSize (s.B0 - (x + y))) := by
    intro R x y e1 e2
    unfold Section.B
    simp only [bind, Except.bind, e1, e2, sub_sub]
  have hH : ∀ (R x y : ℝ), charDepth s.bottom R s.betaN = .ok x → charDepth s.top R s.betaN = .ok y →
      { s with R := R }.H = .ok (clampSize (s.H0 - if s.fourSides then x + y else x)) := by
    intro R x y e1 e2
    unfold Section.H Section.lossH
    cases hfs : s.fourSides <;> simp [bind, Except.bind, e1, e2]
  refine ⟨_, _, hB R r1 l1 er el, hH R b1 t1 eb et, by linarith, by split_ifs <;> linarith, ?_, ?_⟩
  · intro h
    subst h
    rw [zr] at er
    rw [zl] at el
    rw [zb] at eb
    rw [zt] at et
    obtain rfl := Except.ok.inj er
    obtain rfl := Except.ok.inj el
    obtain rfl := Except.ok.inj eb
    obtain rfl := Except.ok.inj et
    simp
  · intro R' hRR hne
    obtain ⟨r2, er2, pr2⟩ := nr R' hRR (hne _ (by simp))
    obtain ⟨l2, el2, pl2⟩ := nl R' hRR (hne _ (by simp))
    obtain ⟨b2, eb2, pb2⟩ := nb R' hRR (hne _ (by simp))
    obtain ⟨t2, et2, pt2⟩ := nt R' hRR (hne _ (by simp))
    refine ⟨_, _, hB R' r2 l2 er2 el2, hH R' b2 t2 eb2 et2, by linarith, by split_ifs <;> linarith⟩

/-- **C138** (partial).  A section made with its protections has its full size without fire; under fire of any duration it has positive sizes not above the full ones, its area, second moments and section moduli are
those of the rectangle left, and a longer fire never leaves more (beyond the least size of a hundredth of a micrometre), except against the very moment when a protection that chars early fails. -/
theorem C138_partial (B H rhok : ℝ) (k : Kind) (r l t b g : Option Protection) (three four : Bool) (s : Section) (hs : Section.make B H rhok k r l t b g three four = .ok s)
    (hp : ∀ fp ∈ [r, l, t, b, g], ∀ p ∈ fp, 0 < p.tch ∧ ∀ tf, p.tf = some tf → 0 ≤ tf) (hB : 0.00001 ≤ B) (hH : 0.00001 ≤ H) :
    s.B = .ok B ∧ s.H = .ok H ∧
    ∀ R, 0 ≤ R → ∃ b' h' A Iy Iz Wy Wz, { s with R := R }.B = .ok b' ∧ { s with R := R }.H = .ok h' ∧ { s with R := R }.A = .ok A ∧ { s with R := R }.I = .ok (Iy, Iz) ∧ { s with R := R }.Wel = .ok (Wy, Wz) ∧
      0 < b' ∧ b' ≤ B ∧ 0 < h' ∧ h' ≤ H ∧ Rectangle b' h' A Iy Iz Wy Wz ∧
      ∀ R', R ≤ R' → (∀ fp ∈ [s.right, s.left, s.bottom, s.top], ∀ q ∈ fp, ∀ tf, q.tf = some tf → q.tch < tf → R ≠ tf) →
        Below { s with R := R' }.B (.ok (max b' 0.00001)) ∧ Below { s with R := R' }.H (.ok (max h' 0.00001)) := by
  obtain ⟨e1, e2, e3, e4, ⟨b0, e5⟩, gr, gl, gb, gt⟩ := make_sides hs hp
  obtain ⟨c, hc⟩ := rates_cases e5
  have hbn : 0 ≤ s.betaN := by have := base_pos hc; linarith
  have main : ∀ x : ℝ, 0.00001 ≤ x → clampSize (x - 0) = x := by
    intro x hx
    unfold clampSize
    rw [sub_zero, if_neg (by linarith)]
  have hpos : (0 : ℝ) < 0.00001 := by norm_num
  have zero : s.B = .ok B ∧ s.H = .ok H := by
    obtain ⟨dB, dH, h1, h2, -, -, h5, -⟩ := sizes hbn gr gl gb gt 0 le_rfl
    obtain ⟨rfl, rfl⟩ := h5 rfl
    have : { s with R := 0 } = s := by rw [← e3]
    rw [this, e1, main B hB] at h1
    rw [this, e2, main H hH] at h2
    exact ⟨h1, h2⟩
  refine ⟨zero.1, zero.2, ?_⟩
  intro R hR
  obtain ⟨dB, dH, h1, h2, h3, h4, -, h6⟩ := sizes hbn gr gl gb gt R hR
  set b' := clampSize (s.B0 - dB) with hb'
  set h' := clampSize (s.H0 - dH) with hh'
  have pb : 0 < b' := clamp_pos _
  have ph : 0 < h' := clamp_pos _
  refine ⟨b', h', b' * h', b' * h' ^ 3 / 12, h' * b' ^ 3 / 12, b' * h' ^ 2 / 6, h' * b' ^ 2 / 6, h1, h2, ?_, ?_, ?_, pb, ?_, ph, ?_, ?_, ?_⟩
  · unfold Section.A
    simp only [bind, Except.bind, h1, h2]
    rw [if_neg]
    rintro (h | h) <;> linarith
  · unfold Section.I
    simp only [bind, Except.bind, h1, h2]
  · unfold Section.Wel
    simp only [bind, Except.bind, h1, h2]
  · rw [hb']; exact clamp_le (by rw [e1]; linarith) hB
  · rw [hh']; exact clamp_le (by rw [e2]; linarith) hH
  · exact ⟨rfl, rfl, rfl, by ring, by ring⟩
  · intro R' hRR hne
    obtain ⟨dB', dH', h7, h8, h9, h10⟩ := h6 R' hRR hne
    exact ⟨⟨_, _, h7, rfl, clamp_anti (by linarith)⟩, ⟨_, _, h8, rfl, clamp_anti (by linarith)⟩⟩

/-- A glulam section of 140 by 300 with a board F on three sides, 30 minutes of fire: nothing is lost before the board lets charring start. -/
example : ∃ s, Section.make 140 300 350 .glt none none none none (some (Board.F.make true)) true false = .ok s ∧ s.B = .ok 140 ∧ s.H = .ok 300 ∧ { s with R := 20 }.B = .ok 140 := by
  have hr : ∀ hp : ℝ, ∃ b0, charringRates 350 .glt .softwood hp = .ok (b0, 0.7) := by
    intro hp
    unfold charringRates baseRates
    by_cases h : hp < 20
    · exact ⟨√(450 / 350) * √(20 / hp) * 0.65, by simp [h]; norm_num⟩
    · exact ⟨0.65, by simp [h]; norm_num⟩
  obtain ⟨c1, h1⟩ := hr (min 140 300)
  obtain ⟨c2, h2⟩ := hr 15
  let q : Option Protection := some ⟨28, some (12.5 / (0.73 * 0.7) + 28), some (min (2 * (12.5 / (0.73 * 0.7) + 28)) (25 / (2 * 0.7) + (12.5 / (0.73 * 0.7) + 28))), 15, true⟩
  refine ⟨⟨140, 300, q, q, q, none, false, true, 0, 0.7⟩, ?_, ?_, ?_, ?_⟩
  · simp only [Section.make, bind, Except.bind, h1, prepareSide, Option.orElse, Board.make, Protection.prepare, h2, if_true, Protection.setTf, Protection.setTa, Except.map]
    rfl
  all_goals norm_num [q, Section.B, Section.H, Section.lossH, charDepth, charK0, bind, Except.bind, clampSize]

/-- **C138** (negation).  A protection given to a section after it was made is not prepared: from the time charring starts on, width and depth raise, for every board. -/
theorem C138_violation (s : Section) (b : Board) (narrow : Bool) (R : ℝ) (hR : (b.make narrow).tch ≤ R) :
    { s.setGeneric (b.make narrow) with R := R }.B = .error .typeError ∧ { s.setGeneric (b.make narrow) with R := R }.H = .error .typeError ∧
      { s.setGeneric (b.make narrow) with R := R }.A = .error .typeError := by
  have key : charDepth (some (b.make narrow)) R s.betaN = .error .typeError := by
    unfold charDepth
    simp only [not_lt.2 hR, if_false]
    cases b <;> cases narrow <;> simp [Board.make]
  have hB : { s.setGeneric (b.make narrow) with R := R }.B = .error .typeError := by
    unfold Section.B Section.setGeneric
    cases s.protectThree <;> simp [bind, Except.bind, key]
  refine ⟨hB, ?_, ?_⟩
  · unfold Section.H Section.lossH Section.setGeneric
    cases s.protectThree <;> simp [bind, Except.bind, key]
  · unfold Section.A
    rw [hB]
    rfl

/-! ### C139: charring rates -/

/-- **C139** (partial).  The notional rate does not depend on the thickness.  Every grade of the catalogue as softwood has rates: for sizes from 20 mm those of the table (0.8 for sawn timber, 0.7 for glulam and dense LVL,
0.75 for light LVL), and a section takes them over. -/
theorem C139_partial (rhok : ℝ) (k : Kind) :
    (∀ hd hp hp' b0 bn, charringRates rhok k hd hp = .ok (b0, bn) → ∃ b0', charringRates rhok k hd hp' = .ok (b0', bn)) ∧
    (∀ hp, 20 ≤ hp → (290 ≤ rhok → charringRates rhok .solid .softwood hp = .ok (0.65, 0.8) ∧ charringRates rhok .glt .softwood hp = .ok (0.65, 0.7)) ∧
      (480 ≤ rhok → charringRates rhok .lvl .softwood hp = .ok (0.65, 0.7)) ∧ (410 ≤ rhok → rhok < 480 → charringRates rhok .lvl .softwood hp = .ok (0.7, 0.75)) ∧
      (450 ≤ rhok → charringRates rhok .solid .hardwood hp = .ok (0.5, 0.55) ∧ charringRates rhok .glt .hardwood hp = .ok (0.5, 0.55))) ∧
    ∀ B H r l t b g three four s, Section.make B H rhok k r l t b g three four = .ok s → ∃ b0, charringRates rhok k .softwood (min B H) = .ok (b0, s.betaN) := by
  refine ⟨?_, ?_, ?_⟩
  · intro hd hp hp' b0 bn h
    obtain ⟨c, hc⟩ := rates_cases h
    unfold charringRates
    rw [hc]
    by_cases h' : hp' < 20
    · exact ⟨√(450 / rhok) * √(20 / hp') * c, by simp only [h', if_true]⟩
    · exact ⟨c, by simp only [h', if_false]⟩
  · intro hp h20
    have h20' : ¬ hp < 20 := not_lt.2 h20
    refine ⟨fun h => ⟨?_, ?_⟩, fun h => ?_, fun h h' => ?_, fun h => ⟨?_, ?_⟩⟩
    · simp [charringRates, baseRates, h, h20']
    · simp [charringRates, baseRates, h, h20']
    · simp [charringRates, baseRates, h, h20']
    · simp [charringRates, baseRates, h, not_le.2 h', h20']
    · simp [charringRates, baseRates, h, h20']
    · simp [charringRates, baseRates, h, h20']
  · intro B H r l t b g three four s hs
    unfold Section.make at hs
    simp only [bind, Except.bind] at hs
    split at hs
    · cases hs
    rename_i v hv
    obtain ⟨b0, bn⟩ := v
    split at hs
    · cases hs
    split at hs
    · cases hs
    split at hs
    · cases hs
    split at hs
    · cases hs
    obtain rfl := Except.ok.inj hs
    exact ⟨b0, hv⟩

/-- **C139** (negation).  A section of a hardwood grade chars at the rate of softwood, 0.8 instead of 0.55. -/
theorem C139_violation (B H rhok : ℝ) (hr : 450 ≤ rhok) (hB : 20 ≤ B) (hH : 20 ≤ H) :
    (∃ s, Section.make B H rhok .solid none none none none none true false = .ok s ∧ s.betaN = 0.8) ∧ charringRates rhok .solid .hardwood (min B H) = .ok (0.5, 0.55) := by
  have h1 : ¬ min B H < 20 := by
    rw [not_lt]
    exact le_min hB hH
  have h2 : (290 : ℝ) ≤ rhok := by linarith
  refine ⟨⟨⟨B, H, none, none, none, none, false, true, 0, 0.8⟩, ?_, rfl⟩, ?_⟩
  · simp [Section.make, bind, Except.bind, charringRates, baseRates, h1, h2, prepareSide]
  · simp [charringRates, baseRates, hr, h1]

/-- **C139** (negation).  Hardwood of a density between 290 and 450 has no rates: a board made of it raises. -/
theorem C139_violation_gap (rhok hp : ℝ) (h1 : 290 < rhok) (h2 : rhok < 450) : charringRates rhok .solid .hardwood hp = .error .typeError ∧ wooden rhok .solid .hardwood hp = .error .typeError := by
  have h : charringRates rhok .solid .hardwood hp = .error .typeError := by
    simp [charringRates, baseRates, not_le.2 h2, h1.ne']
  refine ⟨h, ?_⟩
  unfold wooden
  rw [h]
  rfl

end Metku.Timber
