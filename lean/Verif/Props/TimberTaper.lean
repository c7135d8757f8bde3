import Verif.Model.TimberTaper
import Verif.Spec.TimberTaper
import Verif.Props.TimberFire
import Mathlib.Algebra.BigOperators.Intervals
import Mathlib.Algebra.BigOperators.Field
import Mathlib.Tactic.LinearCombination
import Mathlib.Tactic.IntervalCases

/-!
Heights of tapered and curved timber beams, their small elements and volumes.
-/
namespace Metku.Timber

open Real TimberSpec

/-! ### C140: heights of tapered beams -/

theorem double_tent {h0 hap xap : ℝ} (h : h0 ≤ hap) (hx : 0 < xap) (hx1 : xap < 1) (x : ℝ) : doubleHeight h0 hap xap x = tent h0 hap xap x := by
  have h1 : 0 < 1 - xap := by linarith
  have key : (hap - h0) / xap * x + h0 - ((h0 - hap) / (1 - xap) * x + hap + (hap - h0) / (1 - xap) * xap) = (hap - h0) * (x - xap) / (xap * (1 - xap)) := by
    field_simp
    ring
  have hp : 0 < xap * (1 - xap) := mul_pos hx h1
  unfold doubleHeight tent
  rw [key]
  split_ifs with hc
  · rw [max_eq_right]
    · ring
    · exact div_nonpos_of_nonpos_of_nonneg (mul_nonpos_of_nonneg_of_nonpos (by linarith) (by linarith)) hp.le
  · have hc' := lt_of_not_ge hc
    rw [max_eq_left (div_nonneg (mul_nonneg (by linarith) (by linarith)) hp.le)]
    field_simp
    ring

theorem belly_tent {h0 alpha xap L : ℝ} (ha : 0 ≤ tan alpha) (hx : 0 < xap) (hx1 : xap < 1) (hL : 0 < L) (x : ℝ) :
    bellyHeight h0 alpha xap L x = tent (h0 / cos alpha) ((h0 + xap * L * tan alpha) / cos alpha) xap x := by
  have h1 : 0 < 1 - xap := by linarith
  have h2 : L - xap * L ≠ 0 := by
    have : 0 < L * (1 - xap) := mul_pos hL h1
    intro h
    nlinarith
  have hb : tan (bellyBeta alpha xap L) = tan alpha / (1 - xap) := by
    unfold bellyBeta
    rw [tan_arctan]
    field_simp
  have key : x * L * tan (bellyBeta alpha xap L) - xap * L * tan (bellyBeta alpha xap L) = (x - xap) * (L * tan alpha) / (1 - xap) := by
    rw [hb]
    field_simp
  have ht : 0 ≤ L * tan alpha := mul_nonneg hL.le ha
  unfold bellyHeight tent
  rw [key]
  split_ifs with hc
  · rw [max_eq_left]
    · field_simp
      ring
    · exact div_nonpos_of_nonpos_of_nonneg (mul_nonpos_of_nonpos_of_nonneg (by linarith) ht) h1.le
  · have hc' := lt_of_not_ge hc
    rw [max_eq_right (div_nonneg (mul_nonneg (by linarith) ht) h1.le)]
    field_simp
    ring

/-- **C140** (partial).  The depth of a single taper is the straight line from the depth at its start to the depth at its end.  A double taper whose apex is not below its ends has two straight lines from the depths at its ends
to the apex; a pitched cambered beam too, with the depths measured across the slope. -/
theorem C140_partial (h0 x : ℝ) :
    (∀ hap, (Shape.single h0 hap).height x = .ok ((1 - x) * h0 + x * hap)) ∧
    (∀ hap xap, h0 ≤ hap → 0 < xap → xap < 1 → (Shape.double h0 hap xap).height x = .ok (tent h0 hap xap x)) ∧
    ∀ alpha xap L, 0 ≤ tan alpha → 0 < xap → xap < 1 → 0 < L →
      (Shape.belly h0 alpha xap L).height x = .ok (tent (h0 / cos alpha) ((h0 + xap * L * tan alpha) / cos alpha) xap x) := by
  refine ⟨fun hap => ?_, fun hap xap h hx hx1 => ?_, fun alpha xap L ha hx hx1 hL => ?_⟩
  · refine congrArg Except.ok ?_
    unfold singleHeight
    ring
  · have h1 : ¬ (xap = 0 ∨ 1 - xap = 0) := by
      rintro (h1 | h1)
      · exact hx.ne' h1
      · linarith
    simp only [Shape.height, h1, if_false]
    rw [double_tent h hx hx1]
  · have h2 : ¬ (L - xap * L = 0) := by
      have : 0 < L * (1 - xap) := mul_pos hL (by linarith)
      intro h
      nlinarith
    simp only [Shape.height, h2, if_false]
    rw [belly_tent ha hx hx1 hL]

/-- A double taper from 300 to 600 mm: 450 mm a quarter of the way, 300 mm at the far end. -/
example : (Shape.double 300 600 0.5).height 0.25 = .ok 450 ∧ (Shape.double 300 600 0.5).height 1 = .ok 300 := by
  refine ⟨?_, ?_⟩
  · rw [(C140_partial 300 0.25).2.1 600 0.5 (by norm_num) (by norm_num) (by norm_num)]
    refine congrArg Except.ok ?_
    norm_num [tent]
  · rw [(C140_partial 300 1).2.1 600 0.5 (by norm_num) (by norm_num) (by norm_num)]
    refine congrArg Except.ok ?_
    norm_num [tent]

/-- **C140** (negation).  A double taper with its apex below its ends: at the start the depth is even less than at the apex, and so it is at the end. -/
theorem C140_violation (h0 hap xap : ℝ) (h : hap < h0) (hx : 0 < xap) (hx1 : xap < 1) :
    ∃ a b, (Shape.double h0 hap xap).height 0 = .ok a ∧ a < hap ∧ (Shape.double h0 hap xap).height 1 = .ok b ∧ b < hap := by
  have h1 : 0 < 1 - xap := by linarith
  have hne : ¬ (xap = 0 ∨ 1 - xap = 0) := by
    rintro (h1 | h1)
    · exact hx.ne' h1
    · linarith
  refine ⟨doubleHeight h0 hap xap 0, doubleHeight h0 hap xap 1, by simp only [Shape.height, hne, if_false], ?_, by simp only [Shape.height, hne, if_false], ?_⟩
  · unfold doubleHeight
    have e : (hap - h0) / xap * 0 + h0 - ((h0 - hap) / (1 - xap) * 0 + hap + (hap - h0) / (1 - xap) * xap) = (h0 - hap) + (h0 - hap) * xap / (1 - xap) := by
      field_simp
      ring
    have hpos : 0 < (h0 - hap) * xap / (1 - xap) := div_pos (mul_pos (by linarith) hx) h1
    have := le_max_left ((hap - h0) / xap * 0 + h0 - ((h0 - hap) / (1 - xap) * 0 + hap + (hap - h0) / (1 - xap) * xap)) 0
    rw [e] at this ⊢
    linarith
  · unfold doubleHeight
    have := le_max_right ((hap - h0) / xap * 1 + h0 - ((h0 - hap) / (1 - xap) * 1 + hap + (hap - h0) / (1 - xap) * xap)) 0
    have e : (hap - h0) / xap * 1 + h0 = hap - (h0 - hap) * (1 - xap) / xap := by
      field_simp
      ring
    have hpos : 0 < (h0 - hap) * (1 - xap) / xap := div_pos (mul_pos (by linarith) h1) hx
    rw [e] at this ⊢
    linarith

/-- A beam meant to be 600 mm deep at its ends and 300 mm in the middle. -/
example : ∃ a b, (Shape.double 600 300 0.5).height 0 = .ok a ∧ a < 300 ∧ (Shape.double 600 300 0.5).height 1 = .ok b ∧ b < 300 :=
  C140_violation 600 300 0.5 (by norm_num) (by norm_num) (by norm_num)

/-- **C140** (negation).  A sloping pitched cambered beam is deeper at its start than the depth given for it. -/
theorem C140_violation_belly (h0 alpha xap L : ℝ) (hh : 0 < h0) (ha : 0 < alpha) (ha' : alpha < π / 2) (hx : 0 < xap) (hx1 : xap < 1) (hL : 0 < L) :
    ∃ a, (Shape.belly h0 alpha xap L).height 0 = .ok a ∧ h0 < a := by
  refine ⟨_, (C140_partial h0 0).2.2 alpha xap L (tan_nonneg_of_nonneg_of_le_pi_div_two ha.le ha'.le) hx hx1 hL, ?_⟩
  have hc : 0 < cos alpha := cos_pos_of_mem_Ioo ⟨by linarith [pi_pos], ha'⟩
  have hc1 : cos alpha < 1 := by
    have := cos_lt_cos_of_nonneg_of_le_pi_div_two le_rfl ha'.le ha
    rwa [cos_zero] at this
  unfold tent
  rw [if_pos hx.le]
  rw [zero_div, mul_zero, add_zero, lt_div_iff₀ hc]
  nlinarith

/-- A beam that rises by 30 degrees. -/
example : ∃ a, (Shape.belly 300 (π / 6) 0.5 8000).height 0 = .ok a ∧ 300 < a :=
  C140_violation_belly 300 (π / 6) 0.5 8000 (by norm_num) (by linarith [pi_pos]) (by linarith [pi_pos]) (by norm_num) (by norm_num) (by norm_num)

/-! ### C141: small elements follow the shape -/

theorem mapM_ok {α β : Type} {f : α → Except PyErr β} {g : α → β} : ∀ {l : List α}, (∀ a ∈ l, f a = .ok (g a)) → l.mapM f = .ok (l.map g)
  | [], _ => rfl
  | a :: l, h => by
    rw [List.mapM_cons, h a List.mem_cons_self, mapM_ok fun b hb => h b (List.mem_cons_of_mem a hb)]
    rfl

theorem mapM_get {α β : Type} {f : α → Except PyErr β} : ∀ {l : List α} {r : List β}, l.mapM f = .ok r → ∀ (i : ℕ) (hi : i < l.length), ∃ y, r[i]? = some y ∧ f (l[i]'hi) = .ok y
  | [], r, h, i, hi => absurd hi (Nat.not_lt_zero i)
  | a :: l, r, h, i, hi => by
    rw [List.mapM_cons] at h
    simp only [bind, Except.bind, pure, Except.pure] at h
    split at h
    · cases h
    rename_i b hb
    split at h
    · cases h
    rename_i bs hbs
    obtain rfl := Except.ok.inj h
    cases i with
    | zero => exact ⟨b, rfl, hb⟩
    | succ i => exact mapM_get hbs i (Nat.lt_of_succ_lt_succ hi)

theorem mapM_length {α β : Type} {f : α → Except PyErr β} : ∀ {l : List α} {r : List β}, l.mapM f = .ok r → r.length = l.length
  | [], r, h => by
    obtain rfl := Except.ok.inj h
    rfl
  | a :: l, r, h => by
    rw [List.mapM_cons] at h
    simp only [bind, Except.bind, pure, Except.pure] at h
    split at h
    · cases h
    split at h
    · cases h
    rename_i r' hr'
    obtain rfl := Except.ok.inj h
    simp [mapM_length hr']

theorem create_inv {t t' : Taper} (h : t.create = .ok t') : 0 < t.num ∧ t.elems = [] ∧ (List.range t.num.toNat).mapM t.piece = .ok t'.elems ∧ t' = { t with elems := t'.elems } := by
  unfold Taper.create at h
  split_ifs at h with h1 h2 h3
  simp only [bind, Except.bind] at h
  split at h
  · cases h
  rename_i es hes
  obtain rfl := Except.ok.inj h
  exact ⟨by omega, List.length_eq_zero_iff.1 (by omega), hes, rfl⟩

theorem update_inv {t t' : Taper} (h : t.update = .ok t') : t.num ≠ 0 ∧ (List.range t.elems.length).mapM t.piece = .ok t'.elems ∧ t' = { t with elems := t'.elems } := by
  unfold Taper.update at h
  split_ifs at h with h1
  simp only [bind, Except.bind] at h
  split at h
  · cases h
  rename_i es hes
  obtain rfl := Except.ok.inj h
  exact ⟨h1, hes, rfl⟩

/-- **C141** (partial).  After the depth at the start of a tapered beam was set, any number of times, its small elements are those of a beam made with that depth: creating them anew gives the same beam. -/
theorem C141_partial (t t1 : Taper) (ht : t.create = .ok t1) (vs : List ℝ) (v : ℝ) (t2 : Taper) (hv : (vs ++ [v]).foldlM Taper.setH0 t1 = .ok t2) :
    ({ t with shape := t.shape.withH0 v } : Taper).create = .ok t2 ∧ t2.shape.h0 = v := by
  obtain ⟨hn, he, hm, e1⟩ := create_inv ht
  have hlen : t1.elems.length = t.num.toNat := by rw [mapM_length hm, List.length_range]
  have hw : ∀ (sh : Shape) (a b : ℝ), (sh.withH0 a).withH0 b = sh.withH0 b := by
    intro sh a b
    cases sh <;> rfl
  have inv : ∀ (us : List ℝ) (s : Taper), s.elems.length = t.num.toNat → s.num = t.num → s.sec = t.sec → (∀ u, s.shape.withH0 u = t.shape.withH0 u) →
      ∀ s', (us ++ [v]).foldlM Taper.setH0 s = .ok s' → ({ t with shape := t.shape.withH0 v } : Taper).create = .ok s' := by
    intro us
    induction us with
    | nil =>
      intro s h1 h2 h3 h4 s' hs
      simp only [List.nil_append, List.foldlM_cons, List.foldlM_nil, bind, Except.bind, pure, Except.pure] at hs
      split at hs
      · cases hs
      rename_i w hu
      obtain rfl := Except.ok.inj hs
      obtain ⟨-, hu2, hu3⟩ := update_inv (t := { s with shape := s.shape.withH0 v }) hu
      have e : ({ s with shape := s.shape.withH0 v } : Taper).piece = ({ t with shape := t.shape.withH0 v } : Taper).piece := by
        funext i
        simp only [Taper.piece, Taper.getA, Taper.getI, Taper.getH, h2, h3, h4]
      simp only [h1, e] at hu2
      unfold Taper.create
      rw [if_neg (by simp only [he]; exact lt_irrefl 0), if_neg (by simp only; omega), if_neg (by simp only; omega)]
      simp only [hu2, bind, Except.bind]
      rw [hu3]
      simp only [h2, h3, h4]
    | cons u us ih =>
      intro s h1 h2 h3 h4 s' hs
      simp only [List.cons_append, List.foldlM_cons, bind, Except.bind] at hs
      split at hs
      · cases hs
      rename_i w hu
      obtain ⟨-, hu2, hu3⟩ := update_inv (t := { s with shape := s.shape.withH0 u }) hu
      refine ih w ?_ ?_ ?_ ?_ s' hs
      · rw [mapM_length hu2, List.length_range]
        exact h1
      · rw [hu3]
        exact h2
      · rw [hu3]
        exact h3
      · intro u'
        rw [hu3]
        simp only
        rw [hw, h4]
  have hc := inv vs t1 hlen (by rw [e1]) (by rw [e1]) (by intro u; rw [e1]) t2 hv
  refine ⟨hc, ?_⟩
  obtain ⟨-, -, -, e2⟩ := create_inv hc
  rw [e2]
  simp only
  cases t.shape <;> rfl

/-- **C141** (negation).  The depth, area, second moments and section moduli that a tapered beam has as a section keep those of the depth it was made with. -/
theorem C141_violation (t t' : Taper) (v : ℝ) (h : t.setH0 v = .ok t') : t'.sec.H = t.sec.H ∧ t'.sec.A = t.sec.A ∧ t'.sec.I = t.sec.I ∧ t'.sec.Wel = t.sec.Wel := by
  obtain ⟨-, -, e⟩ := update_inv (t := { t with shape := t.shape.withH0 v }) h
  have e' : t'.sec = t.sec := by rw [e]
  rw [e']
  exact ⟨rfl, rfl, rfl, rfl⟩

theorem getA_ok {t : Taper} {b h x : ℝ} (hb : t.sec.B = .ok b) (hh : t.getH x = .ok h) : t.getA x = .ok (b * h) ∧ 0 < b ∧ 0 < h := by
  have hb0 : 0 < b := by
    unfold Section.B at hb
    simp only [bind, Except.bind] at hb
    split at hb
    · cases hb
    split at hb
    · cases hb
    obtain rfl := Except.ok.inj hb
    exact clamp_pos _
  have hh0 : 0 < h := by
    unfold Taper.getH at hh
    simp only [bind, Except.bind] at hh
    split at hh
    · cases hh
    split at hh
    · cases hh
    obtain rfl := Except.ok.inj hh
    exact clamp_pos _
  refine ⟨?_, hb0, hh0⟩
  unfold Taper.getA
  simp only [bind, Except.bind, hb, hh]
  rw [if_neg]
  push Not
  exact ⟨hb0, hh0⟩

theorem piece_inv {t : Taper} {i : ℕ} {r : ℝ × ℝ × ℝ} (h : t.piece i = .ok r) :
    ∃ b d, t.sec.B = .ok b ∧ t.getH ((i : ℝ) * (1 / (t.num : ℝ)) + 0.5 * (1 / (t.num : ℝ))) = .ok d ∧ 0 < b ∧ 0 < d ∧ r.1 = b * d := by
  unfold Taper.piece at h
  simp only [bind, Except.bind] at h
  split at h
  · cases h
  rename_i a ha
  split at h
  · cases h
  obtain rfl := Except.ok.inj h
  have ha' := ha
  unfold Taper.getA at ha
  simp only [bind, Except.bind] at ha
  split at ha
  · cases ha
  rename_i b hb
  split at ha
  · cases ha
  rename_i d hd
  obtain ⟨h1, h2, h3⟩ := getA_ok hb hd
  rw [h1] at ha'
  exact ⟨b, d, hb, hd, h2, h3, (Except.ok.inj ha').symm⟩

/-- **C141** (negation).  A new width does not reach the small elements: whenever it changes the residual width, they differ from those of a beam made with the new width. -/
theorem C141_violation_width (t t1 t2 : Taper) (w b b' : ℝ) (h1 : t.create = .ok t1) (h2 : (t.setB w).create = .ok t2) (hb : t.sec.B = .ok b) (hb' : (t.setB w).sec.B = .ok b') (hne : b ≠ b') :
    (t1.setB w).elems ≠ t2.elems := by
  obtain ⟨hn, -, m1, -⟩ := create_inv h1
  obtain ⟨-, -, m2, -⟩ := create_inv h2
  have hnum : (t.setB w).num = t.num := rfl
  rw [hnum] at m2
  obtain ⟨k, hk⟩ : ∃ k, t.num.toNat = k + 1 := ⟨t.num.toNat - 1, by omega⟩
  rw [hk, List.range_succ_eq_map, List.mapM_cons] at m1 m2
  simp only [bind, Except.bind, pure, Except.pure] at m1 m2
  split at m1
  · cases m1
  rename_i p hp
  split at m1
  · cases m1
  split at m2
  · cases m2
  rename_i q hq
  split at m2
  · cases m2
  have e1 := (Except.ok.inj m1).symm
  have e2 := (Except.ok.inj m2).symm
  obtain ⟨c, d, hc, hd, -, hd0, ep⟩ := piece_inv hp
  obtain ⟨c', d', hc', hd', -, -, eq⟩ := piece_inv hq
  rw [hb] at hc
  rw [hb'] at hc'
  obtain rfl := Except.ok.inj hc
  obtain rfl := Except.ok.inj hc'
  have hdd : t.getH (((0 : ℕ) : ℝ) * (1 / (t.num : ℝ)) + 0.5 * (1 / (t.num : ℝ))) = .ok d' := hd'
  rw [hd] at hdd
  obtain rfl := Except.ok.inj hdd
  intro he
  have he' : t1.elems = t2.elems := he
  rw [e1, e2] at he'
  have := (List.cons.inj he').1
  rw [this, eq] at ep
  exact hne (mul_right_cancel₀ hd0.ne' ep).symm

theorem piece_ok {t : Taper} {b h : ℝ} {i : ℕ} (hb : t.sec.B = .ok b) (hh : t.getH ((i : ℝ) * (1 / (t.num : ℝ)) + 0.5 * (1 / (t.num : ℝ))) = .ok h) :
    t.piece i = .ok (b * h, b * h ^ 3 / 12, h * b ^ 3 / 12) := by
  unfold Taper.piece
  obtain ⟨ha, -, -⟩ := getA_ok hb hh
  simp only [bind, Except.bind, ha, Taper.getI, hb, hh]

/-- **C141** (elements).  A tapered beam has as many small elements as asked for, and each has the area and the second moments of the rectangle left by the fire in its middle. -/
theorem C141_elements (t t1 : Taper) (n : ℕ) (hnum : t.num = n) (ht : t.create = .ok t1) :
    t1.elems.length = n ∧ ∀ i : ℕ, i < n → ∃ b h A Iy Iz, t1.sec.B = .ok b ∧ t1.getH (((i : ℝ) + 1 / 2) / n) = .ok h ∧ t1.elems[i]? = some (A, Iy, Iz) ∧
      TimberSpec.Rectangle b h A Iy Iz (2 * Iy / h) (2 * Iz / b) := by
  obtain ⟨hn, he, hm, e1⟩ := create_inv ht
  have hlen : t1.elems.length = n := by rw [mapM_length hm, List.length_range, hnum, Int.toNat_natCast]
  have hsec : t1.sec = t.sec := by rw [e1]
  have hgh : ∀ x, t1.getH x = t.getH x := by
    intro x
    unfold Taper.getH
    rw [e1]
  refine ⟨hlen, fun i hi => ?_⟩
  have hcast : (t.num : ℝ) = (n : ℝ) := by rw [hnum]; norm_cast
  have hx : (i : ℝ) * (1 / (t.num : ℝ)) + 0.5 * (1 / (t.num : ℝ)) = ((i : ℝ) + 1 / 2) / (n : ℝ) := by
    rw [hcast]
    ring
  obtain ⟨y, hy, hp⟩ := mapM_get hm i (by rw [List.length_range, hnum, Int.toNat_natCast]; exact hi)
  rw [List.getElem_range] at hp
  obtain ⟨b, h, hb, hh, hb0, hh0, -⟩ := piece_inv hp
  rw [piece_ok hb hh] at hp
  rw [hx] at hh
  refine ⟨b, h, b * h, b * h ^ 3 / 12, h * b ^ 3 / 12, by rw [hsec]; exact hb, by rw [hgh]; exact hh, by rw [hy, Except.ok.inj hp], rfl, rfl, rfl, ?_, ?_⟩
  · field_simp
  · field_simp

/-- The depths in the middles of the elements, as long as these are above the loss. -/
theorem pieces {t : Taper} {b d : ℝ} {f : ℝ → ℝ} {n : ℕ} (hn : 0 < n) (hnum : t.num = n) (hb : t.sec.B = .ok b) (hd : t.sec.lossH = .ok d) (hf : ∀ x, t.shape.height x = .ok (f x))
    (hpos : ∀ x, 0 ≤ x → x ≤ 1 → d < f x) :
    (List.range n).mapM t.piece = .ok ((List.range n).map fun i : ℕ => (b * (f (((i : ℝ) + 0.5) / (n : ℝ)) - d),
      b * (f (((i : ℝ) + 0.5) / (n : ℝ)) - d) ^ 3 / 12, (f (((i : ℝ) + 0.5) / (n : ℝ)) - d) * b ^ 3 / 12)) := by
  have hnR : (0 : ℝ) < n := by exact_mod_cast hn
  have hcast : (t.num : ℝ) = (n : ℝ) := by rw [hnum]; norm_cast
  refine mapM_ok fun i hi => piece_ok hb ?_
  have hx : (i : ℝ) * (1 / (t.num : ℝ)) + 0.5 * (1 / (t.num : ℝ)) = ((i : ℝ) + 0.5) / (n : ℝ) := by
    rw [hcast]
    ring
  have hi' : (i : ℝ) + 1 ≤ n := by exact_mod_cast List.mem_range.1 hi
  have h0 : 0 ≤ ((i : ℝ) + 0.5) / (n : ℝ) := by positivity
  have h1 : ((i : ℝ) + 0.5) / (n : ℝ) ≤ 1 := by
    rw [div_le_one hnR]
    linarith
  rw [hx]
  unfold Taper.getH
  simp only [bind, Except.bind, hf, hd]
  refine congrArg Except.ok ?_
  unfold clampSize
  have := hpos _ h0 h1
  rw [if_neg (by linarith)]

theorem bare_zero (bn : ℝ) : charDepth none 0 bn = .ok 0 := by
  unfold charDepth charK0
  refine congrArg Except.ok ?_
  norm_num

/-- A bare single taper of sawn timber with two small elements. -/
noncomputable def demoTaper (B v w : ℝ) : Taper := ⟨⟨B, 300, none, none, none, none, false, true, 0, 0.8⟩, .single v w, [], 2⟩

/-- Its small elements. -/
noncomputable def demoElems (B v w : ℝ) : List (ℝ × ℝ × ℝ) :=
  [(B * (0.75 * v + 0.25 * w), B * (0.75 * v + 0.25 * w) ^ 3 / 12, (0.75 * v + 0.25 * w) * B ^ 3 / 12),
    (B * (0.25 * v + 0.75 * w), B * (0.25 * v + 0.75 * w) ^ 3 / 12, (0.25 * v + 0.75 * w) * B ^ 3 / 12)]

theorem demo_B (B v w : ℝ) (hB : 0 < B) : (demoTaper B v w).sec.B = .ok B := by
  unfold Section.B
  simp only [demoTaper, bind, Except.bind, bare_zero]
  refine congrArg Except.ok ?_
  unfold clampSize
  rw [if_neg (by linarith)]
  ring

theorem demo_pieces (B v w : ℝ) (es : List (ℝ × ℝ × ℝ)) (hB : 0 < B) (hv : 0 < v) (hw : 0 < w) :
    (List.range 2).mapM ({ demoTaper B v w with elems := es } : Taper).piece = .ok (demoElems B v w) := by
  rw [pieces (t := ({ demoTaper B v w with elems := es } : Taper)) (b := B) (d := 0) (f := fun x => (1 - x) * v + x * w) (by norm_num) rfl (demo_B B v w hB)]
  · refine congrArg Except.ok ?_
    norm_num [List.range_succ, demoElems]
  · unfold Section.lossH
    simp only [demoTaper, bind, Except.bind, bare_zero, Bool.false_eq_true, if_false]
  · intro x
    exact (C140_partial v x).1 w
  · intro x h0 h1
    rcases eq_or_lt_of_le h0 with rfl | hx
    · linarith
    · have h2 := mul_pos hx hw
      have h3 := mul_nonneg (sub_nonneg.2 h1) hv.le
      linarith

theorem demo_create (B v w : ℝ) (hB : 0 < B) (hv : 0 < v) (hw : 0 < w) : (demoTaper B v w).create = .ok { demoTaper B v w with elems := demoElems B v w } := by
  unfold Taper.create
  rw [if_neg (by simp [demoTaper]), if_neg (by simp [demoTaper]), if_neg (by simp [demoTaper])]
  have e : (List.range (demoTaper B v w).num.toNat).mapM (demoTaper B v w).piece = _ := demo_pieces B v w [] hB hv hw
  rw [e]
  rfl

/-- The small elements of a beam made from 300 to 600 mm and then set to 400 mm have the areas of 450 and 550 mm, while the beam as a section still has 300 mm. -/
example : ∃ t1 t2, (demoTaper 140 300 600).create = .ok t1 ∧ t1.setH0 400 = .ok t2 ∧ t2.elems.map Prod.fst = [140 * 450, 140 * 550] ∧ t2.sec.H = .ok 300 := by
  refine ⟨_, { demoTaper 140 400 600 with elems := demoElems 140 400 600 }, demo_create 140 300 600 (by norm_num) (by norm_num) (by norm_num), ?_, ?_, ?_⟩
  · unfold Taper.setH0 Taper.update
    rw [if_neg (by simp [demoTaper])]
    have e := demo_pieces 140 400 600 (demoElems 140 300 600) (by norm_num) (by norm_num) (by norm_num)
    have e' : (List.range (demoElems 140 300 600).length).mapM
      ({ demoTaper 140 300 600 with shape := (demoTaper 140 300 600).shape.withH0 400, elems := demoElems 140 300 600 } : Taper).piece = _ := e
    simp only [bind, Except.bind]
    rw [e']
    rfl
  · norm_num [demoElems]
  · unfold Section.H Section.lossH
    simp only [demoTaper, bind, Except.bind, bare_zero, Bool.false_eq_true, if_false]
    refine congrArg Except.ok ?_
    norm_num [clampSize]

/-- The beam of 140 mm set to 90 mm keeps the small elements of 140 mm. -/
example : ∃ t1 t2, (demoTaper 140 300 600).create = .ok t1 ∧ ((demoTaper 140 300 600).setB 90).create = .ok t2 ∧ (t1.setB 90).elems ≠ t2.elems :=
  ⟨_, _, demo_create 140 300 600 (by norm_num) (by norm_num) (by norm_num), demo_create 90 300 600 (by norm_num) (by norm_num) (by norm_num),
    C141_violation_width _ _ _ 90 140 90 (demo_create 140 300 600 (by norm_num) (by norm_num) (by norm_num)) (demo_create 90 300 600 (by norm_num) (by norm_num) (by norm_num))
      (demo_B 140 300 600 (by norm_num)) (demo_B 90 300 600 (by norm_num)) (by norm_num)⟩

/-! ### C142: volumes -/

theorem sum_mid (m : ℕ) : ∑ i ∈ Finset.range m, ((i : ℝ) + 0.5) = (m : ℝ) ^ 2 / 2 := by
  induction m with
  | zero => norm_num
  | succ m ih =>
    rw [Finset.sum_range_succ, ih]
    push_cast
    ring

theorem list_sum (g : ℕ → ℝ) (n : ℕ) : ((List.range n).map g).sum = ∑ i ∈ Finset.range n, g i := by
  induction n with
  | zero => rfl
  | succ n ih => rw [List.range_succ, List.map_append, List.sum_append, ih, Finset.sum_range_succ, List.map_singleton, List.sum_singleton]

/-- The area of the elements is the width times the depths in the middles of the elements, as long as these are above the loss. -/
theorem areas {t t1 : Taper} {b d : ℝ} {f : ℝ → ℝ} {n : ℕ} (hnum : t.num = n) (ht : t.create = .ok t1) (hb : t.sec.B = .ok b) (hd : t.sec.lossH = .ok d) (hf : ∀ x, t.shape.height x = .ok (f x))
    (hpos : ∀ x, 0 ≤ x → x ≤ 1 → d < f x) :
    0 < n ∧ (t1.elems.map Prod.fst).sum = b * (∑ i ∈ Finset.range n, f (((i : ℝ) + 0.5) / (n : ℝ)) - n * d) := by
  obtain ⟨hn, -, m1, -⟩ := create_inv ht
  have hn0 : 0 < n := by omega
  have hN : t.num.toNat = n := by omega
  rw [hN, pieces hn0 hnum hb hd hf hpos] at m1
  refine ⟨hn0, ?_⟩
  rw [← Except.ok.inj m1, List.map_map]
  have : (Prod.fst ∘ fun i : ℕ => (b * (f (((i : ℝ) + 0.5) / (n : ℝ)) - d), b * (f (((i : ℝ) + 0.5) / (n : ℝ)) - d) ^ 3 / 12, (f (((i : ℝ) + 0.5) / (n : ℝ)) - d) * b ^ 3 / 12)) =
      fun i : ℕ => b * (f (((i : ℝ) + 0.5) / (n : ℝ)) - d) := rfl
  rw [this, list_sum, ← Finset.mul_sum, Finset.sum_sub_distrib, Finset.sum_const, Finset.card_range, nsmul_eq_mul]

theorem double_volume (h0 hap xap B L : ℝ) (hL : L ≠ 0) : totalVolume (.double h0 hap xap) B L = some ((h0 + hap) / 2 * L * B) := by
  simp only [totalVolume, doubleSlope]
  rw [tan_arctan]
  refine congrArg some ?_
  field_simp
  ring

theorem tent_ge {h0 hap xap x : ℝ} (h : h0 ≤ hap) (hx : 0 < xap) (hx1 : xap < 1) (h0x : 0 ≤ x) (hx1' : x ≤ 1) : h0 ≤ tent h0 hap xap x := by
  unfold tent
  split_ifs
  · have : 0 ≤ (hap - h0) * (x / xap) := mul_nonneg (by linarith) (div_nonneg h0x hx.le)
    linarith
  · have : 0 ≤ (hap - h0) * ((1 - x) / (1 - xap)) := mul_nonneg (by linarith) (div_nonneg (by linarith) (by linarith))
    linarith

/-- The two elements of a taper from 300 to 600 mm: the first has the depth 375 mm. -/
example : ∃ b h A Iy Iz, (demoTaper 140 300 600).sec.B = .ok b ∧ (demoTaper 140 300 600).getH ((((0 : ℕ) : ℝ) + 1 / 2) / ((2 : ℕ) : ℝ)) = .ok h ∧ (demoElems 140 300 600)[0]? = some (A, Iy, Iz) ∧
    TimberSpec.Rectangle b h A Iy Iz (2 * Iy / h) (2 * Iz / b) :=
  (C141_elements (demoTaper 140 300 600) _ 2 rfl (demo_create 140 300 600 (by norm_num) (by norm_num) (by norm_num))).2 0 (by norm_num)

/-- **C142** (partial).  The small elements of a beam have exactly its volume, whatever their number: of a single taper, and of a double taper when its apex lies between two elements.  Without fire this is the volume of
the member; under fire it is less by the layer lost. -/
theorem C142_partial (t t1 : Taper) (n : ℕ) (b d L : ℝ) (hL : 0 < L) (hnum : t.num = n) (ht : t.create = .ok t1) (hb : t.sec.B = .ok b) (hd : t.sec.lossH = .ok d) (h0 hap : ℝ) (hd0 : d < h0) :
    (t.shape = .single h0 hap → d < hap → ∃ V, totalVolume t.shape b L = some V ∧ (t1.elems.map fun e => e.1 * (L / n)).sum = V - b * L * d) ∧
    ∀ (xap : ℝ) (k : ℕ), t.shape = .double h0 hap xap → h0 ≤ hap → 0 < k → k < n → xap = k / n →
      ∃ V, totalVolume t.shape b L = some V ∧ (t1.elems.map fun e => e.1 * (L / n)).sum = V - b * L * d := by
  have hs : ∀ l : List (ℝ × ℝ × ℝ), (l.map fun e => e.1 * (L / n)).sum = (l.map Prod.fst).sum * (L / n) := by
    intro l
    induction l with
    | nil => simp
    | cons a l ih => simp only [List.map_cons, List.sum_cons, ih]; ring
  refine ⟨fun hsh hdap => ?_, fun xap k hsh hle hk hkn hx => ?_⟩
  · obtain ⟨hn, ha⟩ := areas (f := fun x => (1 - x) * h0 + x * hap) hnum ht hb hd (by intro x; rw [hsh]; exact (C140_partial h0 x).1 hap) (by
      intro x h1 h2
      have e : (1 - x) * h0 + x * hap - d = (1 - x) * (h0 - d) + x * (hap - d) := by ring
      have p1 : 0 ≤ (1 - x) * (h0 - d) := mul_nonneg (by linarith) (by linarith)
      have p2 : 0 ≤ x * (hap - d) := mul_nonneg h1 (by linarith)
      rcases eq_or_lt_of_le h1 with rfl | hxp
      · linarith
      · have p3 : 0 < x * (hap - d) := mul_pos hxp (by linarith)
        linarith)
    have hnR : (n : ℝ) ≠ 0 := by exact_mod_cast hn.ne'
    refine ⟨(h0 + hap) / 2 * L * b, by rw [hsh]; rfl, ?_⟩
    rw [hs, ha]
    have e : ∀ i : ℕ, (1 - ((i : ℝ) + 0.5) / n) * h0 + ((i : ℝ) + 0.5) / n * hap = h0 + ((i : ℝ) + 0.5) * ((hap - h0) / n) := by
      intro i
      ring
    simp only [e]
    rw [Finset.sum_add_distrib, ← Finset.sum_mul, sum_mid, Finset.sum_const, Finset.card_range, nsmul_eq_mul]
    field_simp
    ring
  · have hn : 0 < n := by omega
    have hnR : (0 : ℝ) < n := by exact_mod_cast hn
    have hkR : (0 : ℝ) < k := by exact_mod_cast hk
    have hknR : (k : ℝ) < n := by exact_mod_cast hkn
    have hx0 : 0 < xap := by rw [hx]; positivity
    have hx1 : xap < 1 := by rw [hx, div_lt_one hnR]; exact hknR
    obtain ⟨-, ha⟩ := areas (f := tent h0 hap xap) hnum ht hb hd (by intro x; rw [hsh]; exact (C140_partial h0 x).2.1 hap xap hle hx0 hx1) (by
      intro x h1 h2
      exact lt_of_lt_of_le hd0 (tent_ge hle hx0 hx1 h1 h2))
    refine ⟨(h0 + hap) / 2 * L * b, by rw [hsh]; exact double_volume h0 hap xap b L hL.ne', ?_⟩
    rw [hs, ha]
    obtain ⟨m, rfl⟩ : ∃ m, n = k + m := ⟨n - k, by omega⟩
    have hm : 0 < m := by omega
    have hmR : (0 : ℝ) < m := by exact_mod_cast hm
    push_cast at hnR hx ⊢
    have e1 : ∀ i ∈ Finset.range k, tent h0 hap xap (((i : ℝ) + 0.5) / ((k : ℝ) + m)) = h0 + ((i : ℝ) + 0.5) * ((hap - h0) / k) := by
      intro i hi
      have hi' : (i : ℝ) + 1 ≤ k := by exact_mod_cast Finset.mem_range.1 hi
      unfold tent
      rw [if_pos (by rw [hx]; exact div_le_div_of_nonneg_right (by linarith) hnR.le), hx]
      field_simp
    have e2 : ∀ i ∈ Finset.range m, tent h0 hap xap ((((k + i : ℕ) : ℝ) + 0.5) / ((k : ℝ) + m)) = hap - ((i : ℝ) + 0.5) * ((hap - h0) / m) := by
      intro i _
      unfold tent
      have hi0 : (0 : ℝ) ≤ i := Nat.cast_nonneg i
      push_cast
      rw [if_neg (by rw [hx, not_le]; exact div_lt_div_of_pos_right (by linarith) hnR), hx]
      have : (1 : ℝ) - k / (k + m) = m / (k + m) := by
        field_simp
        ring
      rw [this]
      field_simp
      ring
    rw [Finset.sum_range_add, Finset.sum_congr rfl e1, Finset.sum_congr rfl e2, Finset.sum_add_distrib, Finset.sum_sub_distrib, ← Finset.sum_mul, ← Finset.sum_mul, sum_mid, sum_mid]
    simp only [Finset.sum_const, Finset.card_range, nsmul_eq_mul]
    field_simp
    ring

/-- The two small elements of the beam from 300 to 600 mm and 140 mm wide, 8 m long. -/
example : ∃ V, totalVolume (.single 300 600) 140 8000 = some V ∧ ((demoElems 140 300 600).map fun e => e.1 * ((8000 : ℝ) / (2 : ℕ))).sum = V := by
  obtain ⟨V, hV, e⟩ := (C142_partial (demoTaper 140 300 600) _ 2 140 0 8000 (by norm_num) rfl (demo_create 140 300 600 (by norm_num) (by norm_num) (by norm_num)) (demo_B 140 300 600 (by norm_num)) (by
    unfold Section.lossH
    simp only [demoTaper, bind, Except.bind, bare_zero, Bool.false_eq_true, if_false]) 300 600 (by norm_num)).1 rfl (by norm_num)
  exact ⟨V, hV, by rw [mul_zero, sub_zero] at e; exact e⟩

/-- **C142** (negation).  Under fire the volume of the member counts the depth lost: it is above the volume of the small elements. -/
theorem C142_violation (t t1 : Taper) (n : ℕ) (b d L : ℝ) (hL : 0 < L) (hnum : t.num = n) (ht : t.create = .ok t1) (hb : t.sec.B = .ok b) (hd : t.sec.lossH = .ok d) (h0 hap : ℝ) (hd0 : d < h0) (hd1 : d < hap)
    (hpos : 0 < d) (hsh : t.shape = .single h0 hap) : ∃ V, totalVolume t.shape b L = some V ∧ (t1.elems.map fun e => e.1 * (L / n)).sum < V := by
  obtain ⟨V, hV, e⟩ := (C142_partial t t1 n b d L hL hnum ht hb hd h0 hap hd0).1 hsh hd1
  refine ⟨V, hV, ?_⟩
  have hb0 : 0 < b := by
    unfold Section.B at hb
    simp only [bind, Except.bind] at hb
    split at hb
    · cases hb
    split at hb
    · cases hb
    obtain rfl := Except.ok.inj hb
    exact clamp_pos _
  have := mul_pos (mul_pos hb0 hL) hpos
  rw [e]
  linarith

/-- The bare beam from 300 to 600 mm after 30 minutes: 31 mm are lost at each face. -/
example : ∃ t1 V, ({ demoTaper 140 300 600 with sec := { (demoTaper 140 300 600).sec with R := 30 } } : Taper).create = .ok t1 ∧ totalVolume (.single 300 600) 78 8000 = some V ∧
    (t1.elems.map fun e => e.1 * ((8000 : ℝ) / (2 : ℕ))).sum < V := by
  have c : charDepth none 30 0.8 = .ok 31 := by
    unfold charDepth
    refine congrArg Except.ok ?_
    norm_num [charK0]
  have hb : ({ demoTaper 140 300 600 with sec := { (demoTaper 140 300 600).sec with R := 30 } } : Taper).sec.B = .ok 78 := by
    unfold Section.B
    simp only [demoTaper, bind, Except.bind, c]
    refine congrArg Except.ok ?_
    norm_num [clampSize]
  have hd : ({ demoTaper 140 300 600 with sec := { (demoTaper 140 300 600).sec with R := 30 } } : Taper).sec.lossH = .ok 31 := by
    unfold Section.lossH
    simp only [demoTaper, bind, Except.bind, c, Bool.false_eq_true, if_false]
  have hp := pieces (t := ({ demoTaper 140 300 600 with sec := { (demoTaper 140 300 600).sec with R := 30 } } : Taper)) (n := 2) (f := fun x => (1 - x) * 300 + x * 600) (by norm_num) rfl hb hd
    (fun x => (C140_partial 300 x).1 600) (by intro x h0 h1; linarith)
  have hc : ∃ t1, ({ demoTaper 140 300 600 with sec := { (demoTaper 140 300 600).sec with R := 30 } } : Taper).create = .ok t1 := by
    unfold Taper.create
    rw [if_neg (by simp [demoTaper]), if_neg (by simp [demoTaper]), if_neg (by simp [demoTaper])]
    have e : (List.range ({ demoTaper 140 300 600 with sec := { (demoTaper 140 300 600).sec with R := 30 } } : Taper).num.toNat).mapM
      ({ demoTaper 140 300 600 with sec := { (demoTaper 140 300 600).sec with R := 30 } } : Taper).piece = _ := hp
    rw [e]
    exact ⟨_, rfl⟩
  obtain ⟨t1, h1⟩ := hc
  obtain ⟨V, hV, hlt⟩ := C142_violation _ t1 2 78 31 8000 (by norm_num) rfl h1 hb hd 300 600 (by norm_num) (by norm_num) (by norm_num) rfl
  exact ⟨t1, V, h1, hV, hlt⟩

/-- **C142** (negation).  A double taper made of one small element has the volume of its apex all along, more than the member. -/
theorem C142_violation_apex (t t1 : Taper) (b L h0 hap : ℝ) (hL : 0 < L) (hnum : t.num = 1) (ht : t.create = .ok t1) (hb : t.sec.B = .ok b) (hd : t.sec.lossH = .ok 0) (hd0 : 0 < h0) (hlt : h0 < hap)
    (hsh : t.shape = .double h0 hap (1 / 2)) : ∃ V, totalVolume t.shape b L = some V ∧ V < (t1.elems.map fun e => e.1 * L).sum := by
  obtain ⟨-, ha⟩ := areas (n := 1) (f := tent h0 hap (1 / 2)) (by rw [hnum]; rfl) ht hb hd (by intro x; rw [hsh]; exact (C140_partial h0 x).2.1 hap (1 / 2) hlt.le (by norm_num) (by norm_num)) (by
      intro x h1 h2
      exact lt_of_lt_of_le hd0 (tent_ge hlt.le (by norm_num) (by norm_num) h1 h2))
  have hs : ∀ l : List (ℝ × ℝ × ℝ), (l.map fun e => e.1 * L).sum = (l.map Prod.fst).sum * L := by
    intro l
    induction l with
    | nil => simp
    | cons a l ih => simp only [List.map_cons, List.sum_cons, ih]; ring
  refine ⟨_, by rw [hsh]; exact double_volume h0 hap (1 / 2) b L hL.ne', ?_⟩
  rw [hs, ha]
  have hb0 : 0 < b := by
    unfold Section.B at hb
    simp only [bind, Except.bind] at hb
    split at hb
    · cases hb
    split at hb
    · cases hb
    obtain rfl := Except.ok.inj hb
    exact clamp_pos _
  have hp : 0 < b * (hap - h0) * L := mul_pos (mul_pos hb0 (by linarith)) hL
  have e : ∑ i ∈ Finset.range 1, tent h0 hap (1 / 2) (((i : ℝ) + 0.5) / ((1 : ℕ) : ℝ)) = hap := by norm_num [tent]
  rw [e]
  push_cast
  nlinarith

/-- A double taper of 300 and 600 mm in one piece. -/
example : ∃ t1 V, ({ demoTaper 140 300 600 with shape := .double 300 600 (1 / 2), num := 1 } : Taper).create = .ok t1 ∧ totalVolume (.double 300 600 (1 / 2)) 140 8000 = some V ∧
    V < (t1.elems.map fun e => e.1 * 8000).sum := by
  have hb : ({ demoTaper 140 300 600 with shape := .double 300 600 (1 / 2), num := 1 } : Taper).sec.B = .ok 140 := demo_B 140 300 600 (by norm_num)
  have hd : ({ demoTaper 140 300 600 with shape := .double 300 600 (1 / 2), num := 1 } : Taper).sec.lossH = .ok 0 := by
    unfold Section.lossH
    simp only [demoTaper, bind, Except.bind, bare_zero, Bool.false_eq_true, if_false]
  have hp := pieces (t := ({ demoTaper 140 300 600 with shape := .double 300 600 (1 / 2), num := 1 } : Taper)) (n := 1) (f := tent 300 600 (1 / 2)) (by norm_num) rfl hb hd
    (fun x => (C140_partial 300 x).2.1 600 (1 / 2) (by norm_num) (by norm_num) (by norm_num))
    (fun x h0 h1 => lt_of_lt_of_le (by norm_num) (tent_ge (h0 := 300) (hap := 600) (xap := 1 / 2) (by norm_num) (by norm_num) (by norm_num) h0 h1))
  have hc : ∃ t1, ({ demoTaper 140 300 600 with shape := .double 300 600 (1 / 2), num := 1 } : Taper).create = .ok t1 := by
    unfold Taper.create
    rw [if_neg (by simp [demoTaper]), if_neg (by simp), if_neg (by simp)]
    have e : (List.range ({ demoTaper 140 300 600 with shape := .double 300 600 (1 / 2), num := 1 } : Taper).num.toNat).mapM
      ({ demoTaper 140 300 600 with shape := .double 300 600 (1 / 2), num := 1 } : Taper).piece = _ := hp
    rw [e]
    exact ⟨_, rfl⟩
  obtain ⟨t1, h1⟩ := hc
  obtain ⟨V, hV, hlt⟩ := C142_violation_apex _ t1 140 8000 300 600 (by norm_num) rfl h1 hb hd (by norm_num) (by norm_num) rfl
  exact ⟨t1, V, h1, hV, hlt⟩

/-! ### C143: curved beams -/

theorem roof_line {θ r L x : ℝ} (hc : 0 ≤ cos θ) (hr : 0 ≤ r) (h : r * sin θ ≤ |x - L / 2|) : roundedRoof θ r L x = (L / 2 - |x - L / 2|) * tan θ := by
  unfold roundedRoof
  split_ifs with h1
  · have e : |x - L / 2| = r * sin θ := le_antisymm h1 h
    have e2 : r ^ 2 - (x - L / 2) ^ 2 = (r * cos θ) ^ 2 := by
      rw [← sq_abs (x - L / 2), e]
      have := sin_sq_add_cos_sq θ
      nlinarith [this]
    rw [e2, sqrt_sq (mul_nonneg hr hc), e]
    ring
  · rfl

theorem roof_arc {θ r L x : ℝ} (h : |x - L / 2| ≤ r * sin θ) : roundedRoof θ r L x = √(r ^ 2 - (L / 2 - x) ^ 2) - r * cos θ + (L / 2 - r * sin θ) * tan θ := by
  unfold roundedRoof
  rw [if_pos h]
  have : (x - L / 2) ^ 2 = (L / 2 - x) ^ 2 := by ring
  rw [this]

theorem roof_symm (θ r L x : ℝ) : roundedRoof θ r L (L - x) = roundedRoof θ r L x := by
  have e : L - x - L / 2 = -(x - L / 2) := by ring
  unfold roundedRoof
  rw [e, abs_neg, neg_sq]

theorem arc_height {c : Curved} (hb : 0 ≤ c.beta) (hab : c.beta ≤ c.alpha) (ha : c.alpha < π / 2) (hr : 0 ≤ c.r) {x : ℝ} (h0 : 0 ≤ x) :
    c.arcHeight x = c.h0 + roundedRoof c.alpha c.r c.L x - roundedRoof c.beta c.r c.L x := by
  have hcα : 0 ≤ cos c.alpha := cos_nonneg_of_mem_Icc ⟨by linarith [pi_pos], ha.le⟩
  have hcβ : 0 ≤ cos c.beta := cos_nonneg_of_mem_Icc ⟨by linarith [pi_pos], by linarith⟩
  have hsβ : 0 ≤ sin c.beta := sin_nonneg_of_nonneg_of_le_pi hb (by linarith [pi_pos])
  have hs : sin c.beta ≤ sin c.alpha := sin_le_sin_of_le_of_le_pi_div_two (by linarith [pi_pos]) ha.le hab
  have hB : 0 ≤ c.r * sin c.beta := mul_nonneg hr hsβ
  have hA : c.r * sin c.beta ≤ c.r * sin c.alpha := mul_le_mul_of_nonneg_left hs hr
  unfold Curved.arcHeight Curved.upX1 Curved.upX2 Curved.dwX1 Curved.dwX2
  split_ifs with h1 h2 h3 h4
  · have hu : |x - c.L / 2| = c.L / 2 - x := by rw [abs_of_nonpos (by linarith)]; ring
    rw [roof_line hcα hr (by rw [hu]; linarith), roof_line hcβ hr (by rw [hu]; linarith), hu]
    unfold Curved.f1 Curved.f2
    ring
  · have hu : |x - c.L / 2| = c.L / 2 - x := by rw [abs_of_nonpos (by linarith)]; ring
    rw [roof_arc (by rw [hu]; linarith), roof_line hcβ hr (by rw [hu]; linarith), hu]
    unfold Curved.f5 Curved.f2 Curved.yUp
    ring
  · have hu : |x - c.L / 2| ≤ c.r * sin c.beta := by rw [abs_le]; constructor <;> linarith
    rw [roof_arc (hu.trans hA), roof_arc hu]
    unfold Curved.f5 Curved.f6 Curved.yUp Curved.yDw
    ring
  · have hu : |x - c.L / 2| = x - c.L / 2 := abs_of_nonneg (by linarith)
    rw [roof_arc (by rw [hu]; linarith), roof_line hcβ hr (by rw [hu]; linarith), hu]
    unfold Curved.f5 Curved.f4 Curved.yUp Curved.Ly
    ring
  · have hx : c.L / 2 + c.r * sin c.alpha ≤ x := by
      by_contra hc
      have hc' := lt_of_not_ge hc
      by_cases k1 : x < c.L / 2 - c.r * sin c.alpha
      · exact h1 ⟨h0, k1⟩
      by_cases k2 : x < c.L / 2 - c.r * sin c.beta
      · exact h2 ⟨le_of_not_gt k1, k2⟩
      by_cases k3 : x < c.L / 2 - c.r * sin c.beta + 2 * (c.r * sin c.beta)
      · exact h3 ⟨le_of_not_gt k2, k3⟩
      · exact h4 ⟨le_of_not_gt k3, by linarith⟩
    have hu : |x - c.L / 2| = x - c.L / 2 := abs_of_nonneg (by linarith)
    rw [roof_line hcα hr (by rw [hu]; linarith), roof_line hcβ hr (by rw [hu]; linarith), hu]
    unfold Curved.f3 Curved.f4 Curved.Ly
    ring

theorem ridge_height {c : Curved} (hb : 0 ≤ c.beta) (hb' : c.beta < π / 2) (hr : 0 ≤ c.r) {x : ℝ} (h0 : 0 ≤ x) :
    c.ridgeHeight x = c.h0 + ridgeRoof c.alpha c.L x - roundedRoof c.beta c.r c.L x := by
  have hcβ : 0 ≤ cos c.beta := cos_nonneg_of_mem_Icc ⟨by linarith [pi_pos], hb'.le⟩
  have hsβ : 0 ≤ sin c.beta := sin_nonneg_of_nonneg_of_le_pi hb (by linarith [pi_pos])
  have hB : 0 ≤ c.r * sin c.beta := mul_nonneg hr hsβ
  unfold Curved.ridgeHeight Curved.dwX1 Curved.dwX2 ridgeRoof
  split_ifs with h1 h2 h3
  · have hu : |x - c.L / 2| = c.L / 2 - x := by rw [abs_of_nonpos (by linarith)]; ring
    rw [roof_line hcβ hr (by rw [hu]; linarith), hu]
    unfold Curved.f1 Curved.f2
    ring
  · have hu : |x - c.L / 2| = c.L / 2 - x := by rw [abs_of_nonpos (by linarith)]; ring
    rw [roof_arc (by rw [hu]; linarith), hu]
    unfold Curved.f1 Curved.f6 Curved.yDw
    ring
  · have hu : |x - c.L / 2| = x - c.L / 2 := abs_of_nonneg (by linarith)
    rw [roof_arc (by rw [hu]; linarith), hu]
    unfold Curved.f3 Curved.f6 Curved.yDw
    ring
  · have hx : c.L / 2 + c.r * sin c.beta ≤ x := by
      by_contra hc
      have hc' := lt_of_not_ge hc
      by_cases k1 : x < c.L / 2 - c.r * sin c.beta
      · exact h1 ⟨h0, k1⟩
      by_cases k2 : x < c.L / 2
      · exact h2 ⟨le_of_not_gt k1, k2⟩
      · exact h3 ⟨le_of_not_gt k2, by linarith⟩
    have hu : |x - c.L / 2| = x - c.L / 2 := abs_of_nonneg (by linarith)
    rw [roof_line hcβ hr (by rw [hu]; linarith), hu]
    unfold Curved.f3 Curved.f4 Curved.Ly
    ring

/-- **C143** (partial).  The depth of a curved beam whose upper face is at least as steep as its lower face, and of every pitched curved beam, is the distance of its two faces, lines of the given angles that are rounded
in the middle; it is symmetric and has the given depth at both ends. -/
theorem C143_partial (c : Curved) (hb : 0 ≤ c.beta) (hr : 0 ≤ c.r) :
    (c.beta ≤ c.alpha → c.alpha < π / 2 → c.r * sin c.alpha ≤ c.L / 2 →
      (∀ x, 0 ≤ x → c.arcHeight x = c.h0 + roundedRoof c.alpha c.r c.L x - roundedRoof c.beta c.r c.L x) ∧ (∀ x, 0 ≤ x → x ≤ c.L → c.arcHeight (c.L - x) = c.arcHeight x) ∧
        c.arcHeight 0 = c.h0 ∧ c.arcHeight c.L = c.h0) ∧
    (c.beta < π / 2 → c.r * sin c.beta ≤ c.L / 2 →
      (∀ x, 0 ≤ x → c.ridgeHeight x = c.h0 + ridgeRoof c.alpha c.L x - roundedRoof c.beta c.r c.L x) ∧ (∀ x, 0 ≤ x → x ≤ c.L → c.ridgeHeight (c.L - x) = c.ridgeHeight x) ∧
        c.ridgeHeight 0 = c.h0 ∧ c.ridgeHeight c.L = c.h0) := by
  have half : ∀ x : ℝ, |c.L - x - c.L / 2| = |x - c.L / 2| := by
    intro x
    have e : c.L - x - c.L / 2 = -(x - c.L / 2) := by ring
    rw [e, abs_neg]
  constructor
  · intro hab ha hL
    have hcα : 0 ≤ cos c.alpha := cos_nonneg_of_mem_Icc ⟨by linarith [pi_pos], ha.le⟩
    have hcβ : 0 ≤ cos c.beta := cos_nonneg_of_mem_Icc ⟨by linarith [pi_pos], by linarith⟩
    have hs : sin c.beta ≤ sin c.alpha := sin_le_sin_of_le_of_le_pi_div_two (by linarith [pi_pos]) ha.le hab
    have hsα : 0 ≤ sin c.alpha := sin_nonneg_of_nonneg_of_le_pi (by linarith) (by linarith [pi_pos])
    have hA : c.r * sin c.beta ≤ c.r * sin c.alpha := mul_le_mul_of_nonneg_left hs hr
    have hL0 : 0 ≤ c.L / 2 := (mul_nonneg hr hsα).trans hL
    have sym : ∀ x, 0 ≤ x → x ≤ c.L → c.arcHeight (c.L - x) = c.arcHeight x := by
      intro x h0 h1
      rw [arc_height hb hab ha hr (by linarith : 0 ≤ c.L - x), arc_height hb hab ha hr h0, roof_symm, roof_symm]
    have z : c.arcHeight 0 = c.h0 := by
      have hu : |0 - c.L / 2| = c.L / 2 := by rw [zero_sub, abs_neg, abs_of_nonneg hL0]
      rw [arc_height hb hab ha hr le_rfl, roof_line hcα hr (by rw [hu]; exact hL), roof_line hcβ hr (by rw [hu]; linarith), hu]
      ring
    refine ⟨fun x hx => arc_height hb hab ha hr hx, sym, z, ?_⟩
    have := sym 0 le_rfl (by linarith)
    rwa [sub_zero, z] at this
  · intro hb' hL
    have hcβ : 0 ≤ cos c.beta := cos_nonneg_of_mem_Icc ⟨by linarith [pi_pos], hb'.le⟩
    have hsβ : 0 ≤ sin c.beta := sin_nonneg_of_nonneg_of_le_pi hb (by linarith [pi_pos])
    have hL0 : 0 ≤ c.L / 2 := (mul_nonneg hr hsβ).trans hL
    have sym : ∀ x, 0 ≤ x → x ≤ c.L → c.ridgeHeight (c.L - x) = c.ridgeHeight x := by
      intro x h0 h1
      rw [ridge_height hb hb' hr (by linarith : 0 ≤ c.L - x), ridge_height hb hb' hr h0, roof_symm]
      unfold ridgeRoof
      rw [half]
    have z : c.ridgeHeight 0 = c.h0 := by
      have hu : |0 - c.L / 2| = c.L / 2 := by rw [zero_sub, abs_neg, abs_of_nonneg hL0]
      rw [ridge_height hb hb' hr le_rfl, roof_line hcβ hr (by rw [hu]; exact hL)]
      unfold ridgeRoof
      rw [hu]
      ring
    refine ⟨fun x hx => ridge_height hb hb' hr hx, sym, z, ?_⟩
    have := sym 0 le_rfl (by linarith)
    rwa [sub_zero, z] at this

/-- A beam with an upper face of 30 degrees, a level lower face and a radius of 4 m over 10 m: in the middle the arc has its top. -/
example : (⟨1, π / 6, 0, 4, 10⟩ : Curved).arcHeight 10 = 1 ∧ (⟨1, π / 6, 0, 4, 10⟩ : Curved).arcHeight 3 = (⟨1, π / 6, 0, 4, 10⟩ : Curved).arcHeight 7 := by
  obtain ⟨-, h2, -, h4⟩ := (C143_partial (⟨1, π / 6, 0, 4, 10⟩ : Curved) le_rfl (by norm_num)).1 (by positivity) (by
    have := pi_pos
    simp only
    linarith) (by
    simp only [sin_pi_div_six]
    norm_num)
  refine ⟨h4, ?_⟩
  have := h2 7 (by norm_num) (by norm_num)
  norm_num at this
  exact this

/-- **C143** (negation).  A curved beam with a level upper face and a lower face of 30 degrees is not symmetric. -/
theorem C143_violation (h0 : ℝ) : (⟨h0, 0, π / 6, 2, 10⟩ : Curved).arcHeight 4.5 ≠ (⟨h0, 0, π / 6, 2, 10⟩ : Curved).arcHeight 5.5 := by
  have hsq : √3 ^ 2 = (3 : ℝ) := sq_sqrt (by norm_num)
  have e1 : (⟨h0, 0, π / 6, 2, 10⟩ : Curved).arcHeight 4.5 = h0 - 4.5 * (1 / √3) := by
    unfold Curved.arcHeight Curved.upX1 Curved.f1 Curved.f2
    simp only [sin_zero, tan_zero, tan_pi_div_six]
    rw [if_pos (by norm_num)]
    ring
  have e2 : (⟨h0, 0, π / 6, 2, 10⟩ : Curved).arcHeight 5.5 = h0 - 2 - 4 * (1 / √3) + √3 := by
    unfold Curved.arcHeight Curved.upX1 Curved.dwX1 Curved.dwX2 Curved.f5 Curved.f6 Curved.yUp Curved.yDw
    simp only [sin_zero, tan_zero, tan_pi_div_six, cos_zero, sin_pi_div_six, cos_pi_div_six]
    rw [if_neg (by norm_num), if_neg (by norm_num), if_pos (by norm_num)]
    ring
  rw [e1, e2]
  have h3 : (0 : ℝ) < √3 := sqrt_pos.2 (by norm_num)
  have e3 : (1 : ℝ) / √3 = √3 / 3 := by
    rw [div_eq_div_iff h3.ne' (by norm_num)]
    nlinarith
  rw [e3]
  intro h
  have : √3 = 12 / 7 := by linarith
  rw [this] at hsq
  norm_num at hsq

end Metku.Timber
