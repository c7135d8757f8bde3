import Verif.Lemmas.SectionGeom

/-! Integrals of I-sections. -/
namespace Metku.SectionSpec

open MeasureTheory Set Real intervalIntegral

variable {h b tf tw r : ℝ}

/-- Length of the horizontal slice of the I-section at distance `x` from the axis. -/
noncomputable def iChord (h b tf tw r x : ℝ) : ℝ :=
  if h / 2 < x then 0 else if h / 2 - tf ≤ x then b else tw + 2 * r - 2 * √(r ^ 2 - max (x - (h / 2 - tf - r)) 0 ^ 2)

theorem slice_i (hr : 0 ≤ r) (hb : tw / 2 + r ≤ b / 2) (z : ℝ) :
    slice (iSection h b tf tw r) z = if h / 2 < |z| then ∅ else Icc (-(iChord h b tf tw r |z| / 2)) (iChord h b tf tw r |z| / 2) := by
  ext y
  simp only [slice, iSection, mem_ofPred_eq]
  by_cases h1 : h / 2 < |z|
  · rw [if_pos h1]
    simp only [mem_empty_iff_false, iff_false]
    rintro ⟨_, h2, _⟩
    linarith
  rw [if_neg h1, mem_Icc, ← abs_le]
  by_cases h2 : h / 2 - tf ≤ |z|
  · rw [iChord, if_neg h1, if_pos h2]
    exact ⟨fun q => q.1, fun q => ⟨q, not_lt.1 h1, Or.inl h2⟩⟩
  rw [iChord, if_neg h1, if_neg h2]
  have hs0 := Real.sqrt_nonneg (r ^ 2 - max (|z| - (h / 2 - tf - r)) 0 ^ 2)
  have hm0 : 0 ≤ max (|z| - (h / 2 - tf - r)) 0 := le_max_right _ _
  have hm : max (|z| - (h / 2 - tf - r)) 0 ≤ r := max_le (by linarith [not_le.1 h2]) hr
  have hs1 : √(r ^ 2 - max (|z| - (h / 2 - tf - r)) 0 ^ 2) ≤ r := by
    rw [Real.sqrt_le_left hr]
    nlinarith
  constructor
  · rintro ⟨_, _, q | q | ⟨q1, q2, q3⟩⟩
    · exact absurd q h2
    · linarith
    · have e : max (|z| - (h / 2 - tf - r)) 0 = |z| - (h / 2 - tf - r) := max_eq_left (by linarith)
      rw [e]
      have : √(r ^ 2 - (|z| - (h / 2 - tf - r)) ^ 2) ≤ tw / 2 + r - |y| := by
        rw [Real.sqrt_le_left (by linarith)]
        linarith
      linarith
  · intro q
    refine ⟨by linarith, not_lt.1 h1, Or.inr ?_⟩
    by_cases h3 : h / 2 - tf - r ≤ |z|
    · right
      have e : max (|z| - (h / 2 - tf - r)) 0 = |z| - (h / 2 - tf - r) := max_eq_left (by linarith)
      rw [e] at q hs0 hm0 hm
      refine ⟨by linarith, h3, ?_⟩
      have hnn : 0 ≤ r ^ 2 - (|z| - (h / 2 - tf - r)) ^ 2 := by nlinarith
      have h5 : √(r ^ 2 - (|z| - (h / 2 - tf - r)) ^ 2) ≤ tw / 2 + r - |y| := by linarith
      have h6 := pow_le_pow_left₀ hs0 h5 2
      rw [Real.sq_sqrt hnn] at h6
      linarith
    · left
      have e : max (|z| - (h / 2 - tf - r)) 0 = 0 := max_eq_right (by linarith [not_le.1 h3])
      rw [e, zero_pow two_ne_zero, sub_zero, Real.sqrt_sq hr] at q
      linarith

theorem iChord_nonneg (hr : 0 ≤ r) (htw : 0 ≤ tw) (hb : tw / 2 + r ≤ b / 2) (x : ℝ) : 0 ≤ iChord h b tf tw r x := by
  unfold iChord
  split_ifs with h1 h2
  · exact le_rfl
  · linarith
  · have hm0 : 0 ≤ max (x - (h / 2 - tf - r)) 0 := le_max_right _ _
    have hs1 : √(r ^ 2 - max (x - (h / 2 - tf - r)) 0 ^ 2) ≤ r := by
      rw [Real.sqrt_le_left hr]
      nlinarith
    linarith

theorem volume_slice_i (hr : 0 ≤ r) (htw : 0 ≤ tw) (hb : tw / 2 + r ≤ b / 2) (z : ℝ) :
    (volume (slice (iSection h b tf tw r) z)).toReal = iChord h b tf tw r |z| := by
  rw [slice_i hr hb]
  split_ifs with h1
  · rw [iChord, if_pos h1]
    simp
  · rw [Real.volume_Icc, ENNReal.toReal_ofReal]
    · ring
    · have := iChord_nonneg (h := h) (tf := tf) hr htw hb |z|
      linarith

/-- A function on the half line given by continuous pieces on `[0, p]`, `[p, q]`, `[q, m]` and zero beyond `m`. -/
theorem three_pieces {F f1 f2 f3 : ℝ → ℝ} {p q m : ℝ} (hp : 0 ≤ p) (hpq : p ≤ q) (hqm : q ≤ m) (c1 : Continuous f1) (c2 : Continuous f2) (c3 : Continuous f3)
    (e1 : ∀ x, 0 < x → x < p → F x = f1 x) (e2 : ∀ x, p < x → x < q → F x = f2 x) (e3 : ∀ x, q < x → x < m → F x = f3 x) (e4 : ∀ x, m < x → F x = 0) :
    ∫ x in Ioi 0, F x = (∫ x in (0:ℝ)..p, f1 x) + (∫ x in p..q, f2 x) + ∫ x in q..m, f3 x := by
  have piece : ∀ {f : ℝ → ℝ} {s t : ℝ}, s ≤ t → Continuous f → (∀ x, s < x → x < t → F x = f x) → IntervalIntegrable F volume s t ∧ ∫ x in s..t, F x = ∫ x in s..t, f x := by
    intro f s t hst c e
    have ae : ∀ᵐ x ∂volume.restrict (Ioc s t), F x = f x := by
      rw [← Measure.restrict_congr_set (Ioo_ae_eq_Ioc (a := s) (b := t)), ae_restrict_iff' measurableSet_Ioo]
      exact Filter.Eventually.of_forall fun x hx => e x hx.1 hx.2
    constructor
    · rw [intervalIntegrable_iff_integrableOn_Ioc_of_le hst]
      have : IntegrableOn f (Ioc s t) := (c.integrableOn_Icc).mono_set Ioc_subset_Icc_self
      exact this.congr (Filter.EventuallyEq.symm ae)
    · rw [integral_of_le hst, integral_of_le hst]
      exact integral_congr_ae ae
  obtain ⟨i1, v1⟩ := piece hp c1 e1
  obtain ⟨i2, v2⟩ := piece hpq c2 e2
  obtain ⟨i3, v3⟩ := piece hqm c3 e3
  have hi : IntervalIntegrable F volume 0 m := (i1.trans i2).trans i3
  have hm : 0 ≤ m := hp.trans (hpq.trans hqm)
  rw [intervalIntegrable_iff_integrableOn_Ioc_of_le hm] at hi
  rw [(half_line e4 hi).2 hm, ← integral_add_adjacent_intervals (i1.trans i2) i3, ← integral_add_adjacent_intervals i1 i2, v1, v2, v3]

/-- Moments of the I-section about the horizontal axis. -/
theorem i_moment (hr : 0 ≤ r) (htf : 0 ≤ tf) (htw : 0 ≤ tw) (hb : tw / 2 + r ≤ b / 2) (hh : tf + r ≤ h / 2) {g : ℝ → ℝ} (hg : Continuous g) :
    planeMoment (iSection h b tf tw r) (fun z => g |z|) =
      2 * ((∫ x in (0:ℝ)..(h / 2 - tf - r), g x) * tw + (∫ u in (0:ℝ)..r, g ((h / 2 - tf - r) + 1 * u) * ((tw + 2 * r) + -2 * √(r ^ 2 - u ^ 2))) +
        (∫ x in (h / 2 - tf)..(h / 2), g x) * b) := by
  unfold planeMoment
  have e : (fun z => g |z| * (volume (slice (iSection h b tf tw r) z)).toReal) = fun z => (fun x => g x * iChord h b tf tw r x) |z| := by
    funext z
    rw [volume_slice_i hr htw hb]
  rw [e, integral_comp_abs (f := fun x => g x * iChord h b tf tw r x)]
  rw [three_pieces (p := h / 2 - tf - r) (q := h / 2 - tf) (m := h / 2) (f1 := fun x => g x * tw)
    (f2 := fun x => g x * ((tw + 2 * r) + -2 * √(r ^ 2 - (x - (h / 2 - tf - r)) ^ 2))) (f3 := fun x => g x * b)
    (by linarith) (by linarith) (by linarith) (by fun_prop) (by fun_prop) (by fun_prop)]
  · rw [intervalIntegral.integral_mul_const, intervalIntegral.integral_mul_const]
    congr 3
    have := intervalIntegral.integral_comp_add_left (a := 0) (b := r) (fun x => g x * ((tw + 2 * r) + -2 * √(r ^ 2 - (x - (h / 2 - tf - r)) ^ 2))) (h / 2 - tf - r)
    rw [add_zero, show h / 2 - tf - r + r = h / 2 - tf by ring] at this
    rw [← this]
    simp only [add_sub_cancel_left, one_mul]
  · intro x _ hx
    show g x * iChord h b tf tw r x = _
    rw [iChord, if_neg (by linarith), if_neg (by linarith), max_eq_right (by linarith), zero_pow two_ne_zero, sub_zero, Real.sqrt_sq hr]
    ring
  · intro x hx hx'
    show g x * iChord h b tf tw r x = _
    rw [iChord, if_neg (by linarith), if_neg (by linarith), max_eq_left (by linarith)]
    ring
  · intro x hx hx'
    show g x * iChord h b tf tw r x = _
    rw [iChord, if_neg (by linarith), if_pos hx.le]
  · intro x hx
    show g x * iChord h b tf tw r x = _
    rw [iChord, if_pos hx, mul_zero]

/-- Length of the vertical slice of the I-section at distance `x` from the web axis. -/
noncomputable def iChordV (h b tf tw r x : ℝ) : ℝ :=
  if b / 2 < x then 0 else if x ≤ tw / 2 then h else 2 * tf + 2 * r - 2 * √(r ^ 2 - max (tw / 2 + r - x) 0 ^ 2)

theorem slice_iV (hr : 0 ≤ r) (y : ℝ) :
    slice (flipped (iSection h b tf tw r)) y = if b / 2 < |y| then ∅ else if |y| ≤ tw / 2 then Icc (-(h / 2)) (h / 2)
      else Icc (-(h / 2)) (h / 2) \ Ioo (-(h / 2 - iChordV h b tf tw r |y| / 2)) (h / 2 - iChordV h b tf tw r |y| / 2) := by
  ext z
  simp only [slice, flipped, iSection, mem_ofPred_eq]
  by_cases h1 : b / 2 < |y|
  · rw [if_pos h1]
    simp only [mem_empty_iff_false, iff_false]
    rintro ⟨h2, _, _⟩
    linarith
  rw [if_neg h1]
  by_cases h2 : |y| ≤ tw / 2
  · rw [if_pos h2, mem_Icc, ← abs_le]
    exact ⟨fun q => q.2.1, fun q => ⟨not_lt.1 h1, q, Or.inr (Or.inl h2)⟩⟩
  rw [if_neg h2, mem_sdiff, mem_Icc, mem_Ioo, ← abs_le, ← abs_lt, not_lt, iChordV, if_neg h1, if_neg h2]
  have hs0 := Real.sqrt_nonneg (r ^ 2 - max (tw / 2 + r - |y|) 0 ^ 2)
  have hm0 : 0 ≤ max (tw / 2 + r - |y|) 0 := le_max_right _ _
  have hm : max (tw / 2 + r - |y|) 0 ≤ r := max_le (by linarith [not_le.1 h2]) hr
  have hs1 : √(r ^ 2 - max (tw / 2 + r - |y|) 0 ^ 2) ≤ r := by
    rw [Real.sqrt_le_left hr]
    nlinarith
  constructor
  · rintro ⟨_, q0, q | q | ⟨q1, q2, q3⟩⟩
    · exact ⟨q0, by linarith⟩
    · exact absurd q h2
    · refine ⟨q0, ?_⟩
      have e : max (tw / 2 + r - |y|) 0 = tw / 2 + r - |y| := max_eq_left (by linarith)
      rw [e]
      have : √(r ^ 2 - (tw / 2 + r - |y|) ^ 2) ≤ |z| - (h / 2 - tf - r) := by
        rw [Real.sqrt_le_left (by linarith)]
        linarith
      linarith
  · rintro ⟨q0, q⟩
    refine ⟨not_lt.1 h1, q0, ?_⟩
    by_cases h3 : |y| ≤ tw / 2 + r
    · right; right
      have e : max (tw / 2 + r - |y|) 0 = tw / 2 + r - |y| := max_eq_left (by linarith)
      rw [e] at q hs0 hm0 hm
      refine ⟨h3, by linarith, ?_⟩
      have hnn : 0 ≤ r ^ 2 - (tw / 2 + r - |y|) ^ 2 := by nlinarith
      have h5 : √(r ^ 2 - (tw / 2 + r - |y|) ^ 2) ≤ |z| - (h / 2 - tf - r) := by linarith
      have h6 := pow_le_pow_left₀ hs0 h5 2
      rw [Real.sq_sqrt hnn] at h6
      linarith
    · left
      have e : max (tw / 2 + r - |y|) 0 = 0 := max_eq_right (by linarith [not_le.1 h3])
      rw [e, zero_pow two_ne_zero, sub_zero, Real.sqrt_sq hr] at q
      linarith

theorem volume_slice_iV (hr : 0 ≤ r) (htf : 0 ≤ tf) (hh : tf + r ≤ h / 2) (y : ℝ) :
    (volume (slice (flipped (iSection h b tf tw r)) y)).toReal = iChordV h b tf tw r |y| := by
  rw [slice_iV hr]
  split_ifs with h1 h2
  · rw [iChordV, if_pos h1]
    simp
  · rw [Real.volume_Icc, ENNReal.toReal_ofReal (by linarith), iChordV, if_neg h1, if_pos h2]
    ring
  · obtain ⟨c, hc⟩ : ∃ c, c = iChordV h b tf tw r |y| := ⟨_, rfl⟩
    have hs0 := Real.sqrt_nonneg (r ^ 2 - max (tw / 2 + r - |y|) 0 ^ 2)
    have hm0 : 0 ≤ max (tw / 2 + r - |y|) 0 := le_max_right _ _
    have hs1 : √(r ^ 2 - max (tw / 2 + r - |y|) 0 ^ 2) ≤ r := by
      rw [Real.sqrt_le_left hr]
      nlinarith
    have hc1 : 0 ≤ c ∧ c ≤ h := by
      rw [hc, iChordV, if_neg h1, if_neg h2]
      constructor <;> linarith
    rw [← hc]
    have hsub : Ioo (-(h / 2 - c / 2)) (h / 2 - c / 2) ⊆ Icc (-(h / 2)) (h / 2) := fun x hx => ⟨by linarith [hx.1, hc1.1], by linarith [hx.2, hc1.1]⟩
    rw [measure_sdiff hsub measurableSet_Ioo.nullMeasurableSet (by simp), ENNReal.toReal_sub_of_le (measure_mono hsub) (by simp), Real.volume_Icc, Real.volume_Ioo,
      ENNReal.toReal_ofReal (by linarith), ENNReal.toReal_ofReal (by linarith)]
    ring

/-- Moments of the I-section about the vertical axis. -/
theorem i_momentV (hr : 0 ≤ r) (htf : 0 ≤ tf) (htw : 0 ≤ tw) (hb : tw / 2 + r ≤ b / 2) (hh : tf + r ≤ h / 2) {g : ℝ → ℝ} (hg : Continuous g) :
    planeMoment (flipped (iSection h b tf tw r)) (fun z => g |z|) =
      2 * ((∫ x in (0:ℝ)..(tw / 2), g x) * h + (∫ u in (0:ℝ)..r, g ((tw / 2 + r) + -1 * u) * ((2 * tf + 2 * r) + -2 * √(r ^ 2 - u ^ 2))) +
        (∫ x in (tw / 2 + r)..(b / 2), g x) * (2 * tf)) := by
  unfold planeMoment
  have e : (fun z => g |z| * (volume (slice (flipped (iSection h b tf tw r)) z)).toReal) = fun z => (fun x => g x * iChordV h b tf tw r x) |z| := by
    funext z
    rw [volume_slice_iV hr htf hh]
  rw [e, integral_comp_abs (f := fun x => g x * iChordV h b tf tw r x)]
  rw [three_pieces (p := tw / 2) (q := tw / 2 + r) (m := b / 2) (f1 := fun x => g x * h)
    (f2 := fun x => g x * ((2 * tf + 2 * r) + -2 * √(r ^ 2 - (tw / 2 + r - x) ^ 2))) (f3 := fun x => g x * (2 * tf))
    (by linarith) (by linarith) (by linarith) (by fun_prop) (by fun_prop) (by fun_prop)]
  · rw [intervalIntegral.integral_mul_const, intervalIntegral.integral_mul_const]
    congr 3
    have := intervalIntegral.integral_comp_sub_left (a := 0) (b := r) (fun x => g x * ((2 * tf + 2 * r) + -2 * √(r ^ 2 - (tw / 2 + r - x) ^ 2))) (tw / 2 + r)
    rw [sub_zero, add_sub_cancel_right] at this
    rw [← this]
    apply integral_congr
    intro u _
    show g (tw / 2 + r - u) * _ = g (tw / 2 + r + -1 * u) * _
    rw [show tw / 2 + r - (tw / 2 + r - u) = u by ring, show tw / 2 + r - u = tw / 2 + r + -1 * u by ring]
  · intro x _ hx
    show g x * iChordV h b tf tw r x = _
    rw [iChordV, if_neg (by linarith), if_pos hx.le]
  · intro x hx hx'
    show g x * iChordV h b tf tw r x = _
    rw [iChordV, if_neg (by linarith), if_neg (by linarith), max_eq_left (by linarith)]
    ring
  · intro x hx hx'
    show g x * iChordV h b tf tw r x = _
    rw [iChordV, if_neg (by linarith), if_neg (by linarith), max_eq_right (by linarith), zero_pow two_ne_zero, sub_zero, Real.sqrt_sq hr]
    ring
  · intro x hx
    show g x * iChordV h b tf tw r x = _
    rw [iChordV, if_pos hx, mul_zero]

end Metku.SectionSpec
