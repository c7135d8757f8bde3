import Verif.Spec.Section
import Mathlib.Analysis.SpecialFunctions.Integrals.Basic

/-! Integrals of rounded rectangles. -/
namespace Metku.SectionSpec

open MeasureTheory Set Real intervalIntegral

theorem subst_sqrt {R : ℝ} (hR : 0 ≤ R) (g : ℝ → ℝ) (hg : Continuous g) :
    ∫ u in (0:ℝ)..R, g u * √(R ^ 2 - u ^ 2) = ∫ t in (0:ℝ)..(π / 2), g (R * sin t) * (R ^ 2 * cos t ^ 2) := by
  have h := integral_comp_mul_deriv (a := 0) (b := π / 2) (f := fun t => R * sin t) (f' := fun t => R * cos t) (g := fun u => g u * √(R ^ 2 - u ^ 2))
    (fun x _ => (Real.hasDerivAt_sin x).const_mul R) (by fun_prop) (by fun_prop)
  simp only [sin_zero, mul_zero, sin_pi_div_two, mul_one, Function.comp] at h
  rw [← h]
  apply integral_congr
  intro t ht
  rw [uIcc_of_le (by positivity)] at ht
  have hc : 0 ≤ cos t := cos_nonneg_of_mem_Icc ⟨by linarith [ht.1, pi_pos], ht.2⟩
  have e : R ^ 2 - (R * sin t) ^ 2 = (R * cos t) ^ 2 := by
    have := sin_sq_add_cos_sq t
    have : cos t ^ 2 = 1 - sin t ^ 2 := by linarith
    rw [mul_pow, mul_pow, this]
    ring
  show g (R * sin t) * √(R ^ 2 - (R * sin t) ^ 2) * (R * cos t) = _
  rw [e, sqrt_sq (by positivity)]
  ring

theorem J0 {R : ℝ} (hR : 0 ≤ R) : ∫ u in (0:ℝ)..R, √(R ^ 2 - u ^ 2) = π * R ^ 2 / 4 := by
  have h := subst_sqrt hR (fun _ => 1) continuous_const
  simp only [one_mul] at h
  rw [h, intervalIntegral.integral_const_mul, integral_cos_sq]
  simp
  ring

theorem J1 {R : ℝ} (hR : 0 ≤ R) : ∫ u in (0:ℝ)..R, u * √(R ^ 2 - u ^ 2) = R ^ 3 / 3 := by
  have h := subst_sqrt hR (fun u => u) continuous_id
  rw [h]
  have e : ∀ t : ℝ, R * sin t * (R ^ 2 * cos t ^ 2) = R ^ 3 * (sin t * cos t ^ 2) := fun t => by ring
  simp only [e]
  rw [intervalIntegral.integral_const_mul, integral_sin_mul_cos_sq]
  simp
  ring

theorem J2 {R : ℝ} (hR : 0 ≤ R) : ∫ u in (0:ℝ)..R, u ^ 2 * √(R ^ 2 - u ^ 2) = π * R ^ 4 / 16 := by
  have h := subst_sqrt hR (fun u => u ^ 2) (by fun_prop)
  rw [h]
  have e : ∀ t : ℝ, (R * sin t) ^ 2 * (R ^ 2 * cos t ^ 2) = R ^ 4 * (sin t ^ 2 * cos t ^ 2) := fun t => by ring
  simp only [e]
  rw [intervalIntegral.integral_const_mul, integral_sin_sq_mul_cos_sq]
  have : sin (4 * (π / 2)) = 0 := by
    rw [show 4 * (π / 2) = (2 : ℕ) * π by push_cast; ring]
    exact sin_nat_mul_pi 2
  rw [this]
  simp
  ring

/-- Integrals against `p + q √(R² - u²)` of the powers of `a + u`. -/
theorem K0 {R : ℝ} (hR : 0 ≤ R) (p q : ℝ) : ∫ u in (0:ℝ)..R, (p + q * √(R ^ 2 - u ^ 2)) = p * R + q * (π * R ^ 2 / 4) := by
  rw [intervalIntegral.integral_add (by simp) (Continuous.intervalIntegrable (by fun_prop) _ _), intervalIntegral.integral_const_mul, J0 hR]
  simp
  ring

theorem K1 {R : ℝ} (hR : 0 ≤ R) (a s p q : ℝ) :
    ∫ u in (0:ℝ)..R, (a + s * u) * (p + q * √(R ^ 2 - u ^ 2)) = p * (a * R + s * (R ^ 2 / 2)) + q * (a * (π * R ^ 2 / 4) + s * (R ^ 3 / 3)) := by
  have e : ∀ u : ℝ, (a + s * u) * (p + q * √(R ^ 2 - u ^ 2)) = (p * a + (p * s) * u) + ((q * a) * √(R ^ 2 - u ^ 2) + (q * s) * (u * √(R ^ 2 - u ^ 2))) := fun u => by ring
  simp only [e]
  rw [intervalIntegral.integral_add (Continuous.intervalIntegrable (by fun_prop) _ _) (Continuous.intervalIntegrable (by fun_prop) _ _),
    intervalIntegral.integral_add (Continuous.intervalIntegrable (by fun_prop) _ _) (Continuous.intervalIntegrable (by fun_prop) _ _),
    intervalIntegral.integral_add (Continuous.intervalIntegrable (by fun_prop) _ _) (Continuous.intervalIntegrable (by fun_prop) _ _),
    intervalIntegral.integral_const_mul (q * s), intervalIntegral.integral_const_mul (q * a), intervalIntegral.integral_const_mul (p * s), J0 hR, J1 hR]
  simp
  ring

theorem K2 {R : ℝ} (hR : 0 ≤ R) (a s p q : ℝ) :
    ∫ u in (0:ℝ)..R, (a + s * u) ^ 2 * (p + q * √(R ^ 2 - u ^ 2)) =
      p * (a ^ 2 * R + a * s * R ^ 2 + s ^ 2 * (R ^ 3 / 3)) + q * (a ^ 2 * (π * R ^ 2 / 4) + 2 * a * s * (R ^ 3 / 3) + s ^ 2 * (π * R ^ 4 / 16)) := by
  have e : ∀ u : ℝ, (a + s * u) ^ 2 * (p + q * √(R ^ 2 - u ^ 2)) = ((p * a ^ 2 + (2 * p * a * s) * u) + (p * s ^ 2) * u ^ 2) +
      (((q * a ^ 2) * √(R ^ 2 - u ^ 2) + (2 * q * a * s) * (u * √(R ^ 2 - u ^ 2))) + (q * s ^ 2) * (u ^ 2 * √(R ^ 2 - u ^ 2))) := fun u => by ring
  simp only [e]
  rw [intervalIntegral.integral_add (Continuous.intervalIntegrable (by fun_prop) _ _) (Continuous.intervalIntegrable (by fun_prop) _ _),
    intervalIntegral.integral_add (Continuous.intervalIntegrable (by fun_prop) _ _) (Continuous.intervalIntegrable (by fun_prop) _ _),
    intervalIntegral.integral_add (Continuous.intervalIntegrable (by fun_prop) _ _) (Continuous.intervalIntegrable (by fun_prop) _ _),
    intervalIntegral.integral_add (Continuous.intervalIntegrable (by fun_prop) _ _) (Continuous.intervalIntegrable (by fun_prop) _ _),
    intervalIntegral.integral_add (Continuous.intervalIntegrable (by fun_prop) _ _) (Continuous.intervalIntegrable (by fun_prop) _ _),
    intervalIntegral.integral_const_mul (q * s ^ 2), intervalIntegral.integral_const_mul (2 * q * a * s), intervalIntegral.integral_const_mul (q * a ^ 2),
    intervalIntegral.integral_const_mul (p * s ^ 2), intervalIntegral.integral_const_mul (2 * p * a * s), J0 hR, J1 hR, J2 hR]
  simp
  ring

/-- Length of the slice of `rounded a b r` at distance `x` from the axis. -/
noncomputable def chord (a b r x : ℝ) : ℝ := if x ≤ a + r then 2 * b + 2 * √(r ^ 2 - max (x - a) 0 ^ 2) else 0

theorem slice_rounded {a b r : ℝ} (hr : 0 ≤ r) (z : ℝ) :
    slice (rounded a b r) z = if |z| ≤ a + r then Icc (-(chord a b r |z| / 2)) (chord a b r |z| / 2) else ∅ := by
  ext y
  simp only [slice, rounded, mem_ofPred_eq]
  have hm0 : 0 ≤ max (|z| - a) 0 := le_max_right _ _
  have hy0 : 0 ≤ max (|y| - b) 0 := le_max_right _ _
  split_ifs with h
  · have hm : max (|z| - a) 0 ≤ r := max_le (by linarith) hr
    have hs : 0 ≤ r ^ 2 - max (|z| - a) 0 ^ 2 := by nlinarith
    have hc : chord a b r |z| / 2 = b + √(r ^ 2 - max (|z| - a) 0 ^ 2) := by
      rw [chord, if_pos h]
      ring
    rw [hc, mem_Icc, ← abs_le, ← sub_le_iff_le_add']
    constructor
    · intro hh
      refine (le_max_left _ 0).trans (Real.le_sqrt_of_sq_le (by linarith))
    · intro hh
      have : max (|y| - b) 0 ≤ √(r ^ 2 - max (|z| - a) 0 ^ 2) := max_le hh (sqrt_nonneg _)
      have := pow_le_pow_left₀ hy0 this 2
      rw [sq_sqrt hs] at this
      linarith
  · simp only [mem_empty_iff_false, iff_false, not_le]
    have h1 : r < max (|z| - a) 0 := lt_max_of_lt_left (by linarith)
    nlinarith

theorem chord_nonneg {a b r x : ℝ} (hb : 0 ≤ b) : 0 ≤ chord a b r x := by
  unfold chord
  split_ifs
  · positivity
  · exact le_rfl

theorem volume_slice_rounded {a b r : ℝ} (hr : 0 ≤ r) (z : ℝ) :
    volume (slice (rounded a b r) z) = ENNReal.ofReal (chord a b r |z|) := by
  rw [slice_rounded hr]
  split_ifs with h
  · rw [Real.volume_Icc]
    congr 1
    ring
  · simp [chord, if_neg h]

theorem volume_slice_hollow {a b r r' : ℝ} (hb : 0 ≤ b) (hr' : 0 ≤ r') (h : r' ≤ r) (z : ℝ) :
    (volume (slice (rounded a b r \ rounded a b r') z)).toReal = chord a b r |z| - chord a b r' |z| := by
  have hr : 0 ≤ r := hr'.trans h
  have e : slice (rounded a b r \ rounded a b r') z = slice (rounded a b r) z \ slice (rounded a b r') z := rfl
  have hsub : slice (rounded a b r') z ⊆ slice (rounded a b r) z := by
    intro y hy
    simp only [slice, rounded, mem_ofPred_eq] at hy ⊢
    nlinarith
  have hmeas : MeasurableSet (slice (rounded a b r') z) := by
    rw [slice_rounded hr']
    split_ifs
    · exact measurableSet_Icc
    · exact MeasurableSet.empty
  rw [e, measure_sdiff hsub hmeas.nullMeasurableSet (by rw [volume_slice_rounded hr']; exact ENNReal.ofReal_ne_top),
    ENNReal.toReal_sub_of_le (measure_mono hsub) (by rw [volume_slice_rounded hr]; exact ENNReal.ofReal_ne_top),
    volume_slice_rounded hr, volume_slice_rounded hr', ENNReal.toReal_ofReal (chord_nonneg hb), ENNReal.toReal_ofReal (chord_nonneg hb)]

/-- A function on the half line which vanishes beyond `m`. -/
theorem half_line {F : ℝ → ℝ} {m : ℝ} (hz : ∀ x, m < x → F x = 0) (hi : IntegrableOn F (Ioc 0 m)) :
    IntegrableOn F (Ioi 0) ∧ (0 ≤ m → ∫ x in Ioi 0, F x = ∫ x in (0:ℝ)..m, F x) := by
  have hd : ∀ x ∈ Ioi (0:ℝ) \ Ioc 0 m, F x = 0 := fun x hx => hz x (not_le.1 fun h => hx.2 ⟨hx.1, h⟩)
  refine ⟨hi.of_forall_sdiff_eq_zero measurableSet_Ioi hd, fun hm => ?_⟩
  rw [integral_of_le hm]
  exact setIntegral_eq_of_subset_of_forall_sdiff_eq_zero measurableSet_Ioi Ioc_subset_Ioi_self hd

theorem chord_moment {a b r : ℝ} (ha : 0 ≤ a) (hr : 0 ≤ r) {g : ℝ → ℝ} (hg : Continuous g) :
    IntegrableOn (fun x => g x * chord a b r x) (Ioi 0) ∧
    ∫ x in Ioi 0, g x * chord a b r x = (∫ x in (0:ℝ)..a, g x) * (2 * b + 2 * r) + ∫ u in (0:ℝ)..r, g (a + 1 * u) * (2 * b + 2 * √(r ^ 2 - u ^ 2)) := by
  have hcont : Continuous fun x => g x * (2 * b + 2 * √(r ^ 2 - max (x - a) 0 ^ 2)) := by fun_prop
  have heq : ∀ x ∈ Ioc 0 (a + r), g x * chord a b r x = g x * (2 * b + 2 * √(r ^ 2 - max (x - a) 0 ^ 2)) := by
    intro x hx
    rw [chord, if_pos hx.2]
  have hint : IntegrableOn (fun x => g x * chord a b r x) (Ioc 0 (a + r)) := by
    rw [integrableOn_congr_fun heq measurableSet_Ioc]
    exact (hcont.integrableOn_Icc).mono_set Ioc_subset_Icc_self
  obtain ⟨h1, h2⟩ := half_line (F := fun x => g x * chord a b r x) (m := a + r) (fun x hx => by
    show g x * chord a b r x = 0
    rw [chord, if_neg (not_le.2 hx), mul_zero]) hint
  refine ⟨h1, ?_⟩
  rw [h2 (by positivity)]
  have e1 : ∫ x in (0:ℝ)..(a + r), g x * chord a b r x = ∫ x in (0:ℝ)..(a + r), g x * (2 * b + 2 * √(r ^ 2 - max (x - a) 0 ^ 2)) := by
    rw [integral_of_le (by positivity), integral_of_le (by positivity)]
    exact setIntegral_congr_fun measurableSet_Ioc heq
  rw [e1, ← integral_add_adjacent_intervals (b := a) (hcont.intervalIntegrable _ _) (hcont.intervalIntegrable _ _)]
  congr 1
  · rw [← intervalIntegral.integral_mul_const]
    apply integral_congr
    intro x hx
    rw [uIcc_of_le ha] at hx
    show g x * _ = g x * _
    rw [max_eq_right (by linarith [hx.2]), zero_pow two_ne_zero, sub_zero, sqrt_sq hr]
  · have := intervalIntegral.integral_comp_add_left (a := 0) (b := r) (fun x => g x * (2 * b + 2 * √(r ^ 2 - max (x - a) 0 ^ 2))) a
    rw [add_zero] at this
    rw [← this]
    apply integral_congr
    intro x hx
    rw [uIcc_of_le hr] at hx
    show g (a + x) * _ = g (a + 1 * x) * _
    rw [add_sub_cancel_left, max_eq_left hx.1, one_mul]

/-- Moments of a solid rounded rectangle. -/
theorem rounded_moment {a b r : ℝ} (ha : 0 ≤ a) (hb : 0 ≤ b) (hr : 0 ≤ r) {g : ℝ → ℝ} (hg : Continuous g) :
    planeMoment (rounded a b r) (fun z => g |z|) =
      2 * ((∫ x in (0:ℝ)..a, g x) * (2 * b + 2 * r) + ∫ u in (0:ℝ)..r, g (a + 1 * u) * (2 * b + 2 * √(r ^ 2 - u ^ 2))) := by
  unfold planeMoment
  have e : (fun z => g |z| * (volume (slice (rounded a b r) z)).toReal) = fun z => (fun x => g x * chord a b r x) |z| := by
    funext z
    rw [volume_slice_rounded hr, ENNReal.toReal_ofReal (chord_nonneg hb)]
  rw [e, integral_comp_abs (f := fun x => g x * chord a b r x), (chord_moment ha hr hg).2]

theorem chord_mono {a b r r' x : ℝ} (hb : 0 ≤ b) (hr' : 0 ≤ r') (h : r' ≤ r) : chord a b r' x ≤ chord a b r x := by
  unfold chord
  split_ifs with h1 h2 h2
  · have : √(r' ^ 2 - max (x - a) 0 ^ 2) ≤ √(r ^ 2 - max (x - a) 0 ^ 2) := sqrt_le_sqrt (by nlinarith)
    linarith
  · linarith
  · positivity
  · exact le_rfl

/-- The second moment is at most the largest distance times the first absolute moment. -/
theorem hollow_second_le {a b r r' : ℝ} (ha : 0 ≤ a) (hb : 0 ≤ b) (hr' : 0 ≤ r') (h : r' ≤ r) :
    planeMoment (rounded a b r \ rounded a b r') (fun z => |z| ^ 2) ≤ (a + r) * planeMoment (rounded a b r \ rounded a b r') (fun z => |z|) := by
  unfold planeMoment
  have e : ∀ g : ℝ → ℝ, (fun z => g |z| * (volume (slice (rounded a b r \ rounded a b r') z)).toReal) = fun z => (fun x => g x * (chord a b r x - chord a b r' x)) |z| := by
    intro g
    funext z
    rw [volume_slice_hollow hb hr' h]
  have e1 := e (fun x => x ^ 2)
  have e2 := e (fun x => x)
  simp only at e1 e2
  rw [e1, e2, integral_comp_abs (f := fun x => x ^ 2 * (chord a b r x - chord a b r' x)), integral_comp_abs (f := fun x => x * (chord a b r x - chord a b r' x)),
    mul_left_comm, ← MeasureTheory.integral_const_mul (a + r)]
  have i : ∀ {g : ℝ → ℝ}, Continuous g → IntegrableOn (fun x => g x * (chord a b r x - chord a b r' x)) (Ioi 0) := by
    intro g hg
    have := ((chord_moment (b := b) ha (hr'.trans h) hg).1).sub ((chord_moment (b := b) ha hr' hg).1)
    refine this.congr_fun (fun x _ => ?_) measurableSet_Ioi
    show g x * chord a b r x - g x * chord a b r' x = _
    ring
  have i1 := i (g := fun x => x ^ 2) (by fun_prop)
  have i2 := (i (g := fun x => x) continuous_id).const_mul (a + r)
  refine mul_le_mul_of_nonneg_left (setIntegral_mono_on i1 i2 measurableSet_Ioi fun x hx => ?_) (by norm_num : (0:ℝ) ≤ 2)
  have hx0 : 0 < x := hx
  have hc := chord_mono (a := a) (x := x) hb hr' h
  by_cases hm : x ≤ a + r
  · have : x * (chord a b r x - chord a b r' x) * x ≤ x * (chord a b r x - chord a b r' x) * (a + r) :=
      mul_le_mul_of_nonneg_left hm (mul_nonneg hx0.le (by linarith))
    show x ^ 2 * (chord a b r x - chord a b r' x) ≤ (a + r) * (x * (chord a b r x - chord a b r' x))
    linarith
  · have h1 : chord a b r x = 0 := if_neg hm
    have h2 : chord a b r' x = 0 := if_neg (by linarith)
    show x ^ 2 * (chord a b r x - chord a b r' x) ≤ (a + r) * (x * (chord a b r x - chord a b r' x))
    rw [h1, h2]
    simp

/-- Closed form of the moments of a rounded rectangular ring. -/
theorem hollow_moment {a b r r' : ℝ} (ha : 0 ≤ a) (hb : 0 ≤ b) (hr' : 0 ≤ r') (h : r' ≤ r) {g : ℝ → ℝ} (hg : Continuous g) :
    planeMoment (rounded a b r \ rounded a b r') (fun z => g |z|) =
      2 * ((∫ x in (0:ℝ)..a, g x) * (2 * r - 2 * r') + (∫ u in (0:ℝ)..r, g (a + 1 * u) * (2 * b + 2 * √(r ^ 2 - u ^ 2))) -
        ∫ u in (0:ℝ)..r', g (a + 1 * u) * (2 * b + 2 * √(r' ^ 2 - u ^ 2))) := by
  unfold planeMoment
  have e : (fun z => g |z| * (volume (slice (rounded a b r \ rounded a b r') z)).toReal) = fun z => (fun x => g x * chord a b r x - g x * chord a b r' x) |z| := by
    funext z
    rw [volume_slice_hollow hb hr' h]
    ring
  rw [e, integral_comp_abs (f := fun x => g x * chord a b r x - g x * chord a b r' x)]
  obtain ⟨i1, v1⟩ := chord_moment (b := b) ha (hr'.trans h) hg
  obtain ⟨i2, v2⟩ := chord_moment (b := b) ha hr' hg
  rw [integral_sub i1 i2, v1, v2]
  ring

end Metku.SectionSpec
