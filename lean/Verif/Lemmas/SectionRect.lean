import Verif.Spec.SectionRect
import Mathlib.MeasureTheory.Integral.IntervalIntegral.Basic
import Mathlib.MeasureTheory.Measure.Lebesgue.Basic
import Mathlib.Analysis.SpecialFunctions.Integrals.Basic

/-! Moments of sections made of rectangles. -/
namespace Metku.SectionSpec

open MeasureTheory Set

theorem slice_rect (r : Rect) (z : ℝ) : slice r.toSet z = if r.z0 ≤ z ∧ z ≤ r.z1 then Icc r.y0 r.y1 else ∅ := by
  ext y
  simp only [slice, Rect.toSet, Set.mem_ofPred_eq]
  split_ifs with h
  · simp only [mem_Icc]
    tauto
  · simp only [mem_empty_iff_false, iff_false]
    tauto

theorem slice_region_cons (r : Rect) (l : List Rect) (z : ℝ) : slice (region (r :: l)) z = slice r.toSet z ∪ slice (region l) z := by
  ext y
  simp [slice, region]

theorem volume_rect {r : Rect} (h : r.Proper) (z : ℝ) : (volume (slice r.toSet z)).toReal = (Icc r.z0 r.z1).indicator (fun _ => r.y1 - r.y0) z := by
  rw [slice_rect]
  by_cases hz : r.z0 ≤ z ∧ z ≤ r.z1
  · rw [if_pos hz, Real.volume_Icc, ENNReal.toReal_ofReal (by linarith [h.1]), indicator_of_mem (by exact hz)]
  · rw [if_neg hz, indicator_of_notMem (by exact hz)]
    simp

theorem measurable_region (l : List Rect) (z : ℝ) : MeasurableSet (slice (region l) z) := by
  induction l with
  | nil => simp [slice, region]
  | cons r l ih =>
    rw [slice_region_cons, slice_rect]
    refine MeasurableSet.union ?_ ih
    split_ifs
    · exact measurableSet_Icc
    · exact MeasurableSet.empty

theorem finite_region (l : List Rect) (z : ℝ) : volume (slice (region l) z) ≠ ⊤ := by
  induction l with
  | nil => simp [slice, region]
  | cons r l ih =>
    rw [slice_region_cons, slice_rect]
    refine (measure_union_lt_top ?_ (lt_top_iff_ne_top.2 ih)).ne
    split_ifs
    · rw [Real.volume_Icc]
      exact ENNReal.ofReal_lt_top
    · simp

theorem overlap_null {r : Rect} {l : List Rect} (h : ∀ s ∈ l, r.Apart s) {z : ℝ} (h0 : z ≠ r.z0) (h1 : z ≠ r.z1) :
    volume (slice r.toSet z ∩ slice (region l) z) = 0 := by
  have sub : slice r.toSet z ∩ slice (region l) z ⊆ {r.y0, r.y1} := by
    rintro y ⟨⟨a1, a2, a3, a4⟩, s, hs, b1, b2, b3, b4⟩
    simp only at a1 a2 a3 a4 b1 b2 b3 b4
    rcases h s hs with q | q | q | q
    · exact Or.inr (le_antisymm a2 (q.trans b1))
    · exact Or.inl (le_antisymm (b2.trans q) a1)
    · exact absurd (le_antisymm a4 (q.trans b3)) h1
    · exact absurd (le_antisymm (b4.trans q) a3) h0
  refine measure_mono_null sub ?_
  exact (Set.toFinite _).measure_zero volume

theorem integrable_rect (r : Rect) {f : ℝ → ℝ} (hf : Continuous f) : Integrable (fun z => f z * (Icc r.z0 r.z1).indicator (fun _ => r.y1 - r.y0) z) := by
  have e : (fun z => f z * (Icc r.z0 r.z1).indicator (fun _ => r.y1 - r.y0) z) = (Icc r.z0 r.z1).indicator (fun z => f z * (r.y1 - r.y0)) := by
    funext z
    by_cases hz : z ∈ Icc r.z0 r.z1
    · rw [indicator_of_mem hz, indicator_of_mem hz]
    · rw [indicator_of_notMem hz, indicator_of_notMem hz, mul_zero]
  rw [e, integrable_indicator_iff measurableSet_Icc]
  exact (Continuous.continuousOn (by fun_prop)).integrableOn_Icc

theorem integral_rect {r : Rect} (h : r.Proper) (f : ℝ → ℝ) :
    ∫ z, f z * (Icc r.z0 r.z1).indicator (fun _ => r.y1 - r.y0) z = (r.y1 - r.y0) * ∫ z in r.z0..r.z1, f z := by
  have e : (fun z => f z * (Icc r.z0 r.z1).indicator (fun _ => r.y1 - r.y0) z) = (Icc r.z0 r.z1).indicator (fun z => f z * (r.y1 - r.y0)) := by
    funext z
    by_cases hz : z ∈ Icc r.z0 r.z1
    · rw [indicator_of_mem hz, indicator_of_mem hz]
    · rw [indicator_of_notMem hz, indicator_of_notMem hz, mul_zero]
  rw [e, integral_indicator measurableSet_Icc, integral_Icc_eq_integral_Ioc, ← intervalIntegral.integral_of_le h.2, intervalIntegral.integral_mul_const, mul_comm]

theorem region_aux {l : List Rect} (h : Plates l) {f : ℝ → ℝ} (hf : Continuous f) :
    Integrable (fun z => f z * (volume (slice (region l) z)).toReal) ∧
    ∫ z, f z * (volume (slice (region l) z)).toReal = (l.map fun r => (r.y1 - r.y0) * ∫ z in r.z0..r.z1, f z).sum := by
  induction l with
  | nil => simp [slice, region]
  | cons r l ih =>
    obtain ⟨hp, hd⟩ := h
    rw [List.pairwise_cons] at hd
    obtain ⟨i1, i2⟩ := ih ⟨fun s hs => hp s (List.mem_cons_of_mem _ hs), hd.2⟩
    have pr := hp r List.mem_cons_self
    have ae : (fun z => f z * (Icc r.z0 r.z1).indicator (fun _ => r.y1 - r.y0) z + f z * (volume (slice (region l) z)).toReal) =ᵐ[volume]
        fun z => f z * (volume (slice (region (r :: l)) z)).toReal := by
      have n0 : ∀ᵐ z ∂(volume : Measure ℝ), z ≠ r.z0 := by simp [ae_iff]
      have n1 : ∀ᵐ z ∂(volume : Measure ℝ), z ≠ r.z1 := by simp [ae_iff]
      filter_upwards [n0, n1] with z h0 h1
      have d := overlap_null hd.1 h0 h1
      rw [slice_region_cons, measure_union₀ (measurable_region l z).nullMeasurableSet d, ENNReal.toReal_add _ (finite_region l z), volume_rect pr, mul_add]
      have := finite_region [r] z
      rwa [slice_region_cons, show slice (region []) z = ∅ by simp [slice, region], union_empty] at this
    constructor
    · exact ((integrable_rect r hf).add i1).congr ae
    · rw [← integral_congr_ae ae, integral_add (integrable_rect r hf) i1, integral_rect pr, i2, List.map_cons, List.sum_cons]

/-- Integral of a function of the height over a section made of plates. -/
theorem region_moment {l : List Rect} (h : Plates l) {f : ℝ → ℝ} (hf : Continuous f) :
    planeMoment (region l) f = (l.map fun r => (r.y1 - r.y0) * ∫ z in r.z0..r.z1, f z).sum := (region_aux h hf).2

/-- The rectangle with the axes exchanged. -/
def Rect.swap (r : Rect) : Rect := ⟨r.z0, r.z1, r.y0, r.y1⟩

theorem flipped_region (l : List Rect) : flipped (region l) = region (l.map Rect.swap) := by
  ext ⟨y, z⟩
  simp only [flipped, region, Rect.toSet, Set.mem_ofPred_eq, List.mem_map, exists_exists_and_eq_and, Rect.swap]
  constructor
  · rintro ⟨r, hr, a, b, c, d⟩
    exact ⟨r, hr, c, d, a, b⟩
  · rintro ⟨r, hr, a, b, c, d⟩
    exact ⟨r, hr, c, d, a, b⟩

theorem plates_swap {l : List Rect} (h : Plates l) : Plates (l.map Rect.swap) := by
  obtain ⟨hp, hd⟩ := h
  constructor
  · intro r hr
    obtain ⟨s, hs, rfl⟩ := List.mem_map.1 hr
    exact ⟨(hp s hs).2, (hp s hs).1⟩
  · rw [List.pairwise_map]
    refine hd.imp ?_
    rintro r s (q | q | q | q)
    · exact Or.inr (Or.inr (Or.inl q))
    · exact Or.inr (Or.inr (Or.inr q))
    · exact Or.inl q
    · exact Or.inr (Or.inl q)

/-- The same for a function of the horizontal coordinate. -/
theorem region_momentV {l : List Rect} (h : Plates l) {f : ℝ → ℝ} (hf : Continuous f) :
    planeMoment (flipped (region l)) f = (l.map fun r => (r.z1 - r.z0) * ∫ y in r.y0..r.y1, f y).sum := by
  rw [flipped_region, region_moment (plates_swap h) hf, List.map_map]
  rfl

theorem integral_sq_sub (a b c : ℝ) : ∫ z in a..b, (z - c) ^ 2 = ((b - c) ^ 3 - (a - c) ^ 3) / 3 := by
  rw [intervalIntegral.integral_comp_sub_right (fun z => z ^ 2) c, integral_pow]
  norm_num

theorem integral_sub_lin (a b c : ℝ) : ∫ z in a..b, (z - c) = ((b - c) ^ 2 - (a - c) ^ 2) / 2 := by
  rw [intervalIntegral.integral_comp_sub_right (fun z => z) c, integral_id]

theorem integral_abs_above {a b c : ℝ} (hab : a ≤ b) (h : c ≤ a) : ∫ z in a..b, |z - c| = ((b - c) ^ 2 - (a - c) ^ 2) / 2 := by
  rw [← integral_sub_lin]
  refine intervalIntegral.integral_congr fun z hz => ?_
  rw [uIcc_of_le hab] at hz
  exact abs_of_nonneg (by linarith [hz.1])

theorem integral_abs_below {a b c : ℝ} (hab : a ≤ b) (h : b ≤ c) : ∫ z in a..b, |z - c| = ((a - c) ^ 2 - (b - c) ^ 2) / 2 := by
  have e : ∫ z in a..b, |z - c| = ∫ z in a..b, -(z - c) := by
    refine intervalIntegral.integral_congr fun z hz => ?_
    rw [uIcc_of_le hab] at hz
    exact abs_of_nonpos (by linarith [hz.2])
  rw [e, intervalIntegral.integral_neg, integral_sub_lin]
  ring

theorem integral_abs_across {a b c : ℝ} (h1 : a ≤ c) (h2 : c ≤ b) : ∫ z in a..b, |z - c| = ((b - c) ^ 2 + (a - c) ^ 2) / 2 := by
  have i : ∀ s t : ℝ, IntervalIntegrable (fun z => |z - c|) volume s t := fun s t => Continuous.intervalIntegrable (by fun_prop) _ _
  rw [← intervalIntegral.integral_add_adjacent_intervals (i a c) (i c b), integral_abs_below h1 le_rfl, integral_abs_above h2 le_rfl]
  ring

open Classical in
theorem below_region (l : List Rect) (c : ℝ) :
    below (region l) c = region ((l.filter fun r => r.z0 ≤ c).map fun r => { r with z1 := min r.z1 c }) := by
  ext ⟨y, z⟩
  simp only [below, region, Rect.toSet, Set.mem_ofPred_eq, List.mem_map, List.mem_filter, decide_eq_true_eq]
  constructor
  · rintro ⟨⟨r, hr, a1, a2, a3, a4⟩, hz⟩
    exact ⟨_, ⟨r, ⟨hr, a3.trans hz⟩, rfl⟩, a1, a2, a3, le_min a4 hz⟩
  · rintro ⟨_, ⟨r, ⟨hr, _⟩, rfl⟩, a1, a2, a3, a4⟩
    exact ⟨⟨r, hr, a1, a2, a3, a4.trans (min_le_left _ _)⟩, a4.trans (min_le_right _ _)⟩

open Classical in
theorem above_region (l : List Rect) (c : ℝ) :
    above (region l) c = region ((l.filter fun r => c ≤ r.z1).map fun r => { r with z0 := max r.z0 c }) := by
  ext ⟨y, z⟩
  simp only [above, region, Rect.toSet, Set.mem_ofPred_eq, List.mem_map, List.mem_filter, decide_eq_true_eq]
  constructor
  · rintro ⟨⟨r, hr, a1, a2, a3, a4⟩, hz⟩
    exact ⟨_, ⟨r, ⟨hr, hz.trans a4⟩, rfl⟩, a1, a2, max_le a3 hz, a4⟩
  · rintro ⟨_, ⟨r, ⟨hr, _⟩, rfl⟩, a1, a2, a3, a4⟩
    exact ⟨⟨r, hr, a1, a2, (le_max_left _ _).trans a3, a4⟩, (le_max_right _ _).trans a3⟩

/-- Area of the part of a section below a height. -/
theorem area_below {l : List Rect} (h : Plates l) (c : ℝ) :
    planeMoment (below (region l) c) (fun _ => 1) = (l.map fun r => (r.y1 - r.y0) * max (min r.z1 c - r.z0) 0).sum := by
  classical
  rw [below_region, region_moment _ continuous_const]
  · obtain ⟨hp, -⟩ := h
    induction l with
    | nil => simp
    | cons r l ih =>
      have ih := ih fun s hs => hp s (List.mem_cons_of_mem _ hs)
      by_cases hr : r.z0 ≤ c
      · rw [List.filter_cons_of_pos (by simpa using hr)]
        simp only [List.map_cons, List.sum_cons, ih]
        congr 1
        simp only [intervalIntegral.integral_const, smul_eq_mul, mul_one]
        rw [max_eq_left (a := min r.z1 c - r.z0) (by linarith [le_min (hp r List.mem_cons_self).2 hr])]
      · rw [List.filter_cons_of_neg (by simpa using hr), ih, List.map_cons, List.sum_cons, max_eq_right, mul_zero, zero_add]
        linarith [min_le_right r.z1 c, not_le.1 hr]
  · constructor
    · intro r hr
      obtain ⟨s, hs, rfl⟩ := List.mem_map.1 hr
      obtain ⟨hs, hc⟩ := List.mem_filter.1 hs
      exact ⟨(h.1 s hs).1, le_min (h.1 s hs).2 (by simpa using hc)⟩
    · rw [List.pairwise_map]
      refine (h.2.filter _).imp ?_
      rintro r s (q | q | q | q)
      · exact Or.inl q
      · exact Or.inr (Or.inl q)
      · exact Or.inr (Or.inr (Or.inl ((min_le_left _ _).trans q)))
      · exact Or.inr (Or.inr (Or.inr ((min_le_left _ _).trans q)))

/-- Area of the part of a section above a height. -/
theorem area_above {l : List Rect} (h : Plates l) (c : ℝ) :
    planeMoment (above (region l) c) (fun _ => 1) = (l.map fun r => (r.y1 - r.y0) * max (r.z1 - max r.z0 c) 0).sum := by
  classical
  rw [above_region, region_moment _ continuous_const]
  · obtain ⟨hp, -⟩ := h
    induction l with
    | nil => simp
    | cons r l ih =>
      have ih := ih fun s hs => hp s (List.mem_cons_of_mem _ hs)
      by_cases hr : c ≤ r.z1
      · rw [List.filter_cons_of_pos (by simpa using hr)]
        simp only [List.map_cons, List.sum_cons, ih]
        congr 1
        simp only [intervalIntegral.integral_const, smul_eq_mul, mul_one]
        rw [max_eq_left (a := r.z1 - max r.z0 c) (by linarith [max_le (hp r List.mem_cons_self).2 hr])]
      · rw [List.filter_cons_of_neg (by simpa using hr), ih, List.map_cons, List.sum_cons, max_eq_right (a := r.z1 - max r.z0 c), mul_zero, zero_add]
        linarith [le_max_right r.z0 c, not_le.1 hr]
  · constructor
    · intro r hr
      obtain ⟨s, hs, rfl⟩ := List.mem_map.1 hr
      obtain ⟨hs, hc⟩ := List.mem_filter.1 hs
      exact ⟨(h.1 s hs).1, max_le (h.1 s hs).2 (by simpa using hc)⟩
    · rw [List.pairwise_map]
      refine (h.2.filter _).imp ?_
      rintro r s (q | q | q | q)
      · exact Or.inl q
      · exact Or.inr (Or.inl q)
      · exact Or.inr (Or.inr (Or.inl (q.trans (le_max_left _ _))))
      · exact Or.inr (Or.inr (Or.inr (q.trans (le_max_left _ _))))

/-- Moments are linear and monotone in the weight. -/
theorem moment_mono {l : List Rect} (h : Plates l) {f g : ℝ → ℝ} (hf : Continuous f) (hg : Continuous g) (le : ∀ r ∈ l, ∀ z, r.z0 ≤ z → z ≤ r.z1 → f z ≤ g z) :
    planeMoment (region l) f ≤ planeMoment (region l) g := by
  rw [region_moment h hf, region_moment h hg]
  refine List.sum_le_sum fun r hr => ?_
  refine mul_le_mul_of_nonneg_left ?_ (by linarith [(h.1 r hr).1])
  exact intervalIntegral.integral_mono_on (h.1 r hr).2 (hf.intervalIntegrable _ _) (hg.intervalIntegrable _ _) fun z hz => le r hr z hz.1 hz.2

theorem moment_add {l : List Rect} (h : Plates l) {f g : ℝ → ℝ} (hf : Continuous f) (hg : Continuous g) :
    planeMoment (region l) (fun z => f z + g z) = planeMoment (region l) f + planeMoment (region l) g := by
  rw [region_moment h hf, region_moment h hg, region_moment h (f := fun z => f z + g z) (by fun_prop), ← List.sum_map_add]
  congr 1
  refine List.map_congr_left fun r _ => ?_
  rw [intervalIntegral.integral_add (hf.intervalIntegrable _ _) (hg.intervalIntegrable _ _), mul_add]

theorem moment_smul {l : List Rect} (h : Plates l) {f : ℝ → ℝ} (hf : Continuous f) (c : ℝ) :
    planeMoment (region l) (fun z => c * f z) = c * planeMoment (region l) f := by
  rw [region_moment h hf, region_moment h (by fun_prop), ← List.sum_map_mul_left]
  congr 1
  refine List.map_congr_left fun r _ => ?_
  rw [intervalIntegral.integral_const_mul]
  ring

end Metku.SectionSpec
