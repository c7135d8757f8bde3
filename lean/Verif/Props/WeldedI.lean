import Verif.Model.WeldedI
import Verif.Lemmas.SectionRect

/-! Properties C200-C202: section properties of welded I-sections. -/
namespace Metku.WI

open Metku.SectionSpec

/-- The plates of a welded I-section, drawn as in `draw` (wi.py 925-934): the bottom of the bottom flange at height 0, the web on the axis `y = 0`. -/
noncomputable def plates (h bt bb tt tb tw : ℝ) : List Rect :=
  [⟨-(bb / 2), bb / 2, 0, tb⟩, ⟨-(tw / 2), tw / 2, tb, h - tt⟩, ⟨-(bt / 2), bt / 2, h - tt, h⟩]

/-- The section as a plane set. -/
def shape (d : Dims) : Set (ℝ × ℝ) := region (plates d.h d.bt d.bb d.tt d.tb d.tw)

/-- All plates have positive dimensions. -/
structure Proper (d : Dims) : Prop where
  bt : 0 < d.bt
  bb : 0 < d.bb
  tt : 0 < d.tt
  tb : 0 < d.tb
  tw : 0 < d.tw
  h : d.tt + d.tb < d.h

variable {d : Dims}

theorem Proper.hw (p : Proper d) : 0 < d.hw := by
  unfold Dims.hw
  linarith [p.h]

theorem Proper.Aw (p : Proper d) : 0 < d.Aw := mul_pos p.hw p.tw
theorem Proper.At (p : Proper d) : 0 < d.At := mul_pos p.bt p.tt
theorem Proper.Ab (p : Proper d) : 0 < d.Ab := mul_pos p.bb p.tb

theorem Proper.area (p : Proper d) : 0 < d.area := by
  unfold Dims.area
  linarith [p.Aw, p.At, p.Ab]

theorem plates_ok (p : Proper d) : Plates (plates d.h d.bt d.bb d.tt d.tb d.tw) := by
  have := p.h
  constructor
  · intro r hr
    simp only [plates, List.mem_cons, List.not_mem_nil, or_false] at hr
    rcases hr with rfl | rfl | rfl
    · exact ⟨by simp only; linarith [p.bb], p.tb.le⟩
    · exact ⟨by simp only; linarith [p.tw], by simp only; linarith⟩
    · exact ⟨by simp only; linarith [p.bt], by simp only; linarith [p.tt]⟩
  · simp only [plates, List.pairwise_cons, List.mem_cons, List.not_mem_nil, or_false, forall_eq_or_imp, forall_eq, Rect.Apart]
    refine ⟨⟨Or.inr (Or.inr (Or.inl le_rfl)), Or.inr (Or.inr (Or.inl (by linarith)))⟩, Or.inr (Or.inr (Or.inl le_rfl)), ?_⟩
    simp

theorem moment (p : Proper d) {f : ℝ → ℝ} (hf : Continuous f) :
    planeMoment (shape d) f = d.bb * (∫ z in (0:ℝ)..d.tb, f z) + d.tw * (∫ z in d.tb..(d.h - d.tt), f z) + d.bt * ∫ z in (d.h - d.tt)..d.h, f z := by
  rw [shape, region_moment (plates_ok p) hf]
  simp only [plates, List.map_cons, List.map_nil, List.sum_cons, List.sum_nil]
  ring

theorem momentV (p : Proper d) {f : ℝ → ℝ} (hf : Continuous f) :
    planeMoment (flipped (shape d)) f = d.tb * (∫ y in (-(d.bb / 2))..(d.bb / 2), f y) + d.hw * (∫ y in (-(d.tw / 2))..(d.tw / 2), f y) +
      d.tt * ∫ y in (-(d.bt / 2))..(d.bt / 2), f y := by
  rw [shape, region_momentV (plates_ok p) hf]
  simp only [plates, List.map_cons, List.map_nil, List.sum_cons, List.sum_nil, Dims.hw]
  ring

theorem area_eq (p : Proper d) : planeMoment (shape d) (fun _ => 1) = d.area := by
  rw [moment p continuous_const]
  simp only [intervalIntegral.integral_const, smul_eq_mul, Dims.area, Dims.Aw, Dims.At, Dims.Ab, Dims.hw]
  ring

theorem first_moment (p : Proper d) : planeMoment (shape d) (fun z => z) = d.zb * d.Ab + d.zw * d.Aw + d.zt * d.At := by
  rw [moment p (by fun_prop)]
  simp only [integral_id, Dims.Aw, Dims.At, Dims.Ab, Dims.hw, Dims.zb, Dims.zw, Dims.zt]
  ring

theorem centroid (p : Proper d) (c : ℝ) : planeMoment (shape d) (fun z => z - c) = d.area * (d.zel - c) := by
  have e : d.area * d.zel = d.zb * d.Ab + d.zw * d.Aw + d.zt * d.At := by
    rw [Dims.zel]
    field_simp [p.area.ne']
  rw [mul_sub, e, moment p (by fun_prop)]
  simp only [integral_sub_lin, Dims.area, Dims.Aw, Dims.At, Dims.Ab, Dims.hw, Dims.zb, Dims.zw, Dims.zt]
  ring

theorem second_eq (p : Proper d) : planeMoment (shape d) (fun z => (z - d.zel) ^ 2) = d.Iy := by
  rw [moment p (by fun_prop)]
  simp only [integral_sq_sub, Dims.Iy, Dims.Aw, Dims.At, Dims.Ab, Dims.hw, Dims.zb, Dims.zw, Dims.zt]
  ring

theorem secondV_eq (p : Proper d) : planeMoment (flipped (shape d)) (fun y => y ^ 2) = d.Iz := by
  rw [momentV p (by fun_prop)]
  simp only [integral_pow, Dims.Iz]
  norm_num
  ring

theorem plasticV_eq (p : Proper d) : planeMoment (flipped (shape d)) (fun y => |y|) = d.WplZ := by
  rw [momentV p (by fun_prop)]
  have e : ∀ {b : ℝ}, 0 < b → ∫ y in (-(b / 2))..(b / 2), |y| = b ^ 2 / 4 := by
    intro b hb
    have := integral_abs_across (a := -(b / 2)) (b := b / 2) (c := 0) (by linarith) (by linarith)
    simp only [sub_zero] at this
    rw [this]
    ring
  rw [e p.bb, e p.tw, e p.bt, Dims.WplZ, Dims.Ab, Dims.At, Dims.Aw]
  ring

/-- Where the plastic neutral axis lies. -/
theorem dpl_top (p : Proper d) (h : d.At ≥ d.area / 2) : d.h - d.tt ≤ d.dpl ∧ d.dpl ≤ d.h ∧ d.bt * (d.h - d.dpl) = d.area / 2 := by
  have e : d.bt * (d.h - d.dpl) = d.area / 2 := by
    rw [Dims.dpl, if_pos h]
    field_simp [p.bt.ne']
    ring
  refine ⟨?_, ?_, e⟩
  · have : d.bt * (d.h - d.dpl) ≤ d.bt * d.tt := by
      rw [e]
      exact h
    linarith [le_of_mul_le_mul_left this p.bt]
  · have := p.area
    have : 0 < d.bt * (d.h - d.dpl) := by
      rw [e]
      linarith
    linarith [(mul_pos_iff_of_pos_left p.bt).1 this]

theorem dpl_bottom (p : Proper d) (h : ¬ d.At ≥ d.area / 2) (h' : d.Ab ≥ d.area / 2) : 0 ≤ d.dpl ∧ d.dpl ≤ d.tb ∧ d.bb * d.dpl = d.area / 2 := by
  have e : d.bb * d.dpl = d.area / 2 := by
    rw [Dims.dpl, if_neg h, if_pos h']
    field_simp [p.bb.ne']
  refine ⟨?_, ?_, e⟩
  · have := p.area
    have : 0 < d.bb * d.dpl := by
      rw [e]
      linarith
    exact ((mul_pos_iff_of_pos_left p.bb).1 this).le
  · have : d.bb * d.dpl ≤ d.bb * d.tb := by
      rw [e]
      exact h'
    exact le_of_mul_le_mul_left this p.bb

theorem dpl_web (p : Proper d) (h : ¬ d.At ≥ d.area / 2) (h' : ¬ d.Ab ≥ d.area / 2) :
    d.tb ≤ d.dpl ∧ d.dpl ≤ d.h - d.tt ∧ d.tw * (d.dpl - d.tb) = d.area / 2 - d.Ab := by
  have e : d.tw * (d.dpl - d.tb) = d.area / 2 - d.Ab := by
    rw [Dims.dpl, if_neg h, if_neg h']
    field_simp [p.tw.ne']
    ring
  refine ⟨?_, ?_, e⟩
  · have : 0 < d.tw * (d.dpl - d.tb) := by
      rw [e]
      linarith [not_le.1 h']
    linarith [(mul_pos_iff_of_pos_left p.tw).1 this]
  · have : d.tw * (d.dpl - d.tb) ≤ d.tw * d.hw := by
      rw [e]
      have a := not_le.1 h
      simp only [Dims.area, Dims.Aw] at *
      linarith
    have := le_of_mul_le_mul_left this p.tw
    simp only [Dims.hw] at this
    linarith

theorem plastic_eq (p : Proper d) : planeMoment (shape d) (fun z => |z - d.dpl|) = d.WplY := by
  have hh := p.h
  have htt := p.tt
  have htb := p.tb
  rw [moment p (by fun_prop)]
  by_cases h : d.At ≥ d.area / 2
  · obtain ⟨a, b, _⟩ := dpl_top p h
    rw [Dims.WplY, if_pos h, integral_abs_below (by linarith) (by linarith), integral_abs_below (by linarith) (by linarith), integral_abs_across (by linarith) (by linarith)]
    simp only [Dims.Aw, Dims.Ab, Dims.hw]
    ring
  by_cases h' : d.Ab ≥ d.area / 2
  · obtain ⟨a, b, _⟩ := dpl_bottom p h h'
    rw [Dims.WplY, if_neg h, if_pos h', integral_abs_across (by linarith) (by linarith), integral_abs_above (by linarith) (by linarith), integral_abs_above (by linarith) (by linarith)]
    simp only [Dims.Aw, Dims.At, Dims.hw]
    ring
  · obtain ⟨a, b, _⟩ := dpl_web p h h'
    rw [Dims.WplY, if_neg h, if_neg h', integral_abs_below (by linarith) (by linarith), integral_abs_across (by linarith) (by linarith), integral_abs_above (by linarith) (by linarith)]
    simp only [Dims.At, Dims.Ab]
    ring


theorem halves (p : Proper d) : planeMoment (below (shape d) d.dpl) (fun _ => 1) = d.area / 2 ∧ planeMoment (above (shape d) d.dpl) (fun _ => 1) = d.area / 2 := by
  have hh := p.h
  have htt := p.tt
  have htb := p.tb
  rw [shape, area_below (plates_ok p), area_above (plates_ok p)]
  simp only [plates, List.map_cons, List.map_nil, List.sum_cons, List.sum_nil]
  have hA : d.area = (d.h - d.tt - d.tb) * d.tw + d.bt * d.tt + d.bb * d.tb := rfl
  by_cases h : d.At ≥ d.area / 2
  · obtain ⟨a, b, e⟩ := dpl_top p h
    rw [min_eq_left (a := d.tb) (by linarith), min_eq_left (a := d.h - d.tt) (by linarith), min_eq_right (a := d.h) (by linarith),
      max_eq_left (a := d.tb - 0) (by linarith), max_eq_left (a := d.h - d.tt - d.tb) (by linarith), max_eq_left (a := d.dpl - (d.h - d.tt)) (by linarith),
      max_eq_right (a := (0:ℝ)) (b := d.dpl) (by linarith), max_eq_right (a := d.tb) (b := d.dpl) (by linarith), max_eq_right (a := d.h - d.tt) (b := d.dpl) (by linarith),
      max_eq_right (a := d.tb - d.dpl) (by linarith), max_eq_right (a := d.h - d.tt - d.dpl) (by linarith), max_eq_left (a := d.h - d.dpl) (by linarith)]
    constructor <;> linarith
  by_cases h' : d.Ab ≥ d.area / 2
  · obtain ⟨a, b, e⟩ := dpl_bottom p h h'
    rw [min_eq_right (a := d.tb) (by linarith), min_eq_right (a := d.h - d.tt) (by linarith), min_eq_right (a := d.h) (by linarith),
      max_eq_left (a := d.dpl - 0) (by linarith), max_eq_right (a := d.dpl - d.tb) (by linarith), max_eq_right (a := d.dpl - (d.h - d.tt)) (by linarith),
      max_eq_right (a := (0:ℝ)) (b := d.dpl) (by linarith), max_eq_left (a := d.tb) (b := d.dpl) (by linarith), max_eq_left (a := d.h - d.tt) (b := d.dpl) (by linarith),
      max_eq_left (a := d.tb - d.dpl) (by linarith), max_eq_left (a := d.h - d.tt - d.tb) (by linarith), max_eq_left (a := d.h - (d.h - d.tt)) (by linarith)]
    constructor <;> linarith
  · obtain ⟨a, b, e⟩ := dpl_web p h h'
    have hAb : d.Ab = d.bb * d.tb := rfl
    rw [min_eq_left (a := d.tb) (by linarith), min_eq_right (a := d.h - d.tt) (by linarith), min_eq_right (a := d.h) (by linarith),
      max_eq_left (a := d.tb - 0) (by linarith), max_eq_left (a := d.dpl - d.tb) (by linarith), max_eq_right (a := d.dpl - (d.h - d.tt)) (by linarith),
      max_eq_right (a := (0:ℝ)) (b := d.dpl) (by linarith), max_eq_right (a := d.tb) (b := d.dpl) (by linarith), max_eq_left (a := d.h - d.tt) (b := d.dpl) (by linarith),
      max_eq_right (a := d.tb - d.dpl) (by linarith), max_eq_left (a := d.h - d.tt - d.dpl) (by linarith), max_eq_left (a := d.h - (d.h - d.tt)) (by linarith)]
    constructor <;> linarith

/-- The neutral axis lies inside the section. -/
theorem zel_mem (p : Proper d) : 0 < d.zel ∧ d.zel < d.h := by
  have hA := p.area
  have h1 := p.h
  have h2 := p.tt
  have h3 := p.tb
  have e : d.area * d.zel = d.zb * d.Ab + d.zw * d.Aw + d.zt * d.At := by
    rw [Dims.zel]
    field_simp [hA.ne']
  have zb : 0 < d.zb ∧ d.zb < d.h := by
    simp only [Dims.zb]
    constructor <;> linarith
  have zw : 0 < d.zw ∧ d.zw < d.h := by
    simp only [Dims.zw, Dims.hw]
    constructor <;> linarith
  have zt : 0 < d.zt ∧ d.zt < d.h := by
    simp only [Dims.zt]
    constructor <;> linarith
  have q1 := mul_pos zb.1 p.Ab
  have q2 := mul_pos zw.1 p.Aw
  have q3 := mul_pos zt.1 p.At
  have r1 := mul_lt_mul_of_pos_right zb.2 p.Ab
  have r2 := mul_lt_mul_of_pos_right zw.2 p.Aw
  have r3 := mul_lt_mul_of_pos_right zt.2 p.At
  constructor
  · exact (mul_pos_iff_of_pos_left hA).1 (by rw [e]; linarith)
  · refine lt_of_mul_lt_mul_left (a := d.area) ?_ hA.le
    rw [e]
    have : d.area * d.h = d.h * d.Ab + d.h * d.Aw + d.h * d.At := by
      rw [Dims.area]
      ring
    linarith

/-- Largest distance of a point of the section from the height `c`. -/
def Reach (S : Set (ℝ × ℝ)) (c m : ℝ) : Prop := IsGreatest {x | ∃ p ∈ S, x = |p.2 - c|} m

theorem reach_y (p : Proper d) : Reach (shape d) d.zel (max d.zel (d.h - d.zel)) := by
  obtain ⟨z0, z1⟩ := zel_mem p
  have h1 := p.h
  have h2 := p.tt
  have h3 := p.tb
  constructor
  · rcases le_total d.zel (d.h - d.zel) with q | q
    · refine ⟨(0, d.h), ⟨_, List.mem_cons_of_mem _ (List.mem_cons_of_mem _ List.mem_cons_self), ?_, ?_, ?_, le_rfl⟩, ?_⟩
      · show -(d.bt / 2) ≤ 0
        linarith [p.bt]
      · show 0 ≤ d.bt / 2
        linarith [p.bt]
      · show d.h - d.tt ≤ d.h
        linarith
      · rw [max_eq_right q, abs_of_nonneg (by simp only; linarith)]
    · refine ⟨(0, 0), ⟨_, List.mem_cons_self, ?_, ?_, le_rfl, ?_⟩, ?_⟩
      · show -(d.bb / 2) ≤ 0
        linarith [p.bb]
      · show 0 ≤ d.bb / 2
        linarith [p.bb]
      · show 0 ≤ d.tb
        linarith
      · rw [max_eq_left q]
        simp only [zero_sub, abs_neg]
        rw [abs_of_pos z0]
  · rintro x ⟨⟨y, z⟩, ⟨r, hr, -, -, a, b⟩, rfl⟩
    simp only at a b
    have hz : 0 ≤ z ∧ z ≤ d.h := by
      simp only [plates, List.mem_cons, List.not_mem_nil, or_false] at hr
      rcases hr with rfl | rfl | rfl <;> simp only at a b <;> constructor <;> linarith
    rw [abs_le]
    constructor
    · linarith [le_max_left d.zel (d.h - d.zel), hz.1]
    · exact le_trans (by simp only; linarith [hz.2]) (le_max_right _ _)

theorem reach_z (p : Proper d) (hw : d.tw ≤ max d.bt d.bb) : Reach (flipped (shape d)) 0 (1 / 2 * max d.bt d.bb) := by
  have h1 := p.h
  constructor
  · rcases le_total d.bt d.bb with q | q
    · refine ⟨(0, d.bb / 2), ⟨_, List.mem_cons_self, ?_, le_rfl, le_rfl, p.tb.le⟩, ?_⟩
      · show -(d.bb / 2) ≤ d.bb / 2
        linarith [p.bb]
      · rw [max_eq_right q, sub_zero, abs_of_pos (by linarith [p.bb])]
        simp only
        ring
    · refine ⟨(d.h, d.bt / 2), ⟨_, List.mem_cons_of_mem _ (List.mem_cons_of_mem _ List.mem_cons_self), ?_, le_rfl, ?_, le_rfl⟩, ?_⟩
      · show -(d.bt / 2) ≤ d.bt / 2
        linarith [p.bt]
      · show d.h - d.tt ≤ d.h
        linarith [p.tt]
      · rw [max_eq_left q, sub_zero, abs_of_pos (by linarith [p.bt])]
        simp only
        ring
  · rintro x ⟨⟨z, y⟩, ⟨r, hr, a, b, -, -⟩, rfl⟩
    simp only at a b
    have m1 := le_max_left d.bt d.bb
    have m2 := le_max_right d.bt d.bb
    rw [sub_zero, abs_le]
    simp only [plates, List.mem_cons, List.not_mem_nil, or_false] at hr
    rcases hr with rfl | rfl | rfl <;> simp only at a b ⊢ <;> constructor <;> linarith

/-- **C200.** Section properties of a welded I-section with plates of any positive size. The area, the height of the centroid, the second moments of area, the plastic neutral axis and the
    plastic section moduli are exactly those of the plane figure made of the three plates, and the elastic section moduli are the second moments over the distance to the most distant point. -/
theorem C200 (p : Proper d) (hw : d.tw ≤ max d.bt d.bb) :
    planeMoment (shape d) (fun _ => 1) = d.area ∧
    planeMoment (shape d) (fun z => z - d.zel) = 0 ∧
    planeMoment (shape d) (fun z => (z - d.zel) ^ 2) = d.Iy ∧
    planeMoment (flipped (shape d)) (fun y => y ^ 2) = d.Iz ∧
    (∃ m, Reach (shape d) d.zel m ∧ 0 < m ∧ d.WelY = planeMoment (shape d) (fun z => (z - d.zel) ^ 2) / m) ∧
    (∃ m, Reach (flipped (shape d)) 0 m ∧ 0 < m ∧ d.WelZ = planeMoment (flipped (shape d)) (fun y => y ^ 2) / m) ∧
    planeMoment (below (shape d) d.dpl) (fun _ => 1) = planeMoment (above (shape d) d.dpl) (fun _ => 1) ∧
    planeMoment (shape d) (fun z => |z - d.dpl|) = d.WplY ∧
    planeMoment (flipped (shape d)) (fun y => |y|) = d.WplZ := by
  refine ⟨area_eq p, ?_, second_eq p, secondV_eq p, ⟨_, reach_y p, ?_, ?_⟩, ⟨_, reach_z p hw, ?_, ?_⟩, ?_, plastic_eq p, plasticV_eq p⟩
  · rw [centroid p, sub_self, mul_zero]
  · exact lt_max_of_lt_left (zel_mem p).1
  · rw [second_eq p, Dims.WelY]
  · have := lt_max_of_lt_left (b := d.bt) (c := d.bb) p.bt
    linarith
  · rw [secondV_eq p, Dims.WelZ]
  · rw [(halves p).1, (halves p).2]

/-- A section with unequal flanges whose plastic neutral axis lies in the web. -/
noncomputable def beam : Dims := ⟨500, 300, 250, 10, 15, 8, 5, 355⟩

theorem beam_proper : Proper beam := by
  constructor <;> norm_num [beam]

example : planeMoment (shape beam) (fun _ => 1) = 10550 := by
  rw [(C200 beam_proper (by norm_num [beam])).1]
  norm_num [beam, Dims.area, Dims.Aw, Dims.At, Dims.Ab, Dims.hw]

/-! ### Plastic and elastic moduli -/

theorem elastic_le_plastic_y (p : Proper d) : d.WelY ≤ d.WplY := by
  obtain ⟨z0, z1⟩ := zel_mem p
  have hm : 0 < max d.zel (d.h - d.zel) := lt_max_of_lt_left z0
  rw [Dims.WelY, div_le_iff₀ hm, ← second_eq p, ← plastic_eq p, mul_comm, shape, ← moment_smul (plates_ok p) (by fun_prop)]
  have e : planeMoment (region (plates d.h d.bt d.bb d.tt d.tb d.tw)) (fun z => (z - d.zel) ^ 2) =
      planeMoment (region (plates d.h d.bt d.bb d.tt d.tb d.tw)) (fun z => (z - d.zel) ^ 2 + (d.zel - d.dpl) * (z - d.zel)) := by
    rw [moment_add (plates_ok p) (by fun_prop) (by fun_prop), moment_smul (plates_ok p) (by fun_prop)]
    have := centroid p d.zel
    rw [shape] at this
    rw [this, sub_self, mul_zero, mul_zero, add_zero]
  rw [e]
  refine moment_mono (plates_ok p) (by fun_prop) (by fun_prop) fun r hr z a b => ?_
  have hz : 0 ≤ z ∧ z ≤ d.h := by
    have h1 := p.h
    have h2 := p.tt
    have h3 := p.tb
    simp only [plates, List.mem_cons, List.not_mem_nil, or_false] at hr
    rcases hr with rfl | rfl | rfl <;> simp only at a b <;> constructor <;> linarith
  have k : |z - d.zel| ≤ max d.zel (d.h - d.zel) := by
    rw [abs_le]
    constructor
    · linarith [le_max_left d.zel (d.h - d.zel), hz.1]
    · exact le_trans (by linarith [hz.2]) (le_max_right _ _)
  calc (z - d.zel) ^ 2 + (d.zel - d.dpl) * (z - d.zel) = (z - d.zel) * (z - d.dpl) := by ring
    _ ≤ |z - d.zel| * |z - d.dpl| := by
      rw [← abs_mul]
      exact le_abs_self _
    _ ≤ _ := mul_le_mul_of_nonneg_right k (abs_nonneg _)

theorem elastic_le_plastic_z (p : Proper d) (hw : d.tw ≤ max d.bt d.bb) : d.WelZ ≤ d.WplZ := by
  have hm : 0 < 1 / 2 * max d.bt d.bb := by
    have := lt_max_of_lt_left (b := d.bt) (c := d.bb) p.bt
    linarith
  rw [Dims.WelZ, div_le_iff₀ hm, ← secondV_eq p, ← plasticV_eq p, mul_comm, shape, flipped_region, ← moment_smul (plates_swap (plates_ok p)) (by fun_prop)]
  refine moment_mono (plates_swap (plates_ok p)) (by fun_prop) (by fun_prop) fun r hr z a b => ?_
  have k : |z| ≤ 1 / 2 * max d.bt d.bb := by
    have m1 := le_max_left d.bt d.bb
    have m2 := le_max_right d.bt d.bb
    rw [abs_le]
    simp only [plates, List.map_cons, List.map_nil, Rect.swap, List.mem_cons, List.not_mem_nil, or_false] at hr
    rcases hr with rfl | rfl | rfl <;> simp only at a b <;> constructor <;> linarith
  calc z ^ 2 = |z| * |z| := by rw [← sq, sq_abs]
    _ ≤ _ := mul_le_mul_of_nonneg_right k (abs_nonneg _)

theorem Iy_pos (p : Proper d) : 0 < d.Iy := by
  have h1 := p.bb
  have h2 := p.tb
  have h3 := p.tw
  have h4 := p.hw
  have h5 := p.bt
  have h6 := p.tt
  have h7 := p.Ab
  have h8 := p.Aw
  have h9 := p.At
  unfold Dims.Iy
  positivity

theorem Iz_pos (p : Proper d) : 0 < d.Iz := by
  have h1 := p.bb
  have h2 := p.tb
  have h3 := p.tw
  have h4 := p.hw
  have h5 := p.bt
  have h6 := p.tt
  unfold Dims.Iz
  positivity

/-- **C201.** Moment resistances. For either axis the resistance of a class 1 or 2 section is the same and at least the elastic one of class 3, which is positive; the resistance of
    class 3 is the moment at which the most stressed fibre of the elastic section reaches the yield strength. -/
theorem C201 (p : Proper d) (hw : d.tw ≤ max d.bt d.bb) (hf : 0 < d.fy) (s : Eff) (a : Ax) :
    ∃ Mpl Mel, bending d s 1 a = .ok (s, Mpl) ∧ bending d s 2 a = .ok (s, Mpl) ∧ bending d s 3 a = .ok (s, Mel) ∧ 0 < Mel ∧ Mel ≤ Mpl ∧
    (a = .y → ∀ q ∈ shape d, |Mel / d.Iy * (q.2 - d.zel)| ≤ d.fy) ∧ (a = .y → ∃ q ∈ shape d, |Mel / d.Iy * (q.2 - d.zel)| = d.fy) ∧
    (a = .z → ∀ q ∈ shape d, |Mel / d.Iz * q.1| ≤ d.fy) ∧ (a = .z → ∃ q ∈ shape d, |Mel / d.Iz * q.1| = d.fy) := by
  have hy := Iy_pos p
  have hz := Iz_pos p
  have my : 0 < max d.zel (d.h - d.zel) := lt_max_of_lt_left (zel_mem p).1
  have mz : 0 < 1 / 2 * max d.bt d.bb := by
    have := lt_max_of_lt_left (b := d.bt) (c := d.bb) p.bt
    linarith
  have stress : ∀ {I m M : ℝ} (x : ℝ), 0 < I → 0 < m → M = I / m * d.fy / Ec3.gammaM0 → |M / I * x| = d.fy / m * |x| := by
    intro I m M x hI hm e
    rw [e, Ec3.gammaM0, div_one, abs_mul]
    congr 1
    rw [abs_of_pos (by positivity)]
    field_simp [hI.ne']
  cases a with
  | y =>
    refine ⟨d.WplY * d.fy / Ec3.gammaM0, d.WelY * d.fy / Ec3.gammaM0, rfl, rfl, rfl, ?_, ?_, fun _ => ?_, fun _ => ?_, fun q => (by cases q), fun q => (by cases q)⟩
    · show 0 < d.WelY * d.fy / Ec3.gammaM0
      rw [Ec3.gammaM0, div_one]
      exact mul_pos (div_pos hy my) hf
    · show d.WelY * d.fy / Ec3.gammaM0 ≤ d.WplY * d.fy / Ec3.gammaM0
      rw [Ec3.gammaM0, div_one, div_one]
      exact mul_le_mul_of_nonneg_right (elastic_le_plastic_y p) hf.le
    · intro q hq
      rw [stress (m := max d.zel (d.h - d.zel)) (M := d.WelY * d.fy / Ec3.gammaM0) _ hy my rfl]
      have := (reach_y p).2 ⟨q, hq, rfl⟩
      calc d.fy / max d.zel (d.h - d.zel) * |q.2 - d.zel| ≤ d.fy / max d.zel (d.h - d.zel) * max d.zel (d.h - d.zel) := mul_le_mul_of_nonneg_left this (by positivity)
        _ = d.fy := div_mul_cancel₀ _ my.ne'
    · obtain ⟨q, hq, e⟩ := (reach_y p).1
      refine ⟨q, hq, ?_⟩
      rw [stress (m := max d.zel (d.h - d.zel)) (M := d.WelY * d.fy / Ec3.gammaM0) _ hy my rfl, ← e]
      exact div_mul_cancel₀ _ my.ne'
  | z =>
    refine ⟨d.WplZ * d.fy / Ec3.gammaM0, d.WelZ * d.fy / Ec3.gammaM0, rfl, rfl, rfl, ?_, ?_, fun q => (by cases q), fun q => (by cases q), fun _ => ?_, fun _ => ?_⟩
    · show 0 < d.WelZ * d.fy / Ec3.gammaM0
      rw [Ec3.gammaM0, div_one]
      exact mul_pos (div_pos hz mz) hf
    · show d.WelZ * d.fy / Ec3.gammaM0 ≤ d.WplZ * d.fy / Ec3.gammaM0
      rw [Ec3.gammaM0, div_one, div_one]
      exact mul_le_mul_of_nonneg_right (elastic_le_plastic_z p hw) hf.le
    · intro q hq
      rw [stress (m := 1 / 2 * max d.bt d.bb) (M := d.WelZ * d.fy / Ec3.gammaM0) _ hz mz rfl]
      have := (reach_z p hw).2 ⟨(q.2, q.1), hq, rfl⟩
      rw [sub_zero] at this
      calc d.fy / (1 / 2 * max d.bt d.bb) * |q.1| ≤ d.fy / (1 / 2 * max d.bt d.bb) * (1 / 2 * max d.bt d.bb) := mul_le_mul_of_nonneg_left this (by positivity)
        _ = d.fy := div_mul_cancel₀ _ mz.ne'
    · obtain ⟨q, hq, e⟩ := (reach_z p hw).1
      refine ⟨(q.2, q.1), hq, ?_⟩
      rw [stress (m := 1 / 2 * max d.bt d.bb) (M := d.WelZ * d.fy / Ec3.gammaM0) _ hz mz rfl]
      rw [sub_zero] at e
      simp only
      rw [← e]
      exact div_mul_cancel₀ _ mz.ne'

example : ∃ Mpl Mel, bending beam (Eff.fresh beam) 2 .y = .ok (Eff.fresh beam, Mpl) ∧ bending beam (Eff.fresh beam) 3 .y = .ok (Eff.fresh beam, Mel) ∧ Mel ≤ Mpl := by
  obtain ⟨a, b, -, h2, h3, -, h5, -⟩ := C201 beam_proper (by norm_num [beam]) (by norm_num [beam]) (Eff.fresh beam) .y
  exact ⟨a, b, h2, h3, h5⟩

end Metku.WI
