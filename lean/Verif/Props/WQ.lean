import Verif.Model.WQ
import Verif.Props.WeldedISym

/-! Properties C210, C211: section properties and checks of WQ sections. -/
namespace Metku.WQ

open Metku.SectionSpec Metku.Ec3 Metku.Steel

/-- The plates of a WQ section, drawn as in `draw` (wq.py 316-326) with the axis of symmetry at `y = 0`: the bottom flange, the two webs on it, and the top flange between the webs. -/
noncomputable def plates (h bt bb tt tb tw : ℝ) : List Rect :=
  [⟨-(bb / 2), bb / 2, 0, tb⟩, ⟨-(bt / 2) - tw, -(bt / 2), tb, tb + h⟩, ⟨bt / 2, bt / 2 + tw, tb, tb + h⟩, ⟨-(bt / 2), bt / 2, tb + h - tt, tb + h⟩]

/-- The section as a plane set. -/
def shape (d : Dims) : Set (ℝ × ℝ) := region (plates d.h d.bt d.bb d.tt d.tb d.tw)

/-- All plates have positive dimensions and the webs stand on the bottom flange. -/
structure Proper (d : Dims) : Prop where
  bt : 0 < d.bt
  tt : 0 < d.tt
  tb : 0 < d.tb
  tw : 0 < d.tw
  h : d.tt < d.h
  lip : d.bt + 2 * d.tw ≤ d.bb

variable {d : Dims}

theorem Proper.bb (p : Proper d) : 0 < d.bb := by
  linarith [p.bt, p.tw, p.lip]

theorem Proper.h0 (p : Proper d) : 0 < d.h := p.tt.trans p.h
theorem Proper.Aw (p : Proper d) : 0 < d.Aw := mul_pos p.h0 p.tw
theorem Proper.At (p : Proper d) : 0 < d.At := mul_pos p.bt p.tt
theorem Proper.Ab (p : Proper d) : 0 < d.Ab := mul_pos p.bb p.tb

theorem Proper.area (p : Proper d) : 0 < d.area := by
  unfold Dims.area
  linarith [p.Aw, p.At, p.Ab]

theorem plates_ok (p : Proper d) : Plates (plates d.h d.bt d.bb d.tt d.tb d.tw) := by
  have := p.h
  have := p.tt
  constructor
  · intro r hr
    simp only [plates, List.mem_cons, List.not_mem_nil, or_false] at hr
    rcases hr with rfl | rfl | rfl | rfl
    · exact ⟨by simp only; linarith [p.bb], p.tb.le⟩
    · exact ⟨by simp only; linarith [p.tw], by simp only; linarith⟩
    · exact ⟨by simp only; linarith [p.tw], by simp only; linarith⟩
    · exact ⟨by simp only; linarith [p.bt], by simp only; linarith [p.tt]⟩
  · simp only [plates, List.pairwise_cons, List.mem_cons, List.not_mem_nil, or_false, forall_eq_or_imp, forall_eq, Rect.Apart]
    refine ⟨⟨Or.inr (Or.inr (Or.inl le_rfl)), Or.inr (Or.inr (Or.inl le_rfl)), Or.inr (Or.inr (Or.inl (by linarith)))⟩,
      ⟨Or.inl (by linarith [p.bt]), Or.inl le_rfl⟩, Or.inr (Or.inl le_rfl), ?_⟩
    simp

theorem moment (p : Proper d) {f : ℝ → ℝ} (hf : Continuous f) :
    planeMoment (shape d) f = d.bb * (∫ z in (0:ℝ)..d.tb, f z) + 2 * d.tw * (∫ z in d.tb..(d.tb + d.h), f z) + d.bt * ∫ z in (d.tb + d.h - d.tt)..(d.tb + d.h), f z := by
  rw [shape, region_moment (plates_ok p) hf]
  simp only [plates, List.map_cons, List.map_nil, List.sum_cons, List.sum_nil]
  ring

theorem momentV (p : Proper d) {f : ℝ → ℝ} (hf : Continuous f) :
    planeMoment (flipped (shape d)) f = d.tb * (∫ y in (-(d.bb / 2))..(d.bb / 2), f y) +
      d.h * ((∫ y in (-(d.bt / 2) - d.tw)..(-(d.bt / 2)), f y) + ∫ y in (d.bt / 2)..(d.bt / 2 + d.tw), f y) + d.tt * ∫ y in (-(d.bt / 2))..(d.bt / 2), f y := by
  rw [shape, region_momentV (plates_ok p) hf]
  simp only [plates, List.map_cons, List.map_nil, List.sum_cons, List.sum_nil]
  ring

/-- Height of the centroid. -/
noncomputable def centre (d : Dims) : ℝ := d.zel + d.zw * d.Aw / d.area

theorem centroid (p : Proper d) (c : ℝ) : planeMoment (shape d) (fun z => z - c) = d.area * (centre d - c) := by
  have e : d.area * centre d = d.zb * d.Ab + 2 * (d.zw * d.Aw) + d.zt * d.At := by
    rw [centre, Dims.zel]
    field_simp [p.area.ne']
    ring
  rw [mul_sub, e, moment p (by fun_prop)]
  simp only [integral_sub_lin, Dims.area, Dims.Aw, Dims.At, Dims.Ab, Dims.zb, Dims.zw, Dims.zt]
  ring

theorem area_eq (p : Proper d) : planeMoment (shape d) (fun _ => 1) = d.area := by
  rw [moment p continuous_const]
  simp only [intervalIntegral.integral_const, smul_eq_mul, Dims.area, Dims.Aw, Dims.At, Dims.Ab]
  ring

theorem second_at (p : Proper d) (c : ℝ) : planeMoment (shape d) (fun z => (z - c) ^ 2) =
    1 / 12 * d.bb * d.tb ^ 3 + (c - d.zb) ^ 2 * d.Ab + 1 / 6 * d.tw * d.h ^ 3 + (c - d.zw) ^ 2 * 2 * d.Aw + 1 / 12 * d.bt * d.tt ^ 3 + (c - d.zt) ^ 2 * d.At := by
  rw [moment p (by fun_prop)]
  simp only [integral_sq_sub, Dims.Aw, Dims.At, Dims.Ab, Dims.zb, Dims.zw, Dims.zt]
  ring

/-- Steiner's theorem for the axis used by the code. -/
theorem steiner (p : Proper d) : d.Iy = planeMoment (shape d) (fun z => (z - centre d) ^ 2) + d.area * (centre d - d.zel) ^ 2 := by
  have e : d.area * centre d = d.zb * d.Ab + 2 * (d.zw * d.Aw) + d.zt * d.At := by
    rw [centre, Dims.zel]
    field_simp [p.area.ne']
    ring
  rw [second_at p, Dims.Iy]
  have hA : d.area = 2 * d.Aw + d.At + d.Ab := rfl
  rw [hA] at e ⊢
  linear_combination (2 * d.zel - 2 * centre d) * e

theorem secondV_eq (p : Proper d) : planeMoment (flipped (shape d)) (fun y => y ^ 2) = d.Iz := by
  rw [momentV p (by fun_prop)]
  simp only [integral_pow, Dims.Iz, Dims.Aw]
  norm_num
  ring

theorem plasticV_eq (p : Proper d) : planeMoment (flipped (shape d)) (fun y => |y|) = d.WplZ := by
  rw [momentV p (by fun_prop)]
  have h1 := p.bt
  have h2 := p.tw
  have e1 : ∀ {b : ℝ}, 0 < b → ∫ y in (-(b / 2))..(b / 2), |y| = b ^ 2 / 4 := by
    intro b hb
    have := integral_abs_across (a := -(b / 2)) (b := b / 2) (c := 0) (by linarith) (by linarith)
    simp only [sub_zero] at this
    rw [this]
    ring
  have e2 := integral_abs_below (a := -(d.bt / 2) - d.tw) (b := -(d.bt / 2)) (c := 0) (by linarith) (by linarith)
  have e3 := integral_abs_above (a := d.bt / 2) (b := d.bt / 2 + d.tw) (c := 0) (by linarith) (by linarith)
  simp only [sub_zero] at e2 e3
  rw [e1 p.bb, e1 p.bt, e2, e3, Dims.WplZ, Dims.Ab, Dims.At, Dims.Aw]
  ring

/-- Height of the plastic neutral axis above the bottom of the section. -/
noncomputable def zpl (d : Dims) : ℝ := d.tb + d.hw - d.dpl

theorem dpl_eq (p : Proper d) : 4 * d.tw * d.dpl = 2 * d.tw * (d.hw - d.tt) - (d.At - d.Ab) := by
  rw [Dims.dpl]
  field_simp [p.tw.ne']
  ring

theorem halves (p : Proper d) (h0 : 0 ≤ d.dpl) (h1 : d.dpl ≤ d.hw) :
    planeMoment (below (shape d) (zpl d)) (fun _ => 1) = d.area / 2 ∧ planeMoment (above (shape d) (zpl d)) (fun _ => 1) = d.area / 2 := by
  have hh := p.h
  have htt := p.tt
  have htb := p.tb
  have e := dpl_eq p
  rw [shape, area_below (plates_ok p), area_above (plates_ok p)]
  simp only [plates, List.map_cons, List.map_nil, List.sum_cons, List.sum_nil]
  have hz : zpl d = d.tb + (d.h - d.tt) - d.dpl := rfl
  have hw : d.hw = d.h - d.tt := rfl
  rw [hw] at e h1
  rw [min_eq_left (a := d.tb) (by linarith), min_eq_right (a := d.tb + d.h) (by linarith),
    max_eq_left (a := d.tb - 0) (by linarith), max_eq_left (a := zpl d - d.tb) (by linarith), max_eq_right (a := zpl d - (d.tb + d.h - d.tt)) (by linarith),
    max_eq_right (a := (0:ℝ)) (b := zpl d) (by linarith), max_eq_right (a := d.tb) (b := zpl d) (by linarith), max_eq_left (a := d.tb + d.h - d.tt) (b := zpl d) (by linarith),
    max_eq_right (a := d.tb - zpl d) (by linarith), max_eq_left (a := d.tb + d.h - zpl d) (by linarith), max_eq_left (a := d.tb + d.h - (d.tb + d.h - d.tt)) (by linarith), hz]
  simp only [Dims.area, Dims.Aw, Dims.At, Dims.Ab] at e ⊢
  constructor <;> linarith

theorem plastic_eq (p : Proper d) (h0 : 0 ≤ d.dpl) (h1 : d.dpl ≤ d.hw) : planeMoment (shape d) (fun z => |z - zpl d|) = d.WplY := by
  have hh := p.h
  have htt := p.tt
  have htb := p.tb
  have hz : zpl d = d.tb + (d.h - d.tt) - d.dpl := rfl
  have hw : d.hw = d.h - d.tt := rfl
  rw [moment p (by fun_prop), Dims.WplY, if_neg (not_lt.2 h0), if_neg (not_lt.2 h1)]
  rw [hw] at h1 ⊢
  rw [integral_abs_below (by linarith) (by linarith), integral_abs_across (by linarith) (by linarith), integral_abs_above (by linarith) (by linarith), hz]
  simp only [Dims.At, Dims.Ab]
  ring

/-- Corners of the outer outline, anticlockwise from the left end of the bottom. -/
noncomputable def outline (d : Dims) : List (ℝ × ℝ) :=
  [(-(d.bb / 2), 0), (d.bb / 2, 0), (d.bb / 2, d.tb), (d.bt / 2 + d.tw, d.tb), (d.bt / 2 + d.tw, d.tb + d.h), (-(d.bt / 2 + d.tw), d.tb + d.h), (-(d.bt / 2 + d.tw), d.tb), (-(d.bb / 2), d.tb)]

theorem outline_length (p : Proper d) : WI.polygonLength (outline d) = d.paintArea := by
  have horizontal : ∀ x y z : ℝ, √((y - x) ^ 2 + (z - z) ^ 2) = |y - x| := by
    intro x y z
    rw [sub_self, zero_pow two_ne_zero, add_zero, Real.sqrt_sq_eq_abs]
  have vertical : ∀ x y z : ℝ, √((z - z) ^ 2 + (y - x) ^ 2) = |y - x| := by
    intro x y z
    rw [sub_self, zero_pow two_ne_zero, zero_add, Real.sqrt_sq_eq_abs]
  simp only [WI.polygonLength, outline, List.rotate_cons_succ, List.rotate_zero, List.cons_append, List.nil_append, List.zip_cons_cons, List.zip_nil_left, List.map_cons, List.map_nil,
    List.sum_cons, List.sum_nil]
  rw [horizontal, vertical, horizontal, vertical, horizontal, vertical, horizontal, vertical]
  have := p.bt
  have := p.bb
  have := p.tt
  have := p.tb
  have := p.tw
  have := p.h
  have := p.lip
  rw [abs_of_nonneg (a := d.bb / 2 - -(d.bb / 2)) (by linarith), abs_of_nonneg (a := d.tb - 0) (by linarith), abs_of_nonpos (a := d.bt / 2 + d.tw - d.bb / 2) (by linarith),
    abs_of_nonneg (a := d.tb + d.h - d.tb) (by linarith), abs_of_nonpos (a := -(d.bt / 2 + d.tw) - (d.bt / 2 + d.tw)) (by linarith),
    abs_of_nonpos (a := d.tb - (d.tb + d.h)) (by linarith), abs_of_nonpos (a := -(d.bb / 2) - -(d.bt / 2 + d.tw)) (by linarith), abs_of_nonpos (a := 0 - d.tb) (by linarith)]
  simp only [Dims.paintArea, Dims.lip]
  ring

/-- The most distant point from the axis of symmetry is an end of the bottom flange. -/
theorem reach_z (p : Proper d) : WI.Reach (flipped (shape d)) 0 (1 / 2 * d.bb) := by
  have h1 := p.h
  have h2 := p.bt
  have h3 := p.tw
  have h4 := p.lip
  constructor
  · refine ⟨(0, d.bb / 2), ⟨_, List.mem_cons_self, ?_, le_rfl, le_rfl, p.tb.le⟩, ?_⟩
    · show -(d.bb / 2) ≤ d.bb / 2
      linarith [p.bb]
    · rw [sub_zero, abs_of_pos (by linarith [p.bb])]
      simp only
      ring
  · rintro x ⟨⟨z, y⟩, ⟨r, hr, a, b, -, -⟩, rfl⟩
    simp only at a b
    rw [sub_zero, abs_le]
    simp only [plates, List.mem_cons, List.not_mem_nil, or_false] at hr
    rcases hr with rfl | rfl | rfl | rfl <;> simp only at a b ⊢ <;> constructor <;> linarith

/-- **C210, partial.** The area, the second moment of area about the axis of symmetry with both of its moduli, and the circumference of a WQ section are those of the plane figure; so are the
    plastic neutral axis and the plastic modulus about the horizontal axis when the neutral axis lies between the flanges. Missing: the elastic axis and the quantities computed with it, and
    the plastic modulus when the neutral axis lies in a flange (see the violations). -/
theorem C210_partial (p : Proper d) :
    planeMoment (shape d) (fun _ => 1) = d.area ∧
    planeMoment (flipped (shape d)) (fun y => y ^ 2) = d.Iz ∧
    (∃ m, WI.Reach (flipped (shape d)) 0 m ∧ 0 < m ∧ d.WelZ = planeMoment (flipped (shape d)) (fun y => y ^ 2) / m) ∧
    planeMoment (flipped (shape d)) (fun y => |y|) = d.WplZ ∧
    WI.polygonLength (outline d) = d.paintArea ∧
    (0 ≤ d.dpl → d.dpl ≤ d.hw → ∃ z, z = d.tb + d.h - d.tt - d.dpl ∧ planeMoment (below (shape d) z) (fun _ => 1) = planeMoment (above (shape d) z) (fun _ => 1) ∧
      planeMoment (shape d) (fun x => |x - z|) = d.WplY) := by
  refine ⟨area_eq p, secondV_eq p, ⟨_, reach_z p, by linarith [p.bb], ?_⟩, plasticV_eq p, outline_length p, fun h0 h1 => ⟨zpl d, ?_, ?_, plastic_eq p h0 h1⟩⟩
  · rw [secondV_eq p, Dims.WelZ]
  · rw [zpl, Dims.hw]
    ring
  · rw [(halves p h0 h1).1, (halves p h0 h1).2]

/-- **C210 is violated by the elastic neutral axis**, which counts only one of the two webs: in every section it lies below the centroid, by the distance that the missing web makes, and the
    second moment of area about it exceeds the one about the centroid. -/
theorem C210_violation (p : Proper d) :
    0 < planeMoment (shape d) (fun z => z - d.zel) ∧ planeMoment (shape d) (fun z => z - (d.zel + (d.tb + d.h / 2) * (d.h * d.tw) / d.area)) = 0 ∧
    ∀ c, planeMoment (shape d) (fun z => z - c) = 0 → d.zel < c ∧ planeMoment (shape d) (fun z => (z - c) ^ 2) < d.Iy := by
  have hk : 0 < d.zw * d.Aw / d.area := by
    have : 0 < d.zw := by
      unfold Dims.zw
      linarith [p.tb, p.h0]
    exact div_pos (mul_pos this p.Aw) p.area
  have hc : centre d = d.zel + d.zw * d.Aw / d.area := rfl
  refine ⟨?_, ?_, fun c e => ?_⟩
  · rw [centroid p, hc, add_sub_cancel_left]
    exact mul_pos p.area hk
  · rw [centroid p, hc]
    unfold Dims.zw Dims.Aw
    have : (d.tb + 1 / 2 * d.h) * (d.h * d.tw) = (d.tb + d.h / 2) * (d.h * d.tw) := by ring
    rw [this, sub_self, mul_zero]
  · rw [centroid p] at e
    have e : centre d - c = 0 := (mul_eq_zero.1 e).resolve_left p.area.ne'
    have e : c = centre d := by linarith
    subst e
    refine ⟨by linarith, ?_⟩
    rw [steiner p]
    have : 0 < d.area * (centre d - d.zel) ^ 2 := mul_pos p.area (by
      rw [hc, add_sub_cancel_left]
      exact pow_pos hk 2)
    linarith

/-- **C210 is violated by the elastic modulus**, which takes the width of the bottom flange for its thickness: whenever the top is more distant than the bottom and the flange is wider than
    thick, the modulus is smaller than the second moment divided by the distance `h + tb - zel` of the top. -/
theorem C210_violation_modulus (p : Proper d) (h : d.zel ≤ d.h + d.tb - d.zel) (hb : d.tb < d.bb) : d.WelY < d.Iy / (d.h + d.tb - d.zel) := by
  have hI : 0 < d.Iy := by
    have h1 := p.bb
    have h2 := p.tb
    have h3 := p.tw
    have h4 := p.h0
    have h5 := p.bt
    have h6 := p.tt
    have h7 := p.Ab
    have h8 := p.Aw
    have h9 := p.At
    unfold Dims.Iy
    positivity
  have hz : 0 < d.zel := by
    have h1 : 0 < d.zb := by
      unfold Dims.zb
      linarith [p.tb]
    have h2 : 0 < d.zw := by
      unfold Dims.zw
      linarith [p.tb, p.h0]
    have h3 : 0 < d.zt := by
      unfold Dims.zt
      linarith [p.tb, p.h, p.tt]
    have := mul_pos h1 p.Ab
    have := mul_pos h2 p.Aw
    have := mul_pos h3 p.At
    exact div_pos (by linarith) p.area
  rw [Dims.WelY, max_eq_right (by linarith)]
  exact div_lt_div_of_pos_left hI (by linarith) (by linarith)

theorem plastic_pos (p : Proper d) (c : ℝ) : 0 < planeMoment (shape d) (fun z => |z - c|) := by
  have hb : ∀ {a b : ℝ}, a ≤ b → 0 ≤ ∫ z in a..b, |z - c| := fun h => intervalIntegral.integral_nonneg h fun _ _ => abs_nonneg _
  have hh := p.h0
  rw [moment p (by fun_prop)]
  have h1 := mul_nonneg p.bb.le (hb p.tb.le)
  have h3 := mul_nonneg p.bt.le (hb (a := d.tb + d.h - d.tt) (b := d.tb + d.h) (by linarith [p.tt]))
  have h2 : 0 < ∫ z in d.tb..(d.tb + d.h), |z - c| := by
    rcases le_total c d.tb with q | q
    · rw [integral_abs_above (by linarith) q]
      nlinarith
    · rcases le_total (d.tb + d.h) c with r | r
      · rw [integral_abs_below (by linarith) r]
        nlinarith
      · rw [integral_abs_across q r]
        nlinarith [sq_nonneg (d.h + 2 * (d.tb - c)), mul_pos hh hh]
  have := mul_pos (mul_pos two_pos p.tw) h2
  linarith

/-- **C210 is violated by the plastic modulus when the neutral axis lies in a flange**: it is zero, and with it the moment resistance of classes 1 and 2, although the modulus about any axis
    is positive. This happens whenever one flange has more area than the other and the webs together (without the parts of the
    webs beside the top flange). -/
theorem C210_violation_plastic (p : Proper d) (h : d.Ab > 2 * d.tw * d.h + d.At ∨ d.At > 2 * d.tw * (d.h - 2 * d.tt) + d.Ab) :
    d.WplY = 0 ∧ (∀ C < 3, bending d C .y = 0) ∧ ∀ c, 0 < planeMoment (shape d) (fun z => |z - c|) := by
  have e := dpl_eq p
  have hw : d.hw = d.h - d.tt := rfl
  have htw := p.tw
  have hW : d.WplY = 0 := by
    rw [Dims.WplY]
    rcases h with q | q
    · have : d.hw < d.dpl := by
        have : 4 * d.tw * d.hw < 4 * d.tw * d.dpl := by
          rw [e, hw]
          linarith
        exact lt_of_mul_lt_mul_left this (by linarith)
      split_ifs <;> rfl
    · have : d.dpl < 0 := by
        have : 4 * d.tw * d.dpl < 4 * d.tw * 0 := by
          rw [e, hw]
          linarith
        exact lt_of_mul_lt_mul_left this (by linarith)
      rw [if_pos this]
  refine ⟨hW, fun C hC => ?_, plastic_pos p⟩
  rw [bending, if_pos hC, bendingResistance]
  simp [Axis.of, hW]

/-- The section of the module's own example, wq.py 345. -/
noncomputable def sample : Dims := ⟨390, 200, 400, 20, 25, 10, 355⟩

theorem sample_proper : Proper sample := by
  constructor <;> norm_num [sample]

example : sample.area = 21800 ∧ 0 ≤ sample.dpl ∧ sample.dpl ≤ sample.hw := by
  refine ⟨?_, ?_, ?_⟩ <;> norm_num [sample, Dims.area, Dims.Aw, Dims.At, Dims.Ab, Dims.dpl, Dims.hw]

example : sample.zel ≤ sample.h + sample.tb - sample.zel ∧ sample.tb < sample.bb := by
  constructor <;> norm_num [sample, Dims.zel, Dims.area, Dims.Aw, Dims.At, Dims.Ab, Dims.zb, Dims.zt, Dims.zw]

example : Dims.WplY ⟨200, 200, 600, 10, 30, 6, 355⟩ = 0 :=
  (C210_violation_plastic (by constructor <;> norm_num) (Or.inl (by norm_num [Dims.Ab, Dims.At]))).1

/-! ### C211 -/

/-- **C211 is violated for every WQ section, load and axis**: the check of the cross-section raises a `TypeError`, because the constructor replaces the pair of shear areas by a number. With the
    pair put back by hand it still raises a `TypeError` for sections of class 1 and 2, because the interaction rule multiplies two lists. -/
theorem C211_violation (d : Dims) (N : ℝ) (Med Ved : ℝ × ℝ) (a : Axis) : check (Obj.new d) N Med Ved a = .error .typeError ∧
    (Proper d → 0 < d.fy → sectionClass d N Med.1 < 3 → 0 < d.WplY → ∀ A0 A1 : ℝ, 0 < A0 → 0 < A1 → check ⟨d, .inl [A0, A1]⟩ N Med Ved a = .error .typeError) := by
  refine ⟨rfl, fun p hf hC hW A0 A1 h0 h1 => ?_⟩
  have s3 : (0 : ℝ) < √3 := by norm_num
  have hN : compressionResistance d.area d.fy ≠ 0 := by
    rw [compressionResistance, Ec3.gammaM0, div_one]
    exact (mul_pos p.area hf).ne'
  have hV : ∀ A : ℝ, 0 < A → shearResistance A d.fy ≠ 0 := by
    intro A hA
    rw [shearResistance, Ec3.gammaM0, div_one]
    exact (div_pos (mul_pos hA hf) s3).ne'
  have hZ : 0 < d.WplZ := by
    have h1 := p.bb
    have h2 := p.bt
    have h3 := p.tw
    have h7 := p.Ab
    have h8 := p.Aw
    have h9 := p.At
    unfold Dims.WplZ
    positivity
  have hM : bending d (sectionClass d N Med.1) a ≠ 0 := by
    rw [bending, if_pos hC, bendingResistance, Ec3.gammaM0, div_one]
    cases a
    · exact (mul_pos hW hf).ne'
    · exact (mul_pos hZ hf).ne'
  cases a
  · simp only [check, Obj.ashearAt, bind, Except.bind, List.getElem?_cons_succ, List.getElem?_cons_zero, pyDiv, hN, hV A1 h1, hM, if_false, if_pos hC, momentAxial]
  · simp only [check, Obj.ashearAt, bind, Except.bind, List.getElem?_cons_zero, pyDiv, hN, hV A0 h0, hM, if_false, if_pos hC, momentAxial]

example : check ⟨sample, .inl [1, 1]⟩ 1000 (0, 0) (0, 0) .y = .error .typeError := by
  refine (C211_violation sample 1000 (0, 0) (0, 0) .y).2 sample_proper (by norm_num [sample]) ?_ ?_ 1 1 one_pos one_pos
  · rw [sectionClass, if_pos ⟨by norm_num, by norm_num⟩]
    norm_num
  · norm_num [Dims.WplY, sample, Dims.dpl, Dims.hw, Dims.At, Dims.Ab]

/-- **C211, partial.** The resistances themselves: for classes 1 and 2 the moment resistance about a neutral axis between the flanges is the plastic modulus of the plane figure times the
    yield strength, and the moment resistance about the axis of symmetry is that of the plane figure in every class. Missing: the check, and the elastic resistance about the horizontal axis. -/
theorem C211_partial (p : Proper d) :
    (∀ C < 3, 0 ≤ d.dpl → d.dpl ≤ d.hw → bending d C .y = planeMoment (shape d) (fun x => |x - (d.tb + d.h - d.tt - d.dpl)|) * d.fy) ∧
    (∀ C < 3, bending d C .z = planeMoment (flipped (shape d)) (fun y => |y|) * d.fy) ∧
    (∀ C ≥ 3, ∀ m, WI.Reach (flipped (shape d)) 0 m → bending d C .z = planeMoment (flipped (shape d)) (fun y => y ^ 2) / m * d.fy) := by
  obtain ⟨-, h1, ⟨m, hm, -, h2⟩, h3, -, h4⟩ := C210_partial p
  refine ⟨fun C hC a b => ?_, fun C hC => ?_, fun C hC m' hm' => ?_⟩
  · obtain ⟨z, rfl, -, e⟩ := h4 a b
    rw [e, bending, if_pos hC, bendingResistance, Ec3.gammaM0, div_one]
    rfl
  · rw [h3, bending, if_pos hC, bendingResistance, Ec3.gammaM0, div_one]
    rfl
  · rw [hm'.unique hm, ← h2, bending, if_neg (not_lt.2 hC), bendingResistance, Ec3.gammaM0, div_one]
    rfl

end Metku.WQ
