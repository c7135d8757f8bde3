import Verif.Props.WeldedI

/-! Properties C202-C204: outline, symmetry and editing of welded I-sections. -/
namespace Metku.WI

open Metku.SectionSpec

variable {d : Dims}

/-! ### Circumference -/

/-- Length of a closed polygon. -/
noncomputable def polygonLength (l : List (ℝ × ℝ)) : ℝ :=
  ((l.zip (l.rotate 1)).map fun e => √((e.2.1 - e.1.1) ^ 2 + (e.2.2 - e.1.2) ^ 2)).sum

/-- Corners of the outline of the section, anticlockwise from the left end of the bottom. -/
noncomputable def outline (d : Dims) : List (ℝ × ℝ) :=
  [(-(d.bb / 2), 0), (d.bb / 2, 0), (d.bb / 2, d.tb), (d.tw / 2, d.tb), (d.tw / 2, d.h - d.tt), (d.bt / 2, d.h - d.tt), (d.bt / 2, d.h), (-(d.bt / 2), d.h),
    (-(d.bt / 2), d.h - d.tt), (-(d.tw / 2), d.h - d.tt), (-(d.tw / 2), d.tb), (-(d.bb / 2), d.tb)]

theorem outline_length (p : Proper d) (h1 : d.tw ≤ d.bt) (h2 : d.tw ≤ d.bb) :
    polygonLength (outline d) = 2 * d.bt + 2 * d.bb + 2 * d.tt + 2 * d.tb + 2 * d.hw - 2 * d.tw := by
  have horizontal : ∀ x y z : ℝ, √((y - x) ^ 2 + (z - z) ^ 2) = |y - x| := by
    intro x y z
    rw [sub_self, zero_pow two_ne_zero, add_zero, Real.sqrt_sq_eq_abs]
  have vertical : ∀ x y z : ℝ, √((z - z) ^ 2 + (y - x) ^ 2) = |y - x| := by
    intro x y z
    rw [sub_self, zero_pow two_ne_zero, zero_add, Real.sqrt_sq_eq_abs]
  simp only [polygonLength, outline, List.rotate_cons_succ, List.rotate_zero, List.cons_append, List.nil_append, List.zip_cons_cons, List.zip_nil_left, List.map_cons, List.map_nil,
    List.sum_cons, List.sum_nil]
  rw [horizontal, vertical, horizontal, vertical, horizontal, vertical, horizontal, vertical, horizontal, vertical, horizontal, vertical]
  have := p.bt
  have := p.bb
  have := p.tt
  have := p.tb
  have := p.h
  rw [abs_of_nonneg (a := d.bb / 2 - -(d.bb / 2)) (by linarith), abs_of_nonneg (a := d.tb - 0) (by linarith), abs_of_nonpos (a := d.tw / 2 - d.bb / 2) (by linarith),
    abs_of_nonneg (a := d.h - d.tt - d.tb) (by linarith), abs_of_nonneg (a := d.bt / 2 - d.tw / 2) (by linarith), abs_of_nonneg (a := d.h - (d.h - d.tt)) (by linarith),
    abs_of_nonpos (a := -(d.bt / 2) - d.bt / 2) (by linarith), abs_of_nonpos (a := d.h - d.tt - d.h) (by linarith), abs_of_nonneg (a := -(d.tw / 2) - -(d.bt / 2)) (by linarith),
    abs_of_nonpos (a := d.tb - (d.h - d.tt)) (by linarith), abs_of_nonpos (a := -(d.bb / 2) - -(d.tw / 2)) (by linarith), abs_of_nonpos (a := 0 - d.tb) (by linarith)]
  unfold Dims.hw
  ring

/-- **C202, partial.** The area to be painted is the length of the outline without one side of the top flange. Missing: it should be the whole length (see `C202_violation`). -/
theorem C202_partial (p : Proper d) (h1 : d.tw ≤ d.bt) (h2 : d.tw ≤ d.bb) : d.paintArea = polygonLength (outline d) - d.bt := by
  rw [outline_length p h1 h2, Dims.paintArea]
  ring

/-- **C202 is violated** by every section: the area to be painted, documented as the circumference, is too small, for a section with equal flanges by more than a fifth when the web is
    at most as high as the flanges are wide. -/
theorem C202_violation (p : Proper d) (h1 : d.tw ≤ d.bt) (h2 : d.tw ≤ d.bb) : d.paintArea < polygonLength (outline d) ∧
    (d.bt = d.bb → d.h ≤ d.bt → d.paintArea ≤ 5 / 6 * polygonLength (outline d)) := by
  have hp := C202_partial p h1 h2
  refine ⟨by linarith [p.bt], fun e hh => ?_⟩
  have ho := outline_length p h1 h2
  have := p.tw
  unfold Dims.hw at ho
  linarith

example : Proper beam ∧ beam.tw ≤ beam.bt ∧ beam.tw ≤ beam.bb := ⟨beam_proper, by norm_num [beam], by norm_num [beam]⟩

/-! ### Turning the section upside down -/

/-- The same section upside down. -/
def flip (d : Dims) : Dims := { d with bt := d.bb, bb := d.bt, tt := d.tb, tb := d.tt }

theorem flip_flip (d : Dims) : flip (flip d) = d := rfl

theorem flip_proper (p : Proper d) : Proper (flip d) := ⟨p.bb, p.bt, p.tb, p.tt, p.tw, by
  have := p.h
  simp only [flip]
  linarith⟩

/-- `flip` turns the plane figure upside down. -/
theorem flip_shape (d : Dims) : shape (flip d) = {q | (q.1, d.h - q.2) ∈ shape d} := by
  ext ⟨y, z⟩
  simp only [shape, region, plates, flip, List.mem_cons, List.not_mem_nil, or_false, exists_eq_or_imp, exists_eq_left, Rect.toSet, Set.mem_ofPred_eq]
  constructor
  · rintro (⟨a, b, c, e⟩ | ⟨a, b, c, e⟩ | ⟨a, b, c, e⟩)
    · exact Or.inr (Or.inr ⟨a, b, by linarith, by linarith⟩)
    · exact Or.inr (Or.inl ⟨a, b, by linarith, by linarith⟩)
    · exact Or.inl ⟨a, b, by linarith, by linarith⟩
  · rintro (⟨a, b, c, e⟩ | ⟨a, b, c, e⟩ | ⟨a, b, c, e⟩)
    · exact Or.inr (Or.inr ⟨a, b, by linarith, by linarith⟩)
    · exact Or.inr (Or.inl ⟨a, b, by linarith, by linarith⟩)
    · exact Or.inl ⟨a, b, by linarith, by linarith⟩

theorem flip_hw (d : Dims) : (flip d).hw = d.hw := by
  simp only [flip, Dims.hw]
  ring

theorem flip_area (d : Dims) : (flip d).area = d.area := by
  simp only [Dims.area, Dims.Aw, flip_hw]
  simp only [flip, Dims.At, Dims.Ab]
  ring

theorem flip_Iz (d : Dims) : (flip d).Iz = d.Iz := by
  simp only [Dims.Iz, flip_hw]
  simp only [flip]
  ring

theorem flip_zel (p : Proper d) : (flip d).zel = d.h - d.zel := by
  have hA := p.area
  rw [Dims.zel, flip_area, div_eq_iff hA.ne', sub_mul, Dims.zel, div_mul_cancel₀ _ hA.ne']
  simp only [Dims.area, Dims.zb, Dims.zw, Dims.zt, Dims.Aw, Dims.At, Dims.Ab, flip_hw]
  simp only [flip, Dims.hw]
  ring

theorem flip_Iy (p : Proper d) : (flip d).Iy = d.Iy := by
  rw [Dims.Iy, flip_zel p]
  simp only [Dims.Iy, Dims.zb, Dims.zw, Dims.zt, Dims.Aw, Dims.At, Dims.Ab, flip_hw]
  simp only [flip, Dims.hw]
  ring

theorem flip_dpl (p : Proper d) : (flip d).dpl = d.h - d.dpl := by
  have hA : d.area = d.Aw + d.At + d.Ab := rfl
  have hw := p.Aw
  have e1 : (flip d).At = d.Ab := rfl
  have e2 : (flip d).Ab = d.At := rfl
  have e3 : (flip d).area = d.area := flip_area d
  by_cases h : d.At ≥ d.area / 2
  · have h' : ¬ (flip d).At ≥ (flip d).area / 2 := by
      rw [e1, e3, ge_iff_le, not_le]
      linarith
    have h'' : (flip d).Ab ≥ (flip d).area / 2 := by rwa [e2, e3]
    rw [Dims.dpl, if_neg h', if_pos h'', Dims.dpl, if_pos h, e3]
    simp only [flip]
    ring
  by_cases h' : d.Ab ≥ d.area / 2
  · have h'' : (flip d).At ≥ (flip d).area / 2 := by rwa [e1, e3]
    rw [Dims.dpl, if_pos h'', Dims.dpl, if_neg h, if_pos h', e3]
    simp only [flip]
  · have h1 : ¬ (flip d).At ≥ (flip d).area / 2 := by rwa [e1, e3]
    have h2 : ¬ (flip d).Ab ≥ (flip d).area / 2 := by rwa [e2, e3]
    rw [Dims.dpl, if_neg h1, if_neg h2, Dims.dpl, if_neg h, if_neg h', e3, e2, hA]
    simp only [flip, Dims.Aw, Dims.hw]
    field_simp [p.tw.ne']
    ring

theorem flip_WplY (p : Proper d) : (flip d).WplY = d.WplY := by
  have hA : d.area = d.Aw + d.At + d.Ab := rfl
  have hw := p.Aw
  have e1 : (flip d).At = d.Ab := rfl
  have e2 : (flip d).Ab = d.At := rfl
  have e3 : (flip d).area = d.area := flip_area d
  have e4 : (flip d).Aw = d.Aw := by
    simp only [Dims.Aw, flip_hw]
    rfl
  by_cases h : d.At ≥ d.area / 2
  · have h' : ¬ (flip d).At ≥ (flip d).area / 2 := by
      rw [e1, e3, ge_iff_le, not_le]
      linarith
    have h'' : (flip d).Ab ≥ (flip d).area / 2 := by rwa [e2, e3]
    rw [Dims.WplY, if_neg h', if_pos h'', Dims.WplY, if_pos h, flip_dpl p, e1, e4, flip_hw]
    simp only [flip, Dims.hw]
    ring
  by_cases h' : d.Ab ≥ d.area / 2
  · have h'' : (flip d).At ≥ (flip d).area / 2 := by rwa [e1, e3]
    rw [Dims.WplY, if_pos h'', Dims.WplY, if_neg h, if_pos h', flip_dpl p, e2, e4, flip_hw]
    simp only [flip, Dims.hw]
    ring
  · have h1 : ¬ (flip d).At ≥ (flip d).area / 2 := by rwa [e1, e3]
    have h2 : ¬ (flip d).Ab ≥ (flip d).area / 2 := by rwa [e2, e3]
    rw [Dims.WplY, if_neg h1, if_neg h2, Dims.WplY, if_neg h, if_neg h', flip_dpl p, e1, e2]
    simp only [flip]
    ring

theorem flip_zs (p : Proper d) : (flip d).zs = -d.zs := by
  rw [Dims.zs, Dims.zs, flip_Iz, flip_zel p, ← neg_div]
  congr 1
  simp only [Dims.zb, Dims.zw, Dims.zt, Dims.Izt, Dims.Izb, Dims.Izw, flip_hw]
  simp only [flip, Dims.hw]
  ring

/-- Both flanges are the same. -/
def Symmetric (d : Dims) : Prop := d.bt = d.bb ∧ d.tt = d.tb

theorem flip_eq (h : Symmetric d) : flip d = d := by
  obtain ⟨h1, h2⟩ := h
  cases d
  simp only [flip, Dims.mk.injEq] at *
  exact ⟨trivial, h1.symm, h1, h2.symm, h2, trivial, trivial, trivial⟩

/-- **C203, partial.** A section turned upside down has the same area, second moments, elastic and plastic moduli and torsional constant, its neutral axes are mirrored and its shear centre
    lies on the other side of the centroid; with equal flanges both neutral axes lie at mid-height and the shear centre in the centroid. Missing: the warping constant and Wagner's factor
    (see `C203_violation_warping` and `C203_violation_wagner`). -/
theorem C203_partial (p : Proper d) :
    shape (flip d) = {q | (q.1, d.h - q.2) ∈ shape d} ∧
    (flip d).area = d.area ∧ (flip d).zel = d.h - d.zel ∧ (flip d).dpl = d.h - d.dpl ∧ (flip d).Iy = d.Iy ∧ (flip d).Iz = d.Iz ∧ (flip d).WelY = d.WelY ∧ (flip d).WelZ = d.WelZ ∧
    (flip d).WplY = d.WplY ∧ (flip d).WplZ = d.WplZ ∧ (flip d).It = d.It ∧ (flip d).ashear = d.ashear ∧ (flip d).zs = -d.zs ∧
    (Symmetric d → d.zel = d.h / 2 ∧ d.dpl = d.h / 2 ∧ d.zs = 0) := by
  refine ⟨flip_shape d, flip_area d, flip_zel p, flip_dpl p, flip_Iy p, flip_Iz d, ?_, ?_, flip_WplY p, ?_, ?_, ?_, flip_zs p, fun h => ?_⟩
  · rw [Dims.WelY, Dims.WelY, flip_Iy p, flip_zel p, max_comm]
    simp only [flip]
    rw [sub_sub_cancel]
  · rw [Dims.WelZ, Dims.WelZ, flip_Iz, max_comm]
    rfl
  · simp only [Dims.WplZ, Dims.Aw, flip_hw]
    simp only [flip, Dims.Ab, Dims.At]
    ring
  · simp only [Dims.It, flip_hw]
    simp only [flip]
    ring
  · simp only [Dims.ashear, Dims.shearArea, flip_hw]
    rfl
  · have e := flip_eq h
    have h1 := flip_zel p
    have h2 := flip_dpl p
    have h3 := flip_zs p
    rw [e] at h1 h2 h3
    exact ⟨by linarith, by linarith, by linarith⟩

example : (flip beam).zel = beam.h - beam.zel := (C203_partial beam_proper).2.2.1

/-- **C203 is violated by the warping constant**: it changes when the section is turned upside down whenever the flanges have different second moments about the web. -/
theorem C203_violation_warping (p : Proper d) (h : d.tb * d.bb ^ 3 < d.tt * d.bt ^ 3) : (flip d).Iw < d.Iw := by
  have hz := Iz_pos p
  have key : d.Iw - (flip d).Iw = (d.h - d.tt / 2 - d.tb / 2) ^ 2 / d.Iz * (d.hw * d.tw ^ 3 / 12) * ((d.tt * d.bt ^ 3 - d.tb * d.bb ^ 3) / 12) := by
    rw [Dims.Iw, Dims.Iw, flip_Iz]
    have e : d.Iz = d.tb * d.bb ^ 3 / 12 + d.tt * d.bt ^ 3 / 12 + d.hw * d.tw ^ 3 / 12 := by
      unfold Dims.Iz
      ring
    have f1 : (flip d).tt = d.tb := rfl
    have f2 : (flip d).bt = d.bb := rfl
    have f3 : (flip d).h = d.h := rfl
    have f4 : (flip d).tb = d.tt := rfl
    rw [f1, f2, f3, f4]
    have n := hz.ne'
    have : d.hw * d.tw ^ 3 / 12 = d.Iz - d.tb * d.bb ^ 3 / 12 - d.tt * d.bt ^ 3 / 12 := by rw [e]; ring
    rw [this]
    field_simp
    ring
  have h1 : 0 < d.h - d.tt / 2 - d.tb / 2 := by linarith [p.h, p.tt, p.tb]
  have h2 := p.hw
  have h3 := p.tw
  have h4 : 0 < (d.tt * d.bt ^ 3 - d.tb * d.bb ^ 3) / 12 := by linarith
  have : 0 < d.Iw - (flip d).Iw := by
    rw [key]
    positivity
  linarith

example : Proper (⟨500, 300, 250, 15, 15, 8, 5, 355⟩ : Dims) ∧ (15 : ℝ) * 250 ^ 3 < 15 * 300 ^ 3 := by
  refine ⟨?_, by norm_num⟩
  constructor <;> norm_num

/-- **C203 is violated by Wagner's factor**: it should change sign when the section is turned upside down, so that it is zero for equal flanges, but it is negative for every section with
    equal flanges. -/
theorem C203_violation_wagner (p : Proper d) (h : Symmetric d) : flip d = d ∧ d.zj < 0 := by
  refine ⟨flip_eq h, ?_⟩
  have hz := ((C203_partial p).2.2.2.2.2.2.2.2.2.2.2.2.2 h).2.2
  have hI := Iy_pos p
  have h1 := p.bb
  have h2 := p.tb
  have h3 := p.tw
  have h4 := p.hw
  have h5 := p.bt
  have h6 := p.tt
  have h7 : 0 < d.zt := by
    unfold Dims.zt
    linarith [p.h]
  have h8 : 0 < d.zb := by
    unfold Dims.zb
    linarith
  have h9 : 0 < d.zw := by
    unfold Dims.zw
    linarith
  rw [Dims.zj, hz, zero_sub, neg_lt_zero]
  have a := p.At
  have b := p.Ab
  have c := p.Aw
  simp only [Dims.Izt, Dims.Izb, Dims.Izw, Dims.Iyt, Dims.Iyb, Dims.Iyw]
  positivity

/-! ### Editing a section -/

/-- Sequence of assignments. -/
def edit (s : Sec) (l : List (Attr × ℝ)) : Sec := l.foldl (fun s e => s.set e.1 e.2) s

/-- The six plate dimensions and the weld throat, in the words of the caller. -/
def Attr.plain : Attr → Bool
  | .b | .tf | .hw => false
  | _ => true

theorem edit_fst (l : List (Attr × ℝ)) (s : Sec) : (edit s l).imp = s.imp ∧ (edit s l).impLT = s.impLT ∧ (edit s l).d = l.foldl (fun d e => d.set e.1 e.2) s.d := by
  induction l generalizing s with
  | nil => exact ⟨rfl, rfl, rfl⟩
  | cons e l ih => exact ih (s.set e.1 e.2)

/-- **C204, partial.** An attribute reads back as assigned (`b` and `tf` as the pair of two equal numbers, or of the two numbers assigned to the top and the bottom flange, `hw` moving the top flange), assigning a plate dimension leaves the others as
    they are, and a section brought to given dimensions by any assignments is the same as one created with these dimensions provided the thickest flange is on the same side of 40 mm and
    the slenderness `h/b` on the same side of 2 as before. Missing: the last condition (see `C204_violation`). -/
theorem C204_partial (d : Dims) :
    (∀ (a : Attr) (v : ℝ), (d.set a v).get a = (v, v)) ∧
    (∀ (a c : Attr) (v : ℝ), a.plain = true → c.plain = true → a ≠ c → (d.set a v).get c = d.get c) ∧
    (∀ (a : Attr) (v : ℝ), (d.set a v).fy = d.fy) ∧
    (∀ (v : ℝ) (c : Attr), c.plain = true → c ≠ .h → (d.set .hw v).get c = d.get c) ∧
    (∀ v w : ℝ, ((d.set .bt v).set .bb w).get .b = (v, w) ∧ ((d.set .tt v).set .tb w).get .tf = (v, w)) ∧
    ∀ (l : List (Attr × ℝ)), let e := (edit (Sec.new d) l).d
      (max e.tt e.tb ≤ 40 ↔ max d.tt d.tb ≤ 40) → (e.h / min e.bt e.bb ≤ 2 ↔ d.h / min d.bt d.bb ≤ 2) → edit (Sec.new d) l = Sec.new e := by
  refine ⟨?_, ?_, ?_, ?_, fun v w => ⟨rfl, rfl⟩, ?_⟩
  · intro a v
    cases a <;> simp only [Dims.set, Dims.get, Dims.hw]
    rw [add_assoc, add_sub_assoc, add_sub_cancel_left, add_sub_cancel_right]
  · intro a c v ha hc hn
    cases a <;> cases c <;> first | rfl | exact absurd rfl hn | exact absurd ha (by decide) | exact absurd hc (by decide)
  · intro a v
    cases a <;> rfl
  · intro v c hc hn
    cases c <;> first | rfl | exact absurd rfl hn | exact absurd hc (by decide)
  · intro l e h1 h2
    obtain ⟨a, b, -⟩ := edit_fst l (Sec.new d)
    have c1 : curves e = curves d := by
      unfold curves
      by_cases q : max d.tt d.tb ≤ 40
      · rw [if_pos q, if_pos (h1.2 q)]
      · rw [if_neg q, if_neg (fun x => q (h1.1 x))]
    have c2 : curveLT e = curveLT d := by
      unfold curveLT
      by_cases q : d.h / min d.bt d.bb ≤ 2
      · rw [if_pos q, if_pos (h2.2 q)]
      · rw [if_neg q, if_neg (fun x => q (h2.1 x))]
    have : edit (Sec.new d) l = ⟨e, (edit (Sec.new d) l).imp, (edit (Sec.new d) l).impLT⟩ := rfl
    rw [this, a, b, Sec.new, Sec.new, c1, c2]

example : edit (Sec.new beam) [(.hw, 400), (.tw, 10)] = Sec.new { beam with h := 425, tw := 10 } := by
  have e : (edit (Sec.new beam) [(.hw, 400), (.tw, 10)]).d = { beam with h := 425, tw := 10 } := by
    simp only [edit, List.foldl_cons, List.foldl_nil, Sec.set, Sec.new, Dims.set, beam]
    norm_num
  rw [← e]
  refine (C204_partial beam).2.2.2.2.2 _ ?_ ?_ <;> rw [e] <;> norm_num [beam]

/-- **C204 is violated**: thickening the flanges of any section from at most 40 mm to more keeps the buckling curves of the thin flanges, so that both
    imperfection factors stay smaller than those of a section created with the same dimensions. -/
theorem C204_violation (d : Dims) {v : ℝ} (h : max d.tt d.tb ≤ 40) (hv : 40 < v) :
    let e := edit (Sec.new d) [(.tf, v)]
    e.d.get .tf = (v, v) ∧ e ≠ Sec.new e.d ∧ e.imp.1.imp < (Sec.new e.d).imp.1.imp ∧ e.imp.2.imp < (Sec.new e.d).imp.2.imp := by
  have h1 : curves d = (.b, .c) := if_pos h
  have h2 : curves { d with tt := v, tb := v } = (.c, .d) := if_neg (by
    simp only [max_self, not_le]
    exact hv)
  refine ⟨rfl, ?_, ?_, ?_⟩
  · intro q
    have := congrArg Sec.imp q
    simp only [edit, List.foldl_cons, List.foldl_nil, Sec.set, Sec.new, Dims.set, h1, h2] at this
    cases this
  · simp only [edit, List.foldl_cons, List.foldl_nil, Sec.set, Sec.new, Dims.set, h1, h2, Ec3.Curve.imp]
    norm_num
  · simp only [edit, List.foldl_cons, List.foldl_nil, Sec.set, Sec.new, Dims.set, h1, h2, Ec3.Curve.imp]
    norm_num

example : max beam.tt beam.tb ≤ 40 := by norm_num [beam]

end Metku.WI
