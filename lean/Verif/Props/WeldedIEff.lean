import Verif.Props.WeldedISym
import Verif.Props.Ec3Plate

/-! Properties C205-C209: effective cross-section, classes and checks of welded I-sections. -/
namespace Metku.WI

open Metku.Plate Metku.Ec3 Metku.Steel

variable {d : Dims}

/-- Reduction factor of an outstand flange of width `c` and thickness `t` in compression, EN 1993-1-5 4.4. -/
noncomputable def rhoFlange (c t fy : ℝ) : ℝ := reductionOutstand (lambdaP c t (epsilon fy) 0.43)

/-- Reduction factor of the web for the buckling coefficient `k` and the stress ratio `psi`. -/
noncomputable def rhoWeb (d : Dims) (k psi : ℝ) : ℝ := reductionInternal (lambdaP d.cw d.tw (epsilon d.fy) k) psi

theorem tip_one : bucklingFactorTip 1 = 0.43 := by
  rw [bucklingFactorTip, if_pos rfl]
  norm_num

theorem effTop_eq (d : Dims) (s : Eff) : (effTop d s).1 = { s with rhoT := rhoFlange d.cfTop d.tt d.fy, negT := (1 - rhoFlange d.cfTop d.tt d.fy) * d.cfTop } := by
  simp only [effTop, tip_one, rhoFlange]

theorem effBottom_eq (d : Dims) (s : Eff) :
    (effBottom d s).1 = { s with rhoB := rhoFlange d.cfBottom d.tb d.fy, negB := (1 - rhoFlange d.cfBottom d.tb d.fy) * d.cfBottom } := by
  simp only [effBottom, tip_one, rhoFlange]

/-- `effective_web` for pure compression. -/
theorem effWeb_comp (d : Dims) (s : Eff) : effWeb d s (some 1) = .ok
    (let r := rhoWeb d 4 1
     let s' : Eff := { s with rhoW := r, be0 := 1 / 2 * (r * d.cw), be1 := 1 / 2 * (r * d.cw), bc := d.cw }
     ({ s' with negW := d.h - effAxis d s' - d.tb - √2 * d.throat - r * d.cw }, r * d.cw)) := by
  simp only [effWeb, Option.getD_some, bind, Except.bind, bucklingFactorInternal, if_true, effectiveWidthInternal, sub_self, abs_zero, rhoWeb]
  norm_num

/-- `effective_web` for pure bending with the neutral axis at mid-height. -/
theorem effWeb_bend (d : Dims) (s : Eff) : effWeb d s (some (-1)) = .ok
    (let r := rhoWeb d 23.9 (-1)
     let s' : Eff := { s with rhoW := r, be0 := 4 / 10 * (d.cw * r / 2), be1 := 6 / 10 * (d.cw * r / 2), bc := d.cw / 2 }
     ({ s' with negW := d.h - effAxis d s' - d.tb - √2 * d.throat - d.cw * r / 2 }, d.cw * r / 2)) := by
  have e : bucklingFactorInternal (-1) = .ok 23.9 := by
    rw [bucklingFactorInternal]
    norm_num
  have w : ∀ r, effectiveWidthInternal d.cw (-1) r = (d.cw * r / 2, 4 / 10 * (d.cw * r / 2), 6 / 10 * (d.cw * r / 2)) := by
    intro r
    rw [effectiveWidthInternal, if_neg (by norm_num [abs_lt]), if_neg (by norm_num)]
    norm_num
  simp only [effWeb, Option.getD_some, bind, Except.bind, e, w, rhoWeb]
  norm_num

theorem rhoFlange_mem (c t fy : ℝ) : 0 < rhoFlange c t fy ∧ rhoFlange c t fy ≤ 1 := C35.2.1 _

theorem rhoWeb_mem (d : Dims) (k : ℝ) {psi : ℝ} (h1 : -3 ≤ psi) (h2 : psi ≤ 1) : 0 < rhoWeb d k psi ∧ rhoWeb d k psi ≤ 1 := (C35.1 psi h1 h2).2.1 _

/-- Neutral axis of a symmetric section with equal reductions of the flanges. -/
theorem effAxis_sym (h : Symmetric d) {s : Eff} (e : s.negT = s.negB) (w : s.negW = 0) (ha : d.area - 4 * s.negT * d.tt ≠ 0) : effAxis d s = d.h / 2 := by
  obtain ⟨h1, h2⟩ := h
  have k : d.area - 2 * s.negB * d.tb - 2 * s.negT * d.tt - s.negW * d.tw = d.area - 4 * s.negT * d.tt := by
    rw [w, ← e, ← h2]
    ring
  simp only [effAxis]
  rw [k, div_eq_iff ha, w, ← e]
  simp only [Dims.area, Dims.zb, Dims.zt, Dims.zw, Dims.Ab, Dims.At, Dims.Aw, Dims.hw, ← h1, ← h2]
  ring

theorem sym_cf (h : Symmetric d) : d.cfBottom = d.cfTop := by
  unfold Dims.cfBottom Dims.cfTop
  rw [h.1]

theorem room_sym (p : Proper d) (h : Symmetric d) (ht : 0 ≤ d.throat) : d.Aw ≤ d.area - 4 * ((1 - rhoFlange d.cfTop d.tt d.fy) * d.cfTop) * d.tt := by
  obtain ⟨r0, r1⟩ := rhoFlange_mem d.cfTop d.tt d.fy
  have hs : 0 ≤ √2 * d.throat := mul_nonneg (Real.sqrt_nonneg _) ht
  have hc : (1 - rhoFlange d.cfTop d.tt d.fy) * d.cfTop ≤ d.bt / 2 := by
    have : d.cfTop ≤ d.bt / 2 := by
      unfold Dims.cfTop
      linarith [p.tw]
    rcases le_total 0 d.cfTop with q | q
    · nlinarith
    · have : (1 - rhoFlange d.cfTop d.tt d.fy) * d.cfTop ≤ 0 := mul_nonpos_of_nonneg_of_nonpos (by linarith) q
      linarith [p.bt]
  have := mul_le_mul_of_nonneg_right hc p.tt.le
  have hA : d.area = d.Aw + d.At + d.Ab := rfl
  have hT : d.At = d.bt * d.tt := rfl
  have hB : d.Ab = d.bt * d.tt := by
    unfold Dims.Ab
    rw [h.1, h.2]
  linarith

/-- Effective area for bending of a symmetric section in a state that neglects no part of the web. -/
theorem effArea_bend (p : Proper d) (h : Symmetric d) (ht : 0 ≤ d.throat) {s : Eff} (hs : s.negW = 0) : ∃ s',
    effArea d s (-1) = .ok (s', d.area - 4 * (1 - rhoFlange d.cfTop d.tt d.fy) * d.cfTop * d.tt - (1 - rhoWeb d 23.9 (-1)) * (d.cw / 2) * d.tw) ∧
      s'.negT = (1 - rhoFlange d.cfTop d.tt d.fy) * d.cfTop ∧ s'.negB = s'.negT ∧ s'.negW = (1 - rhoWeb d 23.9 (-1)) * (d.cw / 2) ∧
      s'.be0 = 4 / 10 * (d.cw * rhoWeb d 23.9 (-1) / 2) ∧ s'.bc = d.cw / 2 := by
  have room := room_sym p h ht
  have k : d.h - d.h / 2 - d.tt - √2 * d.throat - d.cw * rhoWeb d 23.9 (-1) / 2 = (1 - rhoWeb d 23.9 (-1)) * (d.cw / 2) := by
    unfold Dims.cw Dims.hw
    rw [← h.2]
    ring
  refine ⟨{ rhoT := rhoFlange d.cfTop d.tt d.fy, negT := (1 - rhoFlange d.cfTop d.tt d.fy) * d.cfTop, rhoB := rhoFlange d.cfTop d.tt d.fy,
            negB := (1 - rhoFlange d.cfTop d.tt d.fy) * d.cfTop, rhoW := rhoWeb d 23.9 (-1), negW := (1 - rhoWeb d 23.9 (-1)) * (d.cw / 2),
            be0 := 4 / 10 * (d.cw * rhoWeb d 23.9 (-1) / 2), be1 := 6 / 10 * (d.cw * rhoWeb d 23.9 (-1) / 2), bc := d.cw / 2 }, ?_, rfl, rfl, rfl, rfl, rfl⟩
  simp only [effArea, bind, Except.bind, effTop_eq, effBottom_eq, sym_cf h, ← h.2, effWeb_bend]
  have hz : ∀ x0 x1 x2 x3 x4 x5 : ℝ, effAxis d ⟨x0, (1 - rhoFlange d.cfTop d.tt d.fy) * d.cfTop, x1, (1 - rhoFlange d.cfTop d.tt d.fy) * d.cfTop, x2, s.negW, x3, x4, x5⟩ = d.h / 2 :=
    fun _ _ _ _ _ _ => effAxis_sym h rfl hs (p.Aw.trans_le room).ne'
  rw [hz, k]
  simp only [reducedArea, ← h.2, Except.ok.injEq, Prod.mk.injEq, true_and]
  ring

/-- Effective area for compression of a symmetric section in a state that neglects no part of the web. -/
theorem effArea_comp (p : Proper d) (h : Symmetric d) (ht : 0 ≤ d.throat) {s : Eff} (hs : s.negW = 0) : ∃ s',
    aeff d s = .ok (s', d.area - 4 * (1 - rhoFlange d.cfTop d.tt d.fy) * d.cfTop * d.tt - (1 / 2 - rhoWeb d 4 1) * d.cw * d.tw) ∧
      s'.negT = (1 - rhoFlange d.cfTop d.tt d.fy) * d.cfTop ∧ s'.negB = s'.negT ∧ s'.negW = (1 / 2 - rhoWeb d 4 1) * d.cw ∧
      s'.be0 = 1 / 2 * (rhoWeb d 4 1 * d.cw) ∧ s'.bc = d.cw := by
  have room := room_sym p h ht
  have k : d.h - d.h / 2 - d.tt - √2 * d.throat - rhoWeb d 4 1 * d.cw = (1 / 2 - rhoWeb d 4 1) * d.cw := by
    unfold Dims.cw Dims.hw
    rw [← h.2]
    ring
  refine ⟨{ rhoT := rhoFlange d.cfTop d.tt d.fy, negT := (1 - rhoFlange d.cfTop d.tt d.fy) * d.cfTop, rhoB := rhoFlange d.cfTop d.tt d.fy,
            negB := (1 - rhoFlange d.cfTop d.tt d.fy) * d.cfTop, rhoW := rhoWeb d 4 1, negW := (1 / 2 - rhoWeb d 4 1) * d.cw,
            be0 := 1 / 2 * (rhoWeb d 4 1 * d.cw), be1 := 1 / 2 * (rhoWeb d 4 1 * d.cw), bc := d.cw }, ?_, rfl, rfl, rfl, rfl, rfl⟩
  simp only [aeff, effArea, bind, Except.bind, effTop_eq, effBottom_eq, sym_cf h, ← h.2, effWeb_comp]
  have hz : ∀ x0 x1 x2 x3 x4 x5 : ℝ, effAxis d ⟨x0, (1 - rhoFlange d.cfTop d.tt d.fy) * d.cfTop, x1, (1 - rhoFlange d.cfTop d.tt d.fy) * d.cfTop, x2, s.negW, x3, x4, x5⟩ = d.h / 2 :=
    fun _ _ _ _ _ _ => effAxis_sym h rfl hs (p.Aw.trans_le room).ne'
  rw [hz, k]
  simp only [reducedArea, ← h.2, Except.ok.injEq, Prod.mk.injEq, true_and]
  ring

/-- **C205, partial.** Effective area for bending of a section with equal flanges that has just been created: each outstand part of the flanges is reduced to the share `ρ` of its width, of
    the web the compressed half is reduced to the share `ρ`, as in EN 1993-1-5, 4.4; the result is positive and not larger than the area. Missing: the same for compression and for sections
    that have been asked before (see the violations). -/
theorem C205_partial (p : Proper d) (h : Symmetric d) (ht : 0 ≤ d.throat) (hc : 0 ≤ d.cfTop) (hw : 0 ≤ d.cw) :
    ∃ s A, effArea d (Eff.fresh d) (-1) = .ok (s, A) ∧
      A = d.area - 4 * (1 - rhoFlange d.cfTop d.tt d.fy) * d.cfTop * d.tt - (1 - rhoWeb d 23.9 (-1)) * (d.cw / 2) * d.tw ∧ 0 < A ∧ A ≤ d.area := by
  obtain ⟨r0, r1⟩ := rhoFlange_mem d.cfTop d.tt d.fy
  obtain ⟨w0, w1⟩ := rhoWeb_mem d 23.9 (psi := -1) (by norm_num) (by norm_num)
  obtain ⟨s, hA, -⟩ := effArea_bend p h ht (s := Eff.fresh d) rfl
  refine ⟨s, _, hA, rfl, ?_, ?_⟩
  · have e1 : d.area = d.Aw + d.At + d.Ab := rfl
    have hs : 0 ≤ √2 * d.throat := mul_nonneg (Real.sqrt_nonneg _) ht
    have e2 : d.Aw = d.hw * d.tw := rfl
    have e4 : (1 - rhoWeb d 23.9 (-1)) * (d.cw / 2) * d.tw ≤ d.cw / 2 * d.tw := by
      have := mul_nonneg hw p.tw.le
      nlinarith
    have e5 : d.cw ≤ d.hw := by
      unfold Dims.cw
      linarith
    have e6 := mul_le_mul_of_nonneg_right e5 p.tw.le
    have e7 : d.Ab = d.At := by
      unfold Dims.Ab Dims.At
      rw [h.1, h.2]
    have e8 : (1 - rhoFlange d.cfTop d.tt d.fy) * d.cfTop ≤ d.bt / 2 := by
      have : d.cfTop ≤ d.bt / 2 := by
        unfold Dims.cfTop
        linarith [p.tw]
      nlinarith
    have e9 := mul_le_mul_of_nonneg_right e8 p.tt.le
    have e10 : d.At = d.bt * d.tt := rfl
    have := p.Aw
    linarith
  · have a1 : 0 ≤ (1 - rhoFlange d.cfTop d.tt d.fy) * d.cfTop * d.tt := mul_nonneg (mul_nonneg (by linarith) hc) p.tt.le
    have a2 : 0 ≤ (1 - rhoWeb d 23.9 (-1)) * (d.cw / 2) * d.tw := mul_nonneg (mul_nonneg (by linarith) (by linarith)) p.tw.le
    linarith

/-- **C205 is violated by the effective area in compression** of every section with equal flanges: it is larger by half the area of the web than EN 1993-1-5 gives, so that the effective
    area of a section with no slender part exceeds its area. -/
theorem C205_violation (p : Proper d) (h : Symmetric d) (ht : 0 ≤ d.throat) :
    ∃ s A, aeff d (Eff.fresh d) = .ok (s, A) ∧
      A = d.area - 4 * (1 - rhoFlange d.cfTop d.tt d.fy) * d.cfTop * d.tt - (1 - rhoWeb d 4 1) * d.cw * d.tw + d.cw * d.tw / 2 ∧
      (0 < d.cw → rhoFlange d.cfTop d.tt d.fy = 1 → rhoWeb d 4 1 = 1 → d.area < A) := by
  obtain ⟨s, hA, -⟩ := effArea_comp p h ht (s := Eff.fresh d) rfl
  refine ⟨s, _, hA, by ring, fun hc h1 h2 => ?_⟩
  rw [h1, h2]
  have := mul_pos hc p.tw
  linarith

/-- **C205 is violated by reading the effective area twice**: whenever the web is not reduced to exactly one half, the second reading of `Aeff` differs from the first. -/
theorem C205_violation_twice (p : Proper d) (h : Symmetric d) (ht : 0 ≤ d.throat) (hc : 0 < d.cw) (hr : rhoWeb d 4 1 ≠ 1 / 2) :
    ∃ s A s' A', aeff d (Eff.fresh d) = .ok (s, A) ∧ aeff d s = .ok (s', A') ∧ A' ≠ A := by
  have room := room_sym p h ht
  obtain ⟨w0, w1⟩ := rhoWeb_mem d 4 (psi := 1) (by norm_num) le_rfl
  obtain ⟨s, hA, h1, h2, h3, h4, h5⟩ := effArea_comp p h ht (s := Eff.fresh d) rfl
  set r := rhoWeb d 4 1 with hr'
  set n := (1 / 2 - r) * d.cw with hn
  have hn0 : n ≠ 0 := mul_ne_zero (by
    intro q
    exact hr (by linarith)) hc.ne'
  set D := d.area - 4 * ((1 - rhoFlange d.cfTop d.tt d.fy) * d.cfTop) * d.tt with hD
  have hs : 0 ≤ √2 * d.throat := mul_nonneg (Real.sqrt_nonneg _) ht
  have e5 : d.cw ≤ d.hw := by
    unfold Dims.cw
    linarith
  have e6 := mul_le_mul_of_nonneg_right e5 p.tw.le
  have e2 : d.Aw = d.hw * d.tw := rfl
  have hD0 : 0 < D - n * d.tw := by
    have : n * d.tw < d.cw * d.tw := by
      have := mul_pos hc p.tw
      rw [hn]
      nlinarith
    linarith
  have hz : ∀ x0 x1 x2 x4 x5 : ℝ, effAxis d ⟨x0, (1 - rhoFlange d.cfTop d.tt d.fy) * d.cfTop, x1, (1 - rhoFlange d.cfTop d.tt d.fy) * d.cfTop, x2, n, 1 / 2 * (r * d.cw), x4, x5⟩ =
      d.h / 2 - n * d.tw * (d.cw / 4) / (D - n * d.tw) := by
    intro _ _ _ _ _
    simp only [effAxis]
    have k : d.area - 2 * ((1 - rhoFlange d.cfTop d.tt d.fy) * d.cfTop) * d.tb - 2 * ((1 - rhoFlange d.cfTop d.tt d.fy) * d.cfTop) * d.tt - n * d.tw = D - n * d.tw := by
      rw [hD, ← h.2]
      ring
    rw [k, div_eq_iff hD0.ne', sub_mul (d.h / 2), div_mul_cancel₀ _ hD0.ne', hD, hn]
    simp only [Dims.area, Dims.zb, Dims.zt, Dims.zw, Dims.Ab, Dims.At, Dims.Aw, Dims.cw, Dims.hw, ← h.1, ← h.2]
    ring
  have hB : ∃ s', aeff d s = .ok (s', d.area - 2 * ((1 - rhoFlange d.cfTop d.tt d.fy) * d.cfTop) * d.tt - 2 * ((1 - rhoFlange d.cfTop d.tt d.fy) * d.cfTop) * d.tt -
      (d.h - (d.h / 2 - n * d.tw * (d.cw / 4) / (D - n * d.tw)) - d.tt - √2 * d.throat - r * d.cw) * d.tw) := by
    simp only [aeff, effArea, bind, Except.bind, effTop_eq, effBottom_eq, sym_cf h, ← h.2, effWeb_comp, h3, ← hr']
    simp only [reducedArea, hz, ← h.2]
    exact ⟨_, rfl⟩
  obtain ⟨s', hB⟩ := hB
  refine ⟨s, _, s', _, hA, hB, ?_⟩
  have q : (d.h - (d.h / 2 - n * d.tw * (d.cw / 4) / (D - n * d.tw)) - d.tt - √2 * d.throat - r * d.cw) * d.tw = n * d.tw + n * d.tw * (d.cw / 4) / (D - n * d.tw) * d.tw := by
    have : d.h / 2 - d.tt - √2 * d.throat - r * d.cw = n := by
      rw [hn]
      unfold Dims.cw Dims.hw
      rw [← h.2]
      ring
    linear_combination d.tw * this
  rw [q]
  have q2 : n * d.tw * (d.cw / 4) / (D - n * d.tw) * d.tw ≠ 0 :=
    mul_ne_zero (div_ne_zero (mul_ne_zero (mul_ne_zero hn0 p.tw.ne') (by linarith)) hD0.ne') p.tw.ne'
  intro e
  apply q2
  linarith

theorem rhoFlange_one {c t fy : ℝ} (h : lambdaP c t (epsilon fy) 0.43 ≤ 0.748) : rhoFlange c t fy = 1 := by
  rw [rhoFlange, reductionOutstand, if_pos]
  norm_num at h ⊢
  linarith

theorem rhoWeb_one_bend (h : lambdaP d.cw d.tw (epsilon d.fy) 23.9 ≤ 0.874) : rhoWeb d 23.9 (-1) = 1 := by
  rw [rhoWeb, reductionInternal, if_pos]
  have : (0.374 : ℝ) ≤ √(85 / 1000 - 55 / 1000 * (-1)) := Real.le_sqrt_of_sq_le (by norm_num)
  norm_num at h this ⊢
  linarith

theorem rhoWeb_one_comp (h : lambdaP d.cw d.tw (epsilon d.fy) 4 ≤ 0.673) : rhoWeb d 4 1 = 1 := by
  rw [rhoWeb, reductionInternal, if_pos]
  have : (0.1732 : ℝ) ≤ √(85 / 1000 - 55 / 1000 * 1) := Real.le_sqrt_of_sq_le (by norm_num)
  norm_num at h this ⊢
  linarith

/-- A stocky section with equal flanges. -/
noncomputable def stocky : Dims := ⟨300, 200, 200, 12, 12, 10, 5, 235⟩

theorem stocky_proper : Proper stocky := by
  constructor <;> norm_num [stocky, Dims.hw]

theorem stocky_sym : Symmetric stocky := ⟨rfl, rfl⟩

theorem sqrt_two_bounds : (1.414 : ℝ) ≤ √2 ∧ √2 ≤ 1.415 :=
  ⟨Real.le_sqrt_of_sq_le (by norm_num), Real.sqrt_le_iff.2 ⟨by norm_num, by norm_num⟩⟩

theorem eps_one : epsilon 235 = 1 := by
  unfold epsilon
  norm_num

theorem stocky_slender : lambdaP stocky.cfTop stocky.tt (epsilon stocky.fy) 0.43 ≤ 0.748 ∧ lambdaP stocky.cw stocky.tw (epsilon stocky.fy) 23.9 ≤ 0.874 ∧
    lambdaP stocky.cw stocky.tw (epsilon stocky.fy) 4 ≤ 0.673 ∧ 0 < stocky.cfTop ∧ 0 < stocky.cw := by
  obtain ⟨a, b⟩ := sqrt_two_bounds
  have h1 : (0.65 : ℝ) ≤ √0.43 := Real.le_sqrt_of_sq_le (by norm_num)
  have h2 : (4.8 : ℝ) ≤ √23.9 := Real.le_sqrt_of_sq_le (by norm_num)
  have h3 : (1.99 : ℝ) ≤ √4 := Real.le_sqrt_of_sq_le (by norm_num)
  have e : epsilon stocky.fy = 1 := eps_one
  have c1 : stocky.cfTop = 95 - √2 * 5 := by
    norm_num [stocky, Dims.cfTop]
  have c2 : stocky.cw = 276 - 2 * √2 * 5 := by
    norm_num [stocky, Dims.cw, Dims.hw]
  rw [e]
  unfold lambdaP
  rw [c1, c2]
  have t1 : stocky.tt = 12 := rfl
  have t2 : stocky.tw = 10 := rfl
  rw [t1, t2]
  refine ⟨?_, ?_, ?_, by linarith, by linarith⟩
  · rw [div_le_iff₀ (by linarith)]
    norm_num at *
    linarith
  · rw [div_le_iff₀ (by linarith)]
    norm_num at *
    linarith
  · rw [div_le_iff₀ (by linarith)]
    norm_num at *
    linarith

example : ∃ s A, effArea stocky (Eff.fresh stocky) (-1) = .ok (s, A) ∧ A = 7560 := by
  obtain ⟨h1, h2, -, h4, h5⟩ := stocky_slender
  obtain ⟨s, A, h, e, -⟩ := C205_partial stocky_proper stocky_sym (by norm_num [stocky]) h4.le h5.le
  refine ⟨s, A, h, ?_⟩
  rw [e, rhoFlange_one h1, rhoWeb_one_bend h2]
  norm_num [stocky, Dims.area, Dims.Aw, Dims.At, Dims.Ab, Dims.hw]

example : ∃ s A, aeff stocky (Eff.fresh stocky) = .ok (s, A) ∧ 7560 < A := by
  obtain ⟨h1, -, h3, -, h5⟩ := stocky_slender
  obtain ⟨s, A, h, -, e⟩ := C205_violation stocky_proper stocky_sym (by norm_num [stocky])
  refine ⟨s, A, h, ?_⟩
  have := e h5 (rhoFlange_one h1) (rhoWeb_one_comp h3)
  norm_num [stocky, Dims.area, Dims.Aw, Dims.At, Dims.Ab, Dims.hw] at this
  exact this

example : ∃ s A s' A', aeff stocky (Eff.fresh stocky) = .ok (s, A) ∧ aeff stocky s = .ok (s', A') ∧ A' ≠ A := by
  obtain ⟨-, -, h3, -, h5⟩ := stocky_slender
  exact C205_violation_twice stocky_proper stocky_sym (by norm_num [stocky]) h5 (by
    rw [rhoWeb_one_comp h3]
    norm_num)

/-! ### C206 -/

/-- One pass over a symmetric section without slender parts. -/
theorem effLoop_full (p : Proper d) (h : Symmetric d) (hw : rhoWeb d 23.9 (-1) = 1) : ∀ (n : ℕ) (s : Eff) (I : ℝ), s.negT = 0 → s.negB = 0 → s.negW = 0 → (n = 0 → I = d.Iy) →
    ∃ s', effLoop d n s (-1) I = .ok (s', d.Iy) ∧ s'.negT = 0 ∧ s'.negB = 0 ∧ s'.negW = 0 := by
  intro n
  induction n with
  | zero =>
    intro s I h1 h2 h3 hI
    exact ⟨s, by rw [effLoop, hI rfl], h1, h2, h3⟩
  | succ n ih =>
    intro s I h1 h2 h3 _
    have hA : 0 < d.area := by
      have := p.Aw
      have := p.At
      have := p.Ab
      show 0 < d.Aw + d.At + d.Ab
      linarith
    have hz : ∀ s : Eff, s.negT = 0 → s.negB = 0 → s.negW = 0 → effAxis d s = d.h / 2 := fun s a b c => effAxis_sym h (a.trans b.symm) c (by
      rw [a]
      simp only [mul_zero, zero_mul, sub_zero]
      exact hA.ne')
    have hstep : ∃ s1, effWeb d s (some (-1)) = .ok (s1, d.cw * 1 / 2) ∧ s1.negT = 0 ∧ s1.negB = 0 ∧ s1.negW = 0 := by
      have e := effWeb_bend d s
      rw [hw] at e
      refine ⟨_, e, h1, h2, ?_⟩
      simp only
      rw [hz _ (by exact h1) (by exact h2) (by exact h3)]
      unfold Dims.cw Dims.hw
      rw [h.2]
      ring
    obtain ⟨s1, e1, a, b, c⟩ := hstep
    have hzel : d.zel = d.h / 2 := by
      rw [Dims.zel, div_eq_iff hA.ne']
      simp only [Dims.area, Dims.zb, Dims.zt, Dims.zw, Dims.Ab, Dims.At, Dims.Aw, Dims.hw, ← h.1, ← h.2]
      ring
    have hsum : effSums d s1 = d.Iy := by
      simp only [effSums, hz s1 a b c, c, Dims.Iy, hzel]
      simp only [Dims.zb, Dims.zt, Dims.zw, Dims.Ab, Dims.At, Dims.Aw, Dims.cw, Dims.hw, ← h.1, ← h.2]
      ring
    have hpsi : (-(effAxis d s1) + d.tb) / (d.h - effAxis d s1 - d.tt) = -1 := by
      rw [hz s1 a b c, div_eq_iff]
      · rw [h.2]
        ring
      · have := p.hw
        unfold Dims.hw at this
        rw [← h.2] at this
        intro q
        linarith
    obtain ⟨s', e2, r⟩ := ih s1 (effSums d s1) a b c (fun _ => hsum)
    refine ⟨s', ?_, r⟩
    rw [effLoop]
    simp only [bind, Except.bind, e1]
    rw [hpsi]
    exact e2

/-- **C206, partial.** In a section with equal flanges that has just been created and has no slender part (EN 1993-1-5, 4.4: the slenderness of the flange is at most 0.748, that of the web
    in bending at most 0.874), the effective second moment of area, the effective section modulus and the resistance computed for class 4 are those of the whole section. Missing: unequal
    flanges (see the violation) and slender parts. -/
theorem C206_partial (p : Proper d) (h : Symmetric d) (hf : lambdaP d.cfTop d.tt (epsilon d.fy) 0.43 ≤ 0.748) (hw : lambdaP d.cw d.tw (epsilon d.fy) 23.9 ≤ 0.874) :
    (∃ s, effSecond d (Eff.fresh d) (-1) = .ok (s, d.Iy)) ∧ (∃ s, weffY d (Eff.fresh d) = .ok (s, d.WelY)) ∧
      ∃ s, bending d (Eff.fresh d) 4 .y = .ok (s, d.WelY * d.fy / Ec3.gammaM0) := by
  have r1 := rhoFlange_one hf
  obtain ⟨s, e, h1, h2, h3⟩ := effLoop_full p h (rhoWeb_one_bend hw) 5 (effTop d (Eff.fresh d)).1 0 (by
    rw [effTop_eq]
    simp only [r1, sub_self, zero_mul]) (by rw [effTop_eq]; rfl) (by rw [effTop_eq]; rfl) (fun q => absurd q (by decide))
  have e' : effSecond d (Eff.fresh d) (-1) = .ok (s, d.Iy) := by
    rw [effSecond, if_pos (by norm_num)]
    exact e
  have hA : 0 < d.area := by
    have := p.Aw
    have := p.At
    have := p.Ab
    show 0 < d.Aw + d.At + d.Ab
    linarith
  have hz : effAxis d s = d.h / 2 := effAxis_sym h (h1.trans h2.symm) h3 (by
    rw [h1]
    simp only [mul_zero, zero_mul, sub_zero]
    exact hA.ne')
  have hzel : d.zel = d.h / 2 := by
    rw [Dims.zel, div_eq_iff hA.ne']
    simp only [Dims.area, Dims.zb, Dims.zt, Dims.zw, Dims.Ab, Dims.At, Dims.Aw, Dims.hw, ← h.1, ← h.2]
    ring
  have e2 : weffY d (Eff.fresh d) = .ok (s, d.WelY) := by
    simp only [weffY, bind, Except.bind, e', hz, Dims.WelY, hzel]
  refine ⟨⟨s, e'⟩, ⟨s, e2⟩, s, ?_⟩
  simp only [bending, bind, Except.bind, e2]
  rfl

example : ∃ s, bending stocky (Eff.fresh stocky) 4 .y = .ok (s, stocky.WelY * 235 / 1) := by
  obtain ⟨h1, h2, -⟩ := stocky_slender
  have := (C206_partial stocky_proper stocky_sym h1 h2).2.2
  simpa [Ec3.gammaM0, stocky] using this

/-- **C206 is violated by sections with unequal flanges**: although no part is slender, the effective area for bending differs from the area as soon as the elastic neutral axis is not
    where the code expects it; a stronger upper flange makes it larger than the area, a stronger lower flange smaller. -/
theorem C206_violation (p : Proper d) (ht : d.tt = d.tb) (hf : lambdaP d.cfTop d.tt (epsilon d.fy) 0.43 ≤ 0.748) (hb : lambdaP d.cfBottom d.tb (epsilon d.fy) 0.43 ≤ 0.748)
    (hw : lambdaP d.cw d.tw (epsilon d.fy) 23.9 ≤ 0.874) :
    ∃ s A, effArea d (Eff.fresh d) (-1) = .ok (s, A) ∧ A = d.area - (d.h / 2 - d.zel) * d.tw ∧ (d.bb < d.bt → d.area < A) ∧ (d.bt < d.bb → A < d.area) := by
  have r1 := rhoFlange_one hf
  have r2 := rhoFlange_one hb
  have r3 := rhoWeb_one_bend hw
  have hA : 0 < d.area := by
    have := p.Aw
    have := p.At
    have := p.Ab
    show 0 < d.Aw + d.At + d.Ab
    linarith
  have hz : ∀ x0 x1 x2 x3 x4 x5 : ℝ, effAxis d ⟨x0, 0, x1, 0, x2, 0, x3, x4, x5⟩ = d.zel := by
    intro _ _ _ _ _ _
    simp only [effAxis, Dims.zel, mul_zero, zero_mul, sub_zero]
    congr 1
    ring
  have hz2 : d.zel - d.h / 2 = (d.bt - d.bb) * (d.tt * (d.h - d.tt) / (2 * d.area)) := by
    have : d.zel * d.area = d.h / 2 * d.area + (d.bt - d.bb) * (d.tt * (d.h - d.tt) / 2) := by
      rw [Dims.zel, div_mul_cancel₀ _ hA.ne']
      simp only [Dims.area, Dims.zb, Dims.zt, Dims.zw, Dims.Ab, Dims.At, Dims.Aw, Dims.hw, ← ht]
      ring
    field_simp
    linarith
  have hk : 0 < d.tt * (d.h - d.tt) / (2 * d.area) := by
    have := p.tt
    have := p.tb
    have := p.h
    exact div_pos (mul_pos p.tt (by linarith)) (by linarith)
  refine ⟨⟨1, 0, 1, 0, 1, d.h - d.zel - d.tb - √2 * d.throat - d.cw * 1 / 2, 4 / 10 * (d.cw * 1 / 2), 6 / 10 * (d.cw * 1 / 2), d.cw / 2⟩, d.area - (d.h / 2 - d.zel) * d.tw, ?_, rfl, ?_, ?_⟩
  · simp only [effArea, bind, Except.bind, effTop_eq, effBottom_eq, effWeb_bend, r1, r2, r3, sub_self, zero_mul]
    have f : (Eff.fresh d).negW = 0 := rfl
    simp only [f, hz, reducedArea, Except.ok.injEq, Prod.mk.injEq, true_and]
    unfold Dims.cw Dims.hw
    rw [← ht]
    ring
  · intro q
    have := mul_pos (mul_pos (sub_pos.2 q) hk) p.tw
    rw [← hz2] at this
    linarith
  · intro q
    have := mul_pos (mul_pos (sub_pos.2 q) hk) p.tw
    have e : (d.bb - d.bt) * (d.tt * (d.h - d.tt) / (2 * d.area)) = d.h / 2 - d.zel := by
      linear_combination hz2
    rw [e] at this
    linarith

example : ∃ s A, effArea ⟨300, 200, 150, 12, 12, 10, 5, 235⟩ (Eff.fresh ⟨300, 200, 150, 12, 12, 10, 5, 235⟩) (-1) = .ok (s, A) ∧ 6960 < A := by
  obtain ⟨a, b⟩ := sqrt_two_bounds
  have h1 : (0.65 : ℝ) ≤ √0.43 := Real.le_sqrt_of_sq_le (by norm_num)
  have h2 : (4.8 : ℝ) ≤ √23.9 := Real.le_sqrt_of_sq_le (by norm_num)
  obtain ⟨s, A, h, -, e, -⟩ := C206_violation (d := ⟨300, 200, 150, 12, 12, 10, 5, 235⟩) (by constructor <;> norm_num) rfl (by
      rw [eps_one, lambdaP, Dims.cfTop, div_le_iff₀ (by linarith)]
      norm_num at *
      linarith) (by
      rw [eps_one, lambdaP, Dims.cfBottom, div_le_iff₀ (by linarith)]
      norm_num at *
      linarith) (by
      rw [eps_one, lambdaP, Dims.cw, Dims.hw, div_le_iff₀ (by linarith)]
      norm_num at *
      linarith)
  refine ⟨s, A, h, ?_⟩
  have := e (by norm_num)
  norm_num [Dims.area, Dims.Aw, Dims.At, Dims.Ab, Dims.hw] at this
  exact this

/-! ### C207 -/

theorem aw_bounds (p : Proper d) : 0 < d.aw ∧ d.aw ≤ 1 / 2 := by
  have h1 := p.Aw
  have h2 := p.At
  have h3 := p.Ab
  have hA : 0 < d.area := by
    show 0 < d.Aw + d.At + d.Ab
    linarith
  refine ⟨lt_min (div_pos ?_ hA) (by norm_num), min_le_right _ _⟩
  show 0 < d.Aw + d.At + d.Ab - (d.At - d.Ab)
  linarith

/-- **C207, partial.** The moment resistance reduced for the axial force lies between zero and the moment resistance, does not grow with the axial force, is the whole moment resistance
    without axial force and nothing at or above the axial resistance. Missing: the value of EN 1993-1-1, 6.2.9.1 (see the violation). -/
theorem C207_partial (p : Proper d) {M : ℝ} (hM : 0 ≤ M) :
    (∀ U, 0 ≤ U → 0 ≤ d.momentAxial U M ∧ d.momentAxial U M ≤ M) ∧ (∀ U V, U ≤ V → d.momentAxial V M ≤ d.momentAxial U M) ∧ d.momentAxial 0 M = M ∧
      ∀ U, 1 ≤ U → d.momentAxial U M = 0 := by
  obtain ⟨a0, a1⟩ := aw_bounds p
  have hk : (0 : ℝ) < 1 - 1 / 2 * d.aw := by linarith
  have hnn : ∀ U, 0 ≤ d.momentAxial U M := by
    intro U
    unfold Dims.momentAxial
    split
    · exact le_rfl
    · next q => exact mul_nonneg hM (le_min (div_nonneg (by linarith) hk.le) zero_le_one)
  refine ⟨fun U _ => ⟨hnn U, ?_⟩, fun U V q => ?_, ?_, fun U q => ?_⟩
  · unfold Dims.momentAxial
    split
    · exact hM
    · have := mul_le_mul_of_nonneg_left (min_le_right ((1 - U) / (1 - 1 / 2 * d.aw)) 1) hM
      linarith
  · by_cases hV : V > 1
    · have : d.momentAxial V M = 0 := if_pos hV
      rw [this]
      exact hnn U
    · rw [Dims.momentAxial, Dims.momentAxial, if_neg hV, if_neg (by
        push Not at hV ⊢
        exact q.trans hV)]
      exact mul_le_mul_of_nonneg_left (min_le_min_right _ (div_le_div_of_nonneg_right (by linarith) hk.le)) hM
  · rw [Dims.momentAxial, if_neg (by norm_num), min_eq_right, mul_one]
    rw [le_div_iff₀ hk]
    linarith
  · unfold Dims.momentAxial
    split
    · rfl
    · next h =>
      have : U = 1 := le_antisymm (not_lt.1 h) q
      rw [this, sub_self, zero_div, min_eq_left zero_le_one, mul_zero]

/-- **C207 is violated by every section with equal flanges whose web has less than half of the area**: the share of the web enters as one half, so that for axial forces above half the true
    share `a = Aw / A` the result exceeds the value `MRd (1 - n) / (1 - a / 2)` of EN 1993-1-1, 6.2.9.1(5). -/
theorem C207_violation (p : Proper d) (h : Symmetric d) (hw : d.Aw / d.area < 1 / 2) {U M : ℝ} (hM : 0 < M) (h1 : d.Aw / d.area / 2 < U) (h2 : U < 1) :
    M * min ((1 - U) / (1 - d.Aw / d.area / 2)) 1 < d.momentAxial U M := by
  have hA : 0 < d.area := by
    have := p.Aw
    have := p.At
    have := p.Ab
    show 0 < d.Aw + d.At + d.Ab
    linarith
  have ha : d.aw = 1 / 2 := by
    rw [Dims.aw, h.1, h.2, sub_self, sub_zero, div_self hA.ne']
    norm_num
  have hk : (0 : ℝ) < 1 - d.Aw / d.area / 2 := by linarith
  rw [Dims.momentAxial, if_neg (not_lt.2 h2.le), ha]
  refine mul_lt_mul_of_pos_left (lt_min ?_ ?_) hM
  · refine (min_le_left _ _).trans_lt ?_
    exact div_lt_div_of_pos_left (by linarith) (by norm_num) (by linarith)
  · refine (min_le_left _ _).trans_lt ?_
    rw [div_lt_one hk]
    linarith

example : 100 * min ((1 - 1 / 2) / (1 - stocky.Aw / stocky.area / 2)) 1 < stocky.momentAxial (1 / 2) 100 :=
  C207_violation stocky_proper stocky_sym (by norm_num [stocky, Dims.area, Dims.Aw, Dims.At, Dims.Ab, Dims.hw]) (by norm_num)
    (by norm_num [stocky, Dims.area, Dims.Aw, Dims.At, Dims.Ab, Dims.hw]) (by norm_num)

example : stocky.momentAxial 1 100 = 0 := (C207_partial stocky_proper (by norm_num)).2.2.2 1 le_rfl

/-! ### C208 -/

theorem fix_eps {fy : ℝ} (h : 235 ≤ fy) : fixEps (epsilon fy) = epsilon fy ∧ 0 < epsilon fy := by
  have h0 : (0 : ℝ) < fy := by linarith
  have : epsilon fy ≤ 1 := by
    unfold epsilon
    exact Real.sqrt_le_one.2 ((div_le_one h0).2 h)
  exact ⟨if_neg (not_lt.2 this), Real.sqrt_pos.2 (by positivity)⟩

theorem classes_le {r e x y z : ℝ} (h1 : x ≤ y) (h2 : y ≤ z) (he : 0 ≤ e) {n : ℕ} (hn : n = if r ≤ x * e then 1 else if r ≤ y * e then 2 else if r ≤ z * e then 3 else 4) :
    1 ≤ n ∧ n ≤ 4 ∧ (n ≤ 1 ↔ r ≤ x * e) ∧ (n ≤ 2 ↔ r ≤ y * e) ∧ (n ≤ 3 ↔ r ≤ z * e) := by
  have a := mul_le_mul_of_nonneg_right h1 he
  have b := mul_le_mul_of_nonneg_right h2 he
  subst hn
  split_ifs with c1 c2 c3
  · exact ⟨le_rfl, by norm_num, by simp [c1], by simp [c1.trans a], by simp [(c1.trans a).trans b]⟩
  · exact ⟨by norm_num, by norm_num, by simp [c1], by simp [c2], by simp [c2.trans b]⟩
  · exact ⟨by norm_num, by norm_num, by simp [c1], by simp [c2], by simp [c3]⟩
  · exact ⟨by norm_num, by norm_num, by simp [c1], by simp [c2], by simp [c3]⟩

/-- **C208, partial.** The class of a section in pure compression whose lower flange is not more slender than the upper one is that of its worst plate, with the limits of EN 1993-1-1,
    table 5.2 for all three plates; a section in tension without moment has class 1. Missing: sections whose lower flange is more slender, bending and compression with bending (see the
    violations). -/
theorem C208_partial (hf : 235 ≤ d.fy) (hs : d.cfBottom / d.tb ≤ d.cfTop / d.tt) {N M : ℝ} (hM : |M| < 1 / 10 ^ 4) :
    (0 ≤ N → sectionClass d N M = 1) ∧
    (N < 0 → 1 ≤ sectionClass d N M ∧ sectionClass d N M ≤ 4 ∧
      (sectionClass d N M ≤ 1 ↔ d.cfTop / d.tt ≤ 9 * epsilon d.fy ∧ d.cfBottom / d.tb ≤ 9 * epsilon d.fy ∧ d.cw / d.tw ≤ 33 * epsilon d.fy) ∧
      (sectionClass d N M ≤ 2 ↔ d.cfTop / d.tt ≤ 10 * epsilon d.fy ∧ d.cfBottom / d.tb ≤ 10 * epsilon d.fy ∧ d.cw / d.tw ≤ 38 * epsilon d.fy) ∧
      (sectionClass d N M ≤ 3 ↔ d.cfTop / d.tt ≤ 14 * epsilon d.fy ∧ d.cfBottom / d.tb ≤ 14 * epsilon d.fy ∧ d.cw / d.tw ≤ 42 * epsilon d.fy)) := by
  obtain ⟨e1, e0⟩ := fix_eps hf
  refine ⟨fun h => if_pos ⟨h, hM⟩, fun h => ?_⟩
  have hc : sectionClass d N M = max d.webComp d.flangeClass := by
    rw [sectionClass, if_neg (fun q => absurd q.1 (not_le.2 h)), if_neg (fun q => absurd q.2 (not_lt.2 hM.le)), if_pos (Or.inl h), if_pos hM]
  obtain ⟨w1, w2, w3, w4, w5⟩ := classes_le (r := d.cw / d.tw) (x := 33) (y := 38) (z := 42) (by norm_num) (by norm_num) e0.le (n := d.webComp) (by
    rw [Dims.webComp, internalCompression, e1])
  obtain ⟨f1, f2, f3, f4, f5⟩ := classes_le (r := d.cfTop / d.tt) (x := 9) (y := 10) (z := 14) (by norm_num) (by norm_num) e0.le (n := d.flangeClass) (by
    rw [Dims.flangeClass, outstandCompression, e1])
  rw [hc]
  refine ⟨le_max_of_le_left w1, max_le w2 f2, ?_, ?_, ?_⟩ <;> rw [max_le_iff]
  · rw [w3, f3]
    exact ⟨fun q => ⟨q.2, hs.trans q.2, q.1⟩, fun q => ⟨q.2.2, q.1⟩⟩
  · rw [w4, f4]
    exact ⟨fun q => ⟨q.2, hs.trans q.2, q.1⟩, fun q => ⟨q.2.2, q.1⟩⟩
  · rw [w5, f5]
    exact ⟨fun q => ⟨q.2, hs.trans q.2, q.1⟩, fun q => ⟨q.2.2, q.1⟩⟩

example : sectionClass stocky (-1) 0 ≤ 1 := by
  obtain ⟨a, b⟩ := sqrt_two_bounds
  refine (((C208_partial (d := stocky) (by norm_num [stocky]) le_rfl (by norm_num)).2 (by norm_num)).2.2.1).2 ⟨?_, ?_, ?_⟩
  all_goals
    have e : epsilon stocky.fy = 1 := eps_one
    rw [e]
    norm_num [stocky, Dims.cfTop, Dims.cfBottom, Dims.cw, Dims.hw]
    norm_num at a b
    linarith

/-- **C208 is violated by the lower flange**: in pure compression it is not looked at, however slender it is. -/
theorem C208_violation_bottom (hf : 235 ≤ d.fy) (h1 : d.cfTop / d.tt ≤ 9 * epsilon d.fy) (h2 : d.cw / d.tw ≤ 33 * epsilon d.fy)
    (h3 : 14 * epsilon d.fy < d.cfBottom / d.tb) {N : ℝ} (hN : N < 0) : sectionClass d N 0 = 1 ∧ outstandCompression (d.cfBottom / d.tb) (epsilon d.fy) = 4 := by
  obtain ⟨e1, e0⟩ := fix_eps hf
  constructor
  · rw [sectionClass, if_neg (fun q => absurd q.1 (not_le.2 hN)), if_neg (fun q => absurd q.2 (by norm_num)), if_pos (Or.inl hN), if_pos (by norm_num)]
    rw [Dims.webComp, Dims.flangeClass, internalCompression, outstandCompression, e1, if_pos h1, if_pos h2]
    rfl
  · rw [outstandCompression, e1, if_neg (by linarith), if_neg (by linarith), if_neg (by linarith)]

example : sectionClass ⟨300, 200, 400, 12, 12, 10, 5, 235⟩ (-1000) 0 = 1 := by
  obtain ⟨a, b⟩ := sqrt_two_bounds
  norm_num at a b
  refine (C208_violation_bottom (by norm_num) ?_ ?_ ?_ (by norm_num)).1
  all_goals
    rw [eps_one]
    norm_num [Dims.cfTop, Dims.cfBottom, Dims.cw, Dims.hw]
    linarith

/-- **C208 is violated by compression with bending**: the compressed part of the web is computed with the wrong sign of the force, so that at the full axial resistance (force `-A fy`) the
    web has class 1 whatever its slenderness, and adding a moment turns a section of class 4 into one of class 1. -/
theorem C208_violation_sign (p : Proper d) (hf : 235 ≤ d.fy) (h1 : d.cfTop / d.tt ≤ 9 * epsilon d.fy) (h2 : 42 * epsilon d.fy < d.cw / d.tw) {M : ℝ} (hM : 1 / 10 ^ 4 ≤ |M|)
    (hN : 1 / 10 ^ 4 ≤ d.area * d.fy) : sectionClass d (-(d.area * d.fy)) 0 = 4 ∧ sectionClass d (-(d.area * d.fy)) M = 1 := by
  obtain ⟨e1, e0⟩ := fix_eps hf
  have hA : 0 < d.area := by
    have := p.Aw
    have := p.At
    have := p.Ab
    show 0 < d.Aw + d.At + d.Ab
    linarith
  have hfy : 0 < d.fy := by linarith
  have hn : -(d.area * d.fy) < 0 := neg_lt_zero.2 (mul_pos hA hfy)
  constructor
  · rw [sectionClass, if_neg (fun q => absurd q.1 (not_le.2 hn)), if_neg (fun q => absurd q.2 (by norm_num)), if_pos (Or.inl hn), if_pos (by norm_num)]
    rw [Dims.webComp, Dims.flangeClass, internalCompression, outstandCompression, e1, if_pos h1, if_neg (by linarith), if_neg (by linarith), if_neg (by linarith)]
    rfl
  · rw [sectionClass, if_neg (fun q => absurd q.1 (not_le.2 hn)), if_neg, if_pos (Or.inl hn), if_neg (not_lt.2 hM)]
    · have : 1 / 2 * (d.area + -(d.area * d.fy) / (d.fy / Ec3.gammaM0)) / d.area = 0 := by
        rw [Ec3.gammaM0]
        field_simp
        ring
      rw [Dims.webCompBend, this, Dims.flangeClass, outstandCompression, e1, if_pos h1, internalCompBend, compBend12, if_pos rfl]
      rfl
    · rintro ⟨q, -⟩
      rw [abs_neg, abs_of_pos (mul_pos hA hfy)] at q
      linarith

example : sectionClass ⟨700, 200, 200, 12, 12, 5, 4, 235⟩ (-(8180 * 235)) 1 = 1 := by
  obtain ⟨a, b⟩ := sqrt_two_bounds
  norm_num at a b
  have hA : Dims.area ⟨700, 200, 200, 12, 12, 5, 4, 235⟩ = 8180 := by norm_num [Dims.area, Dims.Aw, Dims.At, Dims.Ab, Dims.hw]
  have := (C208_violation_sign (d := ⟨700, 200, 200, 12, 12, 5, 4, 235⟩) (by constructor <;> norm_num) (by norm_num) (by
    rw [eps_one]
    norm_num [Dims.cfTop]
    linarith) (by
    rw [eps_one]
    norm_num [Dims.cw, Dims.hw]
    linarith) (M := 1) (by norm_num) (by
    rw [hA]
    norm_num)).2
  rw [hA] at this
  exact this

/-- **C208 is violated in pure bending**: the compressed part of the web is computed without the size of the weld, so that with welds thicker than 1 mm a web just above the limit `72 ε` of
    class 1 is still given class 1. -/
theorem C208_violation_weld (p : Proper d) (h : Symmetric d) (hf : 235 ≤ d.fy) (ht : 1 < d.throat) (hc : 0 < d.cw) (h1 : 72 * epsilon d.fy < d.cw / d.tw)
    (h2 : d.cw / d.tw * d.cw ≤ 72 * epsilon d.fy * (d.hw - 2 * √2)) :
    d.webBend = 1 ∧ 2 ≤ internalBending (d.cw / d.tw) (epsilon d.fy) := by
  obtain ⟨e1, e0⟩ := fix_eps hf
  have hA : 0 < d.area := by
    have := p.Aw
    have := p.At
    have := p.Ab
    show 0 < d.Aw + d.At + d.Ab
    linarith
  have s2 := sqrt_two_bounds.1
  have hAw := p.Aw
  have eA : d.area = d.Aw + d.At + d.Ab := rfl
  have eB : d.Ab = d.At := by
    unfold Dims.Ab Dims.At
    rw [h.1, h.2]
  have hdpl : d.dpl = d.h / 2 := by
    rw [Dims.dpl, if_neg (by linarith), if_neg (by linarith)]
    have : d.area / 2 - d.Ab = d.hw * d.tw / 2 := by
      have : d.Aw = d.hw * d.tw := rfl
      linarith
    rw [this]
    have htw := p.tw.ne'
    field_simp
    unfold Dims.hw
    rw [h.2]
    ring
  have hcw : d.cw = d.h - 2 * d.tb - 2 * (√2 * d.throat) := by
    unfold Dims.cw Dims.hw
    rw [h.2]
    ring
  have hhw : d.hw = d.h - 2 * d.tb := by
    unfold Dims.hw
    rw [h.2]
    ring
  have hgt : d.cw < d.hw - 2 * √2 := by
    rw [hcw, hhw]
    nlinarith
  have halpha : d.alpha = d.cw / 2 / (d.hw - 2 * √2) := by
    rw [Dims.alpha, hdpl, if_neg (by linarith), if_neg (by rw [h.2]; linarith)]
    congr 1
    rw [hcw, h.2]
    ring
  have hD : 0 < d.hw - 2 * √2 := hc.trans hgt
  have ha0 : 0 < d.alpha := by
    rw [halpha]
    positivity
  constructor
  · have hle : ¬d.alpha > 1 / 2 := by
      rw [halpha, gt_iff_lt, not_lt, div_le_iff₀ hD]
      linarith
    have hr : d.cw / d.tw ≤ 36 * epsilon d.fy / d.alpha := by
      rw [le_div_iff₀ ha0, halpha, ← mul_div_assoc, div_le_iff₀ hD]
      linarith
    have hcb : compBend12 (d.cw / d.tw) (epsilon d.fy) d.alpha = 1 := by
      rw [compBend12, if_neg ha0.ne', if_neg hle, if_pos hr]
    rw [Dims.webBend, internalCompBend, e1, hcb]
    rfl
  · rw [internalBending, if_neg (not_le.2 h1)]
    split_ifs <;> norm_num

/-- A beam with a slender web. -/
noncomputable def slender : Dims := ⟨700, 200, 200, 10, 10, 9.12, 5, 235⟩

example : slender.webBend = 1 := by
  obtain ⟨a, b⟩ := sqrt_two_bounds
  norm_num at a b
  have c : slender.cw = 680 - 10 * √2 := by
    norm_num [slender, Dims.cw, Dims.hw]
    ring
  have e : epsilon slender.fy = 1 := eps_one
  have t : slender.tw = 9.12 := rfl
  have w : slender.hw = 680 := by norm_num [slender, Dims.hw]
  refine (C208_violation_weld (d := slender) ?_ ⟨rfl, rfl⟩ (by norm_num [slender]) (by norm_num [slender]) ?_ ?_ ?_).1
  · constructor <;> norm_num [slender]
  · rw [c]
    linarith
  · rw [e, c, t, lt_div_iff₀ (by norm_num)]
    norm_num
    linarith
  · rw [e, c, t, w, div_mul_eq_mul_div, div_le_iff₀ (by norm_num)]
    norm_num
    nlinarith

/-! ### C209 -/

theorem shearArea_pos (p : Proper d) : 0 < d.shearArea := by
  have : 0 < shearEta d.fy := by
    unfold shearEta
    split_ifs <;> norm_num
  exact mul_pos (mul_pos this p.hw) p.tw

/-- **C209 is violated by the check about the weak axis**, which raises an exception for every section, state and forces. -/
theorem C209_violation (d : Dims) (s : Eff) (N : ℝ) (Med Ved : ℝ × ℝ) : ∃ e, sectionCheck d s N Med Ved .z = .error e := by
  simp only [sectionCheck, bind, Except.bind]
  cases hb : bending d s (sectionClass d N Med.1) .z with
  | error e => exact ⟨e, rfl⟩
  | ok r =>
    simp only
    cases hn : pyDiv |N| (compressionResistance d.area d.fy) with
    | error e => exact ⟨e, rfl⟩
    | ok u =>
      have : pyDiv |Ved.1| (shearResistance d.ashear.1 d.fy) = .error .zeroDivision := by
        rw [pyDiv, if_pos]
        simp [shearResistance, Dims.ashear]
      simp only [this]
      exact ⟨_, rfl⟩

/-- **C209, partial.** For a section of class 1 to 3 the check about the strong axis returns four ratios: the first three are at most one exactly when the axial force, the shear force and the
    moment do not exceed their resistances `A fy`, `Av fy / √3` and `W fy` (plastic modulus for classes 1 and 2, elastic modulus for class 3), the fourth is not smaller than the third. Missing:
    the weak axis, class 4 (where the whole area is used for the axial force). -/
theorem C209_partial (p : Proper d) (hf : 0 < d.fy) (s : Eff) (N : ℝ) (Med Ved : ℝ × ℝ) (hC : sectionClass d N Med.1 ≤ 3) :
    ∃ UN UV UM UMN, sectionCheck d s N Med Ved .y = .ok (UN, UV, UM, UMN) ∧ 0 ≤ UN ∧ 0 ≤ UV ∧ 0 ≤ UM ∧ UM ≤ UMN ∧
      (UN ≤ 1 ↔ |N| ≤ d.area * d.fy) ∧ (UV ≤ 1 ↔ |Ved.2| ≤ d.shearArea * (d.fy / √3)) ∧
      (sectionClass d N Med.1 < 3 → (UM ≤ 1 ↔ |Med.1| ≤ d.WplY * d.fy)) ∧ (sectionClass d N Med.1 = 3 → (UM ≤ 1 ↔ |Med.1| ≤ d.WelY * d.fy) ∧ UMN = UN + UM) := by
  have hA : 0 < d.area := by
    have := p.Aw
    have := p.At
    have := p.Ab
    show 0 < d.Aw + d.At + d.Ab
    linarith
  have hN : 0 < compressionResistance d.area d.fy := by
    rw [compressionResistance, Ec3.gammaM0, div_one]
    exact mul_pos hA hf
  have hV : 0 < shearResistance d.shearArea d.fy := by
    rw [shearResistance, Ec3.gammaM0, div_one]
    exact div_pos (mul_pos (shearArea_pos p) hf) (by norm_num)
  have hWel : 0 < d.WelY := div_pos (Iy_pos p) (lt_max_of_lt_left (zel_mem p).1)
  have hWpl : 0 < d.WplY := hWel.trans_le (elastic_le_plastic_y p)
  obtain ⟨W, hW, hb, h3, h4⟩ : ∃ W, 0 < W ∧ bending d s (sectionClass d N Med.1) .y = .ok (s, W * d.fy) ∧ (sectionClass d N Med.1 < 3 → W = d.WplY) ∧
      (sectionClass d N Med.1 = 3 → W = d.WelY) := by
    rcases hC.lt_or_eq with q | q
    · refine ⟨d.WplY, hWpl, ?_, fun _ => rfl, fun r => absurd r q.ne⟩
      rw [bending, if_pos q, bendingResistance, Ec3.gammaM0, div_one]
    · refine ⟨d.WelY, hWel, ?_, fun r => absurd q r.ne, fun _ => rfl⟩
      rw [bending, if_neg q.not_lt, if_pos q, bendingResistance, Ec3.gammaM0, div_one]
  have hM : 0 < W * d.fy := mul_pos hW hf
  have n0 : 0 ≤ |N| / compressionResistance d.area d.fy := div_nonneg (abs_nonneg _) hN.le
  have m0 : 0 ≤ |Med.1| / (W * d.fy) := div_nonneg (abs_nonneg _) hM.le
  refine ⟨|N| / compressionResistance d.area d.fy, |Ved.2| / shearResistance d.shearArea d.fy, |Med.1| / (W * d.fy),
    if sectionClass d N Med.1 < 3 ∧ d.momentAxial (|N| / compressionResistance d.area d.fy) (W * d.fy) > 0 then
      |Med.1| / d.momentAxial (|N| / compressionResistance d.area d.fy) (W * d.fy) else |N| / compressionResistance d.area d.fy + |Med.1| / (W * d.fy), ?_, n0,
    div_nonneg (abs_nonneg _) hV.le, m0, ?_, ?_, ?_, ?_, ?_⟩
  · simp only [sectionCheck, bind, Except.bind, hb, pyDiv, hN.ne', Dims.ashear, hV.ne', hM.ne', Steel.Axis.of, if_false]
  · split_ifs with q
    · exact div_le_div_of_nonneg_left (abs_nonneg _) q.2 (((C207_partial p hM.le).1 _ n0).2)
    · linarith
  · rw [div_le_one hN, compressionResistance, Ec3.gammaM0, div_one]
  · rw [div_le_one hV, shearResistance, Ec3.gammaM0, div_one, mul_div_assoc]
  · intro q
    rw [div_le_one hM, h3 q]
  · intro q
    rw [div_le_one hM, h4 q, if_neg (fun r => absurd q r.1.ne)]
    exact ⟨Iff.rfl, rfl⟩

example : ∃ UN UV UM UMN, sectionCheck stocky (Eff.fresh stocky) 1000 (0, 0) (0, 5) .y = .ok (UN, UV, UM, UMN) ∧ UN ≤ 1 := by
  have hc : sectionClass stocky 1000 ((0, 0) : ℝ × ℝ).1 = 1 := if_pos ⟨by norm_num, by norm_num⟩
  obtain ⟨UN, UV, UM, UMN, h, -, -, -, -, e, -⟩ := C209_partial stocky_proper (by norm_num [stocky]) (Eff.fresh stocky) 1000 (0, 0) (0, 5) (by
    rw [hc]
    norm_num)
  refine ⟨UN, UV, UM, UMN, h, e.2 ?_⟩
  norm_num [stocky, Dims.area, Dims.Aw, Dims.At, Dims.Ab, Dims.hw]

end Metku.WI
