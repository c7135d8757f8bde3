import Mathlib.Analysis.SpecialFunctions.Integrals.Basic
import Mathlib.Analysis.SpecialFunctions.Trigonometric.InverseDeriv
import Mathlib.Analysis.SpecialFunctions.Sqrt
import Mathlib.MeasureTheory.Integral.IntervalIntegral.FundThmCalculus
import Mathlib.Analysis.Real.Pi.Bounds
import Verif.Model.Composite
import Verif.Props.Ec3

/-!
C258-C265: concrete, concrete-filled tubes, composite beams, shear studs.
-/
namespace Metku.Comp

open Metku Real intervalIntegral

/-! ### Integrals over a quarter of a circle -/

theorem hasDerivAt_root {r x : ℝ} (h : 0 < r ^ 2 - x ^ 2) :
    HasDerivAt (fun x => √(r ^ 2 - x ^ 2)) (-x / √(r ^ 2 - x ^ 2)) x := by
  have h1 : HasDerivAt (fun x : ℝ => r ^ 2 - x ^ 2) (-(2 * x)) x := by
    simpa using (hasDerivAt_pow 2 x).const_sub (r ^ 2)
  have h2 := h1.sqrt h.ne'
  convert h2 using 1
  field_simp

theorem hasDerivAt_asin {r x : ℝ} (hr : 0 < r) (h : 0 < r ^ 2 - x ^ 2) :
    HasDerivAt (fun x => arcsin (x / r)) (1 / √(r ^ 2 - x ^ 2)) x := by
  have hx : (x / r) ^ 2 < 1 := by
    rw [div_pow, div_lt_one (by positivity)]
    linarith
  have h1 : x / r ≠ -1 := by rintro e; rw [e] at hx; norm_num at hx
  have h2 : x / r ≠ 1 := by rintro e; rw [e] at hx; norm_num at hx
  have h3 := (hasDerivAt_arcsin h1 h2).comp x ((hasDerivAt_id x).div_const r)
  have e : 1 / √(1 - (x / r) ^ 2) * (1 / r) = 1 / √(r ^ 2 - x ^ 2) := by
    have : r ^ 2 - x ^ 2 = r ^ 2 * (1 - (x / r) ^ 2) := by field_simp
    rw [this, sqrt_mul (by positivity), sqrt_sq hr.le]
    field_simp
  rw [← e]
  exact h3

theorem cont_root (r : ℝ) : Continuous fun x : ℝ => √(r ^ 2 - x ^ 2) := by fun_prop

theorem integral_root0 {r : ℝ} (hr : 0 ≤ r) : ∫ x in (0:ℝ)..r, √(r ^ 2 - x ^ 2) = π * r ^ 2 / 4 := by
  rcases hr.eq_or_lt with rfl | hr
  · simp
  have key := integral_eq_sub_of_hasDerivAt_of_le (a := 0) (b := r)
    (f := fun x => (x * √(r ^ 2 - x ^ 2) + r ^ 2 * arcsin (x / r)) / 2) (f' := fun x => √(r ^ 2 - x ^ 2)) hr.le ?_ ?_ ?_
  · rw [key]
    simp [hr.ne']
    ring
  · apply Continuous.continuousOn
    have := continuous_arcsin
    fun_prop
  · intro x hx
    have hp : 0 < r ^ 2 - x ^ 2 := by nlinarith [hx.1, hx.2]
    have hs := sqrt_pos.2 hp
    have hq := sq_sqrt hp.le
    have := (((hasDerivAt_id x).mul (hasDerivAt_root hp)).add ((hasDerivAt_asin hr hp).const_mul (r ^ 2))).div_const 2
    refine this.congr_deriv ?_
    simp only [id]
    field_simp
    linear_combination -(1:ℝ) * hq
  · exact (cont_root r).intervalIntegrable _ _

theorem integral_root1 {r : ℝ} (hr : 0 ≤ r) : ∫ x in (0:ℝ)..r, x * √(r ^ 2 - x ^ 2) = r ^ 3 / 3 := by
  have key := integral_eq_sub_of_hasDerivAt_of_le (a := 0) (b := r)
    (f := fun x => -((r ^ 2 - x ^ 2) * √(r ^ 2 - x ^ 2)) / 3) (f' := fun x => x * √(r ^ 2 - x ^ 2)) hr ?_ ?_ ?_
  · rw [key]
    simp [sqrt_sq hr]
    ring
  · apply Continuous.continuousOn
    fun_prop
  · intro x hx
    have hp : 0 < r ^ 2 - x ^ 2 := by nlinarith [hx.1, hx.2]
    have hs := sqrt_pos.2 hp
    have hq := sq_sqrt hp.le
    have h1 : HasDerivAt (fun x : ℝ => r ^ 2 - x ^ 2) (-(2 * x)) x := by
      simpa using (hasDerivAt_pow 2 x).const_sub (r ^ 2)
    have := ((h1.mul (hasDerivAt_root hp)).neg).div_const 3
    refine this.congr_deriv ?_
    field_simp
    linear_combination -x * hq
  · exact (continuous_id.mul (cont_root r)).intervalIntegrable _ _

theorem integral_root2 {r : ℝ} (hr : 0 ≤ r) : ∫ x in (0:ℝ)..r, x ^ 2 * √(r ^ 2 - x ^ 2) = π * r ^ 4 / 16 := by
  rcases hr.eq_or_lt with rfl | hr
  · simp
  have key := integral_eq_sub_of_hasDerivAt_of_le (a := 0) (b := r)
    (f := fun x => (r ^ 4 * arcsin (x / r) - (r ^ 2 * x - 2 * x ^ 3) * √(r ^ 2 - x ^ 2)) / 8)
    (f' := fun x => x ^ 2 * √(r ^ 2 - x ^ 2)) hr.le ?_ ?_ ?_
  · rw [key]
    simp [hr.ne']
    ring
  · apply Continuous.continuousOn
    have := continuous_arcsin
    fun_prop
  · intro x hx
    have hp : 0 < r ^ 2 - x ^ 2 := by nlinarith [hx.1, hx.2]
    have hs := sqrt_pos.2 hp
    have hq := sq_sqrt hp.le
    have h1 : HasDerivAt (fun x : ℝ => r ^ 2 * x - 2 * x ^ 3) (r ^ 2 - 6 * x ^ 2) x := by
      have := ((hasDerivAt_id x).const_mul (r ^ 2)).sub ((hasDerivAt_pow 3 x).const_mul 2)
      refine this.congr_deriv ?_
      norm_num
      ring
    have := (((hasDerivAt_asin hr hp).const_mul (r ^ 4)).sub (h1.mul (hasDerivAt_root hp))).div_const 8
    refine this.congr_deriv ?_
    field_simp
    linear_combination (-(2 * x ^ 2) - r ^ 2) * hq
  · exact ((continuous_id.pow 2).mul (cont_root r)).intervalIntegrable _ _

/-! ### C259: geometry of a filled tube -/

/-- Width at height `s` above the centre of a rectangle `b × 2(c + r)` with corners rounded by the radius `r`. -/
noncomputable def width (b c r s : ℝ) : ℝ := b - 2 * r + 2 * √(r ^ 2 - (max 0 (s - c)) ^ 2)

theorem cont_width (b c r : ℝ) : Continuous (width b c r) := by
  unfold width
  fun_prop

theorem moments {b c r : ℝ} (hc : 0 ≤ c) (hr : 0 ≤ r) {y : ℝ} (hy : 0 ≤ y) (hyc : y ≤ c) :
    (∫ s in y..(c + r), width b c r s) = b * (c + r) - (4 - π) * r ^ 2 / 2 - b * y ∧
    (∫ s in y..(c + r), s * width b c r s) = b * (c + r) ^ 2 / 2 - r ^ 3 / 3 - c * r ^ 2 * (4 - π) / 2 - b * y ^ 2 / 2 ∧
    (∫ s in (0:ℝ)..(c + r), s ^ 2 * width b c r s) = (b - 2 * r) * (c + r) ^ 3 / 3 + 2 * r * c ^ 3 / 3 +
      2 * (c ^ 2 * (π * r ^ 2 / 4) + 2 * c * (r ^ 3 / 3) + π * r ^ 4 / 16) := by
  have hcw := cont_width b c r
  have lowW : ∀ s, s ≤ c → width b c r s = b := by
    intro s hs
    unfold width
    rw [max_eq_left (by linarith), zero_pow two_ne_zero, sub_zero, sqrt_sq hr]
    ring
  have upW : ∀ s, c ≤ s → width b c r s = b - 2 * r + 2 * √(r ^ 2 - (s - c) ^ 2) := by
    intro s hs
    unfold width
    rw [max_eq_right (by linarith)]
  have split : ∀ (f : ℝ → ℝ), Continuous f → ∀ y, 0 ≤ y → y ≤ c →
      (∫ s in y..(c + r), f s * width b c r s) = (∫ s in y..c, f s * b) +
        ∫ x in (0:ℝ)..r, f (x + c) * (b - 2 * r + 2 * √(r ^ 2 - x ^ 2)) := by
    intro f hf y hy hyc
    have hi : ∀ u v, IntervalIntegrable (fun s => f s * width b c r s) MeasureTheory.volume u v :=
      fun u v => (hf.mul hcw).intervalIntegrable u v
    rw [← integral_add_adjacent_intervals (hi y c) (hi c (c + r))]
    congr 1
    · apply integral_congr
      intro s hs
      rw [Set.uIcc_of_le hyc] at hs
      simp only
      rw [lowW s hs.2]
    · have e := integral_comp_add_right (a := 0) (b := r) (fun s => f s * width b c r s) c
      rw [zero_add, add_comm r c] at e
      rw [← e]
      apply integral_congr
      intro x hx
      rw [Set.uIcc_of_le hr] at hx
      simp only
      rw [upW (x + c) (by linarith [hx.1]), add_sub_cancel_right]
  have i0 := integral_root0 hr
  have i1 := integral_root1 hr
  have i2 := integral_root2 hr
  have c0 := cont_root r
  refine ⟨?_, ?_, ?_⟩
  · have := split (fun _ => 1) continuous_const y hy hyc
    simp only [one_mul] at this
    rw [this, integral_add (by apply Continuous.intervalIntegrable; fun_prop) (by apply Continuous.intervalIntegrable; fun_prop)]
    rw [integral_const_mul, i0]
    simp
    ring
  · rw [split (fun s => s) continuous_id y hy hyc]
    have e : ∀ x : ℝ, (x + c) * (b - 2 * r + 2 * √(r ^ 2 - x ^ 2)) =
        (b - 2 * r) * x + (b - 2 * r) * c + (2 * (x * √(r ^ 2 - x ^ 2)) + 2 * c * √(r ^ 2 - x ^ 2)) := fun x => by ring
    simp only [e]
    rw [integral_add (by apply Continuous.intervalIntegrable; fun_prop) (by apply Continuous.intervalIntegrable; fun_prop),
      integral_add (by apply Continuous.intervalIntegrable; fun_prop) (by apply Continuous.intervalIntegrable; fun_prop),
      integral_add (by apply Continuous.intervalIntegrable; fun_prop) (by apply Continuous.intervalIntegrable; fun_prop)]
    rw [integral_const_mul, integral_const_mul, integral_const_mul, integral_const_mul, i0, i1, integral_mul_const]
    simp
    ring
  · have := split (fun s => s ^ 2) (by fun_prop) 0 le_rfl hc
    rw [this]
    have e : ∀ x : ℝ, (x + c) ^ 2 * (b - 2 * r + 2 * √(r ^ 2 - x ^ 2)) =
        (b - 2 * r) * (x + c) ^ 2 + (2 * (x ^ 2 * √(r ^ 2 - x ^ 2)) + (4 * c * (x * √(r ^ 2 - x ^ 2)) + 2 * c ^ 2 * √(r ^ 2 - x ^ 2))) :=
      fun x => by ring
    simp only [e]
    rw [integral_add (by apply Continuous.intervalIntegrable; fun_prop) (by apply Continuous.intervalIntegrable; fun_prop),
      integral_add (by apply Continuous.intervalIntegrable; fun_prop) (by apply Continuous.intervalIntegrable; fun_prop),
      integral_add (by apply Continuous.intervalIntegrable; fun_prop) (by apply Continuous.intervalIntegrable; fun_prop)]
    rw [integral_const_mul, integral_const_mul, integral_const_mul, integral_const_mul, i0, i1, i2, integral_mul_const]
    have e3 : (∫ x in (0:ℝ)..r, (x + c) ^ 2) = ((c + r) ^ 3 - c ^ 3) / 3 := by
      rw [integral_comp_add_right (fun x => x ^ 2) c, integral_pow]
      ring
    rw [e3]
    simp
    ring

/-- A column with room for the corners: the inner radius is not negative and fits into the height. -/
structure Sound (p : Column) : Prop where
  thick : 0 < p.steel.T
  inner : p.steel.T ≤ p.steel.R
  height : 2 * p.steel.R ≤ p.steel.H
  four : p.nbars = 4

/-- Inner width, half the height between the rounded corners, inner radius. -/
noncomputable def bI (p : Column) : ℝ := p.steel.B - 2 * p.steel.T
noncomputable def cI (p : Column) : ℝ := p.steel.H / 2 - p.steel.R
noncomputable def rI (p : Column) : ℝ := p.steel.R - p.steel.T

theorem area_bars (p : Column) (h : Sound p) :
    p.Ac = 2 * (∫ s in (0:ℝ)..(cI p + rI p), width (bI p) (cI p) (rI p) s) - 4 * p.rebar.A ∧
    p.Wpc = 2 * (∫ s in (0:ℝ)..(cI p + rI p), s * width (bI p) (cI p) (rI p) s) - 4 * p.rebar.A * p.z := by
  have hc : 0 ≤ cI p := by unfold cI; linarith [h.height]
  have hr : 0 ≤ rI p := by unfold rI; linarith [h.inner]
  obtain ⟨h0, h1, -⟩ := moments (b := bI p) hc hr le_rfl hc
  rw [h0, h1]
  constructor
  · unfold Column.Ac Column.As bI cI rI
    ring
  · unfold Column.Wpc Column.Wps bI cI rI
    rw [h.four]
    norm_num
    ring

/-- Area and plastic modulus of the concrete are those of the inside of the tube (a rectangle with rounded corners) less the
    four bars. -/
theorem C259_partial (p : Column) (h : Sound p) :
    p.Ac = 2 * (∫ s in (0:ℝ)..(cI p + rI p), width (bI p) (cI p) (rI p) s) - 4 * (π * (p.rebar.d / 2) ^ 2) ∧
    p.Wpc = 2 * (∫ s in (0:ℝ)..(cI p + rI p), s * width (bI p) (cI p) (rI p) s) - 4 * (π * (p.rebar.d / 2) ^ 2) * p.z := by
  have e : p.rebar.A = π * (p.rebar.d / 2) ^ 2 := by unfold Rebar.A; ring
  rw [← e]
  exact area_bars p h

/-- The second moment of area is too large: the distance of the quarter circles from the centre is taken without their radius. -/
theorem C259_violation (p : Column) (h : Sound p) :
    p.Ic = 2 * (∫ s in (0:ℝ)..(cI p + rI p), s ^ 2 * width (bI p) (cI p) (rI p) s) - 4 * (p.rebar.I + p.rebar.A * p.z ^ 2) +
      rI p ^ 3 * (π * (2 * cI p + rI p) + 8 / 3 * rI p) := by
  have hc : 0 ≤ cI p := by unfold cI; linarith [h.height]
  have hr : 0 ≤ rI p := by unfold rI; linarith [h.inner]
  obtain ⟨-, -, h2⟩ := moments (b := bI p) hc hr le_rfl hc
  rw [h2]
  have hpi := pi_pos.ne'
  unfold Column.Ic Column.Is bI cI rI
  rw [h.four]
  norm_num
  field_simp
  ring

/-- The covers: setting the vertical one is undone by reading it; the horizontal one is read two radii too large. -/
theorem C259_cover (p : Column) (u : ℝ) : (p.setU u).u = u ∧ (p.setU u).pos.1 = p.pos.1 ∧ (p.setV u).pos.2 = p.pos.2 ∧
    (p.setV u).v = u + 2 * p.rebar.r := by
  unfold Column.setU Column.setV Column.u Column.v
  refine ⟨?_, rfl, rfl, ?_⟩ <;> dsimp only <;> ring

/-- By default all bars have a cover of 30 mm: their outer edges are 30 mm from the inner faces of the tube. -/
theorem C259_new (L : ℝ) (s : Tube) (c : Concrete) (b : Rebar) : ∃ p, Column.new L s c (some b) none = .ok p ∧
    p.pos.1 + b.r + 30 = s.B / 2 - s.T ∧ p.pos.2 + b.r + 30 = s.H / 2 - s.T ∧ p.nbars = 4 ∧ p.steel = s ∧ p.rebar = b ∧
    Column.new L s c none none = .error .attributeError := by
  refine ⟨_, rfl, ?_, ?_, rfl, rfl, rfl, rfl⟩
  · simp only [Column.setU, Column.setV]
    norm_num
    ring
  · simp only [Column.setU, Column.setV]
    norm_num
    ring

/-! ### C258: creep of concrete -/

/-- EN 1992-1-1, annex B, with one formula for both ranges of strength: the coefficients of Eq. (B.8c) are powers of `a`. -/
noncomputable def aB (c : Concrete) : ℝ := min 1 (35 / (c.fck + 8))
noncomputable def phi0B (c : Concrete) (h0 t0 : ℝ) : ℝ :=
  (1 + (1 - c.RH / 100) / (0.1 * h0 ^ ((1:ℝ) / 3)) * aB c ^ (0.7:ℝ)) * aB c ^ (0.2:ℝ) * (16.8 / √(c.fck + 8)) * (1 / (0.1 + t0 ^ (0.2:ℝ)))
noncomputable def betaB (c : Concrete) (h0 : ℝ) : ℝ :=
  min (1.5 * (1 + (0.012 * c.RH) ^ 18) * h0 + 250 * aB c ^ (0.5:ℝ)) (1500 * aB c ^ (0.5:ℝ))

structure Concrete.Ok (c : Concrete) : Prop where
  fck : 0 < c.fck
  RH : 0 ≤ c.RH
  RH1 : c.RH ≤ 100

theorem aB_pos {c : Concrete} (h : c.Ok) : 0 < aB c := by
  have := h.fck
  unfold aB
  refine lt_min one_pos (by positivity)

theorem betaB_pos {c : Concrete} (h : c.Ok) {h0 : ℝ} (hh : 0 < h0) : 0 < betaB c h0 := by
  have := aB_pos h
  have := h.RH
  unfold betaB
  refine lt_min (by positivity) (by positivity)

theorem phiRH_eq {c : Concrete} (h : c.Ok) (h0 : ℝ) :
    c.phiRH h0 = (1 + (1 - c.RH / 100) / (0.1 * h0 ^ ((1:ℝ) / 3)) * aB c ^ (0.7:ℝ)) * aB c ^ (0.2:ℝ) := by
  have hf := h.fck
  have e : ∀ x y : ℝ, x / 0.1 / y = x / (0.1 * y) := fun x y => by rw [div_div]
  unfold Concrete.phiRH aB Concrete.fcm
  by_cases hc : c.fck + 8 ≤ 35
  · rw [if_pos hc, min_eq_left ((one_le_div (by positivity)).2 hc)]
    simp only [one_rpow, mul_one, e]
  · rw [if_neg hc, min_eq_right ((div_le_one (by positivity)).2 (by linarith))]
    simp only [e]

theorem betaH_eq {c : Concrete} (h : c.Ok) (h0 : ℝ) : c.betaH h0 = betaB c h0 := by
  have hf := h.fck
  unfold Concrete.betaH betaB aB Concrete.fcm
  by_cases hc : c.fck + 8 ≤ 35
  · rw [if_pos hc, min_eq_left ((one_le_div (by positivity)).2 hc)]
    simp only [one_rpow, mul_one]
  · rw [if_neg hc, min_eq_right ((div_le_one (by positivity)).2 (by linarith))]

theorem phi0B_nonneg {c : Concrete} (h : c.Ok) {h0 t0 : ℝ} (hh : 0 < h0) (ht : 0 ≤ t0) : 0 ≤ phi0B c h0 t0 := by
  have := aB_pos h
  have h1 := h.RH1
  have h2 : 0 ≤ 1 - c.RH / 100 := by linarith
  unfold phi0B
  positivity

/-- The creep coefficient is that of EN 1992-1-1, annex B, for normal and high strengths alike: it is zero at the time of
    loading, grows with time and tends to the notional coefficient, which it never exceeds. -/
theorem C258_creep (c : Concrete) (h : c.Ok) {h0 t0 : ℝ} (hh : 0 < h0) (ht : 0 ≤ t0) :
    ∃ g : ℝ → ℝ, (∀ t, t0 ≤ t → c.creep h0 t (some t0) = .ok (phi0B c h0 t0 * g t)) ∧
      (∀ t, t0 ≤ t → g t = ((t - t0) / (betaB c h0 + (t - t0))) ^ (0.3:ℝ)) ∧
      g t0 = 0 ∧ MonotoneOn g (Set.Ici t0) ∧ (∀ t, t0 ≤ t → g t ≤ 1) ∧ Filter.Tendsto g Filter.atTop (nhds 1) := by
  have hb := betaB_pos h hh
  refine ⟨fun t => ((t - t0) / (betaB c h0 + (t - t0))) ^ (0.3:ℝ), ?_, fun _ _ => rfl, ?_, ?_, ?_, ?_⟩
  · intro t htt
    unfold Concrete.creep
    dsimp only
    rw [if_neg (by rw [not_or, not_lt, not_lt]; exact ⟨ht, htt⟩), phiRH_eq h, betaH_eq h]
    unfold phi0B Concrete.fcm
    congr 2
    rw [add_sub_assoc]
  · dsimp only
    rw [sub_self, zero_div, zero_rpow (by norm_num)]
  · intro a ha b hb' hab
    rw [Set.mem_Ici] at ha hb'
    dsimp only
    apply rpow_le_rpow
    · exact div_nonneg (by linarith) (by linarith)
    · rw [div_le_div_iff₀ (by linarith) (by linarith)]
      nlinarith
    · norm_num
  · intro t htt
    apply rpow_le_one
    · exact div_nonneg (by linarith) (by linarith)
    · rw [div_le_one (by linarith)]
      linarith
    · norm_num
  · have h1 : Filter.Tendsto (fun t => betaB c h0 + (t - t0)) Filter.atTop Filter.atTop :=
      Filter.tendsto_atTop_add_const_left _ _ (Filter.tendsto_atTop_add_const_right _ (-t0) Filter.tendsto_id)
    have h2 : Filter.Tendsto (fun t => 1 - betaB c h0 / (betaB c h0 + (t - t0))) Filter.atTop (nhds (1 - 0)) :=
      tendsto_const_nhds.sub (h1.const_div_atTop _)
    rw [sub_zero] at h2
    have h3 : Filter.Tendsto (fun t => (t - t0) / (betaB c h0 + (t - t0))) Filter.atTop (nhds 1) := by
      refine h2.congr' ?_
      filter_upwards [Filter.eventually_ge_atTop t0] with t htt
      have : betaB c h0 + (t - t0) ≠ 0 := by linarith
      field_simp
      ring
    have h4 := h3.rpow_const (p := 0.3) (.inl one_ne_zero)
    rwa [one_rpow] at h4

/-- Thicker members, later loading and moister air never give more creep. -/
theorem C258_monotone (c c' : Concrete) (h : c.Ok) (h' : c'.Ok) (hf : c.fck = c'.fck) (hR : c.RH ≤ c'.RH) {h0 h0' t0 t0' t x y : ℝ}
    (hh : 0 < h0) (hh' : h0 ≤ h0') (ht : 0 ≤ t0) (ht' : t0 ≤ t0') (htt : t0' ≤ t)
    (hx : c.creep h0 t (some t0) = .ok x) (hy : c'.creep h0' t (some t0') = .ok y) : 0 ≤ y ∧ y ≤ x := by
  obtain ⟨g, g1, g2, -⟩ := C258_creep c h hh ht
  obtain ⟨g', g1', g2', -⟩ := C258_creep c' h' (hh.trans_le hh') (ht.trans ht')
  rw [g1 t (ht'.trans htt)] at hx
  rw [g1' t htt] at hy
  obtain rfl := Except.ok.inj hx
  obtain rfl := Except.ok.inj hy
  rw [g2 t (ht'.trans htt), g2' t htt]
  have ha : aB c' = aB c := by unfold aB; rw [hf]
  have hp := aB_pos h
  have hb := betaB_pos h hh
  have hb' := betaB_pos h' (hh.trans_le hh')
  have hbb : betaB c h0 ≤ betaB c' h0' := by
    unfold betaB
    rw [ha]
    have hk : (0.012 * c.RH) ^ 18 ≤ (0.012 * c'.RH) ^ 18 := pow_le_pow_left₀ (by have := h.RH; positivity) (by linarith) 18
    have hk0 : 0 ≤ (0.012 * c.RH) ^ 18 := by have := h.RH; positivity
    refine min_le_min ?_ le_rfl
    gcongr
  have q1 : 0 ≤ (t - t0') / (betaB c' h0' + (t - t0')) := div_nonneg (by linarith) (by linarith)
  have q2 : (t - t0') / (betaB c' h0' + (t - t0')) ≤ (t - t0) / (betaB c h0 + (t - t0)) := by
    rw [div_le_div_iff₀ (by linarith) (by linarith)]
    nlinarith
  have p1 : 0 ≤ phi0B c' h0' t0' := phi0B_nonneg h' (hh.trans_le hh') (ht.trans ht')
  have p2 : phi0B c' h0' t0' ≤ phi0B c h0 t0 := by
    unfold phi0B
    rw [ha, ← hf]
    have hr1 := h'.RH1
    have r1 : 0 ≤ 1 - c'.RH / 100 := by linarith
    have r2 : 1 - c'.RH / 100 ≤ 1 - c.RH / 100 := by linarith
    have k1 : h0 ^ ((1:ℝ) / 3) ≤ h0' ^ ((1:ℝ) / 3) := rpow_le_rpow hh.le hh' (by norm_num)
    have k0 : 0 < h0 ^ ((1:ℝ) / 3) := rpow_pos_of_pos hh _
    have k2 : t0 ^ (0.2:ℝ) ≤ t0' ^ (0.2:ℝ) := rpow_le_rpow ht ht' (by norm_num)
    have k3 : 0 ≤ t0 ^ (0.2:ℝ) := rpow_nonneg ht _
    have k4 : 0 ≤ t0' ^ (0.2:ℝ) := rpow_nonneg (ht.trans ht') _
    have k5 : 0 < h0' ^ ((1:ℝ) / 3) := k0.trans_le k1
    have e1 : (1 - c'.RH / 100) / (0.1 * h0' ^ ((1:ℝ) / 3)) ≤ (1 - c.RH / 100) / (0.1 * h0 ^ ((1:ℝ) / 3)) := by
      apply div_le_div₀ (by linarith) r2 (by positivity)
      linarith
    have e0 : 0 ≤ (1 - c'.RH / 100) / (0.1 * h0' ^ ((1:ℝ) / 3)) := by positivity
    have e2 : 1 / (0.1 + t0' ^ (0.2:ℝ)) ≤ 1 / (0.1 + t0 ^ (0.2:ℝ)) := one_div_le_one_div_of_le (by positivity) (by linarith)
    have e3 : 0 ≤ 1 / (0.1 + t0' ^ (0.2:ℝ)) := by positivity
    have e4 := e0.trans e1
    revert e0 e1 e4
    generalize (1 - c'.RH / 100) / (0.1 * h0' ^ ((1:ℝ) / 3)) = u
    generalize (1 - c.RH / 100) / (0.1 * h0 ^ ((1:ℝ) / 3)) = v
    intro e1 e0 e4
    gcongr
  refine ⟨mul_nonneg p1 (rpow_nonneg q1 _), ?_⟩
  exact mul_le_mul p2 (rpow_le_rpow q1 q2 (by norm_num)) (rpow_nonneg q1 _) (p1.trans p2)

/-! ### C260: axial resistance of filled tubes -/

/-- A column under compression with positive parts. -/
structure Loaded (p : Column) : Prop where
  conc : p.concrete.Ok
  fy : 0 < p.steel.fy
  A : 0 < p.steel.A
  E : 0 < p.steel.E
  I : 0 < p.steel.I
  bar : 0 < p.rebar.d
  bars : 0 < p.nbars
  fs : 0 ≤ p.rebar.fy
  Es : 0 ≤ p.rebar.E
  Ac : 0 < p.Ac
  Ic : 0 ≤ p.Ic
  L : 0 < p.length
  ky : 0 < p.lcr.1
  N : 0 < p.ned
  G : 0 ≤ p.nged

/-- Final creep coefficient of thick members loaded after 28 days (positive). -/
theorem creep_ok {p : Column} (h : Loaded p) : ∃ phi, p.concrete.creep 1e11 1e11 (some 28) = .ok phi ∧ 0 ≤ phi := by
  obtain ⟨g, g1, g2, -⟩ := C258_creep p.concrete h.conc (h0 := 1e11) (t0 := 28) (by norm_num) (by norm_num)
  have hb := betaB_pos h.conc (h0 := 1e11) (by norm_num)
  have ht : (28:ℝ) ≤ 1e11 := by norm_num
  refine ⟨_, g1 1e11 ht, mul_nonneg (phi0B_nonneg h.conc (by norm_num) (by norm_num)) ?_⟩
  rw [g2 1e11 ht]
  apply rpow_nonneg
  apply div_nonneg <;> linarith

theorem Ecm_pos {c : Concrete} (h : c.Ok) : 0 < c.Ecm := by
  have := h.fck
  unfold Concrete.Ecm Concrete.fcm
  positivity

theorem Eceff_ok {p : Column} (h : Loaded p) {phi : ℝ} (hc : p.concrete.creep 1e11 1e11 (some 28) = .ok phi) (hp : 0 ≤ phi) :
    p.Eceff = .ok (p.concrete.Ecm / (1 + p.nged / p.ned * phi)) ∧ 0 < p.concrete.Ecm / (1 + p.nged / p.ned * phi) := by
  have hq : 0 ≤ p.nged / p.ned := div_nonneg h.G h.N.le
  have hd : 0 < 1 + p.nged / p.ned * phi := by positivity
  have he := Ecm_pos h.conc
  refine ⟨?_, by positivity⟩
  unfold Column.Eceff
  rw [hc]
  simp only [bind, Except.bind, Fire.pdiv, h.N.ne', if_false, hd.ne', mul_one]

theorem parts_pos {p : Column} (h : Loaded p) : 0 < p.EIa ∧ 0 ≤ p.EIs ∧ 0 < p.As := by
  have h1 := h.E
  have h2 := h.I
  have h3 := h.bar
  have h4 := h.bars
  have h5 := h.Es
  unfold Column.EIa Column.EIs Column.As Column.Is Rebar.I Rebar.A Rebar.r
  refine ⟨by positivity, by positivity, by positivity⟩

/-- Elastic critical force of the effective stiffness of EN 1994-1-1, Eq. (6.40). -/
noncomputable def critical (p : Column) (phi : ℝ) : ℝ :=
  π ^ 2 * (p.EIa + p.EIs + 0.6 * (p.concrete.Ecm / (1 + p.nged / p.ned * phi)) * p.Ic) / (p.length * p.lcr.1) ^ 2

theorem critical_pos {p : Column} (h : Loaded p) {phi : ℝ} (hp : 0 ≤ phi) : 0 < critical p phi := by
  obtain ⟨h1, h2, -⟩ := parts_pos h
  have hq : 0 ≤ p.nged / p.ned := div_nonneg h.G h.N.le
  have he := Ecm_pos h.conc
  have := h.Ic
  have := h.L
  have := h.ky
  unfold critical
  have : 0 < p.EIa + p.EIs + 0.6 * (p.concrete.Ecm / (1 + p.nged / p.ned * phi)) * p.Ic := by positivity
  positivity

theorem Ncr_ok {p : Column} (h : Loaded p) {phi : ℝ} (hc : p.concrete.creep 1e11 1e11 (some 28) = .ok phi) (hp : 0 ≤ phi) :
    p.Ncr "y" = .ok (critical p phi) := by
  have hL : (p.Lcr "y") ^ 2 ≠ 0 := by
    have := h.L
    have := h.ky
    unfold Column.Lcr
    rw [if_pos rfl]
    positivity
  unfold Column.Ncr Column.EIeff
  rw [(Eceff_ok h hc hp).1]
  simp only [bind, Except.bind, if_true, Fire.pdiv, hL, if_false]
  rfl

theorem Npl_pos {p : Column} (h : Loaded p) : 0 < p.NplRd ∧ p.NplRd ≤ p.NplRk := by
  have h1 := h.fy
  have h2 := h.A
  have h3 := h.fs
  have h4 := h.Ac
  have h5 := h.conc.fck
  obtain ⟨-, -, h6⟩ := parts_pos h
  unfold Column.NplRd Column.NplRk Column.fcd Concrete.fcd Rebar.fyd
  constructor
  · positivity
  · have e1 : p.rebar.fy / 1.15 ≤ p.rebar.fy := div_le_self h3 (by norm_num)
    have e2 : 1 * p.concrete.fck / 1.5 ≤ p.concrete.fck := by rw [one_mul]; exact div_le_self h5.le (by norm_num)
    gcongr

/-- Slenderness and buckling resistance. -/
theorem NbRd_ok {p : Column} (h : Loaded p) {phi : ℝ} (hc : p.concrete.creep 1e11 1e11 (some 28) = .ok phi) (hp : 0 ≤ phi) :
    p.NbRd "y" = .ok (Ec3.bucklingReduction √(p.NplRk / critical p phi) (if p.As / p.Ac ≤ 0.03 then 0.21 else 0.34) * p.NplRd) := by
  have h1 := critical_pos h hp
  have h2 := Npl_pos h
  have h3 : ¬ p.NplRk / critical p phi < 0 := not_lt.2 (div_nonneg (h2.1.le.trans h2.2) h1.le)
  unfold Column.NbRd Column.slenderness
  rw [Ncr_ok h hc hp]
  simp only [bind, Except.bind, Fire.pdiv, h1.ne', if_false, Fire.psqrt, h3, Column.ratio, h.Ac.ne']

/-- The buckling resistance about the major axis exists, is positive, and exceeds neither the plastic resistance nor the elastic
    critical force of the effective stiffness. -/
theorem C260_partial (p : Column) (h : Loaded p) : ∃ N phi, p.NbRd "y" = .ok N ∧ p.concrete.creep 1e11 1e11 (some 28) = .ok phi ∧
    0 < N ∧ N ≤ p.NplRd ∧ N ≤ critical p phi := by
  obtain ⟨phi, hc, hp⟩ := creep_ok h
  have h1 := critical_pos h hp
  have h2 := Npl_pos h
  have hq : 0 ≤ p.NplRk / critical p phi := div_nonneg (h2.1.le.trans h2.2) h1.le
  have ha : 0 ≤ (if p.As / p.Ac ≤ 0.03 then 0.21 else 0.34 : ℝ) ∧ (if p.As / p.Ac ≤ 0.03 then 0.21 else 0.34 : ℝ) ≤ 3 := by
    split <;> norm_num
  obtain ⟨-, ⟨c1, c2⟩, -, c3, -⟩ := Ec3.C32 (sqrt_nonneg (p.NplRk / critical p phi)) ha.1 ha.2
  refine ⟨_, phi, NbRd_ok h hc hp, hc, mul_pos c1 h2.1, mul_le_of_le_one_left h2.1.le c2, ?_⟩
  rw [sq_sqrt hq, ← mul_div_assoc, div_le_one h1] at c3
  refine (mul_le_mul_of_nonneg_left h2.2 c1.le).trans c3

/-- Longer columns and columns with a larger share of dead load are never stronger. -/
theorem C260_monotone (p : Column) (h : Loaded p) {L G : ℝ} (hL : p.length ≤ L) (hG : p.nged ≤ G) :
    ∃ N N', p.NbRd "y" = .ok N ∧ Column.NbRd { p with length := L, nged := G } "y" = .ok N' ∧ N' ≤ N := by
  obtain ⟨phi, hc, hp⟩ := creep_ok h
  have h' : Loaded { p with length := L, nged := G } :=
    { h with L := h.L.trans_le hL, G := h.G.trans hG }
  have hc' : ({ p with length := L, nged := G } : Column).concrete.creep 1e11 1e11 (some 28) = .ok phi := hc
  refine ⟨_, _, NbRd_ok h hc hp, NbRd_ok h' hc' hp, ?_⟩
  have h1 := critical_pos h hp
  have h1' := critical_pos h' hp
  have h2 := Npl_pos h
  obtain ⟨k1, k2, -⟩ := parts_pos h
  have hcr : critical { p with length := L, nged := G } phi ≤ critical p phi := by
    have e0 := h.L
    have e1 := h.ky
    have e2 := Ecm_pos h.conc
    have e3 := h.Ic
    have e4 : p.nged / p.ned ≤ G / p.ned := div_le_div_of_nonneg_right hG h.N.le
    have e5 : 0 ≤ p.nged / p.ned := div_nonneg h.G h.N.le
    have e6 : 0 ≤ G / p.ned := e5.trans e4
    unfold critical
    change π ^ 2 * (p.EIa + p.EIs + 0.6 * (p.concrete.Ecm / (1 + G / p.ned * phi)) * p.Ic) / (L * p.lcr.1) ^ 2 ≤ _
    have e7 : 0 ≤ p.EIa + p.EIs + 0.6 * (p.concrete.Ecm / (1 + p.nged / p.ned * phi)) * p.Ic := by positivity
    gcongr
  have ha : 0 ≤ (if p.As / p.Ac ≤ 0.03 then 0.21 else 0.34 : ℝ) ∧ (if p.As / p.Ac ≤ 0.03 then 0.21 else 0.34 : ℝ) ≤ 3 := by
    split <;> norm_num
  obtain ⟨-, -, -, -, c4, -⟩ := Ec3.C32 (sqrt_nonneg (p.NplRk / critical p phi)) ha.1 ha.2
  have hs : √(p.NplRk / critical p phi) ≤ √(p.NplRk / critical { p with length := L, nged := G } phi) :=
    sqrt_le_sqrt (div_le_div_of_nonneg_left (h2.1.le.trans h2.2) h1' hcr)
  exact mul_le_mul_of_nonneg_right (c4 _ hs) h2.1.le

/-- About the minor axis no resistance is computed, and without an axial force none at all. -/
theorem C260_violation (p : Column) (axis : String) :
    (Loaded p → axis ≠ "y" → p.NbRd axis = .error .unboundLocal) ∧
    (p.ned = 0 → ∃ e, p.NbRd axis = .error e ∧ (p.concrete.Ok → e = .zeroDivision)) := by
  constructor
  · intro h ha
    obtain ⟨phi, hc, hp⟩ := creep_ok h
    unfold Column.NbRd Column.slenderness Column.Ncr Column.EIeff
    rw [(Eceff_ok h hc hp).1]
    simp only [bind, Except.bind, ha, if_false]
  · intro h0
    unfold Column.NbRd Column.slenderness Column.Ncr Column.EIeff Column.Eceff
    cases hc : p.concrete.creep 1e11 1e11 (some 28) with
    | error e =>
      refine ⟨e, rfl, fun hk => ?_⟩
      obtain ⟨g, g1, -⟩ := C258_creep p.concrete hk (h0 := 1e11) (t0 := 28) (by norm_num) (by norm_num)
      rw [g1 1e11 (by norm_num)] at hc
      cases hc
    | ok phi =>
      refine ⟨.zeroDivision, ?_, fun _ => rfl⟩
      simp only [bind, Except.bind, Fire.pdiv, h0, if_true]

/-! ### C261: plastic moment resistance of filled tubes -/

/-- Compressed above the neutral axis at height `y`, stretched below. -/
noncomputable def side (h y : ℝ) : ℝ := if y < h then 1 else -1

/-- Axial force of the stress blocks (compression positive): the concrete carries compression only and is missing where bars are;
    two bars lie at `z`, two at `-z`; the webs of the tube have the thickness `T` each, so that tube areas above and below differ
    by `4 T y`. -/
noncomputable def axial (p : Column) (y : ℝ) : ℝ :=
  p.concrete.fck / 1.5 * ((∫ s in y..(cI p + rI p), width (bI p) (cI p) (rI p) s) - (if y < p.z then 2 * p.rebar.A else 0)) +
    p.steel.fy * (-(4 * p.steel.T * y)) + p.rebar.fy / 1.15 * (2 * p.rebar.A * side p.z y + 2 * p.rebar.A * side (-p.z) y)

/-- Their moment about the centre: tube fibres between centre and neutral axis change sides. -/
noncomputable def moment (p : Column) (y : ℝ) : ℝ :=
  p.concrete.fck / 1.5 * ((∫ s in y..(cI p + rI p), s * width (bI p) (cI p) (rI p) s) - (if y < p.z then 2 * p.rebar.A * p.z else 0)) +
    p.steel.fy * (p.steel.Wpl - 2 * ∫ s in (0:ℝ)..y, 2 * p.steel.T * s) +
    p.rebar.fy / 1.15 * (2 * p.rebar.A * p.z * side p.z y - 2 * p.rebar.A * p.z * side (-p.z) y)

theorem denom_pos {p : Column} (h : Sound p) (hB : 2 * p.steel.T ≤ p.steel.B) (hf : 0 < p.concrete.fck) (hy : 0 < p.steel.fy) :
    0 < 2 * p.steel.B * p.fcd + 4 * p.steel.T * (2 * p.steel.fy - p.fcd) := by
  have h1 := h.thick
  have h2 : 0 < p.fcd := by unfold Column.fcd Concrete.fcd; positivity
  have : 0 < p.steel.T * p.steel.fy := by positivity
  nlinarith

theorem web_integral (t y : ℝ) : ∫ s in (0:ℝ)..y, 2 * t * s = t * y ^ 2 := by
  rw [integral_const_mul, integral_id]
  ring

theorem axial_eq {p : Column} (h : Sound p) {y : ℝ} (hy : 0 ≤ y) (hyc : y ≤ cI p) (hz : 0 ≤ p.z) :
    2 * axial p y = p.fcd * p.Ac - y * (2 * p.steel.B * p.fcd + 4 * p.steel.T * (2 * p.steel.fy - p.fcd)) -
      (if y < p.z then 0 else p.As * (2 * p.rebar.fyd - p.fcd)) := by
  have hc : 0 ≤ cI p := hy.trans hyc
  have hr : 0 ≤ rI p := by unfold rI; linarith [h.inner]
  obtain ⟨a0, -, -⟩ := moments (b := bI p) hc hr hy hyc
  obtain ⟨b0, -, -⟩ := moments (b := bI p) hc hr le_rfl hc
  have hA := (area_bars p h).1
  rw [b0] at hA
  have hf : p.fcd = p.concrete.fck / 1.5 := by unfold Column.fcd Concrete.fcd; rw [one_mul]
  have hs : side (-p.z) y = -1 := by unfold side; rw [if_neg (by linarith)]
  unfold axial
  rw [a0, hs, ← hf, hA]
  unfold side Column.As Rebar.fyd bI
  split <;> ring

theorem moment_eq {p : Column} (h : Sound p) {y : ℝ} (hy : 0 ≤ y) (hyc : y ≤ cI p) (hz : 0 ≤ p.z) :
    moment p y = p.MplMax - (p.steel.fy * (2 * p.steel.T * y ^ 2) + 0.5 * p.fcd * (bI p) * y ^ 2) -
      (if y < p.z then 0 else p.Wps * (p.rebar.fyd - 0.5 * p.fcd)) := by
  have hc : 0 ≤ cI p := hy.trans hyc
  have hr : 0 ≤ rI p := by unfold rI; linarith [h.inner]
  obtain ⟨-, a0, -⟩ := moments (b := bI p) hc hr hy hyc
  obtain ⟨-, b0, -⟩ := moments (b := bI p) hc hr le_rfl hc
  have hA := (area_bars p h).2
  rw [b0] at hA
  have hf : p.fcd = p.concrete.fck / 1.5 := by unfold Column.fcd Concrete.fcd; rw [one_mul]
  have hs : side (-p.z) y = -1 := by unfold side; rw [if_neg (by linarith)]
  have hw : p.Wps = 4 * p.rebar.A * p.z := by unfold Column.Wps; rw [h.four]
  unfold moment Column.MplMax
  rw [a0, web_integral, hs, ← hf, hA, hw]
  unfold side Rebar.fyd
  split <;> norm_num <;> ring

/-- Where the neutral axis stays clear of the bars, or below of them with all bars stretched, the stress blocks are in balance
    and the resistance is their moment. -/
theorem C261_partial (p : Column) (h : Sound p) (hB : 2 * p.steel.T ≤ p.steel.B) (hf : 0 < p.concrete.fck) (hfy : 0 < p.steel.fy)
    (hz : 0 ≤ p.z) (hr : 0 ≤ p.rebar.r) (h0 : 0 ≤ p.mpl.1) (hc : p.mpl.1 ≤ cI p)
    (hbars : p.hn 0 < p.z - p.rebar.r ∨ p.z - p.rebar.r ≤ p.hn 0 ∧ p.z ≤ p.hn p.As) :
    axial p p.mpl.1 = 0 ∧ moment p p.mpl.1 = p.mpl.2 := by
  have hd := (denom_pos h hB hf hfy).ne'
  have e1 := axial_eq h h0 hc hz
  have e2 := moment_eq h h0 hc hz
  have key : ∀ a, p.hn a * (2 * p.steel.B * p.fcd + 4 * p.steel.T * (2 * p.steel.fy - p.fcd)) =
      p.fcd * p.Ac - a * (2 * p.rebar.fyd - p.fcd) := by
    intro a
    unfold Column.hn Column.NpmRd
    rw [div_mul_cancel₀ _ hd]
  rcases hbars with hb | ⟨hb, hb'⟩
  · have m1 : p.mpl.1 = p.hn 0 := by simp [Column.mpl, hb]
    have m2 : p.mpl.2 = p.MplMax - (p.steel.fy * (2 * p.steel.T * p.hn 0 ^ 2) + 0.5 * p.fcd * (bI p) * p.hn 0 ^ 2) := by
      simp only [Column.mpl, hb, decide_true, if_true, bI]
      ring
    have hlt : p.hn 0 < p.z := by linarith
    rw [m1] at e1 e2 ⊢
    rw [if_pos hlt] at e1 e2
    rw [key] at e1
    constructor
    · linarith
    · rw [e2, m2, sub_zero]
  · have hb2 : ¬ p.hn 0 < p.z - p.rebar.r := not_lt.2 hb
    have m1 : p.mpl.1 = p.hn p.As := by simp [Column.mpl, hb2]
    have m2 : p.mpl.2 = p.MplMax - (p.steel.fy * (2 * p.steel.T * p.hn p.As ^ 2) + 0.5 * p.fcd * (bI p) * p.hn p.As ^ 2) -
        p.Wps * (p.rebar.fyd - 0.5 * p.fcd) := by
      simp only [Column.mpl, hb2, decide_false, Bool.false_eq_true, if_false, bI]
      ring
    rw [m1] at e1 e2 ⊢
    rw [if_neg (not_lt.2 hb')] at e1 e2
    rw [key] at e1
    constructor
    · linarith
    · rw [e2, m2]

/-- Otherwise all bars are taken as stretched although two of them lie above the neutral axis: the forces are out of balance. -/
theorem C261_violation (p : Column) (h : Sound p) (hB : 2 * p.steel.T ≤ p.steel.B) (hf : 0 < p.concrete.fck) (hfy : 0 < p.steel.fy)
    (hz : 0 ≤ p.z) (h0 : 0 ≤ p.mpl.1) (hc : p.mpl.1 ≤ cI p) (hb : p.z - p.rebar.r ≤ p.hn 0) (hb' : p.hn p.As < p.z) :
    axial p p.mpl.1 = 2 * p.rebar.A * (2 * (p.rebar.fy / 1.15) - p.concrete.fck / 1.5) := by
  have hd := (denom_pos h hB hf hfy).ne'
  have e1 := axial_eq h h0 hc hz
  have hb2 : ¬ p.hn 0 < p.z - p.rebar.r := not_lt.2 hb
  have m1 : p.mpl.1 = p.hn p.As := by simp [Column.mpl, hb2]
  rw [m1] at e1 ⊢
  rw [if_pos hb'] at e1
  have key : p.hn p.As * (2 * p.steel.B * p.fcd + 4 * p.steel.T * (2 * p.steel.fy - p.fcd)) =
      p.fcd * p.Ac - p.As * (2 * p.rebar.fyd - p.fcd) := by
    unfold Column.hn Column.NpmRd
    rw [div_mul_cancel₀ _ hd]
  rw [key] at e1
  have hf' : p.fcd = p.concrete.fck / 1.5 := by unfold Column.fcd Concrete.fcd; rw [one_mul]
  rw [← hf']
  have hA : p.As * (2 * p.rebar.fyd - p.fcd) = 4 * p.rebar.A * (2 * (p.rebar.fy / 1.15) - p.fcd) := rfl
  linarith

/-! ### C262: compression and bending of filled tubes -/

/-- Elastic critical force of the stiffness of EN 1994-1-1, Eq. (6.42). -/
noncomputable def criticalII (p : Column) (phi : ℝ) : ℝ :=
  π ^ 2 * (0.9 * (p.EIa + p.EIs + 0.5 * (p.concrete.Ecm / (1 + p.nged / p.ned * phi)) * p.Ic)) / (p.length * p.lcr.1) ^ 2

theorem criticalII_pos {p : Column} (h : Loaded p) {phi : ℝ} (hp : 0 ≤ phi) : 0 < criticalII p phi := by
  obtain ⟨h1, h2, -⟩ := parts_pos h
  have hq : 0 ≤ p.nged / p.ned := div_nonneg h.G h.N.le
  have he := Ecm_pos h.conc
  have := h.Ic
  have := h.L
  have := h.ky
  unfold criticalII
  have : 0 < p.EIa + p.EIs + 0.5 * (p.concrete.Ecm / (1 + p.nged / p.ned * phi)) * p.Ic := by positivity
  positivity

theorem Ncreff_ok {p : Column} (h : Loaded p) {phi : ℝ} (hc : p.concrete.creep 1e11 1e11 (some 28) = .ok phi) (hp : 0 ≤ phi) :
    p.Ncreff "y" = .ok (criticalII p phi) := by
  have hL : (p.Lcr "y") ^ 2 ≠ 0 := by
    have := h.L
    have := h.ky
    unfold Column.Lcr
    rw [if_pos rfl]
    positivity
  unfold Column.Ncreff Column.EIeffII
  rw [(Eceff_ok h hc hp).1]
  simp only [bind, Except.bind, if_true, Fire.pdiv, hL, if_false]
  rfl

/-- Moment of the axial force with the initial bow of EN 1994-1-1, Table 6.5. -/
noncomputable def bow (p : Column) : ℝ := p.ned * (p.length / (if 4 * p.rebar.A / p.Ac ≤ 0.03 then 300 else 200))

theorem bow_pos {p : Column} (h : Loaded p) : 0 < bow p := by
  have := h.N
  have := h.L
  unfold bow
  split <;> positivity

/-- Larger and smaller end moment; factor of their distribution. -/
noncomputable def dist (p : Column) : ℝ := if p.M2 > 0 then max (0.66 + 0.44 * p.M1 / p.M2) 0.44 else 0

theorem MEd_ok {p : Column} (h : Loaded p) {phi : ℝ} (hc : p.concrete.creep 1e11 1e11 (some 28) = .ok phi) (hp : 0 ≤ phi)
    (hne : p.ned ≠ criticalII p phi) :
    p.MEd = .ok (if criticalII p phi < 10 * p.ned then
      max (max (1 / (1 - p.ned / criticalII p phi)) 1 * (dist p * p.M2 + bow p)) p.M2 else bow p + p.M2) := by
  have hN : p.NEd = p.ned := abs_of_pos h.N
  have hcr := criticalII_pos h hp
  have hk : 1 - p.ned / criticalII p phi ≠ 0 := by
    rw [sub_ne_zero]
    intro e
    rw [eq_comm, div_eq_one_iff_eq hcr.ne'] at e
    exact hne e
  unfold Column.MEd Column.e0 Column.ratio
  rw [Ncreff_ok h hc hp, hN]
  simp only [bind, Except.bind, Fire.pdiv, h.Ac.ne', if_false, hcr.ne', hk]
  by_cases hlt : criticalII p phi < 10 * p.ned
  · rw [if_pos hlt, if_pos hlt]
    rfl
  · rw [if_neg hlt, if_neg hlt]
    rfl

theorem M2_nonneg {p : Column} (h1 : 0 ≤ p.med.1) (h2 : 0 ≤ p.med.2) : p.M2 = max p.med.1 p.med.2 ∧ p.M1 = min p.med.1 p.med.2 := by
  unfold Column.M1 Column.M2
  rw [abs_of_nonneg h1, abs_of_nonneg h2]
  by_cases h : p.med.1 ≤ p.med.2
  · rw [if_pos h, if_pos h, max_eq_right h, min_eq_left h]
    exact ⟨rfl, rfl⟩
  · rw [if_neg h, if_neg h, max_eq_left (by linarith), min_eq_right (by linarith)]
    exact ⟨rfl, rfl⟩

/-- Share of the plastic moment that is left beside the axial force: the line from (NplRd, 0) to (NpmRd, 1), at most 1. -/
noncomputable def share (p : Column) : ℝ := min 1 ((p.NplRd - p.ned) / (p.NplRd - p.NpmRd))

theorem Npm_lt {p : Column} (h : Loaded p) : p.NpmRd < p.NplRd ∧ 0 ≤ p.NpmRd := by
  have h1 := h.fy
  have h2 := h.A
  have h3 := h.fs
  have h4 := h.Ac
  have h5 := h.conc.fck
  obtain ⟨-, -, h6⟩ := parts_pos h
  have : 0 < p.steel.fy * p.steel.A := by positivity
  have : 0 ≤ p.rebar.fyd * p.As := by unfold Rebar.fyd; positivity
  unfold Column.NpmRd Column.NplRd Column.fcd Concrete.fcd
  constructor
  · unfold Rebar.fyd at *
    linarith
  · positivity

theorem muD_ok {p : Column} (h : Loaded p) : p.muD = .ok (share p) := by
  have hN : p.NEd = p.ned := abs_of_pos h.N
  obtain ⟨h1, -⟩ := Npl_pos h
  obtain ⟨h2, -⟩ := Npm_lt h
  have hk : p.NpmRd / p.NplRd - 1 ≠ 0 := by
    rw [sub_ne_zero]
    intro e
    rw [div_eq_one_iff_eq h1.ne'] at e
    exact h2.ne e
  have hd : p.NplRd - p.NpmRd ≠ 0 := by linarith
  unfold Column.muD
  rw [hN]
  simp only [bind, Except.bind, Fire.pdiv, h1.ne', if_false, hk]
  unfold share
  rw [min_comm]
  congr 2
  rw [div_eq_div_iff hk hd]
  have := h1.ne'
  field_simp
  ring

theorem slender_ok {p : Column} (h : Loaded p) {phi : ℝ} (hc : p.concrete.creep 1e11 1e11 (some 28) = .ok phi) (hp : 0 ≤ phi) :
    ∃ l, p.slenderness "y" = .ok l := by
  have h1 := critical_pos h hp
  have h2 := Npl_pos h
  have h3 : ¬ p.NplRk / critical p phi < 0 := not_lt.2 (div_nonneg (h2.1.le.trans h2.2) h1.le)
  refine ⟨√(p.NplRk / critical p phi), ?_⟩
  unfold Column.slenderness
  rw [Ncr_ok h hc hp]
  simp only [bind, Except.bind, Fire.pdiv, h1.ne', if_false, Fire.psqrt, h3]

theorem alphaM_pos (p : Column) : 0 < p.alphaM := by
  unfold Column.alphaM
  split <;> norm_num

theorem util_ok {p : Column} (h : Loaded p) {phi M : ℝ} (hc : p.concrete.creep 1e11 1e11 (some 28) = .ok phi) (hp : 0 ≤ phi)
    (hM : p.MEd = .ok M) (hs : share p * p.mpl.2 ≠ 0) : p.utilisation = .ok (M / (share p * p.mpl.2) / p.alphaM) := by
  obtain ⟨l, hl⟩ := slender_ok h hc hp
  unfold Column.utilisation
  rw [hl, hM, muD_ok h]
  simp only [bind, Except.bind, Fire.pdiv, hs, if_false, (alphaM_pos p).ne']

/-- With end moments of one sign and an axial force below plastic resistance and critical force: the design moment is at least
    either end moment and at least the moment of the initial bow (amplified where second order counts), and the utilisation is
    at most one exactly if it does not exceed the share of the plastic resistance that the axial force leaves. -/
theorem C262_partial (p : Column) (h : Loaded p) (h1 : 0 ≤ p.med.1) (h2 : 0 ≤ p.med.2) {N : ℝ} (hN : p.Ncreff "y" = .ok N)
    (hcr : p.ned < N) (hpl : p.ned < p.NplRd) (hM : 0 < p.mpl.2) :
    ∃ M u, p.MEd = .ok M ∧ p.utilisation = .ok u ∧ max p.med.1 p.med.2 ≤ M ∧ bow p ≤ M ∧
      (N < 10 * p.ned → bow p / (1 - p.ned / N) ≤ M) ∧ 0 < share p ∧ 0 < u ∧
      (u ≤ 1 ↔ M ≤ p.alphaM * share p * p.mpl.2) := by
  obtain ⟨phi, hc, hp⟩ := creep_ok h
  have hcp := criticalII_pos h hp
  obtain rfl : criticalII p phi = N := Except.ok.inj ((Ncreff_ok h hc hp).symm.trans hN)
  have hb := bow_pos h
  obtain ⟨m2, m1⟩ := M2_nonneg h1 h2
  have hm2 : 0 ≤ p.M2 := by rw [m2]; exact le_max_of_le_left h1
  have hdist : 0 ≤ dist p := by
    unfold dist
    split
    · exact le_max_of_le_right (by norm_num)
    · exact le_rfl
  have hsh : 0 < share p := by
    unfold share
    refine lt_min one_pos (div_pos (by linarith) (by linarith [(Npm_lt h).1]))
  have hdm : 0 ≤ dist p * p.M2 := mul_nonneg hdist hm2
  have hq : 0 < 1 - p.ned / criticalII p phi := by
    have := (div_lt_one hcp).2 hcr
    linarith
  set k := 1 / (1 - p.ned / criticalII p phi) with hk
  have hk1 : 1 ≤ max k 1 := le_max_right _ _
  have hM' := MEd_ok h hc hp hcr.ne
  rw [← hk] at hM'
  set M := (if criticalII p phi < 10 * p.ned then max (max k 1 * (dist p * p.M2 + bow p)) p.M2 else bow p + p.M2) with hMdef
  have b1 : p.M2 ≤ M := by
    rw [hMdef]
    split
    · exact le_max_right _ _
    · linarith
  have b2 : bow p ≤ M := by
    rw [hMdef]
    split
    · refine le_max_of_le_left ?_
      nlinarith
    · linarith
  have b3 : criticalII p phi < 10 * p.ned → bow p / (1 - p.ned / criticalII p phi) ≤ M := by
    intro hlt
    rw [hMdef, if_pos hlt]
    refine le_max_of_le_left ?_
    have e : bow p / (1 - p.ned / criticalII p phi) = k * bow p := by rw [hk]; ring
    rw [e]
    have : k ≤ max k 1 := le_max_left _ _
    nlinarith
  have hsM : 0 < share p * p.mpl.2 := mul_pos hsh hM
  have ha := alphaM_pos p
  refine ⟨M, _, hM', util_ok h hc hp hM' hsM.ne', m2 ▸ b1, b2, b3, hsh, by have := hb.trans_le b2; positivity, ?_⟩
  rw [div_div, div_le_one (by positivity)]
  constructor <;> intro e <;> linarith

/-- Too large axial forces are not noticed: above the plastic resistance the utilisation is negative, above the critical force
    nothing is amplified. -/
theorem C262_violation (p : Column) (h : Loaded p) (h1 : 0 ≤ p.med.1) (h2 : 0 ≤ p.med.2) {N : ℝ} (hN : p.Ncreff "y" = .ok N)
    (hM : 0 < p.mpl.2) :
    (p.ned ≠ N → p.NplRd < p.ned → ∃ u, p.utilisation = .ok u ∧ u < 0) ∧
    (N < p.ned → p.MEd = .ok (max (dist p * max p.med.1 p.med.2 + bow p) (max p.med.1 p.med.2))) := by
  obtain ⟨phi, hc, hp⟩ := creep_ok h
  have hcp := criticalII_pos h hp
  obtain rfl : criticalII p phi = N := Except.ok.inj ((Ncreff_ok h hc hp).symm.trans hN)
  have hb := bow_pos h
  obtain ⟨m2, m1⟩ := M2_nonneg h1 h2
  have hm2 : 0 ≤ p.M2 := by rw [m2]; exact le_max_of_le_left h1
  have hdist : 0 ≤ dist p := by
    unfold dist
    split
    · exact le_max_of_le_right (by norm_num)
    · exact le_rfl
  have hdm : 0 ≤ dist p * p.M2 := mul_nonneg hdist hm2
  constructor
  · intro hne hlt
    have hsh : share p < 0 := by
      unfold share
      refine (min_le_right _ _).trans_lt (div_neg_of_neg_of_pos (by linarith) (by linarith [(Npm_lt h).1]))
    have hsM : share p * p.mpl.2 < 0 := mul_neg_of_neg_of_pos hsh hM
    have hM' := MEd_ok h hc hp hne
    refine ⟨_, util_ok h hc hp hM' hsM.ne, ?_⟩
    refine div_neg_of_neg_of_pos (div_neg_of_pos_of_neg ?_ hsM) (alphaM_pos p)
    split
    · refine lt_max_of_lt_left (mul_pos (lt_max_of_lt_right one_pos) (by linarith))
    · linarith
  · intro hlt
    have hN0 := h.N
    rw [MEd_ok h hc hp hlt.ne', if_pos (by linarith)]
    have hneg : 1 / (1 - p.ned / criticalII p phi) ≤ 1 := by
      have : 1 < p.ned / criticalII p phi := (one_lt_div hcp).2 hlt
      have : 1 / (1 - p.ned / criticalII p phi) ≤ 0 := div_nonpos_of_nonneg_of_nonpos zero_le_one (by linarith)
      linarith
    rw [max_eq_right hneg, one_mul, m2]

/-- Bending the other way is not checked: negative end moments do not count or even relieve the column. -/
theorem C262_sign (p : Column) (h : Loaded p) {a b N : ℝ} (ha : 0 ≤ a) (hb : 0 < b) (hm : p.med = (-a, -b)) (hN : p.Ncreff "y" = .ok N)
    (hcr : p.ned < N) :
    (N < 10 * p.ned → p.MEd = .ok (bow p / (1 - p.ned / N))) ∧ (10 * p.ned ≤ N → p.MEd = .ok (bow p - max a b)) := by
  obtain ⟨phi, hc, hp⟩ := creep_ok h
  have hcp := criticalII_pos h hp
  obtain rfl : criticalII p phi = N := Except.ok.inj ((Ncreff_ok h hc hp).symm.trans hN)
  have hbp := bow_pos h
  have m2 : p.M2 = -max a b := by
    unfold Column.M2
    rw [hm]
    dsimp only
    rw [abs_neg, abs_neg, abs_of_nonneg ha, abs_of_pos hb]
    by_cases hab : a ≤ b
    · rw [if_pos hab, max_eq_right hab]
    · rw [if_neg hab, max_eq_left (by linarith)]
  have hlt : p.M2 < 0 := by
    rw [m2]
    have := le_max_right a b
    linarith
  have hq : 0 < 1 - p.ned / criticalII p phi := by
    have := (div_lt_one hcp).2 hcr
    linarith
  have hd : dist p = 0 := by unfold dist; rw [if_neg (by linarith)]
  rw [MEd_ok h hc hp hcr.ne]
  constructor
  · intro hs
    have hk : 1 ≤ 1 / (1 - p.ned / criticalII p phi) := by
      rw [one_le_div hq]
      have : 0 ≤ p.ned / criticalII p phi := div_nonneg h.N.le hcp.le
      linarith
    rw [if_pos hs, hd, max_eq_left hk, zero_mul, zero_add, max_eq_left]
    · congr 1
      ring
    · have : 0 < 1 / (1 - p.ned / criticalII p phi) * bow p := by positivity
      linarith
  · intro hs
    rw [if_neg (by linarith), m2]
    congr 1

/-! ### C263: composite beams, elastic -/

/-- A beam with positive parts, loaded within the time for which creep is computed. -/
structure Beam.Ok (p : Beam) : Prop where
  conc : p.concrete.Ok
  E : 0 < p.steel.E
  A : 0 < p.steel.A
  I : 0 ≤ p.steel.I
  h : 0 < p.steel.h
  hc : 0 < p.hc
  ha : 0 ≤ p.ha
  L : 0 < p.length
  b0 : 0 ≤ p.b0
  t0 : 0 ≤ p.t0
  t1 : p.t0 ≤ 1e8

/-- Bending stiffness of steel and concrete about the axis at depth `y`. -/
noncomputable def stiff (p : Beam) (E y : ℝ) : ℝ :=
  p.steel.E * (p.steel.I + p.steel.A * (y - (p.hc + p.ha + p.steel.h / 2)) ^ 2) +
    E * (p.beff * p.hc ^ 3 / 12 + p.beff * p.hc * (y - p.hc / 2) ^ 2)

theorem beff_pos {p : Beam} (h : p.Ok) : 0 < p.beff := by
  have := h.L
  have := h.b0
  unfold Beam.beff
  positivity

theorem beamEc {p : Beam} (h : p.Ok) {lt : Option String} {E : ℝ} (hE : p.Ec lt = .ok E) : 0 < E ∧ E ≤ p.concrete.Ecm := by
  have he := Ecm_pos h.conc
  rcases lt with - | s
  · obtain rfl := Except.ok.inj hE
    exact ⟨he, le_rfl⟩
  · unfold Beam.Ec at hE
    dsimp only at hE
    by_cases hs : s = "creep"
    · rw [if_pos hs] at hE
      have hc := h.hc
      obtain ⟨g, g1, g2, -⟩ := C258_creep p.concrete h.conc (h0 := 2 * p.hc) (t0 := p.t0) (by positivity) h.t0
      have hb := betaB_pos h.conc (h0 := 2 * p.hc) (by positivity)
      rw [g1 _ h.t1] at hE
      have hphi : 0 ≤ phi0B p.concrete (2 * p.hc) p.t0 * g 1e8 := by
        refine mul_nonneg (phi0B_nonneg h.conc (by positivity) h.t0) ?_
        rw [g2 _ h.t1]
        have := h.t1
        apply rpow_nonneg
        apply div_nonneg <;> linarith
      have hd : 0 < 1 + 1.1 * (phi0B p.concrete (2 * p.hc) p.t0 * g 1e8) := by positivity
      simp only [Except.bind, Fire.pdiv, hd.ne', if_false] at hE
      obtain rfl := Except.ok.inj hE
      refine ⟨by positivity, div_le_self he.le ?_⟩
      have : 0 ≤ 1.1 * (phi0B p.concrete (2 * p.hc) p.t0 * g 1e8) := by positivity
      linarith
    · rw [if_neg hs] at hE
      cases hE

theorem centroid_ok {p : Beam} (h : p.Ok) {lt : Option String} {E : ℝ} (hE : p.Ec lt = .ok E) :
    0 < p.EAa + E * p.Ac ∧ p.centroid lt = .ok ((p.EAa * p.ya + E * p.Ac * p.yc) / (p.EAa + E * p.Ac)) := by
  obtain ⟨h0, -⟩ := beamEc h hE
  have h1 := h.E
  have h2 := h.A
  have h3 := h.hc
  have h4 := beff_pos h
  have hp : 0 < p.EAa + E * p.Ac := by
    unfold Beam.EAa Beam.Ac
    positivity
  refine ⟨hp, ?_⟩
  unfold Beam.centroid Beam.EAcom
  rw [hE]
  simp only [bind, Except.bind, Fire.pdiv, hp.ne', if_false]

/-- The centroid is where steel and concrete balance, strictly between theirs; the stiffness about it is the least of all axes and
    equals the sum of the parts' own stiffnesses and that of their couple. -/
theorem C263_stiffness (p : Beam) (h : p.Ok) (lt : Option String) (E : ℝ) (hE : p.Ec lt = .ok E) : ∃ y EI,
    p.centroid lt = .ok y ∧ p.EIcom lt = .ok EI ∧ p.hc / 2 < y ∧ y < p.hc + p.ha + p.steel.h / 2 ∧
    p.steel.E * p.steel.A * (p.hc + p.ha + p.steel.h / 2 - y) = E * (p.beff * p.hc) * (y - p.hc / 2) ∧
    EI = stiff p E y ∧ (∀ y', EI ≤ stiff p E y') ∧
    EI = p.steel.E * p.steel.I + E * (p.beff * p.hc ^ 3 / 12) +
      (p.hc / 2 + p.ha + p.steel.h / 2) ^ 2 / (1 / (p.steel.E * p.steel.A) + 1 / (E * (p.beff * p.hc))) := by
  obtain ⟨h0, -⟩ := beamEc h hE
  obtain ⟨hp, hy⟩ := centroid_ok h hE
  have h1 := h.E
  have h2 := h.A
  have h3 := h.hc
  have h4 := beff_pos h
  have h5 := h.ha
  have h6 := h.h
  have ea : 0 < p.EAa := by unfold Beam.EAa; positivity
  have ec : 0 < E * p.Ac := by unfold Beam.Ac; positivity
  have dy : 0 < p.ya - p.yc := by unfold Beam.ya Beam.yc Beam.hl; linarith
  set y := (p.EAa * p.ya + E * p.Ac * p.yc) / (p.EAa + E * p.Ac) with hydef
  have hbal : p.EAa * (p.ya - y) = E * p.Ac * (y - p.yc) := by
    rw [hydef]
    field_simp
    ring
  have hEI : p.EIcom lt = .ok (stiff p E y) := by
    unfold Beam.EIcom
    rw [hE, hy]
    simp only [bind, Except.bind]
    congr 1
    rw [sq_abs, sq_abs]
    unfold stiff Beam.ya Beam.yc Beam.Ic Beam.Ac Beam.hl
    ring
  have eya : p.ya = p.hc + p.ha + p.steel.h / 2 := by unfold Beam.ya Beam.hl; ring
  have eyc : p.yc = p.hc / 2 := by unfold Beam.yc; ring
  have eAc : p.Ac = p.beff * p.hc := by unfold Beam.Ac; ring
  have eEA : p.EAa = p.steel.E * p.steel.A := rfl
  have hst : ∀ y', stiff p E y' = stiff p E y + (p.EAa + E * p.Ac) * (y' - y) ^ 2 := by
    intro y'
    unfold stiff
    rw [← eya, ← eyc, ← eAc, eEA]
    rw [eEA] at hbal
    linear_combination (-2 * (y' - y)) * hbal
  refine ⟨y, _, hy, hEI, ?_, ?_, ?_, rfl, ?_, ?_⟩
  · rw [← eyc, hydef, lt_div_iff₀ hp]
    nlinarith
  · rw [← eya, hydef, div_lt_iff₀ hp]
    nlinarith
  · rw [← eya, ← eyc, ← eAc, ← eEA]
    exact hbal
  · intro y'
    rw [hst y']
    have := mul_nonneg hp.le (sq_nonneg (y' - y))
    linarith
  · have e : p.hc / 2 + p.ha + p.steel.h / 2 = p.ya - p.yc := by rw [eya, eyc]; ring
    unfold stiff
    rw [e, ← eya, ← eyc, ← eAc, ← eEA]
    have q1 : y - p.ya = -(E * p.Ac) * (p.ya - p.yc) / (p.EAa + E * p.Ac) := by
      rw [hydef]
      field_simp
      ring
    have q2 : y - p.yc = p.EAa * (p.ya - p.yc) / (p.EAa + E * p.Ac) := by
      rw [hydef]
      field_simp
      ring
    have q3 : p.steel.E * (p.steel.I + p.steel.A * (y - p.ya) ^ 2) = p.steel.E * p.steel.I + p.EAa * (y - p.ya) ^ 2 := by
      rw [eEA]
      ring
    rw [q3, q1, q2]
    have := ea.ne'
    have := ec.ne'
    have := hp.ne'
    have hA : p.Ac ≠ 0 := by intro e; rw [e, mul_zero] at ec; exact lt_irrefl _ ec
    field_simp
    ring

/-- The composite coefficient is the gain of stiffness by composite action. -/
theorem C263_coefficient (p : Beam) (h : p.Ok) (hI : 0 < p.steel.I) :
    p.EIcom none = .ok ((1 + p.alpha) * (p.steel.E * p.steel.I + p.concrete.Ecm * (p.beff * p.hc ^ 3 / 12))) ∧ 0 < p.alpha := by
  obtain ⟨y, EI, -, h2, -, -, -, -, -, h3⟩ := C263_stiffness p h none _ rfl
  have he := Ecm_pos h.conc
  have k1 := h.E
  have k2 := h.A
  have k3 := h.hc
  have k4 := beff_pos h
  have k5 := h.ha
  have k6 := h.h
  have ea : 0 < p.steel.E * p.steel.A := by positivity
  have ec : 0 < p.concrete.Ecm * (p.beff * p.hc) := by positivity
  have ei : 0 < p.steel.E * p.steel.I + p.concrete.Ecm * (p.beff * p.hc ^ 3 / 12) := by positivity
  have eal : p.alpha = (p.hc / 2 + p.ha + p.steel.h / 2) ^ 2 / (1 / (p.steel.E * p.steel.A) + 1 / (p.concrete.Ecm * (p.beff * p.hc))) /
      (p.steel.E * p.steel.I + p.concrete.Ecm * (p.beff * p.hc ^ 3 / 12)) := by
    have e1 : p.ei = p.hc / 2 + p.ha + p.steel.h / 2 := by unfold Beam.ei Beam.ya Beam.yc Beam.hl; ring
    have e2 : p.EIa + p.concrete.Ecm * p.Ic = p.steel.E * p.steel.I + p.concrete.Ecm * (p.beff * p.hc ^ 3 / 12) := by
      unfold Beam.EIa Beam.Ic; ring
    have e3 : p.Ac = p.beff * p.hc := by unfold Beam.Ac; ring
    unfold Beam.alpha
    rw [e1, e2, e3]
    unfold Beam.EAa
    congr 1
    field_simp
    ring
  constructor
  · rw [h2, h3, eal, add_mul, one_mul, div_mul_cancel₀ _ ei.ne']
  · rw [eal]
    positivity

/-- Creep softens the beam and moves the centroid towards the steel part; words other than "creep" raise an error. -/
theorem C263_creep (p : Beam) (h : p.Ok) : ∃ y y' EI EI', p.centroid none = .ok y ∧ p.centroid (some "creep") = .ok y' ∧
    p.EIcom none = .ok EI ∧ p.EIcom (some "creep") = .ok EI' ∧ y ≤ y' ∧ EI' ≤ EI ∧
    ∀ s ≠ "creep", p.centroid (some s) = .error .unboundLocal ∧ p.EIcom (some s) = .error .unboundLocal ∧
      p.EAcom (some s) = .error .unboundLocal := by
  have hE : ∃ E, p.Ec (some "creep") = .ok E := by
    have hc := h.hc
    obtain ⟨g, g1, g2, -⟩ := C258_creep p.concrete h.conc (h0 := 2 * p.hc) (t0 := p.t0) (by positivity) h.t0
    have hb := betaB_pos h.conc (h0 := 2 * p.hc) (by positivity)
    have hphi : 0 ≤ phi0B p.concrete (2 * p.hc) p.t0 * g 1e8 := by
      refine mul_nonneg (phi0B_nonneg h.conc (by positivity) h.t0) ?_
      rw [g2 _ h.t1]
      have := h.t1
      apply rpow_nonneg
      apply div_nonneg <;> linarith
    have hd : 0 < 1 + 1.1 * (phi0B p.concrete (2 * p.hc) p.t0 * g 1e8) := by positivity
    refine ⟨p.concrete.Ecm / (1 + 1.1 * (phi0B p.concrete (2 * p.hc) p.t0 * g 1e8)), ?_⟩
    unfold Beam.Ec
    dsimp only
    rw [if_pos rfl, g1 _ h.t1]
    simp only [Except.bind, Fire.pdiv, hd.ne', if_false]
  obtain ⟨E, hE⟩ := hE
  obtain ⟨hE0, hE1⟩ := beamEc h hE
  obtain ⟨y, EI, a1, a2, a3, a4, a5, a6, a7, -⟩ := C263_stiffness p h none _ rfl
  obtain ⟨y', EI', b1, b2, b3, b4, b5, b6, b7, -⟩ := C263_stiffness p h _ _ hE
  have k1 := h.E
  have k2 := h.A
  have k3 := h.hc
  have k4 := beff_pos h
  refine ⟨y, y', EI, EI', a1, b1, a2, b2, ?_, ?_, ?_⟩
  · by_contra hlt
    rw [not_le] at hlt
    have e1 : p.steel.E * p.steel.A * (p.hc + p.ha + p.steel.h / 2 - y) < p.steel.E * p.steel.A * (p.hc + p.ha + p.steel.h / 2 - y') :=
      mul_lt_mul_of_pos_left (by linarith) (by positivity)
    have e2 : E * (p.beff * p.hc) * (y' - p.hc / 2) ≤ p.concrete.Ecm * (p.beff * p.hc) * (y - p.hc / 2) := by
      apply mul_le_mul
      · gcongr
      · linarith
      · linarith
      · have := Ecm_pos h.conc
        positivity
    rw [a5, b5] at e1
    linarith
  · refine (b7 y).trans ?_
    rw [a6]
    unfold stiff
    have : 0 ≤ p.beff * p.hc ^ 3 / 12 + p.beff * p.hc * (y - p.hc / 2) ^ 2 := by positivity
    have := mul_le_mul_of_nonneg_right hE1 this
    linarith
  · intro s hs
    have : p.Ec (some s) = .error .unboundLocal := by unfold Beam.Ec; exact if_neg hs
    unfold Beam.EIcom Beam.centroid Beam.EAcom
    rw [this]
    exact ⟨rfl, rfl, rfl⟩

/-! ### C264: composite beams, plastic -/

/-- The part of the layer from `a` to `b` above depth `y` ends at `cut a b y`. -/
noncomputable def cut (a b y : ℝ) : ℝ := max a (min b y)

/-- Force of a yielding layer (compression above `y` positive) and its moment about `y`. -/
noncomputable def layerN (f w a b y : ℝ) : ℝ := f * w * ((cut a b y - a) - (b - cut a b y))
noncomputable def layerM (f w a b y : ℝ) : ℝ :=
  f * w * ((cut a b y - a) * (y - (a + cut a b y) / 2) + (b - cut a b y) * ((b + cut a b y) / 2 - y))

/-- Plastic stress blocks with neutral axis at depth `y`: the slab carries `fc` in compression and nothing in tension, the flanges
    and the web of the steel part yield. -/
noncomputable def plasticN (p : Beam) (fc y : ℝ) : ℝ :=
  fc * p.beff * cut 0 p.hc y + layerN p.steel.fy p.steel.b p.hl (p.hl + p.steel.tf) y +
    layerN p.steel.fy p.steel.tw (p.hl + p.steel.tf) (p.hl + p.steel.tf + p.steel.hw) y +
    layerN p.steel.fy p.steel.b (p.hl + p.steel.tf + p.steel.hw) (p.hl + 2 * p.steel.tf + p.steel.hw) y
noncomputable def plasticM (p : Beam) (fc y : ℝ) : ℝ :=
  fc * p.beff * cut 0 p.hc y * (y - cut 0 p.hc y / 2) + layerM p.steel.fy p.steel.b p.hl (p.hl + p.steel.tf) y +
    layerM p.steel.fy p.steel.tw (p.hl + p.steel.tf) (p.hl + p.steel.tf + p.steel.hw) y +
    layerM p.steel.fy p.steel.b (p.hl + p.steel.tf + p.steel.hw) (p.hl + 2 * p.steel.tf + p.steel.hw) y

/-- A beam whose steel part consists of three plates. -/
structure Plates (p : Beam) : Prop where
  fck : 0 < p.concrete.fck
  beff : 0 < p.beff
  hc : 0 < p.hc
  ha : 0 ≤ p.ha
  fy : 0 < p.steel.fy
  b : 0 < p.steel.b
  tf : 0 < p.steel.tf
  hw : 0 < p.steel.hw
  tw : 0 < p.steel.tw
  A : p.steel.A = 2 * (p.steel.b * p.steel.tf) + p.steel.hw * p.steel.tw
  h : p.steel.h = p.steel.hw + 2 * p.steel.tf

theorem cut_below {a b y : ℝ} (h : y ≤ a) (hab : a ≤ b) : cut a b y = a := by
  unfold cut
  rw [min_eq_right (h.trans hab), max_eq_left h]
theorem cut_above {a b y : ℝ} (h : b ≤ y) (hab : a ≤ b) : cut a b y = b := by
  unfold cut
  rw [min_eq_left h, max_eq_right hab]
theorem cut_in {a b y : ℝ} (h : a ≤ y) (h' : y ≤ b) : cut a b y = y := by
  unfold cut
  rw [min_eq_right h', max_eq_right h]

theorem Rc_eq (p : Beam) : p.Rc = 0.85 * p.concrete.fcd * p.beff * p.hc := by
  unfold Beam.Rc Beam.Ac
  ring

theorem Rc_pos {p : Beam} (h : Plates p) : 0 < p.Rc := by
  have h1 := h.fck
  have h2 := h.beff
  have h3 := h.hc
  rw [Rc_eq]
  unfold Concrete.fcd
  positivity

/-- With the neutral axis in the slab the stress blocks are in balance and the resistance is their moment. -/
theorem C264_partial (p : Beam) (h : Plates p) (hR : p.Ra < p.Rc) : ∃ y, p.pna = .ok y ∧ 0 < y ∧ y < p.hc ∧
    plasticN p (0.85 * p.concrete.fcd) y = 0 ∧ p.MplRd = .ok (plasticM p (0.85 * p.concrete.fcd) y) := by
  have hp := Rc_pos h
  have h3 := h.hc
  have h4 := h.ha
  have h5 := h.tf
  have h6 := h.hw
  have h7 := h.fy
  have h8 := h.b
  have h9 := h.tw
  have hRa : p.Ra = p.steel.fy * (2 * (p.steel.b * p.steel.tf) + p.steel.hw * p.steel.tw) := by unfold Beam.Ra; rw [h.A]
  have hRp : 0 < p.Ra := by rw [hRa]; positivity
  have hl : p.hl = p.hc + p.ha := rfl
  set y := p.Ra / p.Rc * p.hc with hy
  have y0 : 0 < y := by positivity
  have y1 : y < p.hc := by
    rw [hy]
    have : p.Ra / p.Rc < 1 := (div_lt_one hp).2 hR
    nlinarith
  have hyR : 0.85 * p.concrete.fcd * p.beff * y = p.Ra := by
    rw [hy, ← mul_assoc, mul_comm (0.85 * p.concrete.fcd * p.beff), mul_assoc, ← Rc_eq, div_mul_cancel₀ _ hp.ne']
  have c0 : cut 0 p.hc y = y := cut_in y0.le y1.le
  have c1 : cut p.hl (p.hl + p.steel.tf) y = p.hl := cut_below (by linarith) (by linarith)
  have c2 : cut (p.hl + p.steel.tf) (p.hl + p.steel.tf + p.steel.hw) y = p.hl + p.steel.tf := cut_below (by linarith) (by linarith)
  have c3 : cut (p.hl + p.steel.tf + p.steel.hw) (p.hl + 2 * p.steel.tf + p.steel.hw) y = p.hl + p.steel.tf + p.steel.hw :=
    cut_below (by linarith) (by linarith)
  refine ⟨y, ?_, y0, y1, ?_, ?_⟩
  · unfold Beam.pna
    rw [if_pos hR]
  · unfold plasticN layerN
    rw [c0, c1, c2, c3, hyR, hRa]
    ring
  · unfold Beam.MplRd plasticM layerM
    rw [if_pos hR, c0, c1, c2, c3, ← hy, hyR]
    congr 1
    unfold Beam.ei Beam.ya Beam.yc
    rw [h.h, hRa, hl]
    ring

/-- What the resistance is off by. -/
noncomputable def off (p : Beam) : ℝ :=
  (p.Ra - p.Rc - 2 * (p.steel.fy * (p.steel.tf * p.steel.b))) ^ 2 / (4 * p.steel.fy) * (1 / p.steel.tw - 1 / p.steel.b)

/-- With the neutral axis in the steel part the formulas are swapped: in the web (slab weaker than the web) the one of the flange
    is used and the resistance is too large, in the flange the one of the web and it is too small. -/
theorem C264_violation (p : Beam) (h : Plates p) (hl : p.steel.lists = false) (hR : p.Rc ≤ p.Ra) :
    (p.Rc < p.Rw → ∃ y, p.hl + p.steel.tf < y ∧ y < p.hl + p.steel.tf + p.steel.hw / 2 ∧ plasticN p (0.85 * p.concrete.fcd) y = 0 ∧
      p.MplRd = .ok (plasticM p (0.85 * p.concrete.fcd) y + off p)) ∧
    (p.Rw ≤ p.Rc → ∃ y, p.hl ≤ y ∧ y ≤ p.hl + p.steel.tf ∧ plasticN p (0.85 * p.concrete.fcd) y = 0 ∧
      p.MplRd = .ok (plasticM p (0.85 * p.concrete.fcd) y - off p)) := by
  have hp := Rc_pos h
  have h3 := h.hc
  have h4 := h.ha
  have h5 := h.tf
  have h6 := h.hw
  have h7 := h.fy
  have h8 := h.b
  have h9 := h.tw
  have hRa : p.Ra = p.steel.fy * (2 * (p.steel.b * p.steel.tf) + p.steel.hw * p.steel.tw) := by unfold Beam.Ra; rw [h.A]
  have hRw : p.Rw = p.steel.fy * (p.steel.hw * p.steel.tw) := rfl
  have hRf : p.Rf = .ok (p.steel.fy * (p.steel.tf * p.steel.b)) := by unfold Beam.Rf; rw [hl]; rfl
  have hhl : p.hl = p.hc + p.ha := rfl
  have hRc := Rc_eq p
  set fc := 0.85 * p.concrete.fcd with hfc
  constructor
  · intro hlt
    set y := p.hl + p.steel.tf + (p.Rw - p.Rc) / (2 * p.steel.fy * p.steel.tw) with hy
    have d0 : 0 < (p.Rw - p.Rc) / (2 * p.steel.fy * p.steel.tw) := by
      have : 0 < p.Rw - p.Rc := by linarith
      positivity
    have d1 : (p.Rw - p.Rc) / (2 * p.steel.fy * p.steel.tw) < p.steel.hw / 2 := by
      rw [div_lt_div_iff₀ (by positivity) two_pos, hRw]
      linarith
    have d2 : (p.Rw - p.Rc) / (2 * p.steel.fy * p.steel.tw) * (2 * p.steel.fy * p.steel.tw) = p.Rw - p.Rc :=
      div_mul_cancel₀ _ (by positivity)
    have c0 : cut 0 p.hc y = p.hc := cut_above (by linarith) h3.le
    have c1 : cut p.hl (p.hl + p.steel.tf) y = p.hl + p.steel.tf := cut_above (by linarith) (by linarith)
    have c2 : cut (p.hl + p.steel.tf) (p.hl + p.steel.tf + p.steel.hw) y = y := cut_in (by linarith) (by linarith)
    have c3 : cut (p.hl + p.steel.tf + p.steel.hw) (p.hl + 2 * p.steel.tf + p.steel.hw) y = p.hl + p.steel.tf + p.steel.hw :=
      cut_below (by linarith) (by linarith)
    refine ⟨y, by linarith, by linarith, ?_, ?_⟩
    · unfold plasticN layerN
      rw [c0, c1, c2, c3, ← hRc, hy]
      rw [hRw] at d2 ⊢
      linear_combination d2
    · unfold Beam.MplRd plasticM layerM off
      rw [if_neg (not_lt.2 hR), hRf, c0, c1, c2, c3, ← hRc]
      have hb : p.Rc < p.Ra - 2 * (p.steel.fy * (p.steel.tf * p.steel.b)) := by rw [hRa]; linarith
      simp only [bind, Except.bind]
      rw [if_pos hb]
      congr 1
      unfold Beam.ei Beam.ya Beam.yc
      rw [hy, h.h, hRa, hRw, hhl]
      generalize p.Rc = R
      field_simp
      ring
  · intro hle
    set y := p.hl + (p.Ra - p.Rc) / (2 * p.steel.fy * p.steel.b) with hy
    have d0 : 0 ≤ (p.Ra - p.Rc) / (2 * p.steel.fy * p.steel.b) := by
      have : 0 ≤ p.Ra - p.Rc := by linarith
      positivity
    have d1 : (p.Ra - p.Rc) / (2 * p.steel.fy * p.steel.b) ≤ p.steel.tf := by
      rw [div_le_iff₀ (by positivity), hRa]
      linarith
    have d2 : (p.Ra - p.Rc) / (2 * p.steel.fy * p.steel.b) * (2 * p.steel.fy * p.steel.b) = p.Ra - p.Rc :=
      div_mul_cancel₀ _ (by positivity)
    have c0 : cut 0 p.hc y = p.hc := cut_above (by linarith) h3.le
    have c1 : cut p.hl (p.hl + p.steel.tf) y = y := cut_in (by linarith) (by linarith)
    have c2 : cut (p.hl + p.steel.tf) (p.hl + p.steel.tf + p.steel.hw) y = p.hl + p.steel.tf := cut_below (by linarith) (by linarith)
    have c3 : cut (p.hl + p.steel.tf + p.steel.hw) (p.hl + 2 * p.steel.tf + p.steel.hw) y = p.hl + p.steel.tf + p.steel.hw :=
      cut_below (by linarith) (by linarith)
    refine ⟨y, by linarith, by linarith, ?_, ?_⟩
    · unfold plasticN layerN
      rw [c0, c1, c2, c3, ← hRc, hy]
      rw [hRa] at d2 ⊢
      linear_combination d2
    · unfold Beam.MplRd plasticM layerM off
      rw [if_neg (not_lt.2 hR), hRf, c0, c1, c2, c3, ← hRc]
      have hb : ¬ p.Rc < p.Ra - 2 * (p.steel.fy * (p.steel.tf * p.steel.b)) := by rw [hRa]; linarith
      simp only [bind, Except.bind]
      rw [if_neg hb]
      congr 1
      unfold Beam.ei Beam.ya Beam.yc
      rw [hy, h.h, hRa, hRw, hhl]
      generalize p.Rc = R
      field_simp
      ring

/-- The slab's force has the factor 0.85 of EN 1994-1-1, 6.2.1.2, twice, and the steel part must not be a welded section with lists
    of flanges unless the neutral axis is in the slab. -/
theorem C264_slab (p : Beam) : p.Rc = 0.85 * (0.85 * (p.concrete.fck / 1.5) * ((p.b0 + 2 * (p.length / 8)) * p.hc)) ∧
    (p.steel.lists = true → p.Rc ≤ p.Ra → p.MplRd = .error .typeError ∧ p.pna = .error .typeError) := by
  constructor
  · rw [Rc_eq]
    unfold Concrete.fcd Beam.beff
    ring
  · intro hl hR
    have hRf : p.Rf = .error .typeError := by unfold Beam.Rf; rw [hl]; rfl
    unfold Beam.MplRd Beam.pna
    rw [if_neg (not_lt.2 hR), if_neg (not_lt.2 hR), hRf]
    exact ⟨rfl, rfl⟩

/-! ### C265: shear studs -/

/-- EN 1994-1-1, Eq. (6.18) and (6.19). -/
noncomputable def studSteel (s : Stud) (g : ℝ) : ℝ := 0.8 * s.fu * (π * s.d ^ 2 / 4) / g
noncomputable def studConcrete (s : Stud) (g fck Ecm : ℝ) : ℝ :=
  0.29 * min 1 (0.2 * (s.length / s.d + 1)) * s.d ^ 2 * √(fck * Ecm) / g

/-- The resistance of a stud cannot be computed: the name of the safety factor is not defined. -/
theorem C265_violation (s : Stud) (fck Ecm : ℝ) : s.PRd installedGammaV fck Ecm = .error .nameError := rfl

/-- If the name were defined, the concrete term would be that of the Eurocode, but the steel term `π γ` times too large. -/
theorem C265_partial (s : Stud) (hd : 0 < s.d) (hf : 0 < s.fu) {g : ℝ} (hg : 1 ≤ g) (fck Ecm : ℝ) :
    s.PRd (some g) fck Ecm = .ok (min (π * g * studSteel s g) (studConcrete s g fck Ecm)) ∧
    (studConcrete s g fck Ecm ≤ studSteel s g →
      s.PRd (some g) fck Ecm = .ok (min (studSteel s g) (studConcrete s g fck Ecm))) ∧
    (studSteel s g < studConcrete s g fck Ecm →
      ∃ P, s.PRd (some g) fck Ecm = .ok P ∧ min (studSteel s g) (studConcrete s g fck Ecm) < P) := by
  have hg0 : 0 < g := by linarith
  have hs : 0 < studSteel s g := by unfold studSteel; positivity
  have h3 := pi_gt_three
  have hpg : 1 < π * g := by nlinarith
  have hlt : studSteel s g < π * g * studSteel s g := by nlinarith
  have key : s.PRd (some g) fck Ecm = .ok (min (π * g * studSteel s g) (studConcrete s g fck Ecm)) := by
    unfold Stud.PRd studSteel studConcrete
    dsimp only
    congr 2
    · field_simp
    · by_cases hl : s.length / s.d > 4
      · rw [if_pos hl, min_eq_left (by linarith)]
      · rw [if_neg hl, min_eq_right (by linarith)]
  refine ⟨key, ?_, ?_⟩
  · intro hle
    rw [key, min_eq_right hle, min_eq_right (by linarith)]
  · intro h
    refine ⟨_, key, ?_⟩
    rw [min_eq_left h.le]
    exact lt_min hlt h

/-! ### Examples -/

theorem exConc : (⟨30, 50⟩ : Concrete).Ok := ⟨by norm_num, by norm_num, by norm_num⟩

/-- C258: concrete C30/37 in dry and moist air. -/
example : (⟨30, 50⟩ : Concrete).Ok ∧ (⟨30, 80⟩ : Concrete).Ok ∧ (0:ℝ) < 100 ∧ (100:ℝ) ≤ 200 ∧ (0:ℝ) ≤ 7 ∧ (7:ℝ) ≤ 28 ∧ (28:ℝ) ≤ 1000 :=
  ⟨exConc, ⟨by norm_num, by norm_num, by norm_num⟩, by norm_num, by norm_num, by norm_num, by norm_num, by norm_num⟩

/-- A tube 200 × 200 × 8 with four bars. -/
noncomputable def exCol (d z ned nged m : ℝ) : Column :=
  ⟨4000, ⟨200, 200, 8, 16, 6000, 36e6, 440000, 355, 210000⟩, ⟨30, 50⟩, ⟨d, 500, 200000⟩, (52, z), 4, ned, nged, (m, m), (1, 1)⟩

theorem exSound (d z ned nged m : ℝ) : Sound (exCol d z ned nged m) :=
  ⟨by norm_num [exCol], by norm_num [exCol], by norm_num [exCol], rfl⟩

/-- C259. -/
example : Sound (exCol 20 52 1e6 5e5 1e7) := exSound _ _ _ _ _

theorem exAc (d z ned nged m : ℝ) : (exCol d z ned nged m).Ac = 33600 + 64 * π - π * d ^ 2 := by
  norm_num [exCol, Column.Ac, Column.As, Rebar.A]
  ring

theorem exLoaded {ned nged m : ℝ} (h : 0 < ned) (h' : 0 ≤ nged) : Loaded (exCol 20 52 ned nged m) where
  conc := exConc
  fy := by norm_num [exCol]
  A := by norm_num [exCol]
  E := by norm_num [exCol]
  I := by norm_num [exCol]
  bar := by norm_num [exCol]
  bars := by norm_num [exCol]
  fs := by norm_num [exCol]
  Es := by norm_num [exCol]
  Ac := by
    rw [exAc]
    have := pi_le_four
    have := pi_pos
    linarith
  Ic := by
    have h4 := pi_le_four
    have h3 := pi_gt_three
    have k1 : 0 ≤ (8:ℝ) ^ 4 * (9 * π ^ 2 - 64) / 36 / π := by
      have : 0 ≤ 9 * π ^ 2 - 64 := by nlinarith
      positivity
    have k2 : 0 ≤ π * 8 ^ 2 * (0.5 * 200 - 8 + 4 * 8 / 3 / π) ^ 2 := by positivity
    simp only [exCol, Column.Ic, Column.Is, Rebar.I, Rebar.A, Rebar.r, Column.z]
    rw [show (16:ℝ) - 8 = 8 by norm_num]
    revert k1 k2
    generalize (8:ℝ) ^ 4 * (9 * π ^ 2 - 64) / 36 / π = a
    generalize π * 8 ^ 2 * (0.5 * 200 - 8 + 4 * 8 / 3 / π) ^ 2 = b
    intro k1 k2
    norm_num
    linarith
  L := by norm_num [exCol]
  ky := by norm_num [exCol]
  N := h
  G := h'

/-- C260. -/
example : Loaded (exCol 20 52 1e6 5e5 1e7) := exLoaded (by norm_num) (by norm_num)

/-- C260: the same column without axial force. -/
example : (exCol 20 52 0 0 0).ned = 0 ∧ (exCol 20 52 0 0 0).concrete.Ok := ⟨rfl, exConc⟩

theorem exHn (d z ned nged m a : ℝ) :
    (exCol d z ned nged m).hn a = (20 * (33600 + 64 * π - π * d ^ 2) - a * (1000 / 1.15 - 20)) / 30080 := by
  unfold Column.hn Column.NpmRd
  rw [exAc]
  norm_num [exCol, Column.fcd, Concrete.fcd, Rebar.fyd]

/-- C261: thick bars far from the centre; the neutral axis lies between them. -/
theorem exAxis (ned nged m : ℝ) : let p := exCol 20 52 ned nged m
    p.hn 0 < p.z - p.rebar.r ∧ 0 ≤ p.mpl.1 ∧ p.mpl.1 ≤ cI p ∧ 0 < p.mpl.2 := by
  have h4 := pi_le_four
  have h3 := pi_gt_three
  intro p
  have hz : p.z - p.rebar.r = 42 := by norm_num [p, exCol, Column.z, Rebar.r]
  have h0 := exHn 20 52 ned nged m 0
  change p.hn 0 = _ at h0
  have l0 : 0 ≤ p.hn 0 := by rw [h0]; apply div_nonneg <;> linarith
  have l1 : p.hn 0 ≤ 25 := by rw [h0, div_le_iff₀ (by norm_num)]; linarith
  have hb : p.hn 0 < p.z - p.rebar.r := by rw [hz]; linarith
  have m1 : p.mpl.1 = p.hn 0 := by simp [Column.mpl, hb]
  have hc : cI p = 84 := by norm_num [cI, p, exCol]
  refine ⟨hb, by rw [m1]; exact l0, by rw [m1, hc]; linarith, ?_⟩
  have m2 : p.mpl.2 = p.MplMax - (p.steel.fy * (2 * p.steel.T * p.hn 0 ^ 2) + 0.5 * p.fcd * (bI p) * p.hn 0 ^ 2) := by
    simp only [Column.mpl, hb, decide_true, if_true, bI]
    ring
  rw [m2]
  have hsq : p.hn 0 ^ 2 ≤ 625 := by nlinarith
  have hM : 355 * 440000 ≤ p.MplMax := by
    norm_num [Column.MplMax, p, exCol, Column.Wps, Rebar.fyd, Rebar.A, Column.z, Column.Wpc, Column.fcd, Concrete.fcd]
    linarith
  have e : p.steel.fy * (2 * p.steel.T * p.hn 0 ^ 2) + 0.5 * p.fcd * (bI p) * p.hn 0 ^ 2 = 7520 * p.hn 0 ^ 2 := by
    have e1 : p.steel.fy = 355 := rfl
    have e2 : p.steel.T = 8 := rfl
    have e3 : p.fcd = 20 := by norm_num [p, exCol, Column.fcd, Concrete.fcd]
    have e4 : bI p = 184 := by norm_num [p, exCol, bI]
    rw [e1, e2, e3, e4]
    ring
  rw [e]
  nlinarith

/-- C261: thin bars near the centre; the neutral axis falls below the upper ones. -/
example : let p := exCol 8 20 1e6 5e5 1e7
    0 ≤ p.mpl.1 ∧ p.mpl.1 ≤ cI p ∧ p.z - p.rebar.r ≤ p.hn 0 ∧ p.hn p.As < p.z := by
  have h4 := pi_le_four
  have h3 := pi_gt_three
  intro p
  have hz : p.z - p.rebar.r = 16 := by norm_num [p, exCol, Column.z, Rebar.r]
  have hA : p.As = 64 * π := by norm_num [p, exCol, Column.As, Rebar.A]; ring
  have h0 := exHn 8 20 1e6 5e5 1e7 0
  have h1 := exHn 8 20 1e6 5e5 1e7 p.As
  change p.hn 0 = _ at h0
  change p.hn p.As = _ at h1
  rw [hA] at h1
  have k0 : 16 ≤ p.hn 0 := by rw [h0, le_div_iff₀ (by norm_num)]; linarith
  have k1 : 0 ≤ p.hn p.As := by rw [hA, h1]; apply div_nonneg <;> [skip; norm_num]; norm_num; linarith
  have k2 : p.hn p.As < 20 := by rw [hA, h1, div_lt_iff₀ (by norm_num)]; norm_num; linarith
  have hb : ¬ p.hn 0 < p.z - p.rebar.r := by rw [hz]; linarith
  have m1 : p.mpl.1 = p.hn p.As := by simp [Column.mpl, hb]
  have hc : cI p = 84 := by norm_num [cI, p, exCol]
  have hzz : p.z = 20 := rfl
  refine ⟨by rw [m1]; exact k1, by rw [m1, hc]; linarith, by rw [hz]; exact k0, by rw [hzz]; exact k2⟩

theorem exCrit {m : ℝ} : ∃ N, (exCol 20 52 1e6 5e5 m).Ncreff "y" = .ok N ∧ 1e6 < N := by
  have h : Loaded (exCol 20 52 1e6 5e5 m) := exLoaded (by norm_num) (by norm_num)
  obtain ⟨phi, hc, hp⟩ := creep_ok h
  refine ⟨_, Ncreff_ok h hc hp, ?_⟩
  obtain ⟨-, k2, -⟩ := parts_pos h
  have k3 := (Eceff_ok h hc hp).2
  have k4 := h.Ic
  have h3 := pi_gt_three
  unfold criticalII
  have e1 : (exCol 20 52 1e6 5e5 m).length * (exCol 20 52 1e6 5e5 m).lcr.1 = 4000 := by norm_num [exCol]
  have e2 : (exCol 20 52 1e6 5e5 m).EIa = 210000 * 36e6 := rfl
  rw [e1, e2]
  revert k2 k3 k4
  generalize (exCol 20 52 1e6 5e5 m).EIs = a
  generalize (exCol 20 52 1e6 5e5 m).concrete.Ecm / (1 + (exCol 20 52 1e6 5e5 m).nged / (exCol 20 52 1e6 5e5 m).ned * phi) = b
  generalize (exCol 20 52 1e6 5e5 m).Ic = c
  intro k2 k3 k4
  rw [lt_div_iff₀ (by norm_num)]
  have : 0 ≤ 0.5 * b * c := by positivity
  have hpi : 9 ≤ π ^ 2 := by nlinarith
  nlinarith

/-- C262: an axial force below critical force and plastic resistance. -/
example : ∃ N, (exCol 20 52 1e6 5e5 1e7).Ncreff "y" = .ok N ∧ (exCol 20 52 1e6 5e5 1e7).ned < N ∧
    (exCol 20 52 1e6 5e5 1e7).ned < (exCol 20 52 1e6 5e5 1e7).NplRd ∧ 0 < (exCol 20 52 1e6 5e5 1e7).mpl.2 := by
  obtain ⟨N, h1, h2⟩ := exCrit (m := 1e7)
  refine ⟨N, h1, h2, ?_, (exAxis _ _ _).2.2.2⟩
  have h := exLoaded (ned := 1e6) (nged := 5e5) (m := 1e7) (by norm_num) (by norm_num)
  obtain ⟨-, -, h6⟩ := parts_pos h
  have h4 := h.Ac
  have e1 : (exCol 20 52 1e6 5e5 1e7).steel.fy * (exCol 20 52 1e6 5e5 1e7).steel.A = 355 * 6000 := rfl
  have k1 : 0 ≤ (exCol 20 52 1e6 5e5 1e7).rebar.fyd * (exCol 20 52 1e6 5e5 1e7).As :=
    mul_nonneg (by norm_num [exCol, Rebar.fyd]) h6.le
  have k2 : 0 ≤ (exCol 20 52 1e6 5e5 1e7).fcd * (exCol 20 52 1e6 5e5 1e7).Ac :=
    mul_nonneg (by norm_num [exCol, Column.fcd, Concrete.fcd]) h4.le
  have e2 : (exCol 20 52 1e6 5e5 1e7).ned = 1e6 := rfl
  unfold Column.NplRd
  rw [e1, e2]
  linarith

/-- C262: negative end moments. -/
example : ∃ N, (exCol 20 52 1e6 5e5 (-1e7)).Ncreff "y" = .ok N ∧ (exCol 20 52 1e6 5e5 (-1e7)).ned < N ∧
    (exCol 20 52 1e6 5e5 (-1e7)).med = (-1e7, -1e7) := by
  obtain ⟨N, h1, h2⟩ := exCrit (m := -1e7)
  exact ⟨N, h1, h2, rfl⟩

/-- C262: an axial force above both. -/
example : ∃ p N, Loaded p ∧ 0 ≤ p.med.1 ∧ 0 ≤ p.med.2 ∧ p.Ncreff "y" = .ok N ∧ 0 < p.mpl.2 ∧ N < p.ned ∧ p.NplRd < p.ned := by
  have h1 : Loaded (exCol 20 52 1 0 0) := exLoaded one_pos le_rfl
  obtain ⟨phi, hc, hp⟩ := creep_ok h1
  have a1 := criticalII_pos h1 hp
  have a2 := (Npl_pos h1).1
  set x := criticalII (exCol 20 52 1 0 0) phi + (exCol 20 52 1 0 0).NplRd with hx
  have h2 : Loaded (exCol 20 52 x 0 0) := exLoaded (by linarith) le_rfl
  have e1 : criticalII (exCol 20 52 x 0 0) phi = criticalII (exCol 20 52 1 0 0) phi := by
    unfold criticalII
    simp only [exCol, zero_div]
    rfl
  have e2 : (exCol 20 52 x 0 0).NplRd = (exCol 20 52 1 0 0).NplRd := rfl
  have e3 : (exCol 20 52 x 0 0).ned = x := rfl
  refine ⟨exCol 20 52 x 0 0, _, h2, le_rfl, le_rfl, Ncreff_ok h2 (phi := phi) hc hp, (exAxis _ _ _).2.2.2, ?_, ?_⟩
  · rw [e1, e3]
    linarith
  · rw [e2, e3]
    linarith

/-- A beam of three plates under a slab. -/
noncomputable def exBeam (hc : ℝ) (lists : Bool) : Beam :=
  ⟨4000, ⟨355, 210000, 3200, 2e7, 220, 100, 10, 200, 6, lists⟩, ⟨30, 50⟩, hc, 40, 0, 28⟩

/-- C263. -/
example : (exBeam 100 false).Ok ∧ 0 < (exBeam 100 false).steel.I :=
  ⟨⟨exConc, by norm_num [exBeam], by norm_num [exBeam], by norm_num [exBeam], by norm_num [exBeam], by norm_num [exBeam],
    by norm_num [exBeam], by norm_num [exBeam], by norm_num [exBeam], by norm_num [exBeam], by norm_num [exBeam]⟩, by norm_num [exBeam]⟩

theorem exPlates {hc : ℝ} (h : 0 < hc) (l : Bool) : Plates (exBeam hc l) :=
  ⟨by norm_num [exBeam], by norm_num [exBeam, Beam.beff], h, by norm_num [exBeam], by norm_num [exBeam], by norm_num [exBeam],
    by norm_num [exBeam], by norm_num [exBeam], by norm_num [exBeam], by norm_num [exBeam], by norm_num [exBeam]⟩

/-- C264: neutral axis in the slab, in the flange, in the web. -/
example : Plates (exBeam 100 false) ∧ (exBeam 100 false).Ra < (exBeam 100 false).Rc ∧
    (exBeam 50 false).Rc ≤ (exBeam 50 false).Ra ∧ (exBeam 50 false).Rw ≤ (exBeam 50 false).Rc ∧
    (exBeam 20 false).Rc ≤ (exBeam 20 false).Ra ∧ (exBeam 20 false).Rc < (exBeam 20 false).Rw ∧ 0 < off (exBeam 20 false) := by
  refine ⟨exPlates (by norm_num) _, ?_⟩
  norm_num [exBeam, Beam.Ra, Beam.Rc, Beam.Rw, Concrete.fcd, Beam.Ac, Beam.beff, off]

/-- C264: a welded section under a thin slab. -/
example : (exBeam 20 true).steel.lists = true ∧ (exBeam 20 true).Rc ≤ (exBeam 20 true).Ra := by
  refine ⟨rfl, ?_⟩
  norm_num [exBeam, Beam.Ra, Beam.Rc, Concrete.fcd, Beam.Ac, Beam.beff]

/-- C265: in strong concrete the steel governs, in weak concrete the concrete. -/
example : studSteel ⟨19, 80, 450⟩ 1.25 < studConcrete ⟨19, 80, 450⟩ 1.25 40 36000 ∧
    studConcrete ⟨19, 80, 450⟩ 1.25 10 25000 ≤ studSteel ⟨19, 80, 450⟩ 1.25 := by
  have h3 := pi_gt_three
  have h4 := pi_lt_d2
  have e1 : √(40 * 36000 : ℝ) = 1200 := by rw [show (40 * 36000 : ℝ) = 1200 ^ 2 by norm_num, sqrt_sq (by norm_num)]
  have e2 : √(10 * 25000 : ℝ) = 500 := by rw [show (10 * 25000 : ℝ) = 500 ^ 2 by norm_num, sqrt_sq (by norm_num)]
  unfold studSteel studConcrete
  rw [e1, e2]
  norm_num
  constructor <;> linarith

end Metku.Comp
