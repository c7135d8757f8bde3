import Verif.Model.SteelMember
import Verif.Props.Ec3More
import Verif.Props.SteelGeom
import Verif.Props.SteelGeomI

/-! Properties C39 (member buckling resistance), C69 (lateral-torsional buckling). -/
namespace Metku.Steel

open Real Ec3

set_option linter.unusedVariables false

/-- Positive data and buckling curves of a member. -/
structure Member.Good (m : Member) : Prop where
  A : 0 < m.P.sec.A
  fy : 0 < m.P.fy
  E : 0 < m.P.E
  I1 : 0 < m.P.sec.I.1
  I2 : 0 < m.P.sec.I.2
  L : 0 < m.length
  k1 : 0 < m.lcr.1
  k2 : 0 < m.lcr.2
  imp1 : ∃ k : Curve, m.P.imp.1 = k.imp
  imp2 : ∃ k : Curve, m.P.imp.2 = k.imp

theorem Member.Good.I {m : Member} (h : m.Good) (a : Axis) : 0 < a.of m.P.sec.I := by
  cases a
  · exact h.I1
  · exact h.I2

theorem Member.Good.k {m : Member} (h : m.Good) (a : Axis) : 0 < a.of m.lcr := by
  cases a
  · exact h.k1
  · exact h.k2

theorem Member.Good.imp {m : Member} (h : m.Good) (a : Axis) : ∃ k : Curve, a.of m.P.imp = k.imp := by
  cases a
  · exact h.imp1
  · exact h.imp2

/-- Every member of a rectangular hollow section whose corners fit is good. -/
theorem rhs_good {H B T fy L k1 k2 : ℝ} (hT : 0 < T) (hH : 2 * rhsOuterRadius T ≤ H) (hB : 2 * rhsOuterRadius T ≤ B) (hf : 0 < fy) (hL : 0 < L) (h1 : 0 < k1) (h2 : 0 < k2)
    (ltb : Bool) (c : ℝ) (s : List (ℝ × Forces)) : Member.Good ⟨rhsProfile H B T fy, L, (k1, k2), ltb, c, s⟩ := by
  obtain ⟨a, i, j, _⟩ := C65_order hT hH hB
  exact ⟨a, hf, by norm_num [rhsProfile], i, j, hL, h1, h2, ⟨.c, rfl⟩, ⟨.c, rfl⟩⟩

/-- Every member of a rolled I-section whose parts fit is good. -/
theorem i_good {H B tf tw r fy L k1 k2 : ℝ} (hr : 0 ≤ r) (htf : 0 < tf) (htw : 0 < tw) (hb : tw / 2 + r ≤ B / 2) (hh : tf + r ≤ H / 2) (hf : 0 < fy) (hL : 0 < L) (h1 : 0 < k1) (h2 : 0 < k2)
    (ltb : Bool) (c : ℝ) (s : List (ℝ × Forces)) : Member.Good ⟨iProfile H B tf tw r fy, L, (k1, k2), ltb, c, s⟩ := by
  have hB : 0 < B := by linarith
  have p2 := pi_lt_four
  have hA : 0 < (iProps B H tf tw r).A := by
    simp only [iProps]
    have x1 : 0 < 2 * tf * B := by positivity
    have x2 : 0 ≤ (H - 2 * tf) * tw := mul_nonneg (by linarith) htw.le
    have x3 : 0 ≤ (4 - π) * r ^ 2 := mul_nonneg (by linarith) (by positivity)
    linarith
  have hI1 : 0 < (iProps B H tf tw r).I.1 := by
    simp only [iProps]
    have x1 : (H - 2 * tf) ^ 3 < H ^ 3 := pow_lt_pow_left₀ (by linarith) (by linarith) (by norm_num)
    have x2 : (0:ℝ) ≤ (H - 2 * tf) ^ 3 := pow_nonneg (by linarith) 3
    have x3 := mul_lt_mul_of_pos_left x1 hB
    have x4 := mul_nonneg htw.le x2
    have x5 : 0 ≤ 3 / 100 * r ^ 4 + 2146 / 10000 * r ^ 2 * (H - 2 * tf - 4468 / 10000 * r) ^ 2 := by positivity
    nlinarith
  have hI2 : 0 < (iProps B H tf tw r).I.2 := by
    simp only [iProps]
    have x1 : 0 < 2 * tf * B ^ 3 := by positivity
    have x2 : 0 ≤ (H - 2 * tf) * tw ^ 3 := mul_nonneg (by linarith) (by positivity)
    have x5 : 0 ≤ 3 / 100 * r ^ 4 + 2146 / 10000 * r ^ 2 * (tw + 4468 / 10000 * r) ^ 2 := by positivity
    nlinarith
  exact ⟨hA, hf, by norm_num [iProfile], hI1, hI2, hL, h1, h2, ⟨_, rfl⟩, ⟨_, rfl⟩⟩

theorem Member.ncrit_pos {m : Member} (h : m.Good) (a : Axis) : 0 < m.ncrit a := by
  unfold Member.ncrit
  have := h.I a
  have := h.k a
  have := h.E
  have := h.L
  positivity

theorem NbRd_eq (m : Member) (a : Axis) : m.NbRd a = bucklingStrength m.P.sec.A m.P.fy (bucklingReduction (Ec3.slenderness m.P.sec.A m.P.fy (m.ncrit a)) (a.of m.P.imp)) := by
  simp only [Member.NbRd, bucklingStrength, bucklingReduction, buckPhi, Ec3.slenderness, Member.slend, gammaM1]
  ring

/-- **C39.** For every member with positive section data: the flexural buckling resistance about each axis is positive, at most `A fy`, at most the Euler load `π² E I/(k L)²` of that axis, and does not increase when the
    length or the buckling-length factors grow. The torsional buckling resistance is positive, at most `A fy` and at most the torsional critical load `(G It + π² E Iw/L²)/(iy² + iz²)`, and does not increase with length. -/
theorem C39 {m : Member} (h : m.Good) (a : Axis) :
    0 < m.NbRd a ∧ m.NbRd a ≤ m.P.sec.A * m.P.fy ∧ m.NbRd a * (m.length * a.of m.lcr) ^ 2 ≤ π ^ 2 * m.P.E * a.of m.P.sec.I ∧
    (∀ L' k', m.length ≤ L' → m.lcr.1 ≤ k'.1 → m.lcr.2 ≤ k'.2 → Member.NbRd { m with length := L', lcr := k' } a ≤ m.NbRd a) ∧
    (0 ≤ m.P.It → 0 ≤ m.P.Iw → 0 ≤ m.P.G → 0 < m.P.G * m.P.It + m.P.Iw →
      0 < m.NbTRd ∧ m.NbTRd ≤ m.P.sec.A * m.P.fy ∧
      m.NbTRd * ((m.P.sec.I.1 + m.P.sec.I.2) / m.P.sec.A) ≤ m.P.G * m.P.It + π ^ 2 * m.P.E * m.P.Iw / m.length ^ 2 ∧
      ∀ L', m.length ≤ L' → Member.NbTRd { m with length := L' } ≤ m.NbTRd) := by
  have hn := Member.ncrit_pos h a
  obtain ⟨k, hk⟩ := h.imp a
  obtain ⟨b1, b2, b3, b4⟩ := C62_buckling h.A h.fy hn k
  have hI := h.I a
  have hkk := h.k a
  have hE := h.E
  have hL := h.L
  have hA := h.A
  have h1 := h.I1
  have h2 := h.I2
  have hsq : 0 < (m.length * a.of m.lcr) ^ 2 := by positivity
  rw [NbRd_eq, hk]
  refine ⟨b1, b2, ?_, ?_, ?_⟩
  · have := mul_le_mul_of_nonneg_right b3 hsq.le
    refine this.trans (le_of_eq ?_)
    unfold Member.ncrit
    exact div_mul_cancel₀ _ hsq.ne'
  · intro L' k' hl hk1 hk2
    rw [NbRd_eq]
    have hk' : a.of m.lcr ≤ a.of k' := by cases a <;> assumption
    have hle : Member.ncrit { m with length := L', lcr := k' } a ≤ m.ncrit a := by
      unfold Member.ncrit
      apply div_le_div_of_nonneg_left (by positivity) hsq
      apply pow_le_pow_left₀ (by positivity)
      exact mul_le_mul hl hk' hkk.le (by linarith)
    have hp : 0 < Member.ncrit { m with length := L', lcr := k' } a := by
      unfold Member.ncrit
      have x1 : 0 < L' := by linarith
      have x2 : 0 < a.of k' := by linarith
      show 0 < π ^ 2 * m.P.E * a.of m.P.sec.I / (L' * a.of k') ^ 2
      positivity
    have := (C62_buckling h.A h.fy hp k).2.2.2 _ hle
    show bucklingStrength m.P.sec.A m.P.fy (bucklingReduction (Ec3.slenderness m.P.sec.A m.P.fy _) (a.of m.P.imp)) ≤ _
    rw [hk]
    exact this
  · intro t1 t2 t3 t4
    obtain ⟨k2, hk2⟩ := h.imp2
    have e0 : m.P.i0sq = (m.P.sec.I.1 + m.P.sec.I.2) / m.P.sec.A := by
      unfold Profile.i0sq
      rw [Real.sq_sqrt (by positivity), Real.sq_sqrt (by positivity), Real.sq_sqrt (by positivity)]
      ring
    have e : ∀ L, Member.NbTRd { m with length := L } =
        bucklingStrength m.P.sec.A m.P.fy (bucklingReduction (Ec3.slenderness m.P.sec.A m.P.fy (Member.ncritT { m with length := L })) k2.imp) := by
      intro L
      simp only [Member.NbTRd, bucklingStrength, bucklingReduction, buckPhi, Ec3.slenderness, gammaM1, hk2]
      ring
    have i0 : 0 < m.P.i0sq := by rw [e0]; positivity
    have num : ∀ L, 0 < L → 0 < m.P.G * m.P.It + π ^ 2 * m.P.E * m.P.Iw / L ^ 2 := by
      intro L hL
      have x1 := mul_nonneg t3 t1
      rcases t2.eq_or_lt with q | q
      · rw [← q] at t4 ⊢
        simpa using t4
      · have : 0 < π ^ 2 * m.P.E * m.P.Iw / L ^ 2 := by positivity
        linarith
    have pos : ∀ L, 0 < L → 0 < Member.ncritT { m with length := L } := by
      intro L hL
      unfold Member.ncritT
      exact mul_pos (by positivity) (num L hL)
    obtain ⟨c1, c2, c3, c4⟩ := C62_buckling h.A h.fy (pos _ hL) k2
    have e' := e m.length
    refine ⟨?_, ?_, ?_, ?_⟩
    · show 0 < Member.NbTRd { m with length := m.length }
      rw [e']; exact c1
    · show Member.NbTRd { m with length := m.length } ≤ _
      rw [e']; exact c2
    · show Member.NbTRd { m with length := m.length } * _ ≤ _
      rw [e', ← e0]
      refine (mul_le_mul_of_nonneg_right c3 i0.le).trans (le_of_eq ?_)
      show 1 / m.P.i0sq * _ * m.P.i0sq = _
      field_simp
    · intro L' hl
      show Member.NbTRd _ ≤ Member.NbTRd { m with length := m.length }
      rw [e', e L']
      refine (C62_buckling h.A h.fy (pos L' (by linarith)) k2).2.2.2 _ ?_
      unfold Member.ncritT
      apply mul_le_mul_of_nonneg_left _ (by positivity)
      show m.P.G * m.P.It + π ^ 2 * m.P.E * m.P.Iw / L' ^ 2 ≤ m.P.G * m.P.It + π ^ 2 * m.P.E * m.P.Iw / m.length ^ 2
      have : π ^ 2 * m.P.E * m.P.Iw / L' ^ 2 ≤ π ^ 2 * m.P.E * m.P.Iw / m.length ^ 2 :=
        div_le_div_of_nonneg_left (by positivity) (by positivity) (pow_le_pow_left₀ hL.le hl 2)
      linarith

/-- A 4 m column of hollow section 100 by 100 by 5 in S355 loses resistance when it gets 5 m long. -/
example : Member.NbRd ⟨rhsProfile 100 100 5 355, 5000, (1, 1), false, 0.9, []⟩ .z ≤ Member.NbRd ⟨rhsProfile 100 100 5 355, 4000, (1, 1), false, 0.9, []⟩ .z :=
  (C39 (m := ⟨rhsProfile 100 100 5 355, 4000, (1, 1), false, 0.9, []⟩)
    (rhs_good (by norm_num) (by norm_num [rhsOuterRadius]) (by norm_num [rhsOuterRadius]) (by norm_num) (by norm_num) (by norm_num) (by norm_num) _ _ _) .z).2.2.2.1 5000 (1, 1)
    (by norm_num) le_rfl le_rfl

/-- **C39, value.** With the slenderness `l`, `l² = A fy (k L)²/(π² E I)`: the ratio `x = NbRd/(A fy)` is 1 up to `l = 0.2`, and beyond it is the root of the Ayrton-Perry equation of EN 1993-1-1 6.3.1.2 with the imperfection factor of the
    axis; for rolled sections these are the factors of Table 6.2. -/
theorem C39_value {m : Member} (h : m.Good) (a : Axis) {l : ℝ} (hl : 0 ≤ l) (hl2 : l ^ 2 * (π ^ 2 * m.P.E * a.of m.P.sec.I) = m.P.sec.A * m.P.fy * (m.length * a.of m.lcr) ^ 2) :
    (l ≤ 0.2 → m.NbRd a = m.P.sec.A * m.P.fy) ∧
    (0.2 ≤ l → ∃ x, m.NbRd a = x * (m.P.sec.A * m.P.fy) ∧ 0 < x ∧ x ≤ 1 ∧ x * l ^ 2 ≤ 1 ∧ (1 - x) * (1 - x * l ^ 2) = a.of m.P.imp * (l - 0.2) * x) := by
  obtain ⟨k, hk⟩ := h.imp a
  have hI := h.I a
  have hkk := h.k a
  have hE := h.E
  have hL := h.L
  have hs : Ec3.slenderness m.P.sec.A m.P.fy (m.ncrit a) = l := by
    unfold Ec3.slenderness Member.ncrit
    have : m.P.sec.A * m.P.fy / (π ^ 2 * m.P.E * a.of m.P.sec.I / (m.length * a.of m.lcr) ^ 2) = l ^ 2 := by
      have hp := pi_pos
      rw [div_div_eq_mul_div, ← hl2]
      field_simp
    rw [this, Real.sqrt_sq hl]
  obtain ⟨a0, a3⟩ := C32_curves k
  have e : m.NbRd a = bucklingReduction l k.imp * (m.P.sec.A * m.P.fy) := by
    rw [NbRd_eq, hs, hk]
    simp only [bucklingStrength, gammaM1]
    ring
  have d : (0.2 : ℝ) = 2 / 10 := by norm_num
  rw [d]
  constructor
  · intro h2
    rw [e, (C32 hl a0 a3).2.2.1 h2, one_mul]
  · intro h2
    refine ⟨_, e, ?_⟩
    rw [hk, ← d]
    cases k
    · have := (C32_value h2 (.a0, 0.13) (by simp) _).1 rfl
      rw [show (Curve.a0).imp = 0.13 by norm_num [Curve.imp]] at this ⊢
      exact this
    · have := (C32_value h2 (.a, 0.21) (by simp) _).1 rfl
      rw [show (Curve.a).imp = 0.21 by norm_num [Curve.imp]] at this ⊢
      exact this
    · have := (C32_value h2 (.b, 0.34) (by simp) _).1 rfl
      rw [show (Curve.b).imp = 0.34 by norm_num [Curve.imp]] at this ⊢
      exact this
    · have := (C32_value h2 (.c, 0.49) (by simp) _).1 rfl
      rw [show (Curve.c).imp = 0.49 by norm_num [Curve.imp]] at this ⊢
      exact this
    · have := (C32_value h2 (.d, 0.76) (by simp) _).1 rfl
      rw [show (Curve.d).imp = 0.76 by norm_num [Curve.imp]] at this ⊢
      exact this

/-- Table 6.2 of EN 1993-1-1 for rolled I-sections, as imperfection factors (y, z): columns S235-S420 and above. -/
def Table62 (H B tf fy : ℝ) (p : ℝ × ℝ) : Prop :=
  (H / B > 1.2 → tf ≤ 40 → fy ≤ 420 → p = (0.21, 0.34)) ∧ (H / B > 1.2 → tf ≤ 40 → 420 < fy → p = (0.13, 0.13)) ∧
  (H / B > 1.2 → 40 < tf → fy ≤ 420 → p = (0.34, 0.49)) ∧ (H / B > 1.2 → 40 < tf → 420 < fy → p = (0.21, 0.21)) ∧
  (H / B ≤ 1.2 → tf ≤ 100 → fy ≤ 420 → p = (0.34, 0.49)) ∧ (H / B ≤ 1.2 → tf ≤ 100 → 420 < fy → p = (0.21, 0.21)) ∧
  (H / B ≤ 1.2 → 100 < tf → fy ≤ 420 → p = (0.76, 0.76)) ∧ (H / B ≤ 1.2 → 100 < tf → 420 < fy → p = (0.49, 0.49))

/-- **C39, curves.** Rolled I-sections get the imperfection factors of Table 6.2, hollow sections curve c about both axes. -/
theorem C39_curves (H B tf tw r fy T : ℝ) : Table62 H B tf fy (iProfile H B tf tw r fy).imp ∧ (rhsProfile H B T fy).imp = (0.49, 0.49) := by
  have d : (1.2 : ℝ) = 12 / 10 := by norm_num
  constructor
  · show Table62 H B tf fy ((iCurves H B tf fy).1.imp, (iCurves H B tf fy).2.imp)
    rw [iCurves]
    refine ⟨?_, ?_, ?_, ?_, ?_, ?_, ?_, ?_⟩ <;> intro h1 h2 h3 <;> rw [d] at h1 <;> split_ifs <;> first | (exfalso; linarith) | norm_num [Curve.imp]
  · show (Curve.c.imp, Curve.c.imp) = _
    norm_num [Curve.imp]

/-! ### C69 -/

/-- Denominator of the reduction factor for lateral-torsional buckling. -/
noncomputable def ltDen (a b l0 l : ℝ) : ℝ :=
  1 / 2 * (1 + a * (l - l0) + b * l ^ 2) + √((1 / 2 * (1 + a * (l - l0) + b * l ^ 2)) ^ 2 - b * l ^ 2)

theorem ltDen_root {a b l0 l : ℝ} (ha : 0 ≤ a) (hb : 0 ≤ b) (hl : l0 ≤ l) :
    ltDen a b l0 l ^ 2 - (1 + a * (l - l0) + b * l ^ 2) * ltDen a b l0 l + b * l ^ 2 = 0 ∧ 1 ≤ ltDen a b l0 l ∧ b * l ^ 2 ≤ ltDen a b l0 l := by
  have h1 : 0 ≤ a * (l - l0) := mul_nonneg ha (by linarith)
  have h2 : 0 ≤ b * l ^ 2 := by positivity
  refine ⟨?_, ?_, ?_⟩
  · have := root_eq (p := 1 / 2 * (1 + a * (l - l0) + b * l ^ 2)) (q := b * l ^ 2) (by nlinarith [sq_nonneg (1 - b * l ^ 2)])
    unfold ltDen
    linarith
  · apply le_root
    nlinarith
  · apply le_root
    nlinarith

theorem ltDen_mono {a b l0 l l' : ℝ} (ha : 0 ≤ a) (hb : 0 ≤ b) (hl0 : 0 ≤ l0) (hl : l0 ≤ l) (hll : l ≤ l') : ltDen a b l0 l ≤ ltDen a b l0 l' := by
  obtain ⟨r, r1, _⟩ := ltDen_root ha hb hl
  apply le_root
  generalize ltDen a b l0 l = D at *
  have e1 : 0 ≤ a * (l' - l) * D := mul_nonneg (mul_nonneg ha (by linarith)) (by linarith)
  have e2 : 0 ≤ b * (l' ^ 2 - l ^ 2) * (D - 1) := mul_nonneg (mul_nonneg hb (by nlinarith)) (by linarith)
  nlinarith

/-- **C69, constants.** Rolled I-sections get the imperfection factors of Tables 6.4 (general method) and 6.5 (specific method), hollow sections curve c; the warping constant of an I-section is the integral of the square of the
    sectorial coordinate `y (H - tf)/2` over both flanges. -/
theorem C69_constants (H B tf tw r fy T : ℝ) :
    (H / B ≤ 2 → (iProfile H B tf tw r fy).impLTgen = 0.21 ∧ (iProfile H B tf tw r fy).impLT = 0.34) ∧
    (2 < H / B → (iProfile H B tf tw r fy).impLTgen = 0.34 ∧ (iProfile H B tf tw r fy).impLT = 0.49) ∧
    (rhsProfile H B T fy).impLTgen = 0.49 ∧ (rhsProfile H B T fy).impLT = 0.49 ∧
    (iProfile H B tf tw r fy).Iw = 2 * ∫ y in (-(B / 2))..(B / 2), (y * ((H - tf) / 2)) ^ 2 * tf := by
  refine ⟨fun h => ?_, fun h => ?_, ?_, ?_, ?_⟩
  · simp only [iProfile, if_pos h, Curve.imp]
    norm_num
  · simp only [iProfile, if_neg (not_le.2 h), Curve.imp]
    norm_num
  · simp only [rhsProfile, Curve.imp]
    norm_num
  · simp only [rhsProfile, Curve.imp]
    norm_num
  · have e : (fun y : ℝ => (y * ((H - tf) / 2)) ^ 2 * tf) = fun y => ((H - tf) / 2) ^ 2 * tf * y ^ 2 := by
      funext y
      ring
    rw [e, intervalIntegral.integral_const_mul, integral_pow]
    simp only [iProfile, iWarping]
    push_cast
    ring

/-- **C69, resistance.** For the general (`λ0 = 0.2`, `β = 1`) and the specific method (`λ0 = 0.4`, `β = 0.75`), every bending resistance, critical moment and design moment: the resistance is positive and at most the bending resistance; it is the bending
    resistance itself if `λ ≤ λ0` or `MEd ≤ λ0² Mcr`; otherwise it is `χ MRd` with the root `x` of `(1 - x)(1 - β λ² x) = α (λ - λ0) x`, capped by 1 and for the specific method by `1/λ²`; a moment within
    the resistance is at most the critical moment; and a larger critical moment never lowers the resistance. -/
theorem C69 {P : Profile} {MRd Mcr MEd : ℝ} (hR : 0 < MRd) (hc : 0 < Mcr) (hE : 0 ≤ MEd) (general : Bool) {alpha l0 beta l : ℝ}
    (h0 : general = true → l0 = 0.2 ∧ beta = 1 ∧ alpha = P.impLTgen) (h1 : general = false → l0 = 0.4 ∧ beta = 0.75 ∧ alpha = P.impLT) (ha : 0 ≤ alpha) (hl : 0 ≤ l) (hl2 : l ^ 2 * Mcr = MRd) :
    0 < LTStrength P MRd Mcr MEd general ∧ LTStrength P MRd Mcr MEd general ≤ MRd ∧
    (l ≤ l0 ∨ MEd ≤ l0 ^ 2 * Mcr → LTStrength P MRd Mcr MEd general = MRd) ∧
    (l0 < l → l0 ^ 2 * Mcr < MEd → ∃ x, 0 < x ∧ x ≤ 1 ∧ beta * l ^ 2 * x ≤ 1 ∧ (1 - x) * (1 - beta * l ^ 2 * x) = alpha * (l - l0) * x ∧
      LTStrength P MRd Mcr MEd general = (if general then x else min x (1 / l ^ 2)) * MRd) ∧
    (MEd ≤ LTStrength P MRd Mcr MEd general → MEd ≤ Mcr) ∧
    ∀ Mcr', Mcr ≤ Mcr' → LTStrength P MRd Mcr MEd general ≤ LTStrength P MRd Mcr' MEd general := by
  -- common form of both methods
  obtain ⟨cmax, hcm⟩ : ∃ cmax : ℝ → ℝ, cmax = fun l => if general then 1 else min 1 (1 / l ^ 2) := ⟨_, rfl⟩
  have form : ∀ Mcr, LTStrength P MRd Mcr MEd general =
      (if √(MRd / Mcr) ≤ l0 ∨ MEd / Mcr ≤ l0 ^ 2 then 1 else min (1 / ltDen alpha beta l0 (√(MRd / Mcr))) (cmax √(MRd / Mcr))) * MRd := by
    intro Mcr
    cases general
    · obtain ⟨rfl, rfl, rfl⟩ := h1 rfl
      simp only [LTStrength, ltDen, hcm, Bool.false_eq_true, if_false]
      norm_num
    · obtain ⟨rfl, rfl, rfl⟩ := h0 rfl
      simp only [LTStrength, ltDen, hcm, if_true]
      norm_num
  have hl0 : 0 < l0 := by
    cases general
    · rw [(h1 rfl).1]; norm_num
    · rw [(h0 rfl).1]; norm_num
  have hl01 : l0 < 1 := by
    cases general
    · rw [(h1 rfl).1]; norm_num
    · rw [(h0 rfl).1]; norm_num
  have hbeta : 0 ≤ beta := by
    cases general
    · rw [(h1 rfl).2.1]; norm_num
    · rw [(h0 rfl).2.1]; norm_num
  have hlam : √(MRd / Mcr) = l := by
    rw [← hl2, mul_div_assoc, div_self hc.ne', mul_one, Real.sqrt_sq hl]
  have cm1 : ∀ l, cmax l ≤ 1 := by
    intro l
    rw [hcm]
    cases general
    · exact min_le_left _ _
    · exact le_rfl
  have cm0 : ∀ l, 0 < l → 0 < cmax l := by
    intro l hl
    rw [hcm]
    cases general
    · exact lt_min one_pos (by positivity)
    · exact one_pos
  have cmono : ∀ l l', 0 < l → l ≤ l' → cmax l' ≤ cmax l := by
    intro l l' hl hll
    rw [hcm]
    cases general
    · exact min_le_min_left _ (one_div_le_one_div_of_le (by positivity) (pow_le_pow_left₀ hl.le hll 2))
    · exact le_rfl
  have f0 := form Mcr
  rw [hlam] at f0
  -- the factor
  have chi1 : ∀ l Mcr, (if l ≤ l0 ∨ MEd / Mcr ≤ l0 ^ 2 then (1:ℝ) else min (1 / ltDen alpha beta l0 l) (cmax l)) ≤ 1 := by
    intro l Mcr
    split_ifs
    · exact le_rfl
    · exact (min_le_right _ _).trans (cm1 l)
  have iffM : ∀ Mcr, 0 < Mcr → (MEd / Mcr ≤ l0 ^ 2 ↔ MEd ≤ l0 ^ 2 * Mcr) := fun Mcr h => div_le_iff₀ h
  refine ⟨?_, ?_, ?_, ?_, ?_, ?_⟩
  · rw [f0]
    apply mul_pos _ hR
    split_ifs with h
    · exact one_pos
    · push Not at h
      have hll : 0 < l := by linarith [h.1]
      exact lt_min (one_div_pos.2 (by linarith [(ltDen_root ha hbeta h.1.le).2.1])) (cm0 l hll)
  · rw [f0]
    exact mul_le_of_le_one_left hR.le (chi1 l Mcr)
  · intro h
    rw [f0, if_pos (by rwa [iffM _ hc]), one_mul]
  · intro g1 g2
    have hl' : 0 < l := by linarith
    obtain ⟨r, r1, r2⟩ := ltDen_root ha hbeta g1.le
    have D0 : 0 < ltDen alpha beta l0 l := by linarith
    refine ⟨1 / ltDen alpha beta l0 l, one_div_pos.2 D0, (div_le_one D0).2 r1, ?_, ?_, ?_⟩
    · rw [mul_one_div, div_le_one D0]; exact r2
    · generalize ltDen alpha beta l0 l = D at *
      field_simp
      linarith
    · rw [f0, if_neg (by rw [iffM _ hc]; push Not; exact ⟨g1, g2⟩)]
      congr 1
      have hx1 : 1 / ltDen alpha beta l0 l ≤ 1 := (div_le_one D0).2 r1
      rw [hcm]
      cases general
      · show min _ (min 1 (1 / l ^ 2)) = _
        rw [← min_assoc, min_eq_left hx1]
        rfl
      · exact min_eq_left hx1
  · intro h
    rw [f0] at h
    split_ifs at h with g
    · rcases g with g | g
      · have : l ^ 2 ≤ 1 := by nlinarith
        nlinarith
      · rw [iffM _ hc] at g
        have : l0 ^ 2 ≤ 1 := by nlinarith
        nlinarith
    · push Not at g
      have hl' : 0 < l := by linarith [g.1]
      have key : min (1 / ltDen alpha beta l0 l) (cmax l) * l ^ 2 ≤ 1 := by
        cases hg : general
        · have : cmax l ≤ 1 / l ^ 2 := by
            rw [hcm, hg]
            exact min_le_right _ _
          refine (mul_le_mul_of_nonneg_right ((min_le_right _ _).trans this) (by positivity)).trans ?_
          rw [div_mul_cancel₀ _ (by positivity)]
        · obtain ⟨r, r1, r2⟩ := ltDen_root ha hbeta g.1.le
          have D0 : 0 < ltDen alpha beta l0 l := by linarith
          rw [(h0 hg).2.1] at r2 D0
          refine (mul_le_mul_of_nonneg_right (min_le_left _ _) (by positivity)).trans ?_
          rw [(h0 hg).2.1, div_mul_eq_mul_div, div_le_one D0]
          linarith
      have := mul_le_mul_of_nonneg_right key hc.le
      nlinarith
  · intro Mcr' hle
    have hc' : 0 < Mcr' := by linarith
    have f1 := form Mcr'
    have hlm : √(MRd / Mcr') ≤ l := by
      rw [← hlam]
      exact Real.sqrt_le_sqrt (div_le_div_of_nonneg_left hR.le hc hle)
    rw [f0, f1]
    apply mul_le_mul_of_nonneg_right _ hR.le
    by_cases g : √(MRd / Mcr') ≤ l0 ∨ MEd / Mcr' ≤ l0 ^ 2
    · rw [if_pos g]
      exact chi1 l Mcr
    · have g' := g
      push Not at g'
      have g2 : ¬ (l ≤ l0 ∨ MEd / Mcr ≤ l0 ^ 2) := by
        push Not
        refine ⟨by linarith [g'.1], g'.2.trans_le ?_⟩
        exact div_le_div_of_nonneg_left hE hc hle
      rw [if_neg g, if_neg g2]
      have l1 : 0 < √(MRd / Mcr') := by linarith [g'.1]
      apply min_le_min
      · apply one_div_le_one_div_of_le
        · linarith [(ltDen_root ha hbeta g'.1.le).2.1]
        · exact ltDen_mono ha hbeta hl0.le g'.1.le hlm
      · exact cmono _ _ l1 hlm

/-- **C69, critical moment.** For a doubly symmetric profile loaded in the shear centre, the square of the critical moment is `C1²` times the Euler load about the weak axis times `G It + π² E Iw/(kw L)²`; it is positive, does not
    increase with the length, and (`C2 ≥ 0`) does not increase when the load acts higher above the shear centre. -/
theorem C69_mcrit {m : Member} (hI : 0 < m.P.sec.I.2) (hL : 0 < m.length) (ht : 0 < m.P.It) (hw : 0 ≤ m.P.Iw) {C1 C2 kz kw : ℝ} (h1 : 0 < C1) (h2 : 0 ≤ C2) (hkz : 0 < kz) (hkw : 0 < kw) :
    m.mcrit C1 C2 kz kw 0 ^ 2 = C1 ^ 2 * (π ^ 2 * 210000 * m.P.sec.I.2 / (kz * m.length) ^ 2) * (81000 * m.P.It + π ^ 2 * 210000 * m.P.Iw / (kw * m.length) ^ 2) ∧
    (∀ za, 0 < m.mcrit C1 C2 kz kw za) ∧ (∀ za za', za ≤ za' → m.mcrit C1 C2 kz kw za' ≤ m.mcrit C1 C2 kz kw za) ∧
    ∀ L', m.length ≤ L' → Member.mcrit { m with length := L' } C1 C2 kz kw 0 ≤ m.mcrit C1 C2 kz kw 0 := by
  have hp := pi_pos
  have sq : ∀ L, 0 < L → Member.mcrit { m with length := L } C1 C2 kz kw 0 ^ 2 =
      C1 ^ 2 * (π ^ 2 * 210000 * m.P.sec.I.2 / (kz * L) ^ 2) * (81000 * m.P.It + π ^ 2 * 210000 * m.P.Iw / (kw * L) ^ 2) := by
    intro L hL
    simp only [Member.mcrit, mul_zero, sub_zero]
    rw [mul_pow, Real.sq_sqrt (by positivity)]
    field_simp
    ring
  have X0 : 0 < (kz / kw) ^ 2 * m.P.Iw / m.P.sec.I.2 + (kz * m.length) ^ 2 * 81000 * m.P.It / (π ^ 2 * 210000 * m.P.sec.I.2) := by positivity
  have nonneg0 : ∀ L, 0 < L → 0 ≤ Member.mcrit { m with length := L } C1 C2 kz kw 0 := by
    intro L hL
    simp only [Member.mcrit, mul_zero, sub_zero]
    positivity
  refine ⟨sq m.length hL, ?_, ?_, ?_⟩
  · intro za
    simp only [Member.mcrit]
    refine mul_pos (by positivity) (sub_pos.2 ?_)
    apply Real.lt_sqrt_of_sq_lt
    linarith
  · intro za za' hz
    simp only [Member.mcrit]
    refine mul_le_mul_of_nonneg_left ?_ (by positivity)
    have hcc : C2 * za ≤ C2 * za' := mul_le_mul_of_nonneg_left hz h2
    generalize (kz / kw) ^ 2 * m.P.Iw / m.P.sec.I.2 + (kz * m.length) ^ 2 * 81000 * m.P.It / (π ^ 2 * 210000 * m.P.sec.I.2) = X at *
    generalize C2 * za = c at *
    generalize C2 * za' = d at *
    have hs := Real.sqrt_nonneg (X + c ^ 2)
    have hs2 := Real.sq_sqrt (show 0 ≤ X + c ^ 2 by positivity)
    have hcs : -c ≤ √(X + c ^ 2) := by
      have := Real.abs_le_sqrt (show c ^ 2 ≤ X + c ^ 2 by linarith)
      exact (neg_le_abs c).trans this
    have hcs' : c ≤ √(X + c ^ 2) := (le_abs_self c).trans (Real.abs_le_sqrt (show c ^ 2 ≤ X + c ^ 2 by linarith))
    have : √(X + d ^ 2) ≤ √(X + c ^ 2) + (d - c) := by
      rw [Real.sqrt_le_left (by linarith)]
      nlinarith
    linarith
  · intro L' hl
    have hL' : 0 < L' := by linarith
    rw [← pow_le_pow_iff_left₀ (nonneg0 L' hL') (nonneg0 m.length hL) two_ne_zero, sq L' hL', sq m.length hL]
    have e1 : (kz * m.length) ^ 2 ≤ (kz * L') ^ 2 := pow_le_pow_left₀ (by positivity) (mul_le_mul_of_nonneg_left hl hkz.le) 2
    have e2 : (kw * m.length) ^ 2 ≤ (kw * L') ^ 2 := pow_le_pow_left₀ (by positivity) (mul_le_mul_of_nonneg_left hl hkw.le) 2
    have e3 := div_le_div_of_nonneg_left (show 0 ≤ π ^ 2 * 210000 * m.P.sec.I.2 by positivity) (by positivity) e1
    have e4 := div_le_div_of_nonneg_left (show 0 ≤ π ^ 2 * 210000 * m.P.Iw by positivity) (by positivity) e2
    exact mul_le_mul (mul_le_mul_of_nonneg_left e3 (by positivity)) (by linarith) (by positivity) (by positivity)

/-- S355 beam with bending resistance 200 kNm and critical moment 100 kNm (slenderness `√2`): the resistance stays below the critical moment for a design moment above 16 kNm. -/
example (P : Profile) (h : P.impLT = 0.34) {MEd : ℝ} (h1 : 0 ≤ MEd) (h2 : MEd ≤ LTStrength P 200000000 100000000 MEd false) : MEd ≤ 100000000 :=
  (C69 (P := P) (MRd := 200000000) (Mcr := 100000000) (MEd := MEd) (alpha := 0.34) (l0 := 0.4) (beta := 0.75) (l := √2) (by norm_num) (by norm_num) h1 false (by simp)
    (fun _ => ⟨rfl, rfl, h.symm⟩) (by norm_num) (Real.sqrt_nonneg _) (by norm_num)).2.2.2.2.1 h2

/-- Rolled section 300 by 150 with flanges of 10 mm and a web of 8 mm, without fillets: the critical moment falls from 5 m to 6 m. -/
example : Member.mcrit ⟨iProfile 300 150 10 8 0 235, 6000, (1, 1), true, 0.9, []⟩ 1.12 0.45 1 1 0 ≤ Member.mcrit ⟨iProfile 300 150 10 8 0 235, 5000, (1, 1), true, 0.9, []⟩ 1.12 0.45 1 1 0 := by
  refine (C69_mcrit (m := ⟨iProfile 300 150 10 8 0 235, 5000, (1, 1), true, 0.9, []⟩) ?_ (by norm_num) ?_ ?_ (by norm_num) (by norm_num) (by norm_num) (by norm_num)).2.2.2 6000 (by norm_num)
  · show 0 < (iProps 150 300 10 8 0).I.2
    norm_num [iProps]
  · show 0 < iTorsion 150 300 10 8 0
    norm_num [iTorsion]
  · show 0 ≤ iWarping 150 300 10
    norm_num [iWarping]

end Metku.Steel
