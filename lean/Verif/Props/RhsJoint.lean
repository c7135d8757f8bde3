import Mathlib.Tactic.Linarith
import Mathlib.Tactic.FieldSimp
import Mathlib.Tactic.LinearCombination
import Mathlib.Tactic.NormNum
import Mathlib.Tactic.Positivity
import Verif.Model.RhsJoint
import Verif.Spec.RhsJoint

/-!
Properties of the joints between hollow sections.
-/
namespace Metku.Rhs

open Real Steel Ec3

/-- Joint with another chord force. -/
noncomputable def KGap.withN0 (j : KGap) (N : ℝ) : KGap := { j with toJoint := { j.toJoint with N0 := N } }

/-- Joint with another angle of one brace. -/
noncomputable def KGap.withAngle (j : KGap) (i : Fin 2) (a : ℝ) : KGap := { j with angles := Function.update j.angles i a }

theorem sin_rad_pos {a : ℝ} (h0 : 0 < a) (h1 : a < 180) : 0 < sin (rad a) := by
  apply sin_pos_of_pos_of_lt_pi
  · unfold rad; positivity
  · unfold rad
    have := pi_pos
    rw [div_lt_iff₀ (by norm_num)]
    nlinarith

theorem sin_rad_mono {a b : ℝ} (h0 : 0 < a) (h : a ≤ b) (h1 : b ≤ 90) : sin (rad a) ≤ sin (rad b) := by
  have hp := pi_pos
  apply sin_le_sin_of_le_of_le_pi_div_two
  · unfold rad
    have : 0 < a * π / 180 := by positivity
    linarith
  · unfold rad
    rw [div_le_div_iff₀ (by norm_num) (by norm_num)]
    nlinarith
  · unfold rad
    gcongr

theorem rad_90 : rad 90 = π / 2 := by unfold rad; ring

theorem evalKN_eq (j : Joint) (b : ℝ) : j.evalKN b = RhsSpec.kn (j.chordStress / j.chord.P.fy) b := by
  unfold Joint.evalKN RhsSpec.kn Joint.evalN gammaM5
  simp only [div_one]
  by_cases h : 0 < j.chordStress / j.chord.P.fy
  · rw [if_pos h, if_neg (not_le.2 h), min_comm]
    congr 1
    ring
  · rw [if_neg h, if_pos (not_lt.1 h)]

theorem reduction_eq (j : Joint) (h : j.r = 0) : j.reduction = RhsSpec.steelFactor j.chord.P.fy := by
  unfold Joint.reduction RhsSpec.steelFactor
  rw [if_pos h]
  split_ifs <;> first | rfl | (exfalso; linarith)

theorem reduction_pos (j : Joint) (h : 0 ≤ j.r) : 0 < j.reduction := by
  unfold Joint.reduction
  split_ifs with h1
  · norm_num
  · norm_num
  · norm_num
  · exact lt_of_le_of_ne h (Ne.symm h1)

/-- C79, values: the resistances of a K gap joint against chord face failure, brace failure and punching shear are those of Table 7.12, with the chord stress factor and the reduction for high strength steel. -/
theorem C79_value (j : KGap) (i : Fin 2) (hr : j.r = 0) (htp : j.tp = 0) (hb : 0 ≤ j.b i) :
    let fy0 := j.chord.P.fy
    let n := (-j.N0 / j.chord.P.sec.A + j.M0 / j.chord.P.sec.Wel.1) / fy0
    let s := j.b 0 + j.b 1 + j.h 0 + j.h 1
    let θ := j.angles i * π / 180
    let f := RhsSpec.steelFactor fy0
    j.chordFace i = f * RhsSpec.kFace (RhsSpec.kn n (s / (4 * j.chord.B))) fy0 j.chord.T j.chord.B s θ ∧
    j.braceFailure i = f * RhsSpec.kBrace (j.fy i) (j.t i) (j.h i) (j.b i) (RhsSpec.effective j.chord.B j.chord.T fy0 (j.fy i) (j.t i) (j.b i)) ∧
    j.punching i = f * RhsSpec.kPunching fy0 j.chord.T (j.h i) (j.b i) (RhsSpec.effectivePunching j.chord.B j.chord.T (j.b i)) θ := by
  have hs : j.beta = (j.b 0 + j.b 1 + j.h 0 + j.h 1) / (4 * j.chord.B) := by unfold KGap.beta; ring
  refine ⟨?_, ?_, ?_⟩
  · unfold KGap.chordFace KGap.face RhsSpec.kFace
    rw [if_pos htp, evalKN_eq, reduction_eq j.toJoint hr, hs]
    have hg : j.gamma = j.chord.B / (2 * j.chord.T) := by unfold Joint.gamma; ring
    rw [hg]
    simp only [gammaM5, Joint.chordStress, rad]
    ring
  · unfold KGap.braceFailure KGap.face RhsSpec.kBrace RhsSpec.effective
    rw [if_pos htp, reduction_eq j.toJoint hr]
    simp only [gammaM5]
    rw [min_mul_of_nonneg _ _ hb, min_comm, one_mul]
    have : 10 / (j.chord.B / j.chord.T) * j.chord.P.fy * j.chord.T / (j.fy i * j.t i) * j.b i = 10 * j.chord.T / j.chord.B * (j.chord.P.fy * j.chord.T / (j.fy i * j.t i)) * j.b i := by
      rw [div_div_eq_mul_div]; ring
    rw [this]
    ring
  · unfold KGap.punching KGap.face RhsSpec.kPunching RhsSpec.effectivePunching
    rw [if_pos htp, reduction_eq j.toJoint hr]
    simp only [gammaM5, rad]
    rw [min_mul_of_nonneg _ _ hb, min_comm, one_mul, div_div_eq_mul_div]
    ring

theorem kn_le_one (j : Joint) (b : ℝ) : j.evalKN b ≤ 1 := by
  unfold Joint.evalKN
  split_ifs
  · exact min_le_right _ _
  · exact le_rfl

/-- A chord stressed at most to yield keeps a positive factor if the width ratio is at least 0.35. -/
theorem kn_pos (j : Joint) (b : ℝ) (hb : 35 / 100 ≤ b) (hn : j.evalN ≤ 1) : 0 < j.evalKN b := by
  unfold Joint.evalKN
  split_ifs with h
  · have : 4 / 10 * j.evalN / b ≤ 4 / 10 / (35 / 100) := by
      apply div_le_div₀ <;> linarith
    have h2 : (4 : ℝ) / 10 / (35 / 100) < 13 / 10 := by norm_num
    exact lt_min (by linarith) one_pos
  · exact one_pos

theorem kn_mono (j : Joint) (N b : ℝ) (hb : 0 < b) (hA : 0 < j.chord.P.sec.A) (hf : 0 < j.chord.P.fy) (h : j.N0 ≤ N) :
    j.evalKN b ≤ ({ j with N0 := N } : Joint).evalKN b := by
  have hn : ({ j with N0 := N } : Joint).evalN ≤ j.evalN := by
    simp only [Joint.evalN, Joint.chordStress, gammaM5, div_one]
    gcongr
  by_cases h1 : ({ j with N0 := N } : Joint).evalN > 0
  · have h0 : j.evalN > 0 := lt_of_lt_of_le h1 hn
    unfold Joint.evalKN
    rw [if_pos h0, if_pos h1]
    gcongr
  · have : ({ j with N0 := N } : Joint).evalKN b = 1 := by
      unfold Joint.evalKN
      rw [if_neg h1]
    rw [this]
    exact kn_le_one j b

/-- C79: within the range of validity (width ratio at least 0.35, chord face not beyond yield) all three resistances are positive; more compression in the chord never increases the resistance of the chord face, and a
chord force that leaves the face in tension has no influence; a steeper brace never has a larger resistance against chord face failure or punching. -/
theorem C79 (j : KGap) (i : Fin 2) (hr : 0 ≤ j.r) (htp : j.tp = 0) (hB : 0 < j.chord.B) (hT : 0 < j.chord.T)
    (hA : 0 < j.chord.P.sec.A) (hf : 0 < j.chord.P.fy) (hbr : ∀ k, 0 < j.b k ∧ 0 < j.h k ∧ 0 < j.t k ∧ 0 < j.fy k ∧ 4 * j.t k ≤ 2 * j.h k)
    (ha : 0 < j.angles i ∧ j.angles i < 180) :
    (35 / 100 ≤ j.beta → -j.N0 / j.chord.P.sec.A + j.M0 / j.chord.P.sec.Wel.1 ≤ j.chord.P.fy →
      0 < j.chordFace i ∧ 0 < j.braceFailure i ∧ 0 < j.punching i) ∧
    (∀ N, j.N0 ≤ N → j.chordFace i ≤ (j.withN0 N).chordFace i) ∧
    (∀ N N', -N / j.chord.P.sec.A + j.M0 / j.chord.P.sec.Wel.1 ≤ 0 → -N' / j.chord.P.sec.A + j.M0 / j.chord.P.sec.Wel.1 ≤ 0 →
      (j.withN0 N).chordFace i = (j.withN0 N').chordFace i) ∧
    (∀ a, 35 / 100 ≤ j.beta → -j.N0 / j.chord.P.sec.A + j.M0 / j.chord.P.sec.Wel.1 ≤ j.chord.P.fy →
      j.angles i ≤ a → a ≤ 90 → (j.withAngle i a).chordFace i ≤ j.chordFace i ∧ (j.withAngle i a).punching i ≤ j.punching i) := by
  have hs := sin_rad_pos ha.1 ha.2
  have hR := reduction_pos j.toJoint hr
  obtain ⟨b0, h0, t0, f0, g0⟩ := hbr 0
  obtain ⟨b1, h1, t1, f1, g1⟩ := hbr 1
  obtain ⟨bi, hi, ti, fi, gi⟩ := hbr i
  have hβ : 0 < j.beta := by unfold KGap.beta; positivity
  have hγ : 0 < j.gamma := by unfold Joint.gamma; positivity
  have hface : j.face = j.chord.T := by unfold KGap.face; rw [if_pos htp]
  have hn : -j.N0 / j.chord.P.sec.A + j.M0 / j.chord.P.sec.Wel.1 ≤ j.chord.P.fy → j.evalN ≤ 1 := by
    intro h
    unfold Joint.evalN Joint.chordStress gammaM5
    rw [div_one, div_le_one hf]
    exact h
  refine ⟨fun h35 hy => ?_, fun N h => ?_, fun N N' hN hN' => ?_, fun a h35 hy ha1 ha2 => ?_⟩
  · have hk := kn_pos j.toJoint j.beta h35 (hn hy)
    refine ⟨?_, ?_, ?_⟩
    · unfold KGap.chordFace
      simp only [gammaM5, hface]
      positivity
    · unfold KGap.braceFailure
      simp only [gammaM5, hface]
      have hbe : 0 < min (10 / (j.chord.B / j.chord.T) * j.chord.P.fy * j.chord.T / (j.fy i * j.t i)) 1 * j.b i := mul_pos (lt_min (by positivity) one_pos) bi
      have : 0 < 2 * j.h i - 4 * j.t i + j.b i + min (10 / (j.chord.B / j.chord.T) * j.chord.P.fy * j.chord.T / (j.fy i * j.t i)) 1 * j.b i := by linarith
      positivity
    · unfold KGap.punching
      simp only [gammaM5, hface]
      have hbe : 0 < min (10 / (j.chord.B / j.chord.T)) 1 := lt_min (by positivity) one_pos
      positivity
  · have hk := kn_mono j.toJoint N j.beta hβ hA hf h
    have e2 : (j.withN0 N).chordFace i = j.reduction * (89 / 10) * ({ j.toJoint with N0 := N } : Joint).evalKN j.beta * j.chord.P.fy * j.face ^ 2 * √j.gamma * j.beta / gammaM5 / sin (rad (j.angles i)) := rfl
    rw [e2]
    unfold KGap.chordFace
    simp only [gammaM5]
    gcongr
  · have e2 : ∀ N, -N / j.chord.P.sec.A + j.M0 / j.chord.P.sec.Wel.1 ≤ 0 → (j.withN0 N).evalKN j.beta = 1 := by
      intro N hN
      unfold Joint.evalKN
      rw [if_neg]
      have e3 : (j.withN0 N).evalN = (-N / j.chord.P.sec.A + j.M0 / j.chord.P.sec.Wel.1) / j.chord.P.fy / 1 := rfl
      rw [e3, div_one]
      exact not_lt.2 (div_nonpos_of_nonpos_of_nonneg hN hf.le)
    have e4 : ∀ N, (j.withN0 N).chordFace i = j.reduction * (89 / 10) * (j.withN0 N).evalKN j.beta * j.chord.P.fy * j.face ^ 2 * √j.gamma * j.beta / gammaM5 / sin (rad (j.angles i)) := fun N => rfl
    rw [e4, e4, e2 N hN, e2 N' hN']
  · have hk := kn_pos j.toJoint j.beta h35 (hn hy)
    have hm := sin_rad_mono ha.1 ha1 ha2
    have hsa : 0 < sin (rad a) := lt_of_lt_of_le hs hm
    have ea : (j.withAngle i a).angles i = a := by simp [KGap.withAngle]
    constructor
    · have e2 : (j.withAngle i a).chordFace i = j.reduction * (89 / 10) * j.evalKN j.beta * j.chord.P.fy * j.face ^ 2 * √j.gamma * j.beta / gammaM5 / sin (rad ((j.withAngle i a).angles i)) := rfl
      rw [e2, ea]
      unfold KGap.chordFace
      simp only [gammaM5]
      gcongr
    · have e2 : (j.withAngle i a).punching i = j.reduction * j.chord.P.fy * j.face / √3 / sin (rad ((j.withAngle i a).angles i)) * (2 * j.h i / sin (rad ((j.withAngle i a).angles i)) + j.b i + min (10 / (j.chord.B / j.face)) 1 * j.b i) / gammaM5 := rfl
      rw [e2, ea]
      unfold KGap.punching
      simp only [gammaM5, hface]
      have hbe : 0 < min (10 / (j.chord.B / j.chord.T)) 1 := lt_min (by positivity) one_pos
      gcongr

/-- Data of a square hollow section 100 x 5 of steel S355 (rounded). -/
noncomputable def exProfile : Profile where
  fy := 355
  E := 210000
  G := 80769
  sec :=
    { A := 1836
      Au := 383
      I := (2711000, 2711000)
      Wel := (54220, 54220)
      Wpl := (64590, 64590)
      Ashear := (918, 918) }
  It := 4391000
  Iw := 0
  imp := (49 / 100, 49 / 100)
  impLT := 49 / 100
  impLTgen := 49 / 100
  aw := 1 / 2
  flangeClass := 1
  webComp := 1
  webBend := 1
  webCompBend := fun _ _ => 2

/-- A gap joint with two braces 60 x 4 under 45 degrees, the first in compression, on a chord in compression. -/
noncomputable def exK : KGap where
  chord := { H := 100, B := 100, T := 5, P := exProfile }
  N0 := -100000
  V0 := 0
  M0 := 0
  r := 0
  braces := ![{ sec := { H := 60, B := 60, T := 4, P := exProfile }, ned := [-50000] }, { sec := { H := 60, B := 60, T := 4, P := exProfile }, ned := [50000] }]
  angles := ![45, 45]
  gap := 20
  tp := 0

theorem exK_dims (k : Fin 2) : 0 < exK.b k ∧ 0 < exK.h k ∧ 0 < exK.t k ∧ 0 < exK.fy k ∧ 4 * exK.t k ≤ 2 * exK.h k := by
  fin_cases k <;> norm_num [exK, exProfile, KGap.b, KGap.h, KGap.t, KGap.fy]

/-- The hypotheses of C79 hold for `exK`; its chord face is stressed to about 15 % of yield in compression. -/
example : 0 < exK.chordFace 0 ∧ 0 < exK.braceFailure 0 ∧ 0 < exK.punching 0 :=
  (C79 exK 0 (by norm_num [exK]) (by norm_num [exK]) (by norm_num [exK]) (by norm_num [exK]) (by norm_num [exK, exProfile])
    (by norm_num [exK, exProfile]) exK_dims (by norm_num [exK])).1
    (by norm_num [exK, KGap.beta, KGap.b, KGap.h]) (by norm_num [exK, exProfile])

example : exK.r = 0 ∧ exK.tp = 0 ∧ 0 ≤ exK.b 0 ∧ RhsSpec.kn ((-exK.N0 / exK.chord.P.sec.A + exK.M0 / exK.chord.P.sec.Wel.1) / exK.chord.P.fy) (6 / 10) = 1 := by
  refine ⟨rfl, rfl, (exK_dims 0).1.le, ?_⟩
  norm_num [exK, exProfile, RhsSpec.kn]

/-! ### Eccentricity -/

/-- C80: the axes of the two braces of a gap joint meet in exactly one point, and its distance from the chord axis, measured away from the braces, is the returned eccentricity. -/
theorem C80 (h0 h1 h2 t1 t2 g : ℝ) (a1 : 0 < t1) (a2 : 0 < t2) (a12 : t1 + t2 < 180) :
    (∃! p : ℝ × ℝ, RhsSpec.OnLeftAxis h0 g h1 (t1 * π / 180) p ∧ RhsSpec.OnRightAxis h0 g h2 (t2 * π / 180) p) ∧
    ∀ p : ℝ × ℝ, RhsSpec.OnLeftAxis h0 g h1 (t1 * π / 180) p → RhsSpec.OnRightAxis h0 g h2 (t2 * π / 180) p →
      -p.2 = eccentricity h0 h1 h2 t1 t2 g := by
  have s1 : 0 < sin (t1 * π / 180) := sin_rad_pos a1 (by linarith)
  have s2 : 0 < sin (t2 * π / 180) := sin_rad_pos a2 (by linarith)
  have s12 : 0 < sin (t1 * π / 180 + t2 * π / 180) := by
    have := sin_rad_pos (a := t1 + t2) (by linarith) a12
    unfold rad at this
    rwa [show (t1 + t2) * π / 180 = t1 * π / 180 + t2 * π / 180 by ring] at this
  unfold RhsSpec.OnLeftAxis RhsSpec.OnRightAxis eccentricity rad
  generalize t1 * π / 180 = x at *
  generalize t2 * π / 180 = y at *
  have hd : sin (x + y) = sin x * cos y + cos x * sin y := sin_add x y
  set D := sin (x + y) with hD
  have hDn : D ≠ 0 := s12.ne'
  have h1n : sin x ≠ 0 := s1.ne'
  have h2n : sin y ≠ 0 := s2.ne'
  have key : ∀ p : ℝ × ℝ, (p.1 + g / 2) * -sin x + (p.2 - h0 / 2) * -cos x = h1 / 2 → (p.1 - g / 2) * sin y + (p.2 - h0 / 2) * -cos y = h2 / 2 →
      -p.2 = (1 / 2 * h1 / sin x + 1 / 2 * h2 / sin y + g) * sin x * sin y / D - 1 / 2 * h0 := by
    rintro ⟨u, v⟩ e1 e2
    simp only at e1 e2 ⊢
    field_simp
    rw [hd]
    linear_combination 2 * sin y * e1 + 2 * sin x * e2
  refine ⟨⟨(-(g / 2) - (h1 / 2 + (-((1 / 2 * h1 / sin x + 1 / 2 * h2 / sin y + g) * sin x * sin y / D - 1 / 2 * h0) - h0 / 2) * cos x) / sin x,
    -((1 / 2 * h1 / sin x + 1 / 2 * h2 / sin y + g) * sin x * sin y / D - 1 / 2 * h0)), ⟨?_, ?_⟩, ?_⟩, key⟩
  · field_simp
    ring
  · field_simp
    rw [hd]
    ring
  · rintro p ⟨e1, e2⟩
    have e3 := key p e1 e2
    refine Prod.ext ?_ (by simp only; linarith)
    simp only
    rw [← e3]
    field_simp
    linarith

/-- C80, the method of the joint returns the value of the function. -/
theorem C80_method (j : KGap) : j.eccentricity = eccentricity j.chord.H (j.h 0) (j.h 1) (j.angles 0) (j.angles 1) j.gap := by
  unfold KGap.eccentricity eccentricity
  have : rad (j.angles 0 + j.angles 1) = rad (j.angles 0) + rad (j.angles 1) := by unfold rad; ring
  simp only [this]

/-- Braces of height 60 under 45 and 60 degrees with a gap of 20 on a chord of height 100. -/
example : ∃! p : ℝ × ℝ, RhsSpec.OnLeftAxis 100 20 60 (45 * π / 180) p ∧ RhsSpec.OnRightAxis 100 20 60 (60 * π / 180) p :=
  (C80 100 60 60 45 60 20 (by norm_num) (by norm_num) (by norm_num)).1

/-- Two braces of height 40 at 45 degrees that touch on a chord of height `40 √2`: the axes meet on the chord axis. -/
example : eccentricity (40 * √2) 40 40 45 45 0 = 0 := by
  have h : rad 45 = π / 4 := by unfold rad; ring
  have h2 : rad 45 + rad 45 = π / 2 := by unfold rad; ring
  unfold eccentricity
  rw [h2, sin_pi_div_two, h, sin_pi_div_four]
  have : √(2 : ℝ) * √2 = 2 := mul_self_sqrt (by norm_num)
  have h0 : √(2 : ℝ) ≠ 0 := by positivity
  field_simp
  nlinarith

/-! ### Gap of a K joint -/

theorem maxAbs_one (x : ℝ) : maxAbs [x] = .ok |x| := rfl

theorem minClip_one (x : ℝ) : minClip [x] = .ok (min x 0) := rfl

/-- C81, shear force in the gap: the vertical component of the force in the compression brace, whichever brace is listed first. -/
theorem C81_shear (j : KGap) (n0 n1 : ℝ) (h0 : (j.braces 0).ned = [n0]) (h1 : (j.braces 1).ned = [n1])
    (ha : ∀ i, 0 < j.angles i ∧ j.angles i < 180) :
    (n0 < 0 → j.V0gap = .ok (-n0 * sin (j.angles 0 * π / 180))) ∧
    (0 ≤ n0 → n1 < 0 → j.V0gap = .ok (-n1 * sin (j.angles 1 * π / 180))) := by
  have s0 : 0 < sin (j.angles 0 * π / 180) := sin_rad_pos (ha 0).1 (ha 0).2
  have s1 : 0 < sin (j.angles 1 * π / 180) := sin_rad_pos (ha 1).1 (ha 1).2
  unfold KGap.V0gap KGap.N1 KGap.angle1
  rw [h0, h1]
  simp only [minClip_one, maxAbs_one, bind, Except.bind, pure, Except.pure, rad]
  constructor
  · intro h
    rw [min_eq_left h.le, if_pos h, if_pos h]
    refine congrArg Except.ok ?_
    rw [abs_of_neg h, abs_of_pos (mul_pos (neg_pos.2 h) s0)]
  · intro h h'
    rw [min_eq_right h, if_neg (lt_irrefl 0), if_neg (lt_irrefl 0)]
    refine congrArg Except.ok ?_
    rw [abs_of_neg h', abs_of_pos (mul_pos (neg_pos.2 h') s1)]

theorem aEta_eq (j : KGap) : j.aEta = RhsSpec.gapArea j.chord.H j.chord.B j.chord.T j.gap := by
  unfold KGap.aEta RhsSpec.gapArea
  rw [show 4 * j.gap ^ 2 / 3 / j.chord.T ^ 2 = 4 / 3 * (j.gap / j.chord.T) ^ 2 by ring, one_div, sqrt_inv]
  ring

/-- C81: shear failure of the chord of a gap joint. The braces are limited by the shear area of the gap; the chord keeps in the gap the part of its area outside the shear area and a part of the shear area that
shrinks to nothing as the shear force reaches the shear resistance; beyond it nothing is left. -/
theorem C81 (j : KGap) (V : ℝ) (hV : j.V0gap = .ok V) (hr : j.r = 0) (hA : 0 < j.chord.P.sec.Ashear.2) (hf : 0 < j.chord.P.fy) :
    let fy0 := j.chord.P.fy
    let Av := RhsSpec.gapArea j.chord.H j.chord.B j.chord.T j.gap
    let VRd := j.chord.P.sec.Ashear.2 * (fy0 / √3)
    let f := RhsSpec.steelFactor fy0
    ∃ R N, j.chordShear = .ok (R, N) ∧
      (∀ i, R i = f * (fy0 / √3 * Av / sin (j.angles i * π / 180))) ∧
      (V ≤ VRd → N = f * (fy0 * (j.chord.P.sec.A - Av) + fy0 * Av * √(1 - (V / VRd) ^ 2))) ∧
      (VRd < V → N = 0) := by
  intro fy0 Av VRd f
  have hpos : 0 < VRd := mul_pos hA (div_pos hf (sqrt_pos.2 (by norm_num)))
  have e : shearResistance j.chord.P.sec.Ashear.2 j.chord.P.fy = VRd := by
    unfold shearResistance gammaM0
    simp only [VRd, fy0]
    ring
  have hd : pyDiv V VRd = .ok (V / VRd) := by unfold pyDiv; rw [if_neg hpos.ne']
  refine ⟨_, _, by (unfold KGap.chordShear; simp only [hV, e, hd, bind, Except.bind, pure, Except.pure]; rfl), fun i => ?_, fun h => ?_, fun h => ?_⟩
  · rw [reduction_eq j.toJoint hr, aEta_eq]
    simp only [gammaM5, rad, f, fy0, Av]
    ring
  · rw [if_neg (not_lt.2 ((div_le_one hpos).2 h)), reduction_eq j.toJoint hr, aEta_eq]
    simp only [gammaM5, f, fy0, Av]
    ring
  · rw [if_pos ((one_lt_div hpos).2 h), mul_zero]

/-- C81, shear area: between the webs alone and the webs with one flange, and smaller for a wider gap. -/
theorem C81_area (h0 b0 t0 g g' : ℝ) (hb : 0 < b0) (ht : 0 < t0) (hg : 0 ≤ g) (h : g ≤ g') :
    2 * h0 * t0 < RhsSpec.gapArea h0 b0 t0 g ∧ RhsSpec.gapArea h0 b0 t0 g ≤ (2 * h0 + b0) * t0 ∧
    RhsSpec.gapArea h0 b0 t0 g' ≤ RhsSpec.gapArea h0 b0 t0 g := by
  unfold RhsSpec.gapArea
  have h1 : 1 ≤ √(1 + 4 / 3 * (g / t0) ^ 2) := by
    rw [one_le_sqrt]
    have : 0 ≤ 4 / 3 * (g / t0) ^ 2 := by positivity
    linarith
  have h2 : √(1 + 4 / 3 * (g / t0) ^ 2) ≤ √(1 + 4 / 3 * (g' / t0) ^ 2) := by gcongr
  refine ⟨?_, ?_, ?_⟩
  · have : 0 < b0 * t0 / √(1 + 4 / 3 * (g / t0) ^ 2) := by positivity
    linarith
  · have : b0 * t0 / √(1 + 4 / 3 * (g / t0) ^ 2) ≤ b0 * t0 := div_le_self (by positivity) h1
    linarith
  · gcongr

/-- C82: for a chord in tension whose first brace is the compression brace, on the side of the chord force, the returned force in the gap is not smaller than the one of equilibrium. Missing: the force itself, and chords in compression. -/
theorem C82_partial (j : KGap) (n0 n1 : ℝ) (h0 : (j.braces 0).ned = [n0]) (h1 : (j.braces 1).ned = [n1])
    (hN : 0 ≤ j.N0) (hn : n0 < 0) (ha : 0 < j.angles 0 ∧ j.angles 0 ≤ 90) :
    ∃ F, j.N0gap = .ok F ∧ ∀ Ngap, RhsSpec.GapEquilibrium j.N0 n0 (j.angles 0 * π / 180) Ngap →
      |Ngap| ≤ F ∧ F - Ngap = 2 * (-n0 * cos (j.angles 0 * π / 180)) := by
  have hp := pi_pos
  have hc : 0 ≤ cos (j.angles 0 * π / 180) := by
    apply cos_nonneg_of_neg_pi_div_two_le_of_le
    · have : 0 < j.angles 0 * π / 180 := mul_pos (mul_pos ha.1 hp) (by norm_num)
      linarith
    · nlinarith [ha.2]
  have hnc : 0 ≤ -n0 * cos (j.angles 0 * π / 180) := mul_nonneg (neg_nonneg.2 hn.le) hc
  refine ⟨j.N0 + -n0 * cos (j.angles 0 * π / 180), ?_, ?_⟩
  · unfold KGap.N0gap KGap.N1 KGap.angle1
    rw [if_neg (not_lt.2 hN), h0, h1]
    simp only [minClip_one, maxAbs_one, bind, Except.bind, pure, Except.pure, rad]
    rw [min_eq_left hn.le, if_pos hn, if_pos hn]
    refine congrArg Except.ok ?_
    rw [abs_of_neg hn]
  · intro Ngap h
    unfold RhsSpec.GapEquilibrium at h
    refine ⟨abs_le.2 ⟨by linarith, by linarith⟩, by linarith⟩

/-- C82 fails: with a chord in compression the force in the gap cannot be read for any joint; with a chord in tension it is wrong whenever the compression brace is inclined. The force of the tension brace is reported
as zero when that brace is listed second. -/
theorem C82_violation :
    (∀ j : KGap, j.N0 < 0 → ∃ e, j.N0gap = .error e) ∧
    (∀ (j : KGap) (n0 n1 : ℝ), (j.braces 0).ned = [n0] → (j.braces 1).ned = [n1] → 0 ≤ j.N0 → n0 < 0 → 0 < j.angles 0 → j.angles 0 < 90 →
      ∀ F, j.N0gap = .ok F → ¬ RhsSpec.GapEquilibrium j.N0 n0 (j.angles 0 * π / 180) F) ∧
    (∀ (j : KGap) (n0 n1 : ℝ), (j.braces 0).ned = [n0] → (j.braces 1).ned = [n1] → n0 < 0 → 0 < n1 → j.N2 = .ok 0) := by
  refine ⟨fun j h => ?_, fun j n0 n1 h0 h1 hN hn ha1 ha2 F hF hE => ?_, fun j n0 n1 h0 h1 hn hn1 => ?_⟩
  · unfold KGap.N0gap
    rw [if_pos h]
    cases h2 : j.N2 with
    | error e => exact ⟨e, rfl⟩
    | ok n => exact ⟨.attributeError, rfl⟩
  · obtain ⟨F', hF', hF2⟩ := C82_partial j n0 n1 h0 h1 hN hn ⟨ha1, ha2.le⟩
    rw [hF'] at hF
    obtain rfl := Except.ok.inj hF
    have := (hF2 _ hE).2
    rw [sub_self] at this
    have hp := pi_pos
    have hc : 0 < cos (j.angles 0 * π / 180) := by
      apply cos_pos_of_mem_Ioo
      constructor
      · have : 0 < j.angles 0 * π / 180 := mul_pos (mul_pos ha1 hp) (by norm_num)
        linarith
      · nlinarith
    nlinarith [mul_pos (neg_pos.2 hn) hc]
  · unfold KGap.N2
    rw [h0, h1]
    simp only [minClip_one, bind, Except.bind, pure, Except.pure]
    rw [if_pos (min_le_right _ _), min_eq_right hn1.le, abs_zero]

/-- In `exK` the first brace is the compression brace: the shear force in the gap is 50000 sin 45°. -/
example : exK.V0gap = .ok (50000 * sin (45 * π / 180)) := by
  have := (C81_shear exK (-50000) 50000 rfl rfl (fun i => by fin_cases i <;> norm_num [exK])).1 (by norm_num)
  simpa [exK] using this

example : ∃ R N, exK.chordShear = .ok (R, N) := by
  have h := (C81_shear exK (-50000) 50000 rfl rfl (fun i => by fin_cases i <;> norm_num [exK])).1 (by norm_num)
  obtain ⟨R, N, h1, _⟩ := C81 exK _ h rfl (by norm_num [exK, exProfile]) (by norm_num [exK, exProfile])
  exact ⟨R, N, h1⟩

example : ∃ e, exK.N0gap = .error e := C82_violation.1 exK (by norm_num [exK])

/-- The same joint with a chord in tension: the force in the gap is too large by 2 · 50000 cos 45°. -/
example : ∃ F, (exK.withN0 100000).N0gap = .ok F ∧ ¬ RhsSpec.GapEquilibrium 100000 (-50000) (45 * π / 180) F := by
  obtain ⟨F, hF, _⟩ := C82_partial (exK.withN0 100000) (-50000) 50000 rfl rfl (by norm_num [KGap.withN0]) (by norm_num) (by norm_num [KGap.withN0, exK])
  exact ⟨F, hF, C82_violation.2.1 (exK.withN0 100000) (-50000) 50000 rfl rfl (by norm_num [KGap.withN0]) (by norm_num) (by norm_num [KGap.withN0, exK])
    (by norm_num [KGap.withN0, exK]) F hF⟩

/-! ### Design of a K joint -/

/-- C83: the resistance with which a brace of a gap joint is compared is the smallest of the failure modes of Table 7.12: a force is within it exactly if it is within chord face failure, chord shear and brace failure, and
within punching shear where the brace is narrow enough to punch. Missing: the utilisation ratios, which are never returned. -/
theorem C83_partial (j : KGap) (R : Fin 2 → ℝ) (h : j.jointResistance = .ok R) :
    ∃ C N, j.chordShear = .ok (C, N) ∧ ∀ i (F : ℝ),
      F ≤ R i ↔ F ≤ j.chordFace i ∧ F ≤ C i ∧ F ≤ j.braceFailure i ∧ (j.beta ≤ 1 - 1 / j.gamma → F ≤ j.punching i) := by
  unfold KGap.jointResistance at h
  cases hc : j.chordShear with
  | error e => simp [hc, bind, Except.bind] at h
  | ok cs =>
    refine ⟨cs.1, cs.2, rfl, fun i F => ?_⟩
    simp only [hc, bind, Except.bind, pure, Except.pure] at h
    obtain rfl := Except.ok.inj h
    simp only
    split_ifs with hp
    · simp only [le_min_iff]
      tauto
    · simp only [le_min_iff]
      tauto

/-- C83 fails: no gap joint can be designed; every call raises. Nor can the chord face be reinforced by a plate. -/
theorem C83_violation (j : KGap) : (∃ e, j.design = .error e) ∧ ∀ lp bp tp, ∃ e, j.addChordFacePlate lp bp tp = .error e := by
  constructor
  · unfold KGap.design
    cases h1 : j.NEd with
    | error e => exact ⟨e, rfl⟩
    | ok a =>
      cases h2 : j.chordShear with
      | error e => exact ⟨e, by simp [bind, Except.bind]⟩
      | ok cs =>
        cases h3 : j.jointResistance with
        | error e => exact ⟨e, by simp [bind, Except.bind]⟩
        | ok R =>
          cases h4 : pyDiv j.N0 cs.2 with
          | error e => exact ⟨e, by simp [bind, Except.bind, h4]⟩
          | ok x => exact ⟨.typeError, by simp [bind, Except.bind, h4]⟩
  · intro lp bp tp
    exact ⟨.attributeError, rfl⟩

example : ∃ R, exK.jointResistance = .ok R := by
  have h := (C81_shear exK (-50000) 50000 rfl rfl (fun i => by fin_cases i <;> norm_num [exK])).1 (by norm_num)
  obtain ⟨R, N, h1, _⟩ := C81 exK _ h rfl (by norm_num [exK, exProfile]) (by norm_num [exK, exProfile])
  exact ⟨_, by unfold KGap.jointResistance; rw [h1]; rfl⟩

/-! ### Y joints -/

/-- C84, values: brace failure and punching shear of a Y joint are those of Table 7.11. -/
theorem C84_value (j : YJoint) (hr : j.r = 0) (hb : 0 ≤ j.brace.B) :
    let fy0 := j.chord.P.fy
    let f := RhsSpec.steelFactor fy0
    j.braceFailure = f * RhsSpec.yBrace j.brace.P.fy j.brace.T j.brace.H (RhsSpec.effective j.chord.B j.chord.T fy0 j.brace.P.fy j.brace.T j.brace.B) ∧
    j.punching = f * RhsSpec.yPunching fy0 j.chord.T j.brace.H (RhsSpec.effectivePunching j.chord.B j.chord.T j.brace.B) (j.angle * π / 180) := by
  constructor
  · unfold YJoint.braceFailure RhsSpec.yBrace RhsSpec.effective
    rw [reduction_eq j.toJoint hr]
    simp only [gammaM5]
    rw [min_mul_of_nonneg _ _ hb, min_comm, one_mul]
    have : 10 / (j.chord.B / j.chord.T) * j.chord.P.fy * j.chord.T / (j.brace.P.fy * j.brace.T) * j.brace.B = 10 * j.chord.T / j.chord.B * (j.chord.P.fy * j.chord.T / (j.brace.P.fy * j.brace.T)) * j.brace.B := by
      rw [div_div_eq_mul_div]; ring
    rw [this]
    ring
  · unfold YJoint.punching RhsSpec.yPunching RhsSpec.effectivePunching
    rw [reduction_eq j.toJoint hr]
    simp only [gammaM5, rad]
    rw [min_mul_of_nonneg _ _ hb, min_comm, one_mul, div_div_eq_mul_div]
    ring

theorem chordFace_eq (j : YJoint) (hb : j.beta < 1) :
    j.chordFace = j.reduction ^ j.evalKN j.beta * RhsSpec.yFace 1 j.chord.P.fy j.chord.T j.beta j.eta (rad j.angle) := by
  unfold YJoint.chordFace RhsSpec.yFace
  rw [if_neg (not_le.2 hb)]
  simp only [gammaM5]
  ring

theorem chordWeb_eq (j : YJoint) :
    j.chordWeb = j.reduction ^ j.evalKN j.beta * RhsSpec.ySide 1 j.fb j.chord.T j.brace.H (rad j.angle) := by
  unfold YJoint.chordWeb RhsSpec.ySide
  simp only [gammaM5]
  ring

theorem kn_tension (j : Joint) (b : ℝ) (hf : 0 < j.chord.P.fy) (h : -j.N0 / j.chord.P.sec.A + j.M0 / j.chord.P.sec.Wel.1 ≤ 0) : j.evalKN b = 1 := by
  rw [evalKN_eq]
  unfold RhsSpec.kn
  rw [if_pos]
  exact div_nonpos_of_nonpos_of_nonneg h hf.le

/-- C84: if the chord face is not in compression, the resistances of a Y joint against chord face failure (brace narrower than the chord) and side wall failure are those of Table 7.11. Missing: the chord stress factor. -/
theorem C84_partial (j : YJoint) (hr : j.r = 0) (hf : 0 < j.chord.P.fy)
    (hn : -j.N0 / j.chord.P.sec.A + j.M0 / j.chord.P.sec.Wel.1 ≤ 0) :
    let fy0 := j.chord.P.fy
    let f := RhsSpec.steelFactor fy0
    let θ := j.angle * π / 180
    (j.brace.B < j.chord.B → 0 < j.chord.B →
      j.chordFace = f * RhsSpec.yFace 1 fy0 j.chord.T (j.brace.B / j.chord.B) (j.brace.H / j.chord.B) θ) ∧
    (0 ≤ j.N1 → j.chordWeb = f * RhsSpec.ySide 1 fy0 j.chord.T j.brace.H θ) := by
  have hk := kn_tension j.toJoint j.beta hf hn
  constructor
  · intro hb hB
    rw [chordFace_eq j ((div_lt_one hB).2 hb), hk, rpow_one, reduction_eq j.toJoint hr]
    rfl
  · intro h1
    rw [chordWeb_eq, hk, rpow_one, reduction_eq j.toJoint hr]
    have : j.fb = j.chord.P.fy := by unfold YJoint.fb; rw [if_neg (not_lt.2 h1)]
    rw [this]
    rfl

theorem steelFactor_range (fy : ℝ) : 0 < RhsSpec.steelFactor fy ∧ RhsSpec.steelFactor fy ≤ 1 := by
  unfold RhsSpec.steelFactor
  split_ifs <;> norm_num

theorem yFace_pos (j : YJoint) (hf : 0 < j.chord.P.fy) (hT : 0 < j.chord.T) (hB : 0 < j.chord.B) (hH : 0 < j.brace.H)
    (ha : 0 < sin (rad j.angle)) (β : ℝ) (hb : β < 1) : 0 < RhsSpec.yFace 1 j.chord.P.fy j.chord.T β j.eta (rad j.angle) := by
  unfold RhsSpec.yFace YJoint.eta
  have : 0 < 1 - β := by linarith
  positivity

/-- C84 fails: the chord stress factor is used as an exponent of the reduction factor. Whenever the compression in the chord lowers the factor below 1, the returned resistance against chord face failure is
larger than the one of the standard; for steel up to S355 the chord force has no influence at all. -/
theorem C84_violation :
    (∀ j : YJoint, j.r = 0 → 0 < j.chord.P.fy → 0 < j.chord.T → 0 < j.chord.B → 0 < j.brace.H → j.brace.B < j.chord.B → 0 < j.angle → j.angle < 180 →
      let k := RhsSpec.kn ((-j.N0 / j.chord.P.sec.A + j.M0 / j.chord.P.sec.Wel.1) / j.chord.P.fy) (j.brace.B / j.chord.B)
      k < 1 →
      RhsSpec.steelFactor j.chord.P.fy * RhsSpec.yFace k j.chord.P.fy j.chord.T (j.brace.B / j.chord.B) (j.brace.H / j.chord.B) (j.angle * π / 180) < j.chordFace) ∧
    (∀ (j : YJoint) (N : ℝ), j.r = 0 → j.chord.P.fy ≤ 355 →
      ({ j with toJoint := { j.toJoint with N0 := N } } : YJoint).chordFace = j.chordFace) := by
  constructor
  · intro j hr hf hT hB hH hb ha1 ha2 k hk
    have hs := sin_rad_pos ha1 ha2
    have hβ : j.beta < 1 := (div_lt_one hB).2 hb
    rw [chordFace_eq j hβ, reduction_eq j.toJoint hr]
    have ek : j.evalKN j.beta = k := evalKN_eq j.toJoint j.beta
    rw [ek]
    have hy := yFace_pos j hf hT hB hH hs j.beta hβ
    have e2 : RhsSpec.yFace k j.chord.P.fy j.chord.T (j.brace.B / j.chord.B) (j.brace.H / j.chord.B) (j.angle * π / 180) = k * RhsSpec.yFace 1 j.chord.P.fy j.chord.T j.beta j.eta (rad j.angle) := by
      unfold RhsSpec.yFace
      simp only [YJoint.beta, YJoint.eta, rad]
      ring
    rw [e2, ← mul_assoc]
    apply mul_lt_mul_of_pos_right _ hy
    obtain ⟨f0, f1⟩ := steelFactor_range j.chord.P.fy
    have h1 : RhsSpec.steelFactor j.chord.P.fy * k < RhsSpec.steelFactor j.chord.P.fy := by nlinarith
    have h2 : RhsSpec.steelFactor j.chord.P.fy ≤ RhsSpec.steelFactor j.chord.P.fy ^ k := by
      calc RhsSpec.steelFactor j.chord.P.fy = RhsSpec.steelFactor j.chord.P.fy ^ (1 : ℝ) := (rpow_one _).symm
        _ ≤ _ := rpow_le_rpow_of_exponent_ge f0 f1 hk.le
    exact lt_of_lt_of_le h1 h2
  · intro j N hr hf
    have h1 : j.reduction = 1 := by unfold Joint.reduction; rw [if_pos hr, if_pos hf]
    have h2 : ({ j.toJoint with N0 := N } : Joint).reduction = 1 := by unfold Joint.reduction; rw [if_pos hr, if_pos hf]
    unfold YJoint.chordFace
    simp only [h1, h2, one_rpow]
    rfl

/-- C85: the utilisation of a Y joint whose chord face is not in compression and whose brace is in tension. Up to a width ratio of 0.85 it is the force over the resistance of the chord face; at equal widths it is the force over
the smaller of side wall and brace failure. Missing: width ratios between 0.85 and 1. -/
theorem C85_partial (j : YJoint) (hr : j.r = 0) (hf : 0 < j.chord.P.fy) (hB : 0 < j.chord.B) (hT : 0 < j.chord.T)
    (hn : -j.N0 / j.chord.P.sec.A + j.M0 / j.chord.P.sec.Wel.1 ≤ 0) (h1 : 0 ≤ j.N1) :
    let fy0 := j.chord.P.fy
    let f := RhsSpec.steelFactor fy0
    let θ := j.angle * π / 180
    (j.brace.B / j.chord.B < 85 / 100 → j.design = j.N1 / (f * RhsSpec.yFace 1 fy0 j.chord.T (j.brace.B / j.chord.B) (j.brace.H / j.chord.B) θ)) ∧
    (j.brace.B = j.chord.B → j.design = j.N1 / (f * min (RhsSpec.ySide 1 fy0 j.chord.T j.brace.H θ)
      (RhsSpec.yBrace j.brace.P.fy j.brace.T j.brace.H (RhsSpec.effective j.chord.B j.chord.T fy0 j.brace.P.fy j.brace.T j.brace.B)))) := by
  obtain ⟨c1, c2⟩ := C84_partial j hr hf hn
  have hg : 0 < j.gamma := by unfold Joint.gamma; positivity
  constructor
  · intro hb
    have hb' : j.beta < 85 / 100 := hb
    unfold YJoint.design YJoint.jointResistance
    rw [if_pos hb', abs_of_nonneg h1, c1 ((div_lt_one hB).1 (by linarith)) hB]
  · intro hb
    have hβ : j.beta = 1 := by unfold YJoint.beta; rw [hb, div_self hB.ne']
    unfold YJoint.design YJoint.jointResistance
    rw [hβ, if_neg (by norm_num), abs_of_nonneg h1]
    simp only
    have hnp : ¬ (1 : ℝ) ≤ 1 - 1 / j.gamma := by
      have : 0 < 1 / j.gamma := by positivity
      intro h
      linarith
    rw [if_neg hnp, (C84_value j hr (by rw [hb]; exact hB.le)).1]
    have e : j.chordFace + ((1 : ℝ) - 85 / 100) / (15 / 100) * (j.chordWeb - j.chordFace) = j.chordWeb := by ring
    rw [e, c2 h1, mul_min_of_nonneg _ _ (steelFactor_range _).1.le]

theorem yFace_lt (fy0 t0 η θ β : ℝ) (hf : 0 < fy0) (hT : 0 < t0) (hη : 0 < η) (hs : 0 < sin θ) (h1 : 85 / 100 < β) (h2 : β < 1) :
    RhsSpec.yFace 1 fy0 t0 (85 / 100) η θ < RhsSpec.yFace 1 fy0 t0 β η θ := by
  unfold RhsSpec.yFace
  have hb : 0 < 1 - β := by linarith
  -- both summands grow with β
  have e : ∀ x : ℝ, 0 < x → 1 * fy0 * t0 ^ 2 * (2 * η / sin θ + 4 * √x) / (x * sin θ) = fy0 * t0 ^ 2 / sin θ * (2 * η / sin θ * (1 / x) + 4 * (1 / √x)) := by
    intro x hx
    have hx2 : √x * √x = x := mul_self_sqrt hx.le
    have hx3 : 0 < √x := sqrt_pos.2 hx
    have : √x / x = 1 / √x := by
      rw [div_eq_div_iff hx.ne' hx3.ne', hx2, one_mul]
    rw [← this]
    field_simp
  rw [e _ (by norm_num), e _ hb]
  have hx : (1 : ℝ) / (1 - 85 / 100) < 1 / (1 - β) := one_div_lt_one_div_of_lt hb (by linarith)
  have hy : (1 : ℝ) / √(1 - 85 / 100) < 1 / √(1 - β) := one_div_lt_one_div_of_lt (sqrt_pos.2 hb) (sqrt_lt_sqrt hb.le (by linarith))
  gcongr

/-- C85 fails: between the width ratios 0.85 and 1 the chord face resistance is taken at the actual ratio instead of 0.85, so the resistance is too large: whenever the interpolated resistance of the standard is below
brace failure and punching shear, the joint is accepted for larger forces than that. -/
theorem C85_violation (j : YJoint) (hr : j.r = 0) (hf : 0 < j.chord.P.fy) (hB : 0 < j.chord.B) (hT : 0 < j.chord.T) (hH : 0 < j.brace.H)
    (ha : 0 < j.angle ∧ j.angle < 180) (hn : -j.N0 / j.chord.P.sec.A + j.M0 / j.chord.P.sec.Wel.1 ≤ 0) (hN : 0 < j.N1)
    (h85 : 85 / 100 < j.brace.B / j.chord.B) (h1 : j.brace.B / j.chord.B < 1) :
    let S := RhsSpec.steelFactor j.chord.P.fy * RhsSpec.yInterpolated 1 j.chord.P.fy j.chord.P.fy j.chord.T j.brace.H (j.brace.B / j.chord.B) (j.brace.H / j.chord.B) (j.angle * π / 180)
    S < j.braceFailure → S < j.punching → 0 < S → j.design < j.N1 / S := by
  intro S hb hp hS
  obtain ⟨c1, c2⟩ := C84_partial j hr hf hn
  have hs := sin_rad_pos ha.1 ha.2
  have hlt : S < j.jointResistance := by
    have hβ : ¬ j.beta < 85 / 100 := not_lt.2 h85.le
    unfold YJoint.jointResistance
    rw [if_neg hβ]
    have hi : S < j.chordFace + (j.beta - 85 / 100) / (15 / 100) * (j.chordWeb - j.chordFace) := by
      rw [c1 ((div_lt_one hB).1 h1) hB, c2 hN.le]
      simp only [S]
      unfold RhsSpec.yInterpolated
      have hy := yFace_lt j.chord.P.fy j.chord.T (j.brace.H / j.chord.B) (j.angle * π / 180) (j.brace.B / j.chord.B) hf hT (by positivity) hs h85 h1
      have hf0 := (steelFactor_range j.chord.P.fy).1
      have eβ : j.beta = j.brace.B / j.chord.B := rfl
      rw [eβ]
      have hw : 0 < (1 - j.brace.B / j.chord.B) / (15 / 100) := div_pos (by linarith) (by norm_num)
      have := mul_lt_mul_of_pos_left (mul_lt_mul_of_pos_left hy hw) hf0
      linear_combination this
    simp only
    split_ifs
    · exact lt_min (lt_min hi hb) hp
    · exact lt_min hi hb
  unfold YJoint.design
  rw [abs_of_pos hN]
  exact div_lt_div_of_pos_left hN hS hlt

/-- A Y joint under 90 degrees on the chord 100 x 5, with the width of the brace and the forces given. -/
noncomputable def exY (b N0 N1 : ℝ) : YJoint where
  chord := { H := 100, B := 100, T := 5, P := exProfile }
  N0 := N0
  V0 := 0
  M0 := 0
  r := 0
  brace := { H := b, B := b, T := 8, P := exProfile }
  angle := 90
  N1 := N1

/-- A chord stressed to 92 % of yield in compression: the factor is 0.565, the returned resistance that of an unstressed chord. -/
example : RhsSpec.steelFactor 355 * RhsSpec.yFace (RhsSpec.kn ((- -600000 / 1836 + 0 / 54220) / 355) (50 / 100)) 355 5 (50 / 100) (50 / 100) (90 * π / 180) < (exY 50 (-600000) 10000).chordFace :=
  C84_violation.1 (exY 50 (-600000) 10000) rfl (by norm_num [exY, exProfile]) (by norm_num [exY]) (by norm_num [exY]) (by norm_num [exY]) (by norm_num [exY])
    (by norm_num [exY]) (by norm_num [exY]) (by norm_num [exY, exProfile, RhsSpec.kn])

example : (exY 50 600000 10000).design = 10000 / (RhsSpec.steelFactor 355 * RhsSpec.yFace 1 355 5 (50 / 100) (50 / 100) (90 * π / 180)) :=
  (C85_partial (exY 50 600000 10000) rfl (by norm_num [exY, exProfile]) (by norm_num [exY]) (by norm_num [exY]) (by norm_num [exY, exProfile]) (by norm_num [exY])).1
    (by norm_num [exY])

/-- Width ratio 0.9: the resistance of the standard is about 268 kN, brace failure 580 kN, punching shear 277 kN; the joint is accepted for more. -/
example : ∃ S, 0 < S ∧ S = RhsSpec.yInterpolated 1 355 355 5 90 (90 / 100) (90 / 100) (90 * π / 180) ∧ (exY 90 600000 100000).design < 100000 / S := by
  refine ⟨_, ?_, rfl, ?_⟩
  · have hs : sin (90 * π / 180) = 1 := by rw [show 90 * π / 180 = π / 2 by ring, sin_pi_div_two]
    unfold RhsSpec.yInterpolated RhsSpec.yFace RhsSpec.ySide
    rw [hs]
    have := sqrt_nonneg (1 - 85 / 100 : ℝ)
    norm_num
    positivity
  · have hs : sin (90 * π / 180) = 1 := by rw [show 90 * π / 180 = π / 2 by ring, sin_pi_div_two]
    have hq : √(1 - 85 / 100 : ℝ) < 388 / 1000 := by
      rw [sqrt_lt' (by norm_num)]
      norm_num
    have h3 : √(3 : ℝ) < 17321 / 10000 := by
      rw [sqrt_lt' (by norm_num)]
      norm_num
    have h30 : 0 < √(3 : ℝ) := by positivity
    have hS : RhsSpec.yInterpolated 1 355 355 5 90 (90 / 100) (90 / 100) (90 * π / 180) < 269000 := by
      unfold RhsSpec.yInterpolated RhsSpec.yFace RhsSpec.ySide
      rw [hs]
      norm_num at hq ⊢
      linarith
    have hf : RhsSpec.steelFactor 355 = 1 := by unfold RhsSpec.steelFactor; norm_num
    have key := C85_violation (exY 90 600000 100000) rfl (by norm_num [exY, exProfile]) (by norm_num [exY]) (by norm_num [exY]) (by norm_num [exY])
      (by norm_num [exY]) (by norm_num [exY, exProfile]) (by norm_num [exY]) (by norm_num [exY]) (by norm_num [exY])
    have e : (exY 90 600000 100000).chord.P.fy = 355 := rfl
    simp only [e, hf, one_mul] at key
    have hr : (exY 90 600000 100000).reduction = 1 := by norm_num [exY, exProfile, Joint.reduction]
    refine key (lt_trans hS ?_) (lt_trans hS ?_) ?_
    · unfold YJoint.braceFailure
      rw [hr]
      norm_num [exY, exProfile, gammaM5]
    · unfold YJoint.punching
      rw [hr]
      simp only [exY, exProfile, gammaM5, rad, hs]
      norm_num
      rw [div_mul_eq_mul_div, lt_div_iff₀ h30]
      linarith
    · have := sqrt_nonneg (1 - 85 / 100 : ℝ)
      unfold RhsSpec.yInterpolated RhsSpec.yFace RhsSpec.ySide
      simp only [exY, hs]
      norm_num
      positivity

/-! ### Side wall buckling -/

theorem reduction_root (α l : ℝ) (ha : 0 ≤ α) (hl : 2 / 10 < l) :
    let φ := 1 / 2 * (1 + α * (l - 2 / 10) + l ^ 2)
    RhsSpec.IsReduction α l (1 / (φ + √(φ ^ 2 - l ^ 2))) := by
  intro φ
  have h0 : 0 ≤ α * (l - 2 / 10) := mul_nonneg ha (by linarith)
  have hφ : l ≤ φ := by simp only [φ]; nlinarith [sq_nonneg (l - 1)]
  have hφ0 : 0 < φ := by linarith
  have hd : 0 ≤ φ ^ 2 - l ^ 2 := by nlinarith
  have hs := sq_sqrt hd
  have hs0 := sqrt_nonneg (φ ^ 2 - l ^ 2)
  set D := √(φ ^ 2 - l ^ 2)
  have hsum : 0 < φ + D := by linarith
  unfold RhsSpec.IsReduction
  rw [if_neg (not_le.2 hl)]
  refine ⟨?_, by positivity, ?_⟩
  · have h2 : 1 + α * (l - 2 / 10) + l ^ 2 = 2 * φ := by simp only [φ]; ring
    rw [h2]
    field_simp
    linarith
  · rw [div_le_one hsum]
    by_contra hlt
    push Not at hlt
    have h2 : 1 + l ^ 2 ≤ 2 * φ := by simp only [φ]; linarith
    nlinarith

/-- C86: a brace force entered explicitly as compression reduces the side wall strength by the factor of the buckling curve of the chord, for slendernesses above 0.2; a force of zero or tension leaves the yield strength.
Missing: forces taken from the brace, and slendernesses up to 0.2. -/
theorem C86_partial (j : YJoint) (hα : 0 ≤ j.chord.P.imp.1) :
    (0 ≤ j.N1 → j.fb = j.chord.P.fy) ∧
    (j.N1 < 0 → 2 / 10 < 346 / 100 * (j.chord.H / j.chord.T - 2) * √(1 / sin (j.angle * π / 180)) / (π * √(210000 / j.chord.P.fy)) →
      ∃ χ, RhsSpec.IsReduction j.chord.P.imp.1 (346 / 100 * (j.chord.H / j.chord.T - 2) * √(1 / sin (j.angle * π / 180)) / (π * √(210000 / j.chord.P.fy))) χ ∧
        j.fb = χ * j.chord.P.fy) := by
  constructor
  · intro h
    unfold YJoint.fb
    rw [if_neg (not_lt.2 h)]
  · intro h hl
    exact ⟨_, reduction_root _ _ hα hl, by unfold YJoint.fb; rw [if_pos h]; rfl⟩

theorem maxAbs_nonneg (l : List ℝ) (x : ℝ) (h : maxAbs l = .ok x) : 0 ≤ x := by
  cases l with
  | nil => simp [maxAbs] at h
  | cons y l =>
    simp only [maxAbs] at h
    obtain rfl := Except.ok.inj h
    have : ∀ (l : List ℝ) (a : ℝ), 0 ≤ a → 0 ≤ l.foldl (fun r y => max r |y|) a := by
      intro l
      induction l with
      | nil => intro a ha; exact ha
      | cons z l ih => intro a ha; exact ih _ (le_max_of_le_left ha)
    exact this l _ (abs_nonneg y)

theorem maxAbs_neg (l : List ℝ) : maxAbs (l.map (fun x => -x)) = maxAbs l := by
  cases l with
  | nil => rfl
  | cons y l =>
    simp only [List.map_cons, maxAbs, List.foldl_map, abs_neg]

theorem chi_gt_one (α l : ℝ) (ha : 0 < α) (ha1 : α ≤ 1) (h0 : 0 < l) (hl : l < 2 / 10) :
    let φ := 1 / 2 * (1 + α * (l - 2 / 10) + l ^ 2)
    1 < 1 / (φ + √(φ ^ 2 - l ^ 2)) := by
  intro φ
  have h2 : 2 * φ < 1 + l ^ 2 := by simp only [φ]; nlinarith
  have hφ : l < φ := by simp only [φ]; nlinarith
  have hd : 0 ≤ φ ^ 2 - l ^ 2 := by nlinarith
  have hφ1 : φ < 1 := by nlinarith
  have hD : √(φ ^ 2 - l ^ 2) < 1 - φ := by
    rw [sqrt_lt' (by linarith)]
    nlinarith
  have hs0 := sqrt_nonneg (φ ^ 2 - l ^ 2)
  rw [lt_div_iff₀ (by linarith)]
  linarith

/-- C86 fails: the joint stores the absolute value of the brace force, so the side wall of a compressed brace is designed as for tension: reversing all forces of the brace changes nothing, and the side wall strength is the
unreduced yield strength. A compression entered explicitly raises the strength above yield for slendernesses below 0.2. Cross joints raise for every compressed brace. -/
theorem C86_violation :
    (∀ (j : Joint) (b : Brace) (a : ℝ), YJoint.new j { b with ned := b.ned.map (fun x => -x) } a = YJoint.new j b a) ∧
    (∀ (j : Joint) (b : Brace) (a : ℝ) (y : YJoint), YJoint.new j b a = .ok y → y.fb = y.chord.P.fy) ∧
    (∀ y : YJoint, y.N1 < 0 → 0 < y.chord.P.imp.1 → y.chord.P.imp.1 ≤ 1 → 0 < y.slend → y.slend < 2 / 10 → 0 < y.chord.P.fy → y.chord.P.fy < y.fb) ∧
    (∀ y : YJoint, y.N1 < 0 → xChordWeb y = .error .attributeError) := by
  refine ⟨fun j b a => ?_, fun j b a y h => ?_, fun y h1 ha ha1 h0 hl hf => ?_, fun y h => ?_⟩
  · unfold YJoint.new
    rw [show ({ b with ned := b.ned.map (fun x => -x) } : Brace).ned = b.ned.map (fun x => -x) from rfl, maxAbs_neg]
  · unfold YJoint.new at h
    cases hm : maxAbs b.ned with
    | error e => simp [hm, bind, Except.bind] at h
    | ok n =>
      simp only [hm, bind, Except.bind, pure, Except.pure] at h
      obtain rfl := Except.ok.inj h
      unfold YJoint.fb
      rw [if_neg (not_lt.2 (maxAbs_nonneg _ _ hm))]
  · have := chi_gt_one y.chord.P.imp.1 y.slend ha ha1 h0 hl
    unfold YJoint.fb
    rw [if_pos h1]
    have e : (1 : ℝ) < y.chi := this
    nlinarith
  · unfold xChordWeb xFb
    rw [if_pos h]
    rfl

/-- A brace in compression stored by the constructor: the side wall of the chord is not reduced. -/
example : ∃ y, YJoint.new (exY 90 0 0).toJoint { sec := { H := 90, B := 90, T := 8, P := exProfile }, ned := [-100000] } 90 = .ok y ∧ y.N1 = 100000 ∧ y.fb = 355 := by
  refine ⟨_, rfl, ?_, ?_⟩
  · simp
  · have := C86_violation.2.1 (exY 90 0 0).toJoint { sec := { H := 90, B := 90, T := 8, P := exProfile }, ned := [-100000] } 90 _ rfl
    simpa [exY, exProfile] using this

/-- The side wall of the chord 100 x 5 has a slenderness above 0.2 under a brace at 90 degrees. -/
example : (2 : ℝ) / 10 < 346 / 100 * (100 / 5 - 2) * √(1 / sin (90 * π / 180)) / (π * √(210000 / 355)) := by
  have hs : sin (90 * π / 180) = 1 := by rw [show 90 * π / 180 = π / 2 by ring, sin_pi_div_two]
  rw [hs]
  have h1 : √(210000 / 355 : ℝ) < 25 := by
    rw [sqrt_lt' (by norm_num)]
    norm_num
  have h2 : π ≤ 4 := pi_le_four
  have h3 : π * √(210000 / 355) < 4 * 25 := by
    have := sqrt_nonneg (210000 / 355 : ℝ)
    have := pi_pos
    nlinarith
  rw [lt_div_iff₀ (by positivity)]
  norm_num at h3 ⊢
  linarith

/-! ### Lines -/

/-- C87: the intersection of two lines is found exactly if they are not parallel; the returned point lies on both lines at the returned parameters, and it is the only common point. -/
theorem C87_intersect (l m : Line) :
    (l.v.1 * m.v.2 = l.v.2 * m.v.1 → l.intersect m = .error .linAlgError) ∧
    (l.v.1 * m.v.2 ≠ l.v.2 * m.v.1 → ∃ t x, l.intersect m = .ok (t, x) ∧ l.at t.1 = x ∧ m.at t.2 = x ∧
      ∀ s u, l.at s = m.at u → l.at s = x) := by
  unfold Line.intersect
  constructor
  · intro h
    rw [if_pos (by linear_combination -h)]
  · intro h
    have hd : l.v.1 * -m.v.2 - -m.v.1 * l.v.2 ≠ 0 := fun h0 => h (by linear_combination -h0)
    rw [if_neg hd]
    refine ⟨_, _, rfl, rfl, ?_, ?_⟩
    · unfold Line.at
      refine Prod.ext ?_ ?_ <;> (simp only; generalize hD : l.v.1 * -m.v.2 - -m.v.1 * l.v.2 = D at hd ⊢; field_simp; rw [← hD]; ring)
    · intro s u hsu
      unfold Line.at at hsu ⊢
      have e1 : l.p.1 + s * l.v.1 = m.p.1 + u * m.v.1 := congrArg Prod.fst hsu
      have e2 : l.p.2 + s * l.v.2 = m.p.2 + u * m.v.2 := congrArg Prod.snd hsu
      have hs : s = ((m.p.1 - l.p.1) * -m.v.2 - -m.v.1 * (m.p.2 - l.p.2)) / (l.v.1 * -m.v.2 - -m.v.1 * l.v.2) := by
        rw [eq_div_iff hd]
        linear_combination (-m.v.2) * e1 + m.v.1 * e2
      simp only
      rw [← hs]

/-- C87: for a line given by two distinct points or by a direction of length 1, the returned point lies on the line, and the returned distance is its distance and the smallest among all points of the line. -/
theorem C87 (l : Line) (x : Pt) (hl : (∃ p q : Pt, p ≠ q ∧ l = Line.ofPoints p q) ∨ (∃ p v : Pt, v.1 ^ 2 + v.2 ^ 2 = 1 ∧ l = Line.ofDir p v)) :
    (∃ t, l.at t = (l.distance x).2) ∧
    (l.distance x).1 = √(((l.distance x).2.1 - x.1) ^ 2 + ((l.distance x).2.2 - x.2) ^ 2) ∧
    ∀ t, (l.distance x).1 ≤ √(((l.at t).1 - x.1) ^ 2 + ((l.at t).2 - x.2) ^ 2) := by
  have hv : l.v.1 ^ 2 + l.v.2 ^ 2 = 1 := by
    rcases hl with ⟨p, q, hne, rfl⟩ | ⟨p, v, h, rfl⟩
    · have hpos : 0 < (q.1 - p.1) ^ 2 + (q.2 - p.2) ^ 2 := by
        by_contra hc
        have h1 : q.1 - p.1 = 0 := by nlinarith [sq_nonneg (q.1 - p.1), sq_nonneg (q.2 - p.2)]
        have h2 : q.2 - p.2 = 0 := by nlinarith [sq_nonneg (q.1 - p.1), sq_nonneg (q.2 - p.2)]
        exact hne (Prod.ext (by linarith) (by linarith))
      simp only [Line.ofPoints]
      rw [div_pow, div_pow, sq_sqrt hpos.le, ← add_div, div_self hpos.ne']
    · exact h
  refine ⟨⟨_, rfl⟩, rfl, fun t => ?_⟩
  apply sqrt_le_sqrt
  unfold Line.at
  simp only
  set a := l.v.1
  set b := l.v.2
  set u := l.p.1 - x.1 with hu
  set w := l.p.2 - x.2 with hw
  have e1 : ∀ s : ℝ, l.p.1 + s * a - x.1 = u + s * a := fun s => by rw [hu]; ring
  have e2 : ∀ s : ℝ, l.p.2 + s * b - x.2 = w + s * b := fun s => by rw [hw]; ring
  rw [e1, e2, e1, e2]
  have key : (u + t * a) ^ 2 + (w + t * b) ^ 2 - ((u + -(a * u + b * w) * a) ^ 2 + (w + -(a * u + b * w) * b) ^ 2) = (t + (a * u + b * w)) ^ 2 := by
    linear_combination (t ^ 2 - (a * u + b * w) ^ 2) * hv
  nlinarith [sq_nonneg (t + (a * u + b * w))]

/-- The diagonals of a square, and the distance of a corner from the other diagonal. -/
example : ∃ t x, (Line.ofDir (0, 0) (1, 1)).intersect (Line.ofDir (2, 0) (-1, 1)) = .ok (t, x) :=
  let ⟨t, x, h, _⟩ := (C87_intersect (Line.ofDir (0, 0) (1, 1)) (Line.ofDir (2, 0) (-1, 1))).2 (by norm_num [Line.ofDir])
  ⟨t, x, h⟩

example : ∀ t, ((Line.ofPoints (0, 0) (2, 2)).distance (2, 0)).1 ≤ √((((Line.ofPoints (0, 0) (2, 2)).at t).1 - 2) ^ 2 + (((Line.ofPoints (0, 0) (2, 2)).at t).2 - 0) ^ 2) :=
  (C87 (Line.ofPoints (0, 0) (2, 2)) (2, 0) (Or.inl ⟨(0, 0), (2, 2), by norm_num, rfl⟩)).2.2

end Metku.Rhs
