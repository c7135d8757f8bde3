import Mathlib.Tactic.LinearCombination
import Mathlib.Tactic.GCongr
import Mathlib.Analysis.SpecialFunctions.Trigonometric.Bounds
import Verif.Model.ColdRules
import Verif.Props.Ec3Fire

/-! Rules for cold-formed members and sheeting (C247-C251). -/
namespace Metku.Cold

open Metku

/-! ### C247: transverse force on a single web -/

/-- EN 1993-1-3, 6.1.7.2(2) and (3), unstiffened web at a right angle to the flanges, `gammaM1 = 1`. -/
noncomputable def ecWeb (fyb t hw ss r : ℝ) (single atEnd stiffFlange : Bool) : ℝ :=
  let k1 := 1.33 - 0.33 * (fyb / 228)
  let k2 := min (max (1.15 - 0.15 * r / t) 0.5) 1
  let k4 := 1.22 - 0.22 * (fyb / 228)
  let k5 := min (1.06 - 0.06 * r / t) 1
  t ^ 2 * fyb * (match single, atEnd with
    | true, true =>
      if stiffFlange then k1 * k2 * (9.04 - hw / t / 60) * (1 + 0.01 * (ss / t))
      else k1 * k2 * (5.92 - hw / t / 132) *
        (if ss / t ≤ 60 then 1 + 0.01 * (ss / t) else 0.71 + 0.015 * (ss / t))
    | true, false => k4 * k5 * (14.7 - hw / t / 49.5) *
        (if ss / t ≤ 60 then 1 + 0.007 * (ss / t) else 0.75 + 0.011 * (ss / t))
    | false, true => k1 * k2 * (6.66 - hw / t / 64) * (1 + 0.01 * (ss / t))
    | false, false => k4 * k5 * (21.0 - hw / t / 16.3) * (1 + 0.0013 * (ss / t)))

/-- EN 1993-1-3, 6.1.7.2: factor for the angle of the web (degrees). -/
noncomputable def ecK3 (phi : ℝ) : ℝ := 0.7 + 0.3 * (phi / 90) ^ 2

theorem web_value (W : WebLoad) (h : W.webStiff = false) :
    W.resistance = .ok (W.k3 * ecWeb W.fyb W.t W.hw W.ss W.r (decide (|W.e| < 1e-6)) (decide (W.c ≤ 1.5 * W.hw))
      W.flangeStiff) := by
  unfold WebLoad.resistance
  simp only [h, Bool.false_eq_true, if_false, Except.map]
  by_cases h1 : |W.e| < 1e-6 <;> by_cases h2 : W.c ≤ 1.5 * W.hw
  · simp only [h1, h2, if_true, decide_true, ecWeb]
    by_cases h3 : W.flangeStiff = true
    · simp only [h3, if_true]
      congr 1
      simp only [WebLoad.k1, WebLoad.k2, WebLoad.k]
      ac_rfl
    · by_cases h4 : W.ss / W.t ≤ 60 <;>
      · simp only [h3, h4, if_true, if_false, Bool.false_eq_true]
        congr 1
        simp only [WebLoad.k1, WebLoad.k2, WebLoad.k]
        ac_rfl
  · simp only [h1, h2, if_true, if_false, decide_true, decide_false, ecWeb]
    by_cases h4 : W.ss / W.t ≤ 60 <;>
    · simp only [h4, if_true, if_false]
      congr 1
      simp only [WebLoad.k4, WebLoad.k5, WebLoad.k]
      ac_rfl
  · simp only [h1, h2, if_true, if_false, decide_true, decide_false, ecWeb]
    congr 1
    simp only [WebLoad.k1, WebLoad.k2, WebLoad.k, mul_div_assoc]
    ac_rfl
  · simp only [h1, h2, if_false, decide_false, ecWeb]
    congr 1
    simp only [WebLoad.k4, WebLoad.k5, WebLoad.k, mul_div_assoc]
    ac_rfl

/-- The reported resistance never exceeds that of EN 1993-1-3, and it is in proportion to the resistance of the
    perpendicular web in the standard. -/
theorem C247_partial (W : WebLoad) (h : W.webStiff = false) (hphi : 2 ≤ W.phi)
    (hpos : 0 ≤ ecWeb W.fyb W.t W.hw W.ss W.r (decide (|W.e| < 1e-6)) (decide (W.c ≤ 1.5 * W.hw)) W.flangeStiff) :
    ∃ v, W.resistance = .ok v ∧ 0 ≤ v ∧
      v ≤ ecK3 W.phi * ecWeb W.fyb W.t W.hw W.ss W.r (decide (|W.e| < 1e-6)) (decide (W.c ≤ 1.5 * W.hw)) W.flangeStiff := by
  refine ⟨_, web_value W h, ?_, ?_⟩
  · refine mul_nonneg ?_ hpos
    unfold WebLoad.k3
    positivity
  · refine mul_le_mul_of_nonneg_right ?_ hpos
    unfold WebLoad.k3 ecK3
    have : W.phi / 90 ^ 2 ≤ (W.phi / 90) ^ 2 := by
      rw [div_pow]
      gcongr
      nlinarith
    linarith

/-- The angle is divided by 8100 instead of being squared after division by 90: a perpendicular web has 211/300 of
    its resistance, and turning the web costs less than half a percent, where the standard asks for up to 30 percent. -/
theorem C247_violation_angle (W : WebLoad) (h : W.webStiff = false) :
    (W.phi = 90 → W.resistance = .ok (211 / 300 *
      ecWeb W.fyb W.t W.hw W.ss W.r (decide (|W.e| < 1e-6)) (decide (W.c ≤ 1.5 * W.hw)) W.flangeStiff)) ∧
    (∀ phi v v90, 0 ≤ phi → phi ≤ 90 → 0 ≤ v90 → { W with phi := 90 }.resistance = .ok v90 →
      { W with phi := phi }.resistance = .ok v → 0.995 * v90 ≤ v ∧ v ≤ v90) := by
  constructor
  · intro hp
    rw [web_value W h]
    congr 2
    rw [WebLoad.k3, hp]
    norm_num
  · intro phi v v90 h0 h1 hv h90 hphi
    rw [web_value { W with phi := 90 } h] at h90
    rw [web_value { W with phi := phi } h] at hphi
    have h90 := Except.ok.inj h90
    have hphi := Except.ok.inj hphi
    dsimp only at h90 hphi
    generalize ecWeb W.fyb W.t W.hw W.ss W.r (decide (|W.e| < 1e-6)) (decide (W.c ≤ 1.5 * W.hw)) W.flangeStiff = B at *
    simp only [WebLoad.k3] at h90 hphi
    have hB : 0 ≤ B := by
      by_contra hh
      rw [not_le] at hh
      norm_num at h90
      linarith
    subst h90 hphi
    constructor
    · norm_num
      nlinarith
    · norm_num
      nlinarith

/-- Stiffened webs: no value at all. -/
theorem C247_violation_stiffened (W : WebLoad) (h : W.webStiff = true) : W.resistance = .error .unboundLocal := by
  unfold WebLoad.resistance
  simp only [h, if_true, ite_self, Except.map]

/-- More bearing length never lowers the resistance: loads near an end, and pairs of opposite forces. -/
theorem C247_length_partial (W : WebLoad) (h : W.webStiff = false) (hcase : W.c ≤ 1.5 * W.hw ∨ 1e-6 ≤ |W.e|)
    (ht : 0 < W.t) (hphi : 0 ≤ W.phi) (ss : ℝ) (h0 : 0 ≤ W.ss) (hss : W.ss ≤ ss) (v v' : ℝ) (hpos : 0 ≤ v)
    (hv : W.resistance = .ok v) (hv' : { W with ss := ss }.resistance = .ok v') : v ≤ v' := by
  rw [web_value W h] at hv
  rw [web_value { W with ss := ss } h] at hv'
  have hv := Except.ok.inj hv
  have hv' := Except.ok.inj hv'
  dsimp only at hv hv'
  have hk : 0 < W.k3 := by unfold WebLoad.k3; positivity
  have hk' : WebLoad.k3 { W with ss := ss } = W.k3 := rfl
  rw [hk'] at hv'
  have hd : W.ss / W.t ≤ ss / W.t := by gcongr
  have hd0 : 0 ≤ W.ss / W.t := by positivity
  rw [← hv] at hpos
  have hB := nonneg_of_mul_nonneg_right hpos hk
  rw [← hv, ← hv']
  refine mul_le_mul_of_nonneg_left ?_ hk.le
  have key : ∀ a x y : ℝ, 0 < x → x ≤ y → 0 ≤ a * x → a * x ≤ a * y := by
    intro a x y hx hxy ha
    have := nonneg_of_mul_nonneg_left ha hx
    gcongr
  unfold ecWeb at hB ⊢
  generalize W.ss / W.t = s at *
  generalize ss / W.t = s' at *
  by_cases h1 : |W.e| < 1e-6 <;> by_cases h2 : W.c ≤ 1.5 * W.hw
  · simp only [h1, h2, decide_true] at hB ⊢
    by_cases h3 : W.flangeStiff = true
    · simp only [h3, if_true, ← mul_assoc] at hB ⊢
      exact key _ _ _ (by positivity) (by linarith) hB
    · simp only [h3, if_false, ← mul_assoc, Bool.false_eq_true] at hB ⊢
      refine key _ _ _ ?_ ?_ hB
      · split <;> positivity
      · split <;> split
        · linarith
        · norm_num at *; linarith
        · linarith
        · linarith
  · exact absurd hcase (not_or.2 ⟨h2, not_le.2 h1⟩)
  · simp only [h1, h2, decide_true, decide_false, ← mul_assoc] at hB ⊢
    exact key _ _ _ (by positivity) (by linarith) hB
  · simp only [h1, h2, decide_false, ← mul_assoc] at hB ⊢
    exact key _ _ _ (by positivity) (by linarith) hB

/-- A load away from the ends: at 60 times the thickness more bearing length means less resistance. -/
theorem C247_violation_length (W : WebLoad) (h : W.webStiff = false) (he : |W.e| < 1e-6) (hc : 1.5 * W.hw < W.c)
    (ht : 0 < W.t) (v v' : ℝ) (hpos : 0 < v)
    (hv : { W with ss := 60 * W.t }.resistance = .ok v) (hv' : { W with ss := 60.5 * W.t }.resistance = .ok v') :
    v' < v := by
  rw [web_value { W with ss := 60 * W.t } h] at hv
  rw [web_value { W with ss := 60.5 * W.t } h] at hv'
  have hv := Except.ok.inj hv
  have hv' := Except.ok.inj hv'
  dsimp only at hv hv'
  have hk1 : WebLoad.k3 { W with ss := 60 * W.t } = W.k3 := rfl
  have hk2 : WebLoad.k3 { W with ss := 60.5 * W.t } = W.k3 := rfl
  rw [hk1] at hv
  rw [hk2] at hv'
  unfold ecWeb at hv hv'
  simp only [he, not_le.2 hc, decide_true, decide_false, mul_div_cancel_right₀ _ ht.ne'] at hv hv'
  norm_num only at hv hv'
  simp only [if_true, if_false] at hv hv'
  generalize (61 / 50 - 11 / 50 * (W.fyb / 228)) * min (53 / 50 - 3 / 50 * W.r / W.t) 1 *
    (147 / 10 - W.hw / W.t / (99 / 2)) = Y at hv hv'
  have e : ∀ c, W.k3 * (W.t ^ 2 * W.fyb * (Y * c)) = W.k3 * (W.t ^ 2 * W.fyb) * Y * c := fun c => by ring
  rw [e] at hv hv'
  linarith

/-- Stiffeners of the flange never lower the resistance at an end, within the bounds of EN 1993-1-3 (6.17). -/
theorem C247_flange_partial (W : WebLoad) (h : W.webStiff = false) (he : |W.e| < 1e-6) (hc : W.c ≤ 1.5 * W.hw)
    (ht : 0 < W.t) (hfy : 0 ≤ W.fyb) (hfy' : W.fyb ≤ 900) (hphi : 0 ≤ W.phi) (h0 : 0 ≤ W.ss) (hss : W.ss ≤ 210 * W.t)
    (hw0 : 0 ≤ W.hw) (hhw : W.hw ≤ 200 * W.t) (v v' : ℝ)
    (hv : { W with flangeStiff := false }.resistance = .ok v)
    (hv' : { W with flangeStiff := true }.resistance = .ok v') : v ≤ v' := by
  rw [web_value { W with flangeStiff := false } h] at hv
  rw [web_value { W with flangeStiff := true } h] at hv'
  have hv := Except.ok.inj hv
  have hv' := Except.ok.inj hv'
  dsimp only at hv hv'
  have hk1 : WebLoad.k3 { W with flangeStiff := false } = W.k3 := rfl
  have hk2 : WebLoad.k3 { W with flangeStiff := true } = W.k3 := rfl
  rw [hk1] at hv
  rw [hk2] at hv'
  have hk : 0 < W.k3 := by unfold WebLoad.k3; positivity
  rw [← hv, ← hv']
  refine mul_le_mul_of_nonneg_left ?_ hk.le
  unfold ecWeb
  simp only [he, hc, decide_true, if_true, Bool.false_eq_true, if_false]
  refine mul_le_mul_of_nonneg_left ?_ (by positivity)
  rw [mul_assoc, mul_assoc _ (9.04 - W.hw / W.t / 60)]
  refine mul_le_mul_of_nonneg_left ?_ (mul_nonneg ?_ ?_)
  · have hs0 : 0 ≤ W.ss / W.t := by positivity
    have hs1 : W.ss / W.t ≤ 210 := by rw [div_le_iff₀ ht]; exact hss
    have hx0 : 0 ≤ W.hw / W.t := by positivity
    have hx1 : W.hw / W.t ≤ 200 := by rw [div_le_iff₀ ht]; exact hhw
    generalize W.ss / W.t = s at *
    generalize W.hw / W.t = x at *
    split
    · norm_num at *
      nlinarith
    · norm_num at *
      nlinarith [mul_nonneg hs0 hx0, mul_nonneg (sub_nonneg.2 hs1) (sub_nonneg.2 hx1), mul_nonneg hs0 (sub_nonneg.2 hx1),
        mul_nonneg (sub_nonneg.2 hs1) hx0]
  · have : W.fyb / 228 ≤ 4 := by rw [div_le_iff₀ (by norm_num)]; linarith
    norm_num at *
    linarith
  · refine le_min ?_ zero_le_one
    exact le_trans (by norm_num) (le_max_right _ _)

/-! ### C248: transverse force on two or more webs -/

namespace TwoWebs

/-- The factor of the bearing length. -/
noncomputable def base (W : TwoWebs) : ℝ :=
  W.alpha * W.t ^ 2 * √(W.fyb * 210000) * (1 - 0.1 * √(W.r / W.t)) * (2.4 + (W.phi / 90) ^ 2)

theorem resistance_eq (W : TwoWebs) : W.resistance = W.la.map fun la => W.base * (0.5 + √(0.02 * la / W.t)) := by
  unfold resistance base
  congr 1
  funext la
  ring

theorem base_nonneg (W : TwoWebs) (ht : 0 < W.t) (hr : W.r ≤ 100 * W.t) : 0 ≤ W.base := by
  unfold base
  have h1 : 0 ≤ W.alpha := by
    unfold alpha
    split
    · norm_num
    · split
      · norm_num
      · split
        · norm_num
        · positivity
  have h2 : √(W.r / W.t) ≤ 10 := by
    rw [show (10 : ℝ) = √(10 ^ 2) by rw [Real.sqrt_sq (by norm_num)]]
    apply Real.sqrt_le_sqrt
    rw [div_le_iff₀ ht]
    linarith
  have h3 : 0 ≤ 1 - 0.1 * √(W.r / W.t) := by norm_num; linarith
  positivity

/-- The resistance grows with the bearing length. -/
theorem factor_mono {B t x y : ℝ} (hB : 0 ≤ B) (ht : 0 < t) (h : x ≤ y) :
    B * (0.5 + √(0.02 * x / t)) ≤ B * (0.5 + √(0.02 * y / t)) := by
  refine mul_le_mul_of_nonneg_left ?_ hB
  have : √(0.02 * x / t) ≤ √(0.02 * y / t) := Real.sqrt_le_sqrt (by gcongr)
  linarith

theorem la_cat2_new {W : TwoWebs} (h : W.category2 = true) (ho : W.old = false) : W.la = .ok (min W.ss 200) := by
  unfold la
  rw [if_pos h, ho]
  rfl

theorem la_cat1 {W : TwoWebs} (h : W.category2 = false) : W.la = .ok 10 := by
  unfold la
  rw [h]
  rfl

/-- The bearing length as a function of the relative difference of the shear forces. -/
noncomputable def laOf (ss beta : ℝ) : ℝ :=
  if beta ≤ 0.2 then ss else if 0.3 ≤ beta then 10 else ss - (beta - 0.2) / 0.1 * (ss - 10)

theorem la_cat2_old {W : TwoWebs} (h : W.category2 = true) (ho : W.old = true) {V0 V1 : ℝ} (hV : W.VEd = some (V0, V1))
    (hne : |V0| + |V1| ≠ 0) : W.la = .ok (min (laOf W.ss ((|V0| - |V1|) / (|V0| + |V1|))) 200) := by
  unfold la laOld
  rw [if_pos h, if_pos ho, hV]
  dsimp only
  rw [if_neg hne]
  rfl

theorem laOf_mono_ss {ss ss' : ℝ} (b : ℝ) (h : ss ≤ ss') : laOf ss b ≤ laOf ss' b := by
  unfold laOf
  split
  · exact h
  · split
    · exact le_rfl
    · rename_i h1 h2
      rw [not_le] at h1 h2
      have : (b - 0.2) / 0.1 ≤ 1 := by rw [div_le_one (by norm_num)]; norm_num at *; linarith
      nlinarith

theorem laOf_anti {ss b b' : ℝ} (hs : 10 ≤ ss) (h : b ≤ b') : laOf ss b' ≤ laOf ss b := by
  have q0 : ∀ x : ℝ, 0.2 < x → 0 ≤ (x - 0.2) / 0.1 := fun x hx => by
    have : 0 ≤ x - 0.2 := by linarith
    positivity
  have q1 : ∀ x : ℝ, x < 0.3 → (x - 0.2) / 0.1 ≤ 1 := fun x hx => by
    rw [div_le_one (by norm_num)]; norm_num at *; linarith
  unfold laOf
  by_cases h1 : b' ≤ 0.2
  · rw [if_pos h1, if_pos (h.trans h1)]
  · rw [if_neg h1]
    rw [not_le] at h1
    by_cases h2 : b ≤ 0.2
    · rw [if_pos h2]
      split
      · exact hs
      · nlinarith [q0 b' h1]
    · rw [if_neg h2]
      by_cases h3 : 0.3 ≤ b
      · rw [if_pos h3, if_pos (h3.trans h)]
      · rw [if_neg h3]
        split
        · nlinarith [q1 b (not_le.1 h3)]
        · have : (b - 0.2) / 0.1 ≤ (b' - 0.2) / 0.1 := by gcongr
          nlinarith

theorem laOf_ge {ss : ℝ} (b : ℝ) (hs : 10 ≤ ss) : 10 ≤ laOf ss b := by
  have := laOf_anti hs (le_max_left b 1)
  have e : laOf ss (max b 1) = 10 := by
    unfold laOf
    have h1 : (1 : ℝ) ≤ max b 1 := le_max_right _ _
    rw [if_neg (by norm_num), if_pos (le_trans (by norm_num) h1)]
  rwa [e] at this

theorem laOf_le {ss : ℝ} (b : ℝ) (hs : 10 ≤ ss) : laOf ss b ≤ ss := by
  have := laOf_anti hs (min_le_left b 0)
  have e : laOf ss (min b 0) = ss := by
    unfold laOf
    rw [if_pos (le_trans (min_le_right b 0) (by norm_num))]
  rwa [e] at this

/-- The cases in which there is a value. -/
theorem la_cases {W : TwoWebs} {v : ℝ} (h : W.la = .ok v) : (W.category2 = false ∧ v = 10) ∨
    (W.category2 = true ∧ W.old = false ∧ v = min W.ss 200) ∨
    (W.category2 = true ∧ W.old = true ∧ ∃ V0 V1, W.VEd = some (V0, V1) ∧ |V0| + |V1| ≠ 0 ∧
      v = min (laOf W.ss ((|V0| - |V1|) / (|V0| + |V1|))) 200) := by
  cases hc : W.category2 with
  | false => rw [la_cat1 hc] at h; exact .inl ⟨rfl, (Except.ok.inj h).symm⟩
  | true =>
    cases ho : W.old with
    | false => rw [la_cat2_new hc ho] at h; exact .inr (.inl ⟨rfl, rfl, (Except.ok.inj h).symm⟩)
    | true =>
      refine .inr (.inr ⟨rfl, rfl, ?_⟩)
      cases hV : W.VEd with
      | none => unfold la laOld at h; rw [if_pos hc, if_pos ho, hV] at h; cases h
      | some V =>
        obtain ⟨V0, V1⟩ := V
        by_cases hne : |V0| + |V1| = 0
        · unfold la laOld at h
          rw [if_pos hc, if_pos ho, hV] at h
          dsimp only at h
          rw [if_pos hne] at h
          cases h
        · rw [la_cat2_old hc ho hV hne] at h
          exact ⟨V0, V1, rfl, hne, (Except.ok.inj h).symm⟩

theorem resistance_ok {W : TwoWebs} {v : ℝ} (h : W.resistance = .ok v) :
    ∃ l, W.la = .ok l ∧ v = W.base * (0.5 + √(0.02 * l / W.t)) := by
  rw [resistance_eq] at h
  cases hl : W.la with
  | error e => rw [hl] at h; cases h
  | ok l => rw [hl] at h; exact ⟨l, rfl, (Except.ok.inj h).symm⟩

theorem alpha_bounds (W : TwoWebs) : 0 ≤ W.alpha ∧ W.alpha ≤ 0.15 := by
  unfold alpha
  split
  · norm_num
  · split
    · norm_num
    · split
      · norm_num
      · exact ⟨le_min (by positivity) (by norm_num), min_le_right _ _⟩

/-- The part of the resistance that depends on neither the position of the load nor the bearing length. -/
noncomputable def core (W : TwoWebs) : ℝ :=
  W.t ^ 2 * √(W.fyb * 210000) * (1 - 0.1 * √(W.r / W.t)) * (2.4 + (W.phi / 90) ^ 2)

theorem base_eq (W : TwoWebs) : W.base = W.alpha * W.core := by
  unfold base core
  ac_rfl

theorem core_nonneg (W : TwoWebs) (ht : 0 < W.t) (hr : W.r ≤ 100 * W.t) : 0 ≤ W.core := by
  unfold core
  have h2 : √(W.r / W.t) ≤ 10 := by
    rw [show (10 : ℝ) = √(10 ^ 2) by rw [Real.sqrt_sq (by norm_num)]]
    apply Real.sqrt_le_sqrt
    rw [div_le_iff₀ ht]
    linarith
  have h3 : 0 ≤ 1 - 0.1 * √(W.r / W.t) := by norm_num; linarith
  positivity

end TwoWebs

/-- EN 1993-1-3, (6.18), `gammaM1 = 1`, with the coefficient `a` and the effective bearing length `la`. -/
noncomputable def ecTwoWebs (fyb r t phi a la : ℝ) : ℝ :=
  a * t ^ 2 * √(fyb * 210000) * (1 - 0.1 * √(r / t)) * (0.5 + √(0.02 * la / t)) * (2.4 + (phi / 90) ^ 2)

/-- EN 1993-1-3, (6.20): the bearing length at a support or load of category 2 as a function of `beta_V`. -/
noncomputable def ecLa (ss b : ℝ) : ℝ :=
  if b ≤ 0.2 then min ss 200 else if 0.3 ≤ b then 10 else min (10 + (0.3 - b) * 10 * (ss - 10)) 200

/-- EN 1993-1-3, 6.1.7.3: load near an end or end support (category 1), any other load or support (category 2). -/
theorem C248_code_partial (W : TwoWebs) (x : ℝ) (hx : 0 < x) (hh : 0 < W.hw) (hold : W.old = true) :
    (x ≤ 1.5 * W.hw → ({ W with e := some x, c := none }.resistance = .ok (ecTwoWebs W.fyb W.r W.t W.phi 0.075 10) ∧
      { W with e := none, c := some x }.resistance = .ok (ecTwoWebs W.fyb W.r W.t W.phi 0.075 10))) ∧
    ∀ V0 V1, |V0| + |V1| ≠ 0 → ∀ v, v = ecTwoWebs W.fyb W.r W.t W.phi 0.15 (ecLa W.ss ((|V0| - |V1|) / (|V0| + |V1|))) →
      (1.5 * W.hw < x → { W with e := some x, c := none, VEd := some (V0, V1) }.resistance = .ok v ∧
        { W with e := none, c := some x, VEd := some (V0, V1) }.resistance = .ok v) ∧
      { W with e := none, c := none, VEd := some (V0, V1) }.resistance = .ok v := by
  have near : ∀ U : TwoWebs, U.category2 = false → U.old = true →
      U.resistance = .ok (ecTwoWebs U.fyb U.r U.t U.phi 0.075 10) := by
    intro U hc ho
    unfold TwoWebs.resistance ecTwoWebs
    rw [TwoWebs.la_cat1 hc]
    unfold TwoWebs.alpha
    rw [hc, ho]
    rfl
  have far : ∀ (U : TwoWebs) (V0 V1 : ℝ), U.category2 = true → U.old = true → U.VEd = some (V0, V1) → |V0| + |V1| ≠ 0 →
      U.resistance = .ok (ecTwoWebs U.fyb U.r U.t U.phi 0.15 (ecLa U.ss ((|V0| - |V1|) / (|V0| + |V1|)))) := by
    intro U V0 V1 hc ho hV hne
    unfold TwoWebs.resistance ecTwoWebs
    rw [TwoWebs.la_cat2_old hc ho hV hne]
    have e1 : U.alpha = 0.15 := by unfold TwoWebs.alpha; rw [hc]; rfl
    have e2 : min (TwoWebs.laOf U.ss ((|V0| - |V1|) / (|V0| + |V1|))) 200 = ecLa U.ss ((|V0| - |V1|) / (|V0| + |V1|)) := by
      unfold TwoWebs.laOf ecLa
      split
      · rfl
      · split
        · norm_num
        · congr 1
          norm_num
          ring
    show Except.ok _ = _
    rw [e1, e2]
  have cat : ∀ (U : TwoWebs), (U.category2 = true ↔
      (U.e.getD (-1) > 1.5 * U.hw ∨ U.c.getD (-1) > 1.5 * U.hw ∨ (U.e.getD (-1) < 0 ∧ U.c.getD (-1) < 0))) := by
    intro U
    unfold TwoWebs.category2
    rw [decide_eq_true_eq]
  have hm : ¬ ((-1 : ℝ) > 1.5 * W.hw) := by norm_num; linarith
  refine ⟨fun hle => ⟨near _ ?_ hold, near _ ?_ hold⟩, fun V0 V1 hne v hv => ⟨fun hlt => ⟨?_, ?_⟩, ?_⟩⟩
  · rw [← Bool.not_eq_true, cat]
    rintro (h | h | h)
    · exact absurd h (not_lt.2 hle)
    · exact hm h
    · exact absurd h.1 (not_lt.2 hx.le)
  · rw [← Bool.not_eq_true, cat]
    rintro (h | h | h)
    · exact hm h
    · exact absurd h (not_lt.2 hle)
    · exact absurd h.2 (not_lt.2 hx.le)
  · rw [hv]
    exact far _ V0 V1 ((cat _).2 (.inl hlt)) hold rfl hne
  · rw [hv]
    exact far _ V0 V1 ((cat _).2 (.inr (.inl hlt))) hold rfl hne
  · rw [hv]
    exact far _ V0 V1 ((cat _).2 (.inr (.inr ⟨by norm_num, by norm_num⟩))) hold rfl hne

/-- A wider support never lowers the resistance. -/
theorem C248_length_partial (W : TwoWebs) (ht : 0 < W.t) (hr : W.r ≤ 100 * W.t) (hh : 0 ≤ W.hw) (ss : ℝ) (hs : W.ss ≤ ss)
    (v v' : ℝ) (hv : W.resistance = .ok v) (hv' : { W with ss := ss }.resistance = .ok v') : v ≤ v' := by
  obtain ⟨l, hl, rfl⟩ := TwoWebs.resistance_ok hv
  obtain ⟨l', hl', rfl⟩ := TwoWebs.resistance_ok hv'
  have hll : l ≤ l' := by
    have hcat : TwoWebs.category2 { W with ss := ss } = W.category2 := rfl
    rcases TwoWebs.la_cases hl with ⟨hc, rfl⟩ | ⟨hc, ho, rfl⟩ | ⟨hc, ho, V0, V1, hV, hne, rfl⟩
    · rw [TwoWebs.la_cat1 (hcat.trans hc)] at hl'
      exact (Except.ok.inj hl').le
    · rw [TwoWebs.la_cat2_new (hcat.trans hc) ho] at hl'
      rw [← Except.ok.inj hl']
      exact min_le_min_right _ hs
    · rw [TwoWebs.la_cat2_old (hcat.trans hc) ho hV hne] at hl'
      rw [← Except.ok.inj hl']
      exact min_le_min_right _ (TwoWebs.laOf_mono_ss _ hs)
  refine (TwoWebs.factor_mono (W.base_nonneg ht hr) ht hll).trans ?_
  refine mul_le_mul_of_nonneg_right ?_ (by positivity)
  rw [TwoWebs.base_eq, TwoWebs.base_eq]
  have hcore : TwoWebs.core { W with ss := ss } = W.core := rfl
  rw [hcore]
  refine mul_le_mul_of_nonneg_right ?_ (W.core_nonneg ht hr)
  have hcat : TwoWebs.category2 { W with ss := ss } = W.category2 := rfl
  unfold TwoWebs.alpha
  rw [hcat]
  dsimp only
  split
  · exact le_rfl
  · split
    · exact le_rfl
    · split
      · exact le_rfl
      · gcongr

/-- Shear forces on the two sides: their signs are of no consequence, and the more they differ the lower is the
    resistance. -/
theorem C248_shear_partial (W : TwoWebs) (ht : 0 < W.t) (hr : W.r ≤ 100 * W.t) (hs : 10 ≤ W.ss) (V0 V1 V0' V1' : ℝ)
    (hpos : 0 < |V0|) (hpos' : 0 < |V0'|) (hratio : |V1'| / |V0'| ≤ |V1| / |V0|) (v v' : ℝ)
    (hv : { W with VEd := some (V0, V1) }.resistance = .ok v)
    (hv' : { W with VEd := some (V0', V1') }.resistance = .ok v') : v' ≤ v := by
  obtain ⟨l, hl, rfl⟩ := TwoWebs.resistance_ok hv
  obtain ⟨l', hl', rfl⟩ := TwoWebs.resistance_ok hv'
  have hb : TwoWebs.base { W with VEd := some (V0, V1) } = W.base := rfl
  have hb' : TwoWebs.base { W with VEd := some (V0', V1') } = W.base := rfl
  rw [hb, hb']
  refine TwoWebs.factor_mono (W.base_nonneg ht hr) ht ?_
  have hcat : TwoWebs.category2 { W with VEd := some (V0, V1) } = W.category2 := rfl
  have hcat' : TwoWebs.category2 { W with VEd := some (V0', V1') } = W.category2 := rfl
  cases hc : W.category2 with
  | false =>
    rw [TwoWebs.la_cat1 (hcat.trans hc)] at hl
    rw [TwoWebs.la_cat1 (hcat'.trans hc)] at hl'
    rw [← Except.ok.inj hl, ← Except.ok.inj hl']
  | true =>
    cases ho : W.old with
    | false =>
      rw [TwoWebs.la_cat2_new (hcat.trans hc) ho] at hl
      rw [TwoWebs.la_cat2_new (hcat'.trans hc) ho] at hl'
      rw [← Except.ok.inj hl, ← Except.ok.inj hl']
    | true =>
      have p1 := abs_nonneg V1
      have p1' := abs_nonneg V1'
      rw [TwoWebs.la_cat2_old (hcat.trans hc) ho rfl (by positivity)] at hl
      rw [TwoWebs.la_cat2_old (hcat'.trans hc) ho rfl (by positivity)] at hl'
      rw [← Except.ok.inj hl, ← Except.ok.inj hl']
      refine min_le_min_right _ (TwoWebs.laOf_anti hs ?_)
      rw [div_le_div_iff₀ hpos' hpos] at hratio
      rw [div_le_div_iff₀ (by positivity) (by positivity)]
      nlinarith

/-- Loads and supports away from the ends never have less resistance than those near an end. -/
theorem C248_position_partial (W : TwoWebs) (ht : 0 < W.t) (hr : W.r ≤ 100 * W.t) (hs : 10 ≤ W.ss)
    (hnear : W.category2 = false) (e c : Option ℝ) (hfar : { W with e := e, c := c }.category2 = true) (v v' : ℝ)
    (hv : W.resistance = .ok v) (hv' : { W with e := e, c := c }.resistance = .ok v') : v ≤ v' := by
  obtain ⟨l, hl, rfl⟩ := TwoWebs.resistance_ok hv
  obtain ⟨l', hl', rfl⟩ := TwoWebs.resistance_ok hv'
  rw [TwoWebs.la_cat1 hnear] at hl
  rw [← Except.ok.inj hl]
  have h10 : 10 ≤ l' := by
    rcases TwoWebs.la_cases hl' with ⟨_, rfl⟩ | ⟨_, _, rfl⟩ | ⟨_, _, V0, V1, _, _, rfl⟩
    · exact le_rfl
    · exact le_min hs (by norm_num)
    · exact le_min (TwoWebs.laOf_ge _ hs) (by norm_num)
  refine (TwoWebs.factor_mono (W.base_nonneg ht hr) ht h10).trans ?_
  refine mul_le_mul_of_nonneg_right ?_ (by positivity)
  rw [TwoWebs.base_eq, TwoWebs.base_eq]
  have hcore : TwoWebs.core { W with e := e, c := c } = W.core := rfl
  rw [hcore]
  refine mul_le_mul_of_nonneg_right ?_ (W.core_nonneg ht hr)
  have ha : TwoWebs.alpha { W with e := e, c := c } = 0.15 := by
    unfold TwoWebs.alpha
    rw [if_pos hfar]
  rw [ha]
  exact W.alpha_bounds.2

/-- An inner support is a call without distances (that is what the documentation asks for); under the default code
    such a call fails unless the shear forces are given and differ from zero. -/
theorem C248_violation_support (W : TwoWebs) (he : W.e = none) (hc : W.c = none) (ho : W.old = true) :
    (W.VEd = none → W.resistance = .error .unboundLocal) ∧
    (W.VEd = some (0, 0) → W.resistance = .error .zeroDivision) := by
  have hcat : W.category2 = true := by
    unfold TwoWebs.category2
    rw [he, hc]
    simp
  constructor <;>
  · intro hV
    unfold TwoWebs.resistance TwoWebs.la TwoWebs.laOld
    rw [if_pos hcat, if_pos ho, hV]
    simp [Except.map]

/-! ### C249: screws -/

/-- EN 1993-1-3, table 8.2: factor of the bearing resistance of self-tapping screws. -/
noncomputable def ecAlpha (d t t1 : ℝ) : ℝ :=
  let a := min (3.2 * √(t / d)) 2.1
  let b := if t < 1 then a else 2.1
  if t1 = t then a else if 2.5 * t ≤ t1 then b else a + (t1 - t) / (1.5 * t) * (b - a)

theorem screwAlpha_eq (d t t1 : ℝ) (ht : 0 < t) : screwAlpha d t t1 = ecAlpha d t t1 := by
  unfold screwAlpha ecAlpha
  generalize min (3.2 * √(t / d)) 2.1 = a
  by_cases h0 : t1 = t
  · rw [if_pos h0.symm]; dsimp only; rw [if_pos h0]
  · rw [if_neg (Ne.symm h0)]
    dsimp only
    rw [if_neg h0]
    by_cases h1 : 2.5 * t ≤ t1
    · by_cases h2 : t < 1
      · simp [h1, h2]
      · simp [h1, h2]
    · simp only [ge_iff_le, h1, false_and, if_false]
      unfold linInterp
      generalize (if t < 1 then a else (2.1 : ℝ)) = b
      dsimp only
      have : (2.5 * t - t) = 1.5 * t := by norm_num; ring
      rw [this]
      have h3 : 1.5 * t ≠ 0 := by positivity
      field_simp
      ring

/-- The bearing resistance of a screw is that of the table. -/
theorem C249_bearing (fu d t t1 : ℝ) (ht : 0 < t) :
    screwBearing fu d t t1 = ecAlpha d t t1 * fu * d * t / 1.25 := by
  unfold screwBearing
  rw [screwAlpha_eq d t t1 ht]

theorem ecAlpha_mono (d t t1 t1' : ℝ) (ht : 0 < t) (h1 : t ≤ t1) (h2 : t1 ≤ t1') : ecAlpha d t t1 ≤ ecAlpha d t t1' := by
  unfold ecAlpha
  have ha : min (3.2 * √(t / d)) 2.1 ≤ 2.1 := min_le_right _ _
  generalize min (3.2 * √(t / d)) 2.1 = a at *
  have hb : a ≤ (if t < 1 then a else (2.1 : ℝ)) := by split <;> linarith
  dsimp only
  generalize (if t < 1 then a else (2.1 : ℝ)) = b at *
  have q0 : ∀ x, t ≤ x → 0 ≤ (x - t) / (1.5 * t) := fun x hx => by
    have := sub_nonneg.2 hx
    positivity
  have q1 : ∀ x, x < 2.5 * t → (x - t) / (1.5 * t) ≤ 1 := fun x hx => by
    rw [div_le_one (by positivity)]
    norm_num at *
    linarith
  by_cases k : t1 = t
  · rw [if_pos k]
    split
    · exact le_rfl
    · split
      · exact hb
      · nlinarith [q0 t1' (h1.trans h2)]
  · have k' : t1' ≠ t := fun e => k (le_antisymm (e ▸ h2) h1)
    rw [if_neg k, if_neg k']
    by_cases k1 : 2.5 * t ≤ t1
    · rw [if_pos k1, if_pos (k1.trans h2)]
    · rw [if_neg k1]
      split
      · nlinarith [q1 t1 (not_le.1 k1)]
      · have : (t1 - t) / (1.5 * t) ≤ (t1' - t) / (1.5 * t) := by gcongr
        nlinarith

/-- A thicker second sheet never lowers the bearing resistance, which stays between that of equal sheets and that of
    a thick support. -/
theorem C249_mono (fu d t t1 t1' : ℝ) (ht : 0 < t) (hfu : 0 ≤ fu) (hd : 0 ≤ d) (h1 : t ≤ t1) (h2 : t1 ≤ t1') :
    min (3.2 * √(t / d)) 2.1 * fu * d * t / 1.25 ≤ screwBearing fu d t t1 ∧
    screwBearing fu d t t1 ≤ screwBearing fu d t t1' ∧ screwBearing fu d t t1 ≤ 2.1 * fu * d * t / 1.25 := by
  rw [C249_bearing _ _ _ _ ht, C249_bearing _ _ _ _ ht]
  have e1 : ecAlpha d t t = min (3.2 * √(t / d)) 2.1 := by unfold ecAlpha; simp
  have m1 := ecAlpha_mono d t t t1 ht le_rfl h1
  have m2 := ecAlpha_mono d t t1 t1' ht h1 h2
  have m3 : ecAlpha d t t1 ≤ 2.1 := by
    refine (ecAlpha_mono d t t1 (max t1 (2.5 * t)) ht h1 (le_max_left _ _)).trans ?_
    unfold ecAlpha
    dsimp only
    have hm : min (3.2 * √(t / d)) 2.1 ≤ 2.1 := min_le_right _ _
    split
    · exact hm
    · rw [if_pos (le_max_right _ _)]
      split
      · exact hm
      · exact le_rfl
  rw [e1] at m1
  refine ⟨?_, ?_, ?_⟩ <;> gcongr

/-- Shear resistance: a value for four diameters and two materials, larger for larger screws, and never more for
    stainless than for hardened screws. -/
theorem C249_shear_table (d d' v v' w : ℝ) (m : String) (hd : d ≤ d') (h : screwShearFin d m = .ok v)
    (h' : screwShearFin d' m = .ok v') (hs : screwShearFin d "stainless" = .ok w) : 0 < v ∧ v ≤ v' ∧ w ≤ v := by
  have hm : m = "hardened" ∨ m = "stainless" := by
    by_contra hm
    rw [not_or] at hm
    unfold screwShearFin at h
    rw [if_neg hm.1, if_neg hm.2] at h
    cases h
  have hc : ∀ x y m, screwShearFin x m = .ok y → x = 4.8 ∨ x = 5.5 ∨ x = 6.3 ∨ x = 8 := by
    intro x y m h
    by_contra hx
    simp only [not_or] at hx
    unfold screwShearFin at h
    simp only [hx, if_false] at h
    split at h <;> [skip; split at h] <;> cases h
  have key : ∀ x, x = 4.8 ∨ x = 5.5 ∨ x = 6.3 ∨ x = 8 →
      screwShearFin x "hardened" = .ok (if x = 4.8 then 5200 else if x = 5.5 then 7200 else if x = 6.3 then 9800 else 16300) ∧
      screwShearFin x "stainless" = .ok (if x = 4.8 then 4600 else if x = 5.5 then 6500 else if x = 6.3 then 8500 else 14300) := by
    rintro x (rfl | rfl | rfl | rfl) <;> norm_num [screwShearFin] <;> decide
  have c := hc _ _ _ h
  have c' := hc _ _ _ h'
  have e := (key d c).2
  rw [hs] at e
  have e := Except.ok.inj e
  rcases hm with rfl | rfl
  · rw [(key d c).1] at h
    rw [(key d' c').1] at h'
    have h := Except.ok.inj h
    have h' := Except.ok.inj h'
    rcases c with rfl | rfl | rfl | rfl <;> rcases c' with rfl | rfl | rfl | rfl <;> norm_num at * <;>
      (refine ⟨?_, ?_, ?_⟩ <;> linarith)
  · rw [(key d c).2] at h
    rw [(key d' c').2] at h'
    have h := Except.ok.inj h
    have h' := Except.ok.inj h'
    rcases c with rfl | rfl | rfl | rfl <;> rcases c' with rfl | rfl | rfl | rfl <;> norm_num at * <;>
      (refine ⟨?_, ?_, ?_⟩ <;> linarith)

/-- Outside the table: exceptions of two sorts. -/
theorem C249_violation_table (d : ℝ) (m : String) :
    (m ≠ "hardened" → m ≠ "stainless" → screwShearFin d m = .error .unboundLocal) ∧
    (m = "hardened" ∨ m = "stainless" → d ≠ 4.8 → d ≠ 5.5 → d ≠ 6.3 → d ≠ 8 → screwShearFin d m = .error .keyError) := by
  constructor
  · intro h1 h2
    unfold screwShearFin
    rw [if_neg h1, if_neg h2]
  · rintro (rfl | rfl) h1 h2 h3 h4 <;> simp [screwShearFin, h1, h2, h3, h4]

/-- EN 1993-1-3, table 8.2: range of validity. -/
def EcScrewRange (e1 e2 p1 p2 d : ℝ) : Prop := 3 * d ≤ e1 ∧ 1.5 * d ≤ e2 ∧ 3 * d ≤ p1 ∧ 3 * d ≤ p2 ∧ 3 ≤ d ∧ d ≤ 8

/-- All joints of the range pass the check. -/
theorem C249_validity_partial (e1 e2 p1 p2 d : ℝ) (h : EcScrewRange e1 e2 p1 p2 d) : screwValid e1 e2 p1 p2 d = true := by
  obtain ⟨h1, h2, h3, h4, h5, h6⟩ := h
  unfold screwValid
  rw [decide_eq_true_eq]
  refine ⟨h1, ?_, h3, h4, h6, h5⟩
  norm_num at *
  linarith

/-- The other way round fails: whatever the diameter, an edge distance of 1.5 mm passes. -/
theorem C249_violation_validity (d : ℝ) (h3 : 3 ≤ d) (h8 : d ≤ 8) :
    screwValid (3 * d) 1.5 (3 * d) (3 * d) d = true ∧ ¬ EcScrewRange (3 * d) 1.5 (3 * d) (3 * d) d := by
  constructor
  · simp [screwValid, h3, h8]
  · rintro ⟨_, h, _⟩
    norm_num at h
    linarith

/-- In fire the bearing resistance of the sheet follows from the strength of the screw: at 20 °C, for screws stronger
    than the sheet, it grows in proportion to the strength of the screw and ignores the strength of the sheet. -/
theorem C249_violation_fire (fu fu' d t fub e1 e2 c : ℝ) (hfu : 0 < fu) (hfu' : 0 < fu') (h : fu ≤ fub) (h' : fu' ≤ fub)
    (hc : 1 ≤ c) :
    ∃ v, screwBearingT fu d t fub e1 e2 20 = .ok v ∧ screwBearingT fu' d t fub e1 e2 20 = .ok v ∧
      screwBearingT fu d t (c * fub) e1 e2 20 = .ok (c * v) := by
  have e1' : ∀ x : ℝ, Fire.fyT (20 : ℝ) x "carbon" = .ok x := by
    intro x
    have := Fire.reduce_node (K := ℝ) (n := 20) (by decide) (prop := "ky") (steel := "carbon") (tb := Fire.tableCS) rfl
    rw [show ((20 : ℕ) : ℝ) = 20 by norm_num] at this
    unfold Fire.fyT Fire.reduced
    rw [this]
    have e : Fire.look Fire.tableCS 20 "ky" = .ok 1 := by decide +kernel
    rw [e]
    simp [Except.map]
  have e2' : Fire.reduceProperty (20 : ℝ) "kb" "bolts" = .ok 1 := by
    have := Fire.reduce_node (K := ℝ) (n := 20) (by decide) (prop := "kb") (steel := "bolts") (tb := Fire.tableBolts) rfl
    rw [show ((20 : ℕ) : ℝ) = 20 by norm_num] at this
    rw [this]
    have e : Fire.look Fire.tableBolts 20 "kb" = .ok 1 := by decide +kernel
    rw [e]
    simp [Except.map]
  have key : ∀ f g : ℝ, 0 < f → f ≤ g →
      screwBearingT f d t g e1 e2 20 = .ok (min (2 * e2 / d - 1) 2.5 * min (e1 / 3 / d) 1 * g * d * t) := by
    intro f g hf hg
    unfold screwBearingT
    rw [e1', e2']
    simp only [bind, Except.bind, pure, Except.pure, one_mul]
    have : 1 ≤ g / f := by rw [le_div_iff₀ hf]; linarith
    rw [min_assoc, min_eq_right this]
  refine ⟨_, key fu fub hfu h, key fu' fub hfu' h', ?_⟩
  rw [key fu (c * fub) hfu (by nlinarith)]
  congr 1
  ring

/-! ### C250: strength, local and distortional buckling -/

/-- The average yield strength lies between the basic one and the mean of yield and ultimate strength, and more bends
    never lower it. -/
theorem C250_fya (fyb fu t Ag n n' k : ℝ) (hf : fyb ≤ fu) (hA : 0 < Ag) (hk : 0 ≤ k) (hn : 0 ≤ n) (hnn : n ≤ n') :
    fyb ≤ fya fyb fu t Ag n k ∧ fya fyb fu t Ag n k ≤ (fyb + fu) / 2 ∧ fya fyb fu t Ag n k ≤ fya fyb fu t Ag n' k := by
  have hd := sub_nonneg.2 hf
  unfold fya
  refine ⟨le_min ?_ ?_, ?_, ?_⟩
  · have : 0 ≤ (fu - fyb) * k * n * t ^ 2 / Ag := by positivity
    linarith
  · norm_num; linarith
  · refine (min_le_right _ _).trans (le_of_eq ?_)
    norm_num; ring
  · gcongr

/-- Distortional buckling: apart from two short intervals above 0.65 and above 1.38 the factor lies between 0 and 1
    and falls with the slenderness. -/
theorem C250_distortional_partial (x y : ℝ) (hx : 0 < x) (hxy : x ≤ y) (gx : x ≤ 0.65 ∨ 0.6501 ≤ x)
    (hy : y ≤ 0.65 ∨ 0.6501 ≤ y) (gy : y ≤ 1.38 ∨ 1.3976 ≤ y) : 0 < chiD y ∧ chiD y ≤ chiD x ∧ chiD x ≤ 1 := by
  unfold chiD
  have h0 : 0 < y := hx.trans_le hxy
  norm_num at *
  refine ⟨?_, ?_, ?_⟩
  · split
    · norm_num
    · split
      · linarith
      · positivity
  · by_cases h1 : y ≤ 13 / 20
    · rw [if_pos h1, if_pos (hxy.trans h1)]
    · rw [if_neg h1]
      by_cases h2 : x ≤ 13 / 20
      · rw [if_pos h2]
        split
        · rename_i h3
          rcases hy with g | g
          · exact absurd g h1
          · linarith
        · rename_i h3
          rw [div_le_one h0]
          linarith
      · rw [if_neg h2]
        by_cases h3 : x ≤ 69 / 50
        · rw [if_pos h3]
          split
          · linarith
          · rename_i h4
            have : 6988 / 5000 ≤ y := by
              rcases gy with g | g
              · exact absurd g h4
              · linarith
            rw [div_le_iff₀ h0]
            nlinarith
        · rw [if_neg h3, if_neg (fun h => h3 (hxy.trans h))]
          gcongr
  · split
    · exact le_rfl
    · rename_i h1
      split
      · rcases gx with g | g
        · exact absurd g h1
        · linarith
      · rename_i h2
        rw [div_le_one hx]
        linarith

/-- Just above 0.65 the factor exceeds 1, and just above 1.38 it exceeds its value at 1.38. -/
theorem C250_violation_distortional (x : ℝ) :
    (0.65 < x → x ≤ 0.65006 → 1 < chiD x) ∧ (1.38 < x → x ≤ 1.397 → chiD 1.38 < chiD x) := by
  unfold chiD
  constructor <;> intro h1 h2
  · norm_num at *
    rw [if_neg (not_le.2 h1), if_pos (by linarith)]
    linarith
  · norm_num at *
    rw [if_neg (by linarith), if_neg (not_le.2 h1), lt_div_iff₀ (by linarith)]
    linarith

/-- Edge stiffeners: a buckling factor between 0.5 and 0.83, never falling with the width of the stiffener; above 0.6
    there is no value. -/
theorem C250_edge (x y vx vy : ℝ) (hxy : x ≤ y) (hx : kEdge x = .ok vx) (hy : kEdge y = .ok vy) :
    0.5 ≤ vx ∧ vx ≤ vy ∧ vy ≤ 0.83 := by
  have key : ∀ z v, kEdge z = .ok v →
      z ≤ 0.6 ∧ v = 0.5 + 0.83 * ((max (z - 0.35) 0) ^ 2) ^ ((1 : ℝ) / 3) := by
    intro z v h
    unfold kEdge at h
    by_cases h1 : z ≤ 0.35
    · rw [if_pos h1] at h
      refine ⟨h1.trans (by norm_num), ?_⟩
      rw [max_eq_right (by linarith), ← Except.ok.inj h]
      norm_num
    · rw [if_neg h1] at h
      by_cases h2 : z ≤ 0.6
      · rw [if_pos h2] at h
        refine ⟨h2, ?_⟩
        rw [max_eq_left (by linarith), ← Except.ok.inj h]
      · rw [if_neg h2] at h
        cases h
  obtain ⟨hx6, rfl⟩ := key x vx hx
  obtain ⟨hy6, rfl⟩ := key y vy hy
  refine ⟨?_, ?_, ?_⟩
  · have : 0 ≤ ((max (x - 0.35) 0) ^ 2) ^ ((1 : ℝ) / 3) := by positivity
    linarith
  · have := Real.rpow_le_rpow (z := (1 : ℝ) / 3) (sq_nonneg _)
      (pow_le_pow_left₀ (le_max_right _ _) (max_le_max_right 0 (sub_le_sub_right hxy 0.35)) 2) (by norm_num)
    linarith
  · have h1 : max (y - 0.35) 0 ≤ 0.25 := max_le (by norm_num at *; linarith) (by norm_num)
    have h2 : ((max (y - 0.35) 0) ^ 2) ^ ((1 : ℝ) / 3) ≤ ((0.397 : ℝ) ^ (3 : ℕ)) ^ ((1 : ℝ) / 3) := by
      refine Real.rpow_le_rpow (sq_nonneg _) ?_ (by norm_num)
      refine (pow_le_pow_left₀ (le_max_right _ _) h1 2).trans (by norm_num)
    have e : ((0.397 : ℝ) ^ (3 : ℕ)) ^ ((1 : ℝ) / 3) = 0.397 := by
      rw [← Real.rpow_natCast, ← Real.rpow_mul (by norm_num)]
      norm_num
    rw [e] at h2
    generalize ((max (y - 0.35) 0) ^ 2) ^ ((1 : ℝ) / 3) = q at h2 ⊢
    norm_num at h2 ⊢
    linarith

theorem C250_violation_edge (x : ℝ) (h : 0.6 < x) : kEdge x = .error .unboundLocal := by
  unfold kEdge
  rw [if_neg (by norm_num at *; linarith), if_neg (not_le.2 h)]

/-- Notional width of a part between corners given as two lists of the same length: the straight part and
    `rm*sin(phi/2)` for each corner. -/
theorem C250_width_partial (b : ℝ) (corners : List (ℝ × ℝ)) :
    notionalWidth b (.seq (corners.map Prod.fst)) (.seq (corners.map Prod.snd)) =
      .ok (b + (corners.map fun c => c.1 * Real.sin (c.2 / 2 * (Real.pi / 180))).sum) := by
  unfold notionalWidth notionalTerms
  simp only [List.length_map, if_true, bind, Except.bind]
  congr 3
  induction corners with
  | nil => rfl
  | cons c cs ih =>
    simp only [List.map_cons, List.zipWith_cons_cons, ih, List.cons.injEq, and_true]
    congr 2
    norm_num
    ring

/-- One radius for several angles, one angle for several radii, and lists that do not match. -/
theorem C250_width_shapes (b r p : ℝ) (rs ps : List ℝ) :
    notionalWidth b (.num r) (.seq ps) = .ok (b + (ps.map fun p => r * Real.sin (p / 2 * (Real.pi / 180))).sum) ∧
    notionalWidth b (.seq rs) (.num p) = .ok (b + (rs.map fun r => r * Real.sin (p / 2 * (Real.pi / 180))).sum) ∧
    (rs.length ≠ ps.length → rs.length ≠ 1 → ps.length ≠ 1 →
      notionalWidth b (.seq rs) (.seq ps) = .error .valueError) := by
  have e : ∀ p : ℝ, 0.5 * p * Real.pi / 180 = p / 2 * (Real.pi / 180) := fun p => by norm_num; ring
  refine ⟨?_, ?_, ?_⟩
  · unfold notionalWidth notionalTerms
    simp only [bind, Except.bind, e]
  · unfold notionalWidth notionalTerms
    simp only [bind, Except.bind, e]
  · intro h h1 h2
    have : notionalTerms (.seq rs) (.seq ps) = .error .valueError := by
      unfold notionalTerms
      dsimp only
      rw [if_neg h]
      split
      · simp at h1
      · simp at h2
      · rfl
    unfold notionalWidth
    rw [this]
    rfl

/-- One corner given as two numbers, as the documentation allows: an exception. -/
theorem C250_violation_width (b rm phi : ℝ) : notionalWidth b (.num rm) (.num phi) = .error .typeError := rfl

/-- Axial resistance: tension uses the average strength of the gross section; compression uses the basic strength
    of a reduced section, and between basic and average strength for a full one, falling with the slenderness. -/
theorem C250_axial (N A fya fyb Aeff l l' : ℝ) (hA : 0 ≤ A) (hff : fyb ≤ fya) (hl : l ≤ l') (hl1 : l' ≤ 1) :
    (0 ≤ N → axialResistance N A (some fya) (some fyb) (some Aeff) (some l) = fya * A) ∧
    (N < 0 → Aeff < A → axialResistance N A (some fya) (some fyb) (some Aeff) (some l) = fyb * Aeff) ∧
    (N < 0 → A ≤ Aeff → fyb * A ≤ axialResistance N A (some fya) (some fyb) (some Aeff) (some l) ∧
      axialResistance N A (some fya) (some fyb) (some Aeff) (some l) ≤ fya * A ∧
      axialResistance N A (some fya) (some fyb) (some Aeff) (some l') ≤
        axialResistance N A (some fya) (some fyb) (some Aeff) (some l)) := by
  have hd := sub_nonneg.2 hff
  refine ⟨fun h => ?_, fun h h' => ?_, fun h h' => ?_⟩
  · simp [axialResistance, h]
  · simp [axialResistance, not_le.2 h, h']
  · have e : ∀ x, axialResistance N A (some fya) (some fyb) (some Aeff) (some x) =
        min (A * (fyb + 4 * (fya - fyb) * (1 - x))) (fya * A) := by
      intro x
      simp [axialResistance, not_le.2 h, not_lt.2 h']
    rw [e, e]
    refine ⟨le_min ?_ ?_, min_le_right _ _, ?_⟩
    · have : 0 ≤ (fya - fyb) * (1 - l) := mul_nonneg hd (by linarith)
      nlinarith
    · gcongr
    · gcongr

/-- A keyword that is needed but missing: zero resistance, no exception. -/
theorem C250_violation_axial (N A : ℝ) (fyb Aeff l : Option ℝ) (h : 0 ≤ N) : axialResistance N A none fyb Aeff l = 0 := by
  simp [axialResistance, h]

/-! ### C251: geometry of trapezoidal sheets -/

/-- The middle line of a trapezoidal corrugation: the webs rise by `hw` at the angle `a`. -/
structure IsCorrugation (hw a bt bb web pitch : ℝ) : Prop where
  /-- vertical projection of a web -/
  rise : web * Real.sin a = hw
  /-- the two flanges and the horizontal projections of the webs make up the pitch -/
  closed : bt + bb + 2 * (web * Real.cos a) = pitch

/-- Vertical webs: the geometry is right. -/
theorem C251_partial (T : Trapezoid) (h : T.angle = Real.pi / 2) :
    IsCorrugation T.hw T.angle T.bt T.bb T.sw T.pitch ∧
    T.hw = T.h - T.tnom ∧ T.A = T.ntrough * (T.tnom - 0.04) * (T.bt + T.bb + 2 * (T.h - T.tnom)) ∧
    T.width = T.ntrough * (T.bt + T.bb) := by
  have e1 : T.sw = T.hw := by unfold Trapezoid.sw; rw [h, Real.sin_pi_div_two, mul_one]
  have e2 : T.pitch = T.bb + T.bt := by unfold Trapezoid.pitch; rw [h, Real.cos_pi_div_two]; ring
  refine ⟨⟨?_, ?_⟩, rfl, ?_, ?_⟩
  · rw [e1, h, Real.sin_pi_div_two, mul_one]
  · rw [e1, e2, h, Real.cos_pi_div_two]; ring
  · unfold Trapezoid.A; rw [e1]; rfl
  · unfold Trapezoid.width; rw [e2]; ring

/-- Any other angle: the length of the web is less than the height it has to climb, the pitch does not match, and the
    area is less than that of the corrugation of the same height, flanges and angle. -/
theorem C251_violation (T : Trapezoid) (h0 : 0 < T.angle) (h1 : T.angle < Real.pi / 2) (hh : 0 < T.hw) (hn : 0 < T.ntrough)
    (ht : 0 < T.t) :
    T.sw < T.hw ∧
    ∀ web pitch, IsCorrugation T.hw T.angle T.bt T.bb web pitch →
      T.sw < web ∧ T.A < T.ntrough * T.t * (T.bt + T.bb + 2 * web) ∧
      (T.h * Real.sin T.angle < T.hw → T.pitch < pitch) := by
  have hs0 : 0 < Real.sin T.angle := Real.sin_pos_of_pos_of_lt_pi h0 (by linarith [Real.pi_pos])
  have hc0 : 0 < Real.cos T.angle := Real.cos_pos_of_mem_Ioo ⟨by linarith [Real.pi_pos], h1⟩
  have hs1 : Real.sin T.angle < 1 := by
    have := Real.sin_sq_add_cos_sq T.angle
    nlinarith
  have hsw : T.sw < T.hw := by unfold Trapezoid.sw; nlinarith
  refine ⟨hsw, ?_⟩
  rintro web pitch ⟨hr, hcl⟩
  have hw0 : 0 < web := by
    by_contra hneg
    rw [not_lt] at hneg
    nlinarith
  have hw : T.hw < web := by nlinarith
  have hl : T.sw < web := hsw.trans hw
  refine ⟨hl, ?_, ?_⟩
  · unfold Trapezoid.A
    gcongr
  · intro hlt
    unfold Trapezoid.pitch
    rw [← hr] at hlt
    have : T.h < web := lt_of_mul_lt_mul_right hlt hs0.le
    nlinarith

/-- What is computed for any angle: the pitch and width of a corrugation whose webs are as long as the sheet is high. -/
theorem C251_pitch_partial (T : Trapezoid) : IsCorrugation (T.h * Real.sin T.angle) T.angle T.bt T.bb T.h T.pitch ∧
    T.width = T.ntrough * T.pitch := by
  refine ⟨⟨rfl, ?_⟩, ?_⟩
  · unfold Trapezoid.pitch; ring
  · unfold Trapezoid.width; ring

/-! ### C252: rotational stiffness of the connection between sheet and purlin -/

/-- Uplift: always a value; it is positive, grows with the width of the flange of the purlin, and falls with the
    distance of the corrugations and the width of the flange of the sheet through which it is fastened. -/
theorem C252_uplift (ba ba' tnom A bT bT' bR bR' : ℝ) (pos : Bool) (hba : 0 < ba) (hbb : ba ≤ ba') (ht : 0 < tnom)
    (hT : 0 < bT) (hTT : bT ≤ bT') (hR : 0 < bR) (hRR : bR ≤ bR') :
    ∃ v v' vT vR, cdA ba tnom pos A bT bR false = .ok v ∧ cdA ba' tnom pos A bT bR false = .ok v' ∧
      cdA ba tnom pos A bT' bR false = .ok vT ∧ cdA ba tnom pos A bT bR' false = .ok vR ∧
      0 < v ∧ v ≤ v' ∧ vT ≤ v ∧ vR ≤ v := by
  have kba : ∀ x y : ℝ, 0 < x → x ≤ y → (if x ≤ 125 then (x / 100) ^ 2 else 1.25 * (x / 100)) ≤
      if y ≤ 125 then (y / 100) ^ 2 else 1.25 * (y / 100) := by
    intro x y hx hxy
    by_cases h1 : y ≤ 125
    · rw [if_pos h1, if_pos (hxy.trans h1)]
      gcongr
    · rw [if_neg h1]
      split
      · norm_num
        nlinarith
      · gcongr
  have kba0 : (0 : ℝ) < if ba ≤ 125 then (ba / 100) ^ 2 else 1.25 * (ba / 100) := by
    split <;> positivity
  have kR0 : ∀ x : ℝ, 0 < x → (0 : ℝ) < if x ≤ 185 then 1 else 185 / x := by
    intro x hx
    split <;> positivity
  have kR : (if bR' ≤ 185 then (1 : ℝ) else 185 / bR') ≤ if bR ≤ 185 then 1 else 185 / bR := by
    by_cases h1 : bR ≤ 185
    · rw [if_pos h1]
      split
      · exact le_rfl
      · rename_i h2
        rw [div_le_one (by linarith)]
        linarith
    · rw [if_neg h1, if_neg (fun h => h1 (hRR.trans h))]
      gcongr
  have kT0 : ∀ x : ℝ, 0 < x → (0 : ℝ) < if 40 < x then √(40 / x) else 1 := by
    intro x hx
    split
    · exact Real.sqrt_pos.2 (by positivity)
    · norm_num
  have kT : (if 40 < bT' then √(40 / bT') else 1) ≤ if 40 < bT then √(40 / bT) else 1 := by
    by_cases h1 : 40 < bT
    · rw [if_pos h1, if_pos (h1.trans_le hTT)]
      apply Real.sqrt_le_sqrt
      gcongr
    · rw [if_neg h1]
      split
      · rename_i h2
        exact Real.sqrt_le_one.2 ((div_le_one (by linarith)).2 h2.le)
      · exact le_rfl
  have e : ∀ x y z, cdA x tnom pos A y z false = .ok (2.6 * (if x ≤ 125 then (x / 100) ^ 2 else 1.25 * (x / 100)) *
      (tnom / 0.75) ^ (if 0.75 < tnom ∧ pos = true then (1.1 : ℝ) else 1.5) * (if z ≤ 185 then 1 else 185 / z) * 1 *
      (if 40 < y then √(40 / y) else 1)) := by
    intro x y z
    unfold cdA
    simp [bind, Except.bind, pure, Except.pure]
  have kt : 0 < (tnom / 0.75) ^ (if 0.75 < tnom ∧ pos = true then (1.1 : ℝ) else 1.5) :=
    Real.rpow_pos_of_pos (by positivity) _
  refine ⟨_, _, _, _, e _ _ _, e _ _ _, e _ _ _, e _ _ _, ?_, ?_, ?_, ?_⟩
  · have := kR0 bR hR
    have := kT0 bT hT
    positivity
  · have h1 := (kR0 bR hR).le
    have h2 := (kT0 bT hT).le
    have := kba ba ba' hba hbb
    gcongr
  · have h1 := (kR0 bR hR).le
    gcongr
  · have h2 := (kT0 bT hT).le
    gcongr

/-- Gravity load, sheet in the positive position, 0.75 mm or at least 1 mm thick: positive, at least twice the value for
    uplift, and never falling with the intensity of the load. -/
theorem C252_gravity_partial (ba tnom A A' bT bR : ℝ) (hba : 0 < ba) (ht : tnom = 0.75 ∨ 1 ≤ tnom) (hA : 1 ≤ A) (hAA : A ≤ A')
    (hT : 0 < bT) (hR : 0 < bR) : ∃ v v' u, cdA ba tnom true A bT bR true = .ok v ∧ cdA ba tnom true A' bT bR true = .ok v' ∧
      cdA ba tnom true A bT bR false = .ok u ∧ 2 * u ≤ v ∧ 0 < v ∧ v ≤ v' := by
  obtain ⟨u, -, -, -, hu, -, -, -, hu0, -⟩ := C252_uplift ba ba tnom A bT bT bR bR true hba le_rfl
    (by rcases ht with rfl | h; norm_num; linarith) hT le_rfl hR le_rfl
  obtain ⟨k, hk, hgr⟩ : ∃ k : ℝ, 0 ≤ k ∧ ∀ B, cdA ba tnom true B bT bR true = .ok (2 * u * (1 + (B - 1) * k)) := by
    have hu' := hu
    rcases ht with rfl | h
    · refine ⟨0.08, by norm_num, fun B => ?_⟩
      unfold cdA at hu' ⊢
      simp only [bind, Except.bind, pure, Except.pure, Bool.false_eq_true, if_false, if_true, not_true,
        and_false] at hu' ⊢
      rw [← Except.ok.inj hu']
      congr 1
      norm_num
      ring_nf
    · refine ⟨0.095, by norm_num, fun B => ?_⟩
      have hne : tnom ≠ 0.75 := by intro h'; rw [h'] at h; norm_num at h
      unfold cdA at hu' ⊢
      simp only [bind, Except.bind, pure, Except.pure, Bool.false_eq_true, if_false, if_true, not_true,
        and_false, hne, h] at hu' ⊢
      rw [← Except.ok.inj hu']
      congr 1
      norm_num
      ring_nf
  refine ⟨_, _, u, hgr A, hgr A', hu, ?_, ?_, ?_⟩
  · have : 0 ≤ (A - 1) * k := mul_nonneg (by linarith) hk
    nlinarith
  · have : 0 ≤ (A - 1) * k := mul_nonneg (by linarith) hk
    positivity
  · have : (A - 1) * k ≤ (A' - 1) * k := by gcongr
    gcongr

/-- Loads that press the sheet onto the purlin: no value for sheets in the "negative" position, nor for thicknesses
    below 1 mm other than 0.75 mm. -/
theorem C252_violation_gravity (ba tnom A bT bR : ℝ) :
    cdA ba tnom false A bT bR true = .error .unboundLocal ∧
    (tnom ≠ 0.75 → tnom < 1 → ∀ pos, cdA ba tnom pos A bT bR true = .error .unboundLocal) := by
  constructor
  · unfold cdA
    by_cases h1 : tnom = 0.75
    · simp [h1, bind, Except.bind]
    · by_cases h2 : 1 ≤ tnom <;> simp [h1, h2, bind, Except.bind]
  · intro h1 h2 pos
    unfold cdA
    simp [h1, not_le.2 h2, bind, Except.bind]

/-! ### Examples -/

/-- A web 1 mm thick, 100 mm high, loaded at an end over 60 mm. -/
noncomputable def exWeb : WebLoad :=
  { fyb := 350, t := 1, hw := 100, ss := 60, c := 50, r := 3, phi := 90, e := 0, flangeStiff := false, webStiff := false }

example : exWeb.webStiff = false ∧ (2 : ℝ) ≤ exWeb.phi ∧
    0 < ecWeb exWeb.fyb exWeb.t exWeb.hw exWeb.ss exWeb.r (decide (|exWeb.e| < 1e-6)) (decide (exWeb.c ≤ 1.5 * exWeb.hw))
      exWeb.flangeStiff := by
  refine ⟨rfl, by norm_num [exWeb], ?_⟩
  have h1 : decide (|exWeb.e| < 1e-6) = true := by
    rw [decide_eq_true_eq]; norm_num [exWeb]
  have h2 : decide (exWeb.c ≤ 1.5 * exWeb.hw) = true := by
    rw [decide_eq_true_eq]; norm_num [exWeb]
  rw [h1, h2]
  norm_num [ecWeb, exWeb]

example : |exWeb.e| < 1e-6 ∧ exWeb.c ≤ 1.5 * exWeb.hw ∧ exWeb.ss ≤ 210 * exWeb.t ∧ exWeb.hw ≤ 200 * exWeb.t ∧
    exWeb.fyb ≤ 900 := by
  norm_num [exWeb]

/-- A load 200 mm from the end. -/
example : 1.5 * exWeb.hw < (200 : ℝ) ∧ 0 < ecWeb exWeb.fyb exWeb.t exWeb.hw (60 * exWeb.t) exWeb.r true false false := by
  norm_num [exWeb, ecWeb]

/-- Inner support of a sheet. -/
noncomputable def exSheet : TwoWebs :=
  { fyb := 350, r := 3, t := 1, phi := 65, hw := 130, ss := 150, e := none, c := none, VEd := some (300, -170), old := true }

example : exSheet.category2 = true ∧ exSheet.r ≤ 100 * exSheet.t ∧ 10 ≤ exSheet.ss ∧ ∃ v, exSheet.resistance = .ok v := by
  have hc : exSheet.category2 = true := by
    unfold TwoWebs.category2
    norm_num [exSheet]
  refine ⟨hc, by norm_num [exSheet], by norm_num [exSheet], ?_⟩
  rw [TwoWebs.resistance_eq, TwoWebs.la_cat2_old hc rfl (V0 := 300) (V1 := -170) rfl (by positivity)]
  exact ⟨_, rfl⟩

/-- End support of the same sheet. -/
example : { exSheet with e := none, c := some 40 }.category2 = false := by
  unfold TwoWebs.category2
  norm_num [exSheet]

/-- Two shear forces nearer to each other, and two farther apart. -/
example : (0 : ℝ) < |300| ∧ |(100 : ℝ)| / |300| ≤ |(-170 : ℝ)| / |300| := by
  norm_num

example : screwShearFin 5.5 "hardened" = .ok 7200 := by
  norm_num [screwShearFin]

example : EcScrewRange 20 10 20 20 5.5 := by
  norm_num [EcScrewRange]

example : ecAlpha 5 1.25 2.5 = 1.6 + 2 / 3 * (2.1 - 1.6) := by
  have : √((1.25 : ℝ) / 5) = 1 / 2 := by
    rw [show (1.25 : ℝ) / 5 = (1 / 2) ^ 2 by norm_num, Real.sqrt_sq (by norm_num)]
  unfold ecAlpha
  rw [this]
  norm_num

example : fya 350 420 1 100 4 7 = 350 + 19.6 := by
  norm_num [fya]

example : chiD 1 = 0.747 := by
  norm_num [chiD]

example : kEdge 0.35 = .ok 0.5 ∧ ∃ v, kEdge 0.5 = .ok v := by
  constructor
  · simp [kEdge]
  · unfold kEdge
    rw [if_neg (by norm_num), if_pos (by norm_num)]
    exact ⟨_, rfl⟩

example : axialResistance (-1) 100 (some 370) (some 350) (some 100) (some 0.9) = 100 * 358 := by
  simp only [axialResistance]
  norm_num

/-- A sheet with webs at 30 degrees to the flanges: 60 mm deep. -/
example : let T : Trapezoid := ⟨1, 61, 40, 120, Real.pi / 6, 3⟩
    0 < T.angle ∧ T.angle < Real.pi / 2 ∧ 0 < T.hw ∧ 0 < T.ntrough ∧ 0 < T.t ∧ T.h * Real.sin T.angle < T.hw ∧
    IsCorrugation T.hw T.angle T.bt T.bb 120 (160 + 2 * (120 * Real.cos T.angle)) := by
  have := Real.pi_pos
  dsimp only
  refine ⟨by positivity, by linarith, by norm_num [Trapezoid.hw], by norm_num, by norm_num [Trapezoid.t], ?_, ?_, ?_⟩
  · rw [Real.sin_pi_div_six]; norm_num [Trapezoid.hw]
  · rw [Real.sin_pi_div_six]; norm_num [Trapezoid.hw]
  · norm_num

end Metku.Cold
