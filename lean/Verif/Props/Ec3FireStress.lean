import Mathlib.Tactic.Linarith
import Mathlib.Tactic.NormNum
import Mathlib.Tactic.FieldSimp
import Mathlib.Tactic.Ring
import Mathlib.Tactic.Positivity
import Mathlib.Topology.Order.OrderClosed
import Mathlib.Order.Monotone.Union
import Mathlib.Analysis.SpecialFunctions.Sqrt
import Verif.Props.Ec3Fire

/-!
Property C56: the stress-strain curve of carbon steel at elevated temperature (EN 1993-1-2, Fig. 3.1 and Annex A).
-/
namespace Metku.Fire

open Set

/-! ### The elliptic branch -/

theorem ellipse_coeff {h E d : ℝ} (_hd : 0 ≤ d) (h2 : 2 * d < h * E) :
    0 ≤ d ^ 2 / (h * E - 2 * d) := div_nonneg (by positivity) (by linarith)

/-- Total form of the elliptic branch. -/
noncomputable def ell (fp E h c x : ℝ) : ℝ :=
  fp - c + √(c * h * E + c ^ 2) / √(h * (h + c / E)) * √(h * (h + c / E) - (2 / 100 - x) ^ 2)

theorem ell_start {fp E c : ℝ} (hE : 0 < E) (hc : 0 ≤ c) (hh : 0 < 2 / 100 - fp / E) :
    ell fp E (2 / 100 - fp / E) c (fp / E) = fp := by
  unfold ell
  set h := 2 / 100 - fp / E with hdef
  have hA : 0 < h * (h + c / E) := by
    have : 0 ≤ c / E := div_nonneg hc hE.le
    positivity
  have e1 : h * (h + c / E) - h ^ 2 = h * (c / E) := by ring
  rw [e1, ← Real.sqrt_div (by positivity), ← Real.sqrt_mul (by positivity)]
  have e2 : (c * h * E + c ^ 2) / (h * (h + c / E)) * (h * (c / E)) = c ^ 2 := by
    have : h + c / E ≠ 0 := by
      intro h0
      rw [h0] at hA
      simp at hA
    have h3 : c * h * E + c ^ 2 = c * E * (h + c / E) := by field_simp
    rw [h3]
    field_simp
  rw [e2, Real.sqrt_sq hc]
  ring

theorem ell_end {fp fy E h c : ℝ} (hE : 0 < E) (hh : 0 < h) (hd : 0 ≤ fy - fp) (h2 : 2 * (fy - fp) < h * E)
    (hc : c = (fy - fp) ^ 2 / (h * E - 2 * (fy - fp))) : ell fp E h c (2 / 100) = fy := by
  have hc0 : 0 ≤ c := hc ▸ ellipse_coeff hd h2
  unfold ell
  have hA : 0 < h * (h + c / E) := by
    have : 0 ≤ c / E := div_nonneg hc0 hE.le
    positivity
  have e1 : h * (h + c / E) - (2 / 100 - 2 / 100 : ℝ) ^ 2 = h * (h + c / E) := by ring
  rw [e1, div_mul_cancel₀ _ (Real.sqrt_ne_zero'.2 hA)]
  have hD : h * E - 2 * (fy - fp) ≠ 0 := by linarith
  have hcD : c * (h * E - 2 * (fy - fp)) = (fy - fp) ^ 2 := by rw [hc, div_mul_cancel₀ _ hD]
  have e2 : c * h * E + c ^ 2 = (fy - fp + c) ^ 2 := by linear_combination hcD
  rw [e2, Real.sqrt_sq (by linarith)]
  ring

theorem ell_mono {fp E h c : ℝ} : MonotoneOn (ell fp E h c) (Iic (2 / 100)) := by
  intro x hx y hy hxy
  unfold ell
  rw [mem_Iic] at hx hy
  have : √(h * (h + c / E) - (2 / 100 - x) ^ 2) ≤ √(h * (h + c / E) - (2 / 100 - y) ^ 2) := by
    apply Real.sqrt_le_sqrt
    have : (2 / 100 - y) ^ 2 ≤ (2 / 100 - x) ^ 2 := by nlinarith
    linarith
  have hr : 0 ≤ √(c * h * E + c ^ 2) / √(h * (h + c / E)) := by positivity
  linarith [mul_le_mul_of_nonneg_left this hr]

theorem ell_continuous (fp E h c : ℝ) : Continuous (ell fp E h c) := by
  unfold ell
  fun_prop

/-- The computation of the elliptic branch succeeds and gives its total form. -/
theorem ellipse_ok {fp fy E x : ℝ} (hE : 0 < E) (hh : 0 < 2 / 100 - fp / E) (hd : 0 ≤ fy - fp)
    (h2 : 2 * (fy - fp) < (2 / 100 - fp / E) * E) (hx1 : fp / E ≤ x) (hx2 : x ≤ 2 / 100) :
    ellipse x fp fy E =
      .ok (ell fp E (2 / 100 - fp / E) ((fy - fp) ^ 2 / ((2 / 100 - fp / E) * E - 2 * (fy - fp))) x) := by
  have hc0 := ellipse_coeff (d := fy - fp) hd h2
  simp only [ellipse, ell, pdiv, psqrt, bind, Except.bind]
  obtain ⟨h, hdef⟩ : ∃ h, h = 2 / 100 - fp / E := ⟨_, rfl⟩
  rw [← hdef] at hh h2 hc0 ⊢
  have hD : h * E - 2 * (fy - fp) ≠ 0 := by linarith
  simp only [if_neg hD]
  obtain ⟨c, hcdef⟩ : ∃ c, c = (fy - fp) ^ 2 / (h * E - 2 * (fy - fp)) := ⟨_, rfl⟩
  rw [← hcdef] at hc0 ⊢
  have hA : 0 < h * (h + c / E) := by
    have : 0 ≤ c / E := div_nonneg hc0 hE.le
    positivity
  have hB : 0 ≤ c * h * E + c ^ 2 := by positivity
  have hS : 0 ≤ h * (h + c / E) - (2 / 100 - x) ^ 2 := by
    have h1 : (2 / 100 - x) ^ 2 ≤ h ^ 2 := by
      apply pow_le_pow_left₀ (by linarith)
      rw [hdef]
      linarith
    have : 0 ≤ h * (c / E) := by positivity
    nlinarith
  simp only [if_neg (not_lt.2 hB), if_neg (not_lt.2 hA.le), if_neg (Real.sqrt_ne_zero'.2 hA), Real.sq_sqrt hA.le,
    if_neg (not_lt.2 hS)]
  rfl

/-! ### The whole curve -/

/-- Stress from the strain 2 % on: plateau (or hardening) up to 15 % and linear decay to zero at 20 %. -/
noncomputable def tail (hard : Bool) (fy fu x : ℝ) : ℝ :=
  if x ≤ 15 / 100 then
    if hard then if x < 4 / 100 then 50 * (fu - fy) * x + 2 * fy - fu else fu else fy
  else if x < 20 / 100 then
    if hard then fu * (1 - 20 * (x - 15 / 100)) else fy * (1 - (x - 15 / 100) / (20 / 100 - 15 / 100))
  else 0

/-- Total form of `stress`. -/
noncomputable def curve (hard : Bool) (fp fy fu E c x : ℝ) : ℝ :=
  if x ≤ fp / E then E * x
  else if x ≤ 2 / 100 then ell fp E (2 / 100 - fp / E) c x
  else tail hard fy fu x

theorem tail_start (hard : Bool) (fy fu : ℝ) : tail hard fy fu (2 / 100) = fy := by
  unfold tail
  cases hard <;> norm_num
  ring

theorem stress_ok {t Ea fya kp ky kE : ℝ} (hp : reduceProperty t "kp" "carbon" = .ok kp)
    (hy : reduceProperty t "ky" "carbon" = .ok ky) (hE : reduceProperty t "kE" "carbon" = .ok kE)
    (hE0 : 0 < kE * Ea) (hh : 0 < 2 / 100 - kp * fya / (kE * Ea)) (hd : 0 ≤ ky * fya - kp * fya)
    (h2 : 2 * (ky * fya - kp * fya) < (2 / 100 - kp * fya / (kE * Ea)) * (kE * Ea)) (hard : Bool) (x : ℝ) :
    stress x t Ea fya hard = .ok (curve hard (kp * fya) (ky * fya) (fuT t (ky * fya)) (kE * Ea)
      ((ky * fya - kp * fya) ^ 2 / ((2 / 100 - kp * fya / (kE * Ea)) * (kE * Ea) - 2 * (ky * fya - kp * fya))) x) := by
  unfold stress
  simp only [fpT, fyT, EaT, reduced, hp, hy, hE, Except.map, bind, Except.bind, pdiv, if_neg hE0.ne']
  unfold curve
  by_cases h1 : x ≤ kp * fya / (kE * Ea)
  · simp only [if_pos h1]; rfl
  · simp only [if_neg h1]
    push Not at h1
    by_cases h3 : x < 2 / 100
    · simp only [if_pos h3, if_pos h3.le]
      exact ellipse_ok hE0 hh hd h2 h1.le h3.le
    · simp only [if_neg h3]
      push Not at h3
      rcases h3.eq_or_lt with he | hlt
      · subst he
        have : (2 / 100 : ℝ) ≤ 15 / 100 := by norm_num
        simp only [if_pos this, le_refl, if_true]
        rw [ell_end hE0 hh hd h2 rfl]
        cases hard
        · rfl
        · have h4 : (2 / 100 : ℝ) < 4 / 100 := by norm_num
          simp only [if_true, if_pos h4, pure, Except.pure]
          congr 1
          ring
      · simp only [if_neg (not_le.2 hlt)]
        unfold tail
        by_cases h5 : x ≤ 15 / 100
        · simp only [if_pos h5]
          cases hard
          · rfl
          · simp only [if_true]
            by_cases h6 : x < 4 / 100
            · simp only [if_pos h6]; rfl
            · simp only [if_neg h6]; rfl
        · simp only [if_neg h5]
          by_cases h7 : x < 20 / 100
          · simp only [if_pos h7]
            cases hard <;> rfl
          · simp only [if_neg h7]; rfl

theorem tail_continuous (hard : Bool) (fy fu : ℝ) : Continuous (tail hard fy fu) := by
  have e : tail hard fy fu = fun x =>
      if x ≤ 15 / 100 then
        (if hard then if 4 / 100 ≤ x then fu else 50 * (fu - fy) * x + 2 * fy - fu else fy)
      else if 20 / 100 ≤ x then 0
      else (if hard then fu * (1 - 20 * (x - 15 / 100)) else fy * (1 - (x - 15 / 100) / (20 / 100 - 15 / 100))) := by
    funext x
    unfold tail
    by_cases h1 : x ≤ 15 / 100
    · simp only [if_pos h1]
      by_cases h2 : x < 4 / 100
      · simp only [if_pos h2, if_neg (not_le.2 h2)]
      · simp only [if_neg h2, if_pos (not_lt.1 h2)]
    · simp only [if_neg h1]
      by_cases h2 : x < 20 / 100
      · simp only [if_pos h2, if_neg (not_le.2 h2)]
      · simp only [if_neg h2, if_pos (not_lt.1 h2)]
  rw [e]
  cases hard
  · simp only [Bool.false_eq_true, if_false]
    refine Continuous.if_le continuous_const (Continuous.if_le continuous_const (by fun_prop) continuous_const continuous_id ?_)
      continuous_id continuous_const ?_
    · intro x hx
      subst hx
      norm_num
    · intro x hx
      subst hx
      norm_num
  · simp only [if_true]
    refine Continuous.if_le (Continuous.if_le continuous_const (by fun_prop) continuous_const continuous_id ?_)
      (Continuous.if_le continuous_const (by fun_prop) continuous_const continuous_id ?_) continuous_id continuous_const ?_
    · intro x hx
      subst hx
      ring
    · intro x hx
      subst hx
      norm_num
    · intro x hx
      subst hx
      norm_num

theorem tail_mono {hard : Bool} {fy fu : ℝ} (h : fy ≤ fu) : MonotoneOn (tail hard fy fu) (Icc (2 / 100) (15 / 100)) := by
  intro x hx y hy hxy
  unfold tail
  simp only [if_pos hx.2, if_pos hy.2]
  cases hard
  · simp
  · simp only [if_true]
    by_cases h1 : y < 4 / 100
    · simp only [if_pos h1, if_pos (hxy.trans_lt h1)]
      nlinarith
    · simp only [if_neg h1]
      by_cases h2 : x < 4 / 100
      · simp only [if_pos h2]
        nlinarith
      · simp only [if_neg h2, le_refl]

theorem tail_anti {hard : Bool} {fy fu : ℝ} (h0 : 0 ≤ fy) (h : fy ≤ fu) : AntitoneOn (tail hard fy fu) (Ici (15 / 100)) := by
  have hle : ∀ x, 15 / 100 ≤ x → tail hard fy fu x = max 0 ((if hard then fu else fy) * (1 - 20 * (x - 15 / 100))) := by
    intro x hx
    unfold tail
    have hpos : 0 ≤ if hard then fu else fy := by cases hard <;> simp <;> linarith
    rcases hx.eq_or_lt with h1 | h1
    · subst h1
      rw [max_eq_right (by simpa using hpos)]
      cases hard <;> norm_num
    · simp only [if_neg (not_le.2 h1)]
      by_cases h2 : x < 20 / 100
      · rw [max_eq_right (mul_nonneg hpos (by linarith))]
        simp only [if_pos h2]
        cases hard
        · simp only [Bool.false_eq_true, if_false]
          ring
        · simp only [if_true]
      · push Not at h2
        simp only [if_neg (not_lt.2 h2)]
        rw [max_eq_left]
        exact mul_nonpos_of_nonneg_of_nonpos hpos (by linarith)
  intro x hx y hy hxy
  rw [hle x hx, hle y hy]
  have hpos : 0 ≤ if hard then fu else fy := by cases hard <;> simp <;> linarith
  exact max_le_max le_rfl (mul_le_mul_of_nonneg_left (by linarith) hpos)

theorem tail_zero {hard : Bool} {fy fu x : ℝ} (h : 20 / 100 ≤ x) : tail hard fy fu x = 0 := by
  unfold tail
  rw [if_neg (by linarith), if_neg (not_lt.2 h)]

theorem curve_continuous {hard : Bool} {fp fy fu E c : ℝ} (hE : 0 < E) (hh : 0 < 2 / 100 - fp / E) (hd : 0 ≤ fy - fp)
    (h2 : 2 * (fy - fp) < (2 / 100 - fp / E) * E) (hc : c = (fy - fp) ^ 2 / ((2 / 100 - fp / E) * E - 2 * (fy - fp))) :
    Continuous (curve hard fp fy fu E c) := by
  have hc0 : 0 ≤ c := hc ▸ ellipse_coeff hd h2
  have e : curve hard fp fy fu E c = fun x => if x ≤ fp / E then E * x
      else if x ≤ 2 / 100 then ell fp E (2 / 100 - fp / E) c x else tail hard fy fu x := rfl
  rw [e]
  refine Continuous.if_le (by fun_prop) (Continuous.if_le (ell_continuous _ _ _ _) (tail_continuous _ _ _) continuous_id
    continuous_const ?_) continuous_id continuous_const ?_
  · intro x hx
    subst hx
    rw [ell_end hE hh hd h2 hc, tail_start]
  · intro x hx
    subst hx
    rw [if_pos (by linarith), ell_start hE hc0 hh]
    field_simp

theorem curve_mono {hard : Bool} {fp fy fu E c : ℝ} (hE : 0 < E) (hh : 0 < 2 / 100 - fp / E) (hd : 0 ≤ fy - fp)
    (h2 : 2 * (fy - fp) < (2 / 100 - fp / E) * E) (hc : c = (fy - fp) ^ 2 / ((2 / 100 - fp / E) * E - 2 * (fy - fp)))
    (hu : fy ≤ fu) : MonotoneOn (curve hard fp fy fu E c) (Iic (15 / 100)) := by
  have hc0 : 0 ≤ c := hc ▸ ellipse_coeff hd h2
  have hp : fp / E ≤ 2 / 100 := by linarith
  have m1 : MonotoneOn (curve hard fp fy fu E c) (Iic (fp / E)) := by
    intro x hx y hy hxy
    unfold curve
    rw [if_pos (mem_Iic.1 hx), if_pos (mem_Iic.1 hy)]
    exact mul_le_mul_of_nonneg_left hxy hE.le
  have m2 : MonotoneOn (curve hard fp fy fu E c) (Icc (fp / E) (2 / 100)) := by
    have e : EqOn (ell fp E (2 / 100 - fp / E) c) (curve hard fp fy fu E c) (Icc (fp / E) (2 / 100)) := by
      intro x hx
      unfold curve
      rcases hx.1.eq_or_lt with h | h
      · subst h
        rw [if_pos le_rfl, ell_start hE hc0 hh]
        field_simp
      · rw [if_neg (not_le.2 h), if_pos hx.2]
    exact (ell_mono.mono (fun x hx => hx.2)).congr e
  have m3 : MonotoneOn (curve hard fp fy fu E c) (Icc (2 / 100) (15 / 100)) := by
    have e : EqOn (tail hard fy fu) (curve hard fp fy fu E c) (Icc (2 / 100) (15 / 100)) := by
      intro x hx
      unfold curve
      have : ¬ x ≤ fp / E := by
        intro h
        have := hx.1
        linarith
      rw [if_neg this]
      rcases hx.1.eq_or_lt with h | h
      · subst h
        rw [if_pos le_rfl, ell_end hE hh hd h2 hc, tail_start]
      · rw [if_neg (not_le.2 h)]
    exact (tail_mono hu).congr e
  have u1 := MonotoneOn.union_right m1 m2 isGreatest_Iic (isLeast_Icc hp)
  rw [Iic_union_Icc_eq_Iic hp] at u1
  have u2 := MonotoneOn.union_right u1 m3 isGreatest_Iic (isLeast_Icc (by norm_num))
  rwa [Iic_union_Icc_eq_Iic (by norm_num)] at u2

theorem curve_tail {hard : Bool} {fp fy fu E c x : ℝ} (hh : 0 < 2 / 100 - fp / E) (hx : 2 / 100 < x) :
    curve hard fp fy fu E c x = tail hard fy fu x := by
  unfold curve
  rw [if_neg (by linarith), if_neg (not_le.2 hx)]

theorem fuT_bounds {t fy : ℝ} (h : 0 ≤ fy) : fy ≤ fuT t fy ∧ fuT t fy ≤ 5 / 4 * fy := by
  unfold fuT
  split
  · constructor <;> linarith
  · rename_i h1
    push Not at h1
    split
    · constructor <;> nlinarith
    · constructor <;> linarith

/-- The factors at one temperature belong together: the proportional limit is below the yield strength and below the modulus, and the
    elliptic branch is well defined for steels with `200 fy ≤ E`. -/
theorem carbon_joint {t : ℝ} (h1 : 20 ≤ t) (h2 : t < 1200) (hg : t ≤ 100 ∨ 200 ≤ t) :
    ∃ ky kp kE : ℝ, reduceProperty t "ky" "carbon" = .ok ky ∧ reduceProperty t "kp" "carbon" = .ok kp ∧
      reduceProperty t "kE" "carbon" = .ok kE ∧ 0 < kp ∧ 0 < kE ∧ kp ≤ ky ∧ kp ≤ kE ∧ ky - kp ≤ 6 / 5 * kE := by
  have mid : ∀ {a b s : ℝ}, 0 ≤ a → 0 ≤ b → 0 ≤ s → s ≤ 1 → 0 ≤ a + (b - a) * s := by
    intro a b s ha hb hs hs1
    nlinarith
  have key : ∀ p ∈ specialTemps.zip specialTemps.tail, p ≠ (100, 150) → p ≠ (150, 200) → ((p.1 : ℕ) : ℝ) ≤ t → t ≤ ((p.2 : ℕ) : ℝ) →
      ∃ ky kp kE : ℝ, reduceProperty t "ky" "carbon" = .ok ky ∧ reduceProperty t "kp" "carbon" = .ok kp ∧
        reduceProperty t "kE" "carbon" = .ok kE ∧ 0 < kp ∧ 0 < kE ∧ kp ≤ ky ∧ kp ≤ kE ∧ ky - kp ≤ 6 / 5 * kE := by
    intro p hp n1 n2 hp1 hp2
    obtain ⟨m1, m2, hlt, hgap⟩ := special_gap p hp
    have vals : ∃ y y' z z' w w' : ℚ, look tableCS p.1 "ky" = .ok y ∧ look tableCS p.2 "ky" = .ok y' ∧
        look tableCS p.1 "kp" = .ok z ∧ look tableCS p.2 "kp" = .ok z' ∧ look tableCS p.1 "kE" = .ok w ∧ look tableCS p.2 "kE" = .ok w' ∧
        (0 < z ∧ 0 < w ∧ z ≤ y ∧ z ≤ w ∧ y - z ≤ 6 / 5 * w) ∧ (0 ≤ z' ∧ 0 ≤ w' ∧ z' ≤ y' ∧ z' ≤ w' ∧ y' - z' ≤ 6 / 5 * w') ∧
        ((p.2 = 1200) ∨ (0 < z' ∧ 0 < w')) := by
      simp only [specialTemps, List.tail_cons, List.zip_cons_cons, List.zip_nil_right, List.mem_cons, List.not_mem_nil, or_false] at hp
      rcases hp with rfl | rfl | rfl | rfl | rfl | rfl | rfl | rfl | rfl | rfl | rfl | rfl | rfl
      · exact ⟨_, _, _, _, _, _, rfl, rfl, rfl, rfl, rfl, rfl, by norm_num, by norm_num, by norm_num⟩
      · exact absurd rfl n1
      · exact absurd rfl n2
      all_goals exact ⟨_, _, _, _, _, _, rfl, rfl, rfl, rfl, rfl, rfl, by norm_num, by norm_num, by norm_num⟩
    obtain ⟨y, y', z, z', w, w', ly, ly', lz, lz', lw, lw', ⟨i1, i2, i3, i4, i5⟩, ⟨j1, j2, j3, j4, j5⟩, hend⟩ := vals
    have hd : (0 : ℝ) < ((p.2 : ℕ) : ℝ) - (p.1 : ℕ) := by
      have : ((p.1 : ℕ) : ℝ) < (p.2 : ℕ) := by exact_mod_cast hlt
      linarith
    refine ⟨_, _, _, reduce_segment (K := ℝ) m1 m2 hlt hgap hp1 hp2 (tb := tableCS) (steel := "carbon") rfl ly ly',
      reduce_segment (K := ℝ) m1 m2 hlt hgap hp1 hp2 (tb := tableCS) (steel := "carbon") rfl lz lz',
      reduce_segment (K := ℝ) m1 m2 hlt hgap hp1 hp2 (tb := tableCS) (steel := "carbon") rfl lw lw', ?_⟩
    have hs0 : 0 ≤ (t - ((p.1 : ℕ) : ℝ)) / (((p.2 : ℕ) : ℝ) - (p.1 : ℕ)) := div_nonneg (by linarith) hd.le
    have hs1 : (t - ((p.1 : ℕ) : ℝ)) / (((p.2 : ℕ) : ℝ) - (p.1 : ℕ)) ≤ 1 := (div_le_one hd).2 (by linarith)
    have hslt : p.2 = 1200 → (t - ((p.1 : ℕ) : ℝ)) / (((p.2 : ℕ) : ℝ) - (p.1 : ℕ)) < 1 := by
      intro h
      rw [div_lt_one hd, h]
      norm_num
      linarith
    simp only [mul_div_assoc]
    generalize (t - ((p.1 : ℕ) : ℝ)) / (((p.2 : ℕ) : ℝ) - (p.1 : ℕ)) = s at hs0 hs1 hslt ⊢
    have cast : ∀ {a b : ℚ}, a ≤ b → (0 : ℝ) ≤ (b : ℝ) - a := fun h => sub_nonneg.2 (by exact_mod_cast h)
    have i5' : (y : ℝ) - z ≤ 6 / 5 * w := by
      have : ((y - z : ℚ) : ℝ) ≤ ((6 / 5 * w : ℚ) : ℝ) := by exact_mod_cast i5
      push_cast at this
      exact this
    have j5' : (y' : ℝ) - z' ≤ 6 / 5 * w' := by
      have : ((y' - z' : ℚ) : ℝ) ≤ ((6 / 5 * w' : ℚ) : ℝ) := by exact_mod_cast j5
      push_cast at this
      exact this
    have i1' : (0 : ℝ) < z := by exact_mod_cast i1
    have i2' : (0 : ℝ) < w := by exact_mod_cast i2
    have j1' : (0 : ℝ) ≤ z' := by exact_mod_cast j1
    have j2' : (0 : ℝ) ≤ w' := by exact_mod_cast j2
    have pos : ∀ {a b : ℝ}, 0 < a → 0 ≤ b → (p.2 = 1200 ∨ 0 < b) → 0 < a + (b - a) * s := by
      intro a b ha hb h
      rcases h with h | h
      · have := hslt h
        nlinarith
      · rcases hs1.eq_or_lt with h' | h'
        · rw [h']; linarith
        · nlinarith
    refine ⟨pos i1' j1' (hend.imp_right fun h => by exact_mod_cast h.1), pos i2' j2' (hend.imp_right fun h => by exact_mod_cast h.2),
      ?_, ?_, ?_⟩
    · have := mid (cast i3) (cast j3) hs0 hs1
      linear_combination this
    · have := mid (cast i4) (cast j4) hs0 hs1
      linear_combination this
    · have := mid (sub_nonneg.2 i5') (sub_nonneg.2 j5') hs0 hs1
      linear_combination this
  obtain ⟨p, hp, hp1, hp2⟩ := special_segment h1 h2.le
  by_cases n1 : p = (100, 150)
  · subst n1
    have : t = 100 := by
      rcases hg with h | h
      · exact le_antisymm h (by simpa using hp1)
      · have : t ≤ 150 := by simpa using hp2
        linarith
    exact key (20, 100) (by decide) (by decide) (by decide) (by simpa using h1) (by simp [this])
  · by_cases n2 : p = (150, 200)
    · subst n2
      have : t = 200 := by
        rcases hg with h | h
        · have : (150 : ℝ) ≤ t := by simpa using hp1
          linarith
        · exact le_antisymm (by simpa using hp2) h
      exact key (200, 300) (by decide) (by decide) (by decide) (by simp [this]) (by simp [this]; norm_num)
    · exact key p hp n1 n2 hp1 hp2

/-- **C56 (part).** For every temperature from 20 to below 1200 degrees outside the gap of C34, every carbon steel with `200 fy ≤ E` and both with and
    without strain hardening, the stress is defined for every strain; as a function of the strain it is continuous, starts as the straight line through the
    origin with the reduced modulus, does not decrease up to the strain 15 %, reaches the reduced yield strength at 2 % and the plateau value (the yield strength, or the
    hardened strength between the yield strength and 1.25 times it) at 15 %, does not increase after that and is zero from 20 % on.
    Missing: the temperatures between 100 and 200 degrees and 1200 degrees, see `C56_violation`. -/
theorem C56_partial {t Ea fya : ℝ} (h1 : 20 ≤ t) (h2 : t < 1200) (hg : t ≤ 100 ∨ 200 ≤ t) (hf : 0 < fya) (hEf : 200 * fya ≤ Ea)
    (hard : Bool) :
    ∃ (σ : ℝ → ℝ) (ky kp kE : ℝ), (∀ x, stress x t Ea fya hard = .ok (σ x)) ∧
      OnCurve ecKy t ky ∧ OnCurve ecKp t kp ∧ OnCurve ecKE t kE ∧
      Continuous σ ∧ (∀ x, x * (kE * Ea) ≤ kp * fya → σ x = kE * Ea * x) ∧ MonotoneOn σ (Iic 0.15) ∧ σ 0.02 = ky * fya ∧
      (hard = false → σ 0.15 = ky * fya) ∧ (hard = true → ky * fya ≤ σ 0.15 ∧ σ 0.15 ≤ 1.25 * (ky * fya)) ∧
      AntitoneOn σ (Ici 0.15) ∧ ∀ x, 0.2 ≤ x → σ x = 0 := by
  obtain ⟨ky, kp, kE, ey, ep, eE, p0, E0, py, pE, d⟩ := carbon_joint h1 h2 hg
  have on : ∀ {c : String × List (ℚ × ℚ)} {k : ℝ}, c ∈ carbonProps → reduceProperty t c.1 "carbon" = .ok k → OnCurve c.2 t k := by
    intro c k hc hk
    obtain ⟨v, e, ho, _⟩ := C34_partial (K := ℝ) hc h1 h2.le hg
    rw [hk] at e
    cases e
    exact ho
  have hEa : 0 < Ea := by linarith
  have hE0 : 0 < kE * Ea := mul_pos E0 hEa
  have hep : kp * fya / (kE * Ea) ≤ 1 / 200 := by
    rw [div_le_iff₀ hE0]
    nlinarith
  have hh : 0 < 2 / 100 - kp * fya / (kE * Ea) := by linarith
  have hd : 0 ≤ ky * fya - kp * fya := by nlinarith
  have hlt : 2 * (ky * fya - kp * fya) < (2 / 100 - kp * fya / (kE * Ea)) * (kE * Ea) := by
    have a1 : 2 * (ky * fya - kp * fya) ≤ 12 / 5 * (kE * fya) := by nlinarith
    have a2 : 12 / 5 * (kE * fya) ≤ 12 / 1000 * (kE * Ea) := by nlinarith
    have a3 : (15 / 1000 : ℝ) * (kE * Ea) ≤ (2 / 100 - kp * fya / (kE * Ea)) * (kE * Ea) :=
      mul_le_mul_of_nonneg_right (by linarith) hE0.le
    nlinarith
  have hy0 : 0 ≤ ky * fya := by
    have : 0 < ky := p0.trans_le py
    positivity
  have hu := fuT_bounds (t := t) hy0
  have e02 : (0.02 : ℝ) = 2 / 100 := by norm_num
  have e15 : (0.15 : ℝ) = 15 / 100 := by norm_num
  have e20 : (0.2 : ℝ) = 20 / 100 := by norm_num
  have e125 : (1.25 : ℝ) = 5 / 4 := by norm_num
  rw [e02, e15, e20, e125]
  refine ⟨_, ky, kp, kE, fun x => stress_ok ep ey eE hE0 hh hd hlt hard x,
    on (c := ("ky", ecKy)) (by simp [carbonProps]) ey, on (c := ("kp", ecKp)) (by simp [carbonProps]) ep,
    on (c := ("kE", ecKE)) (by simp [carbonProps]) eE, curve_continuous hE0 hh hd hlt rfl, ?_,
    curve_mono hE0 hh hd hlt rfl hu.1, ?_, ?_, ?_, ?_, ?_⟩
  · intro x hx
    unfold curve
    rw [if_pos ((le_div_iff₀ hE0).2 hx)]
  · unfold curve
    rw [if_neg (by linarith), if_pos le_rfl, ell_end hE0 hh hd hlt rfl]
  · intro hb
    subst hb
    rw [curve_tail hh (by norm_num)]
    simp [tail]
  · intro hb
    subst hb
    rw [curve_tail hh (by norm_num)]
    have : tail true (ky * fya) (fuT t (ky * fya)) (15 / 100) = fuT t (ky * fya) := by
      unfold tail
      norm_num
    rw [this]
    exact hu
  · intro x hx y hy hxy
    rw [curve_tail hh (lt_of_lt_of_le (by norm_num) hx), curve_tail hh (lt_of_lt_of_le (by norm_num) hy)]
    exact tail_anti hy0 hu.1 hx hy hxy
  · intro x hx
    rw [curve_tail hh (lt_of_lt_of_le (by norm_num) hx), tail_zero hx]

/-- Steel S355 at 600 degrees meets the hypotheses. -/
example : ∃ σ : ℝ → ℝ, (∀ x, stress x 600 210000 355 false = .ok (σ x)) ∧ Continuous σ := by
  obtain ⟨σ, _, _, _, h, _, _, _, hc, _⟩ := C56_partial (t := 600) (Ea := 210000) (fya := 355) (by norm_num) (by norm_num)
    (.inr (by norm_num)) (by norm_num) (by norm_num) false
  exact ⟨σ, h, hc⟩

/-- **C56 is violated**: between 100 and 200 degrees the stress raises `KeyError`, at 1200 degrees `ZeroDivisionError` (no stiffness is left), for every
    strain. -/
theorem C56_violation (x Ea fya : ℝ) (hard : Bool) :
    (∀ t, 100 < t → t < 200 → stress x t Ea fya hard = .error .keyError) ∧ stress x 1200 Ea fya hard = .error .zeroDivision := by
  constructor
  · intro t h1 h2
    unfold stress fpT reduced
    rw [(C34_violation (K := ℝ) h1 h2 "kp").1]
    rfl
  · have e : (1200 : ℝ) = ((1200 : ℕ) : ℝ) := by norm_num
    have l : ∀ p ∈ ["kp", "kE"], reduceProperty (1200 : ℝ) p "carbon" = .ok 0 := by
      intro p hp
      rw [e, reduce_node (by decide) (tb := tableCS) rfl]
      have : look tableCS 1200 p = .ok 0 := by
        simp only [List.mem_cons, List.not_mem_nil, or_false] at hp
        rcases hp with rfl | rfl <;> rfl
      rw [this]
      simp [Except.map]
    unfold stress fpT EaT reduced
    rw [l "kp" (by simp), l "kE" (by simp)]
    simp [Except.map, bind, Except.bind, pdiv]

end Metku.Fire
