import Verif.Props.OptExtra
import Mathlib.Tactic.Linarith
import Mathlib.Tactic.NormNum
import Mathlib.Tactic.FieldSimp
import Mathlib.Tactic.Ring
import Mathlib.Tactic.Positivity
import Mathlib.Tactic.GCongr
import Mathlib.Algebra.BigOperators.Intervals
import Mathlib.Algebra.BigOperators.Field
import Verif.Model.StressedSkin
import Verif.Props.ColdRules

/-! Stressed skin panels (C282-C286). -/
namespace Metku.Skin

open Metku Metku.Cold

/-! ### Numbers of fasteners -/

/-- `k` fasteners at spacing `s` fit between the ends of a line of length `b`. -/
def Between (b s : ℝ) (k : ℕ) : Prop := (k + 1) * s ≤ b ∧ b < (k + 2) * s

theorem pyInt_nonneg {x : ℝ} (h : 0 ≤ x) : Opt.pyInt x = ⌊x⌋ := by rw [Opt.pyInt, if_pos h]

theorem ns_eq (P : Panel) (hs : 0 < P.seam.spacing) (k : ℕ) : Between P.b P.seam.spacing k → ns P = k := by
  rintro ⟨h1, h2⟩
  have hx : 0 ≤ P.b / P.seam.spacing := by
    apply div_nonneg _ hs.le
    have : (0 : ℝ) ≤ (k + 1) * P.seam.spacing := by positivity
    linarith
  rw [ns, pyInt_nonneg hx]
  have : ⌊P.b / P.seam.spacing⌋ = (k : ℤ) + 1 := by
    rw [Int.floor_eq_iff]
    push_cast
    constructor
    · rw [le_div_iff₀ hs]; exact h1
    · rw [div_lt_iff₀ hs]; linarith
  rw [this]; ring

theorem exists_between {b s : ℝ} (hs : 0 < s) (h : s ≤ b) : ∃ k : ℕ, Between b s k := by
  have h1 : 1 ≤ ⌊b / s⌋₊ := by
    rw [Nat.one_le_floor_iff, le_div_iff₀ hs]; linarith
  have hb : 0 ≤ b / s := div_nonneg (hs.le.trans h) hs.le
  refine ⟨⌊b / s⌋₊ - 1, ?_, ?_⟩
  · have := Nat.floor_le hb
    rw [le_div_iff₀ hs] at this
    rw [Nat.cast_sub h1]; push_cast; linarith
  · have := Nat.lt_floor_add_one (b / s)
    rw [div_lt_iff₀ hs] at this
    rw [Nat.cast_sub h1]; push_cast; linarith

/-! ### C282: seam strength -/

/-- A wall thickness is known. -/
def Wall.Has (w : Wall) (x : ℝ) : Prop :=
  w.tf = some x ∨ (w.tf = none ∧ w.T = some x) ∨ (w.tf = none ∧ w.T = none ∧ w.tt = some x)

theorem Wall.Has.eq {w : Wall} {x : ℝ} (h : w.Has x) : w.t = .ok x := by
  obtain ⟨tf, T, tt⟩ := w
  rcases h with h | ⟨h1, h2⟩ | ⟨h1, h2, h3⟩ <;> simp only at * <;> subst_vars
  · rfl
  · rfl
  · rfl

/-- Bearing strength of a screw by the standard (EN 1993-1-3, table 8.2), partial factor 1.25. -/
noncomputable def ecScrew (fu d t t1 : ℝ) : ℝ := ecAlpha d t t1 * fu * d * t / 1.25

/-- For seam fasteners in the troughs that are not spaced wider than the panel, the seam strength is
    `a/b (ns Fs + beta1 Fp)`, with the number of fasteners that fit between the ends and the bearing strengths of EN 1993-1-3.
    Missing: fasteners on the crests, wider spacing, and the diameter of the fasteners in the rafter, which is taken from
    the seam. -/
theorem C282_partial (P : Panel) (t1 : ℝ) (hl : P.loc = "trough") (hr : P.rule = "en1993") (hw : P.rafter.Has t1)
    (ht : 0 < P.sheet.t) (hs : 0 < P.seam.spacing) (k : ℕ) (hk : Between P.b P.seam.spacing k) :
    seamStrength P = .ok (P.a / P.b * (k * ecScrew P.sheet.fu P.seam.d P.sheet.t P.sheet.t +
      beta1 P.sheet.ntrough true * ecScrew P.sheet.fu P.seam.d P.sheet.t t1)) := by
  have h1 : fp P = .ok (screwBearing P.sheet.fu P.seam.d P.sheet.t t1) := by
    simp only [fp, wallFastener, if_pos hr, hw.eq, bind, Except.bind, pure, Except.pure]
  have h2 : beta3 P = .ok 1 := by rw [beta3, if_pos hl]
  have h3 : fs P = screwBearing P.sheet.fu P.seam.d P.sheet.t P.sheet.t := by rw [fs, if_pos hr]
  have h4 : P.beta1 = beta1 P.sheet.ntrough true := by rw [Panel.beta1, nf, hl]; simp
  simp only [seamStrength, h1, h2, h3, h4, ns_eq P hs k hk, bind, Except.bind, pure, Except.pure, div_one,
    Int.cast_natCast, ecScrew, screwBearing, screwAlpha_eq _ _ _ ht]

theorem ecScrew_nonneg {fu d t t1 : ℝ} (hf : 0 ≤ fu) (hd : 0 < d) (ht : 0 < t) (h1 : t ≤ t1) :
    0 ≤ ecScrew fu d t t1 := by
  have ha : 0 ≤ ecAlpha d t t1 := by
    have hm : 0 ≤ min (3.2 * √(t / d)) 2.1 := le_min (by positivity) (by norm_num)
    have hm' : min (3.2 * √(t / d)) 2.1 ≤ 2.1 := min_le_right _ _
    rw [← screwAlpha_eq d t t1 ht, screwAlpha]
    by_cases c1 : t = t1
    · rw [if_pos c1]; exact hm
    · rw [if_neg c1]
      by_cases c2 : t1 ≥ 2.5 * t ∧ t < 1
      · rw [if_pos c2]; exact hm
      · rw [if_neg c2]
        by_cases c3 : t1 ≥ 2.5 * t
        · rw [if_pos c3]; norm_num
        · rw [if_neg c3]
          have hlt : t < t1 := lt_of_le_of_ne h1 c1
          have hd' : 0 < 2.5 * t - t := by linarith
          have hx : 0 ≤ (t1 - t) / (2.5 * t - t) := div_nonneg (by linarith) hd'.le
          split
          · simp only [linInterp]; rw [sub_self, zero_div]; linarith
          · simp only [linInterp]
            have : 0 ≤ (2.1 - min (3.2 * √(t / d)) 2.1) / (2.5 * t - t) * (t1 - t) :=
              mul_nonneg (div_nonneg (by linarith) hd'.le) (by linarith)
            linarith
  rw [ecScrew]; positivity

/-- Closer seam fasteners never make the seam weaker (fasteners in the troughs, both spacings within the panel, rafter not
    thinner than the sheet). -/
theorem C282_spacing_partial (P : Panel) (t1 s' v v' : ℝ) (hl : P.loc = "trough") (hr : P.rule = "en1993")
    (hw : P.rafter.Has t1) (ht : 0 < P.sheet.t) (hf : 0 ≤ P.sheet.fu) (hd : 0 < P.seam.d) (ha : 0 ≤ P.a) (hb : 0 < P.b)
    (hs' : 0 < s') (hss : s' ≤ P.seam.spacing) (hsb : P.seam.spacing ≤ P.b)
    (hv : seamStrength P = .ok v) (hv' : seamStrength { P with seam := { P.seam with spacing := s' } } = .ok v') :
    v ≤ v' := by
  have hs : 0 < P.seam.spacing := hs'.trans_le hss
  obtain ⟨k, hk⟩ := exists_between hs hsb
  obtain ⟨k', hk'⟩ := exists_between hs' (hss.trans hsb)
  have e1 := C282_partial P t1 hl hr hw ht hs k hk
  have e2 := C282_partial { P with seam := { P.seam with spacing := s' } } t1 hl hr hw ht hs' k' hk'
  rw [hv] at e1
  rw [hv'] at e2
  obtain rfl := Except.ok.inj e1
  obtain rfl := Except.ok.inj e2
  have hle : (k : ℝ) ≤ k' := by
    by_contra hc
    rw [not_le] at hc
    have hc' : k' + 1 ≤ k := by exact_mod_cast hc
    have hc'' : (k' : ℝ) + 1 ≤ k := by exact_mod_cast hc'
    have : ((k' : ℝ) + 2) * s' ≤ (k + 1) * P.seam.spacing :=
      mul_le_mul (by linarith) hss hs'.le (by positivity)
    linarith [hk.1, hk'.2]
  have hF := ecScrew_nonneg hf hd ht (le_refl P.sheet.t)
  dsimp only
  have hab : 0 ≤ P.a / P.b := div_nonneg ha hb.le
  gcongr

example : ∃ P : Panel, P.loc = "trough" ∧ P.rule = "en1993" ∧ P.rafter.Has 6 ∧ 0 < P.sheet.t ∧ 0 < P.seam.spacing ∧
    Between P.b P.seam.spacing 11 :=
  ⟨⟨⟨0.96, 130, 111, 312, 936, 61, 420, 350, 210000, 0.3, 3⟩, 24000, 6000, 12, ⟨4.8, 500⟩, ⟨5.5, 250⟩, "trough",
    "en1993", ⟨none, some 6, none⟩, ⟨none, some 5, none⟩, 210000, 1836⟩, rfl, rfl, .inr (.inl ⟨rfl, rfl⟩),
    by norm_num, by norm_num, by constructor <;> norm_num⟩

/-- For seam fasteners on the crests there is no seam strength: the computation raises an error. -/
theorem C282_viol (P : Panel) (F : ℝ) (hF : fp P = .ok F) (hl : P.loc ≠ "trough") :
    seamStrength P = .error .typeError := by
  simp only [seamStrength, hF, beta3, if_neg hl, bind, Except.bind]

/-- For seam fasteners spaced wider than the panel, the strength of one fastener is taken off the seam. -/
theorem C282_wide_viol (P : Panel) (F : ℝ) (hF : fp P = .ok F) (hl : P.loc = "trough") (hb : 0 ≤ P.b)
    (hs : P.b < P.seam.spacing) :
    seamStrength P = .ok (P.a / P.b * (P.beta1 * F - fs P)) := by
  have hns : ns P = -1 := by
    have h0 : 0 < P.seam.spacing := hb.trans_lt hs
    rw [ns, pyInt_nonneg (div_nonneg hb h0.le), Int.floor_eq_zero_iff.2 ⟨div_nonneg hb h0.le, (div_lt_one h0).2 hs⟩]
    norm_num
  simp only [seamStrength, hF, beta3, if_pos hl, bind, Except.bind, pure, Except.pure, hns, div_one]
  congr 1; push_cast; ring

/-- With the rules of the ECCS guide, the strength cannot be computed for seam fasteners of the default diameter 4.8 mm,
    whatever the fasteners in the rafter are. -/
theorem C282_eccs_viol (P : Panel) (hr : P.rule ≠ "en1993") (h1 : P.seam.d = 4.8) :
    seamStrength P = .error .valueError := by
  have : fp P = .error .valueError := by
    rw [fp, wallFastener, if_neg hr, if_neg, if_neg] <;> rw [h1] <;> norm_num
  simp only [seamStrength, this, bind, Except.bind]

/-! ### C283: factor for the number of fasteners -/

theorem sum_odd_cubes (m : ℕ) : ∑ i ∈ Finset.range m, (2 * ((i : ℝ) + 1) - 1) ^ 3 = (m : ℝ) ^ 2 * (2 * m ^ 2 - 1) := by
  induction m with
  | zero => simp
  | succ m ih => rw [Finset.sum_range_succ, ih]; push_cast; ring

theorem sum_even_cubes (m : ℕ) : ∑ i ∈ Finset.range m, (2 * ((i : ℝ) + 1)) ^ 3 = 2 * (m : ℝ) ^ 2 * (m + 1) ^ 2 := by
  induction m with
  | zero => simp
  | succ m ih => rw [Finset.sum_range_succ, ih]; push_cast; ring

/-- Closed forms of the factor, for an even number `2m` and an odd number `2m+1` of fasteners. -/
theorem C283_closed (m : ℕ) :
    beta1 (2 * m) true = (m : ℝ) ^ 2 * (2 * m ^ 2 - 1) / (2 * m - 1) ^ 3 ∧
    beta1 (2 * m) false = (m : ℝ) ^ 2 * (2 * m ^ 2 - 1) / (2 * m) ^ 3 ∧
    beta1 (2 * m + 1) true = 2 * (m : ℝ) ^ 2 * (m + 1) ^ 2 / (2 * m) ^ 3 ∧
    beta1 (2 * m + 1) false = 2 * (m : ℝ) ^ 2 * (m + 1) ^ 2 / (2 * m + 1) ^ 3 := by
  have e1 : 2 * m % 2 = 0 := by omega
  have e2 : ¬ (2 * m + 1) % 2 = 0 := by omega
  have e3 : 2 * m / 2 = m := by omega
  have e4 : (2 * m + 1 - 1) / 2 = m := by omega
  refine ⟨?_, ?_, ?_, ?_⟩
  · rw [beta1, if_pos e1, if_pos rfl, e3]
    simp only [div_pow]
    rw [← Finset.sum_div, sum_odd_cubes]; push_cast; rfl
  · rw [beta1, if_pos e1, if_neg (by simp), e3]
    simp only [div_pow]
    rw [← Finset.sum_div, sum_odd_cubes]; push_cast; rfl
  · rw [beta1, if_neg e2, if_pos rfl, e4]
    simp only [div_pow]
    rw [← Finset.sum_div, sum_even_cubes]; push_cast; ring_nf
  · rw [beta1, if_neg e2, if_neg (by simp), e4]
    simp only [div_pow]
    rw [← Finset.sum_div, sum_even_cubes]; push_cast; rfl

/-- Values of the guide for two, three and four fasteners. -/
theorem C283_table : beta1 2 true = 1 ∧ beta1 3 true = 1 ∧ beta1 4 true = 28 / 27 ∧
    beta1 2 false = 1 / 8 ∧ beta1 3 false = 8 / 27 ∧ beta1 4 false = 7 / 16 := by
  refine ⟨?_, ?_, ?_, ?_, ?_, ?_⟩
  · have := (C283_closed 1).1; norm_num at this; exact this
  · have := (C283_closed 1).2.2.1; norm_num at this; exact this
  · have := (C283_closed 2).1; norm_num at this; exact this
  · have := (C283_closed 1).2.1; norm_num at this; exact this
  · have := (C283_closed 1).2.2.2; norm_num at this; exact this
  · have := (C283_closed 2).2.1; norm_num at this; exact this

theorem beta1_step (m : ℕ) : beta1 (2 * (m + 1)) true ≤ beta1 (2 * (m + 1) + 1) true ∧
    beta1 (2 * (m + 1) + 1) true ≤ beta1 (2 * (m + 2)) true ∧
    beta1 (2 * (m + 1)) false ≤ beta1 (2 * (m + 1) + 1) false ∧
    beta1 (2 * (m + 1) + 1) false ≤ beta1 (2 * (m + 2)) false := by
  obtain ⟨a1, a2, a3, a4⟩ := C283_closed (m + 1)
  obtain ⟨b1, b2, -, -⟩ := C283_closed (m + 2)
  have hm : (0 : ℝ) ≤ m := Nat.cast_nonneg m
  rw [a1, a2, a3, a4, b1, b2]
  push_cast
  refine ⟨?_, ?_, ?_, ?_⟩
  · rw [div_le_div_iff₀ (by have : (0:ℝ) < 2 * (m + 1) - 1 := by linarith
                            positivity) (by positivity)]
    have : 2 * ((m : ℝ) + 1) ^ 2 * (m + 1 + 1) ^ 2 * (2 * (m + 1) - 1) ^ 3 -
        ((m : ℝ) + 1) ^ 2 * (2 * (m + 1) ^ 2 - 1) * (2 * (m + 1)) ^ 3 =
        2 * (m + 1) ^ 2 * (4 * m ^ 4 + 10 * m ^ 3 + 5 * m ^ 2) := by ring
    have h2 : (0 : ℝ) ≤ 2 * (m + 1) ^ 2 * (4 * m ^ 4 + 10 * m ^ 3 + 5 * m ^ 2) := by positivity
    linarith
  · rw [div_le_div_iff₀ (by positivity) (by have : (0:ℝ) < 2 * (m + 2) - 1 := by linarith
                                            positivity)]
    have : ((m : ℝ) + 2) ^ 2 * (2 * (m + 2) ^ 2 - 1) * (2 * (m + 1)) ^ 3 -
        2 * ((m : ℝ) + 1) ^ 2 * (m + 1 + 1) ^ 2 * (2 * (m + 2) - 1) ^ 3 =
        2 * (m + 1) ^ 2 * (m + 2) ^ 2 * (4 * m ^ 2 + 6 * m + 1) := by ring
    have h2 : (0 : ℝ) ≤ 2 * (m + 1) ^ 2 * (m + 2) ^ 2 * (4 * m ^ 2 + 6 * m + 1) := by positivity
    linarith
  · rw [div_le_div_iff₀ (by positivity) (by positivity)]
    have : 2 * ((m : ℝ) + 1) ^ 2 * (m + 1 + 1) ^ 2 * (2 * (m + 1)) ^ 3 -
        ((m : ℝ) + 1) ^ 2 * (2 * (m + 1) ^ 2 - 1) * (2 * (m + 1) + 1) ^ 3 =
        (m + 1) ^ 2 * (8 * (m + 1) ^ 4 + 12 * (m + 1) ^ 3 + 10 * (m + 1) ^ 2 + 6 * (m + 1) + 1) := by ring
    have h2 : (0 : ℝ) ≤
        (m + 1) ^ 2 * (8 * (m + 1) ^ 4 + 12 * (m + 1) ^ 3 + 10 * (m + 1) ^ 2 + 6 * (m + 1) + 1) := by positivity
    linarith
  · rw [div_le_div_iff₀ (by positivity) (by positivity)]
    have : ((m : ℝ) + 2) ^ 2 * (2 * (m + 2) ^ 2 - 1) * (2 * (m + 1) + 1) ^ 3 -
        2 * ((m : ℝ) + 1) ^ 2 * (m + 1 + 1) ^ 2 * (2 * (m + 2)) ^ 3 =
        (m + 2) ^ 2 * (8 * (m + 1) ^ 4 + 20 * (m + 1) ^ 3 + 22 * (m + 1) ^ 2 + 10 * (m + 1) + 1) := by ring
    have h2 : (0 : ℝ) ≤
        (m + 2) ^ 2 * (8 * (m + 1) ^ 4 + 20 * (m + 1) ^ 3 + 22 * (m + 1) ^ 2 + 10 * (m + 1) + 1) := by positivity
    linarith

theorem beta1_succ (loc : Bool) (n : ℕ) (hn : 2 ≤ n) : beta1 n loc ≤ beta1 (n + 1) loc := by
  rcases Nat.even_or_odd' n with ⟨k, rfl | rfl⟩
  · obtain ⟨m, rfl⟩ : ∃ m, k = m + 1 := ⟨k - 1, by omega⟩
    cases loc
    · exact (beta1_step m).2.2.1
    · exact (beta1_step m).1
  · obtain ⟨m, rfl⟩ : ∃ m, k = m + 1 := ⟨k - 1, by omega⟩
    have : 2 * (m + 1) + 1 + 1 = 2 * (m + 2) := by ring
    rw [this]
    cases loc
    · exact (beta1_step m).2.2.2
    · exact (beta1_step m).2.1

/-- The factor never falls as fasteners are added, for any number from two on, in the troughs and on the crests. -/
theorem C283_mono (loc : Bool) (n n' : ℕ) (hn : 2 ≤ n) (h : n ≤ n') : beta1 n loc ≤ beta1 n' loc := by
  induction n', h using Nat.le_induction with
  | base => exact le_refl _
  | succ k hk ih => exact ih.trans (beta1_succ loc k (hn.trans hk))

/-- In the troughs the factor is at least one: a wider sheet never counts for less than its fasteners at the edges. -/
theorem C283_trough (n : ℕ) (hn : 2 ≤ n) : 1 ≤ beta1 n true := by
  have := C283_mono true 2 n (le_refl _) hn
  rwa [C283_table.1] at this

/-- Fasteners on the crests are never better than the same number in the troughs. -/
theorem C283_crest (n : ℕ) (hn : 2 ≤ n) : beta1 n false ≤ beta1 n true := by
  rcases Nat.even_or_odd' n with ⟨k, rfl | rfl⟩
  · obtain ⟨m, rfl⟩ : ∃ m, k = m + 1 := ⟨k - 1, by omega⟩
    obtain ⟨a1, a2, -, -⟩ := C283_closed (m + 1)
    rw [a1, a2]
    have hm : (0 : ℝ) ≤ m := Nat.cast_nonneg m
    push_cast
    have h1 : (0 : ℝ) < 2 * (m + 1) - 1 := by linarith
    have h2 : (0 : ℝ) ≤ 2 * (m + 1) ^ 2 - 1 := by nlinarith
    apply div_le_div_of_nonneg_left (by positivity) (by positivity)
    exact pow_le_pow_left₀ h1.le (by linarith) 3
  · obtain ⟨m, rfl⟩ : ∃ m, k = m + 1 := ⟨k - 1, by omega⟩
    obtain ⟨-, -, a3, a4⟩ := C283_closed (m + 1)
    rw [a3, a4]
    push_cast
    apply div_le_div_of_nonneg_left (by positivity) (by positivity)
    exact pow_le_pow_left₀ (by positivity) (by linarith) 3

example : 2 ≤ 3 ∧ 3 ≤ 17 ∧ beta1 3 true = 1 := ⟨by norm_num, by norm_num, C283_table.2.1⟩

/-! ### C284: distortion constant -/

/-- `x` lies in class `i` of width `w`. -/
def InClass (w x : ℝ) (i : ℕ) : Prop := i * w ≤ x ∧ x < (i + 1) * w

theorem pyInt_class {x : ℝ} {i : ℕ} (h : InClass 0.1 x i) : Opt.pyInt (x / 0.1) = i := by
  obtain ⟨h1, h2⟩ := h
  have hx : 0 ≤ x / 0.1 := div_nonneg ((by positivity : (0 : ℝ) ≤ i * 0.1).trans h1) (by norm_num)
  rw [pyInt_nonneg hx, Int.floor_eq_iff]
  push_cast
  constructor
  · rw [le_div_iff₀ (by norm_num)]; exact h1
  · rw [div_lt_iff₀ (by norm_num)]; exact h2

theorem floor_class {x : ℝ} {i : ℕ} (h : InClass 5 x i) : ⌊x / 5⌋ = i := by
  obtain ⟨h1, h2⟩ := h
  rw [Int.floor_eq_iff]
  push_cast
  constructor
  · rw [le_div_iff₀ (by norm_num)]; exact h1
  · rw [div_lt_iff₀ (by norm_num)]; exact h2

theorem pyIndex_nat {α : Type} (l : List α) (i : ℕ) : Opt.pyIndex l ((i : ℤ) + 1 - 1) = l[i]? := by
  rw [Opt.pyIndex]
  simp only [add_sub_cancel_right]
  by_cases h : i < l.length
  · simp [h]
  · simp [h]

/-- Rows of the printed table for the class of the web angle. -/
def rowsAt (k : ℕ) : Option (List (List ℕ)) := (k1[k]?).map Prod.snd

theorem lookup_rowsAt (k : ℕ) : lookupInt k1 (5 * (k : ℤ)) = rowsAt k := by
  rcases Nat.lt_or_ge k 10 with h | h
  · have : k = 0 ∨ k = 1 ∨ k = 2 ∨ k = 3 ∨ k = 4 ∨ k = 5 ∨ k = 6 ∨ k = 7 ∨ k = 8 ∨ k = 9 := by omega
    rcases this with h | h | h | h | h | h | h | h | h | h <;> subst h <;> decide
  · have e : rowsAt k = none := by
      rw [rowsAt, List.getElem?_eq_none (by simpa [k1] using h)]; rfl
    rw [e]
    simp only [k1, lookupInt]
    have : ∀ j : ℤ, j ≤ 45 → ¬ (5 * (k : ℤ) = j) := fun j hj hc => by omega
    simp [this]

/-- For a sheet whose depth and top flange are at least a tenth of the pitch, the constant is the table entry of the class
    of web angle, depth and top flange; where the table has none there is an error.
    Missing: smaller ratios, which wrap round to the end of the table. -/
theorem C284_partial (S : Sheet) (k i j : ℕ) (hk : InClass 5 (90 - S.angle) k)
    (hi : InClass 0.1 (S.h / S.pitch) (i + 1)) (hj : InClass 0.1 (S.bt / S.pitch) (j + 1)) :
    match (rowsAt k) with
    | none => kValue S = .error .keyError
    | some rows => match rows[i]? with
      | none => kValue S = .error .indexError
      | some row => match row[j]? with
        | none => kValue S = .error .indexError
        | some v => kValue S = Except.ok ((v : ℝ) / 1000) := by
  have e1 := pyInt_class hi
  have e2 := pyInt_class hj
  have e3 := floor_class hk
  simp only [kValue, e1, e2, e3, lookup_rowsAt]
  push_cast
  simp only [pyIndex_nat]
  cases rowsAt k with
  | none => rfl
  | some rows =>
    dsimp only
    cases rows[i]? with
    | none => rfl
    | some row =>
      dsimp only
      cases row[j]? with
      | none => rfl
      | some v => rfl

theorem k1_pos : ∀ e ∈ k1, ∀ r ∈ e.2, ∀ v ∈ r, 0 < v ∧ v ≤ 6453 := by decide

theorem lookupInt_mem {α : Type} (l : List (ℤ × α)) (x : ℤ) (v : α) (h : lookupInt l x = some v) :
    ∃ e ∈ l, e.2 = v := by
  induction l with
  | nil => simp [lookupInt] at h
  | cons e l ih =>
    obtain ⟨k, w⟩ := e
    rw [lookupInt] at h
    by_cases hx : x = k
    · rw [if_pos hx] at h
      exact ⟨(k, w), by simp, by simpa using h⟩
    · rw [if_neg hx] at h
      obtain ⟨e, he, hv⟩ := ih h
      exact ⟨e, List.mem_cons_of_mem _ he, hv⟩

theorem pyIndex_mem {α : Type} (l : List α) (x : ℤ) (v : α) (h : Opt.pyIndex l x = some v) : v ∈ l := by
  rw [Opt.pyIndex] at h
  split at h
  · exact List.mem_of_getElem? h
  · split at h
    · exact List.mem_of_getElem? h
    · simp at h

/-- A constant that is returned is positive and at most the largest one of the table. -/
theorem C284_pos (S : Sheet) (v : ℝ) (h : kValue S = .ok v) : 0 < v ∧ v ≤ 6.453 := by
  simp only [kValue] at h
  split at h
  · cases h
  · rename_i rows hrows
    split at h
    · cases h
    · rename_i row hrow
      split at h
      · cases h
      · rename_i w hw
        obtain rfl := Except.ok.inj h
        obtain ⟨e, he, rfl⟩ := lookupInt_mem _ _ _ hrows
        have := k1_pos e he row (pyIndex_mem _ _ _ hrow) w (pyIndex_mem _ _ _ hw)
        have h1 : (0 : ℝ) < w := by exact_mod_cast this.1
        have h2 : (w : ℝ) ≤ 6453 := by exact_mod_cast this.2
        constructor
        · positivity
        · rw [div_le_iff₀ (by norm_num)]; linarith

example : InClass 5 (90 - (61 : ℝ)) 5 ∧ InClass 0.1 ((111 : ℝ) / 312) (2 + 1) ∧ InClass 0.1 ((130 : ℝ) / 312) (3 + 1) ∧
    rowsAt 5 ≠ none := by
  refine ⟨⟨by norm_num, by norm_num⟩, ⟨by norm_num, by norm_num⟩, ⟨by norm_num, by norm_num⟩, by decide⟩

/-- A sheet shallower than a tenth of its pitch, with webs within 30 degrees of the vertical, is given the constant of a
    sheet 0.8 times as deep as its pitch. -/
theorem C284_viol (S : Sheet) (k : ℕ) (hk : InClass 5 (90 - S.angle) k) (hk6 : k < 6) (hp : 0 < S.pitch) (hh : 0 ≤ S.h)
    (hs : S.h < 0.1 * S.pitch) : kValue S = kValue { S with h := 0.8 * S.pitch } := by
  have e1 : Opt.pyInt (S.h / S.pitch / 0.1) = 0 := by
    have : InClass 0.1 (S.h / S.pitch) 0 := by
      constructor
      · simpa using div_nonneg hh hp.le
      · rw [div_lt_iff₀ hp]; push_cast; linarith
    simpa using pyInt_class this
  have e2 : Opt.pyInt (0.8 * S.pitch / S.pitch / 0.1) = 8 := by
    have : InClass 0.1 (0.8 * S.pitch / S.pitch) 8 := by
      rw [mul_div_assoc, div_self hp.ne']
      constructor <;> norm_num
    simpa using pyInt_class this
  have e3 := floor_class hk
  simp only [kValue, e1, e2, e3, lookup_rowsAt]
  have : k = 0 ∨ k = 1 ∨ k = 2 ∨ k = 3 ∨ k = 4 ∨ k = 5 := by omega
  rcases this with h | h | h | h | h | h <;> subst h <;> rfl

/-- For vertical webs that is always more than twice the constant of every depth up to half the pitch. -/
theorem C284_viol_size (S S' : Sheet) (j i : ℕ) (v v' : ℝ) (hk : InClass 5 (90 - S.angle) 0)
    (hk' : InClass 5 (90 - S'.angle) 0) (hi : InClass 0.1 (S'.h / S'.pitch) (i + 1)) (hi5 : i < 5)
    (hj : InClass 0.1 (S.bt / S.pitch) (j + 1)) (hj' : InClass 0.1 (S'.bt / S'.pitch) (j + 1))
    (hp : 0 < S.pitch) (hh : 0 ≤ S.h) (hs : S.h < 0.1 * S.pitch) (hv : kValue S = .ok v) (hv' : kValue S' = .ok v') :
    2 * v' < v := by
  rw [C284_viol S 0 hk (by norm_num) hp hh hs] at hv
  have a := C284_partial { S with h := 0.8 * S.pitch } 0 7 j hk (by
    dsimp only
    rw [mul_div_assoc, div_self hp.ne']
    constructor <;> norm_num) hj
  have b := C284_partial S' 0 i j hk' hi hj'
  have hj9 : j < 9 ∨ 9 ≤ j := Nat.lt_or_ge _ _
  have h0 : rowsAt 0 = some (k1.head!.2) := by decide
  rw [h0] at a b
  dsimp only at a b
  rcases hj9 with hj9 | hj9
  · have key : ∀ i < 5, ∀ j < 9, ∃ r r' w w', (k1.head!.2)[7]? = some r ∧ (k1.head!.2)[i]? = some r' ∧ r[j]? = some w ∧
        r'[j]? = some w' ∧ 2 * w' < w := by
      have : ∀ i < 5, ∀ j < 9, 2 * (((k1.head!.2)[i]?.getD [])[j]?.getD 0) < ((k1.head!.2)[7]?.getD [])[j]?.getD 0 ∧
          ((k1.head!.2)[i]?).isSome ∧ (((k1.head!.2)[i]?.getD [])[j]?).isSome ∧
          ((k1.head!.2)[7]?).isSome ∧ (((k1.head!.2)[7]?.getD [])[j]?).isSome := by decide
      intro i hi j hj
      obtain ⟨t1, t2, t3, t4, t5⟩ := this i hi j hj
      obtain ⟨r', hr'⟩ := Option.isSome_iff_exists.1 t2
      obtain ⟨r, hr⟩ := Option.isSome_iff_exists.1 t4
      rw [hr'] at t3 t1
      rw [hr] at t5 t1
      obtain ⟨w', hw'⟩ := Option.isSome_iff_exists.1 t3
      obtain ⟨w, hw⟩ := Option.isSome_iff_exists.1 t5
      rw [hw', hw] at t1
      exact ⟨r, r', w, w', hr, hr', hw, hw', by simpa using t1⟩
    obtain ⟨r, r', w, w', hr, hr', hw, hw', hlt⟩ := key i hi5 j hj9
    simp only [hr, hw] at a
    simp only [hr', hw'] at b
    rw [a] at hv
    rw [b] at hv'
    obtain rfl := Except.ok.inj hv
    obtain rfl := Except.ok.inj hv'
    have : (2 : ℝ) * w' < w := by exact_mod_cast hlt
    rw [← mul_div_assoc]
    exact div_lt_div_of_pos_right this (by norm_num)
  · exfalso
    have : (k1.head!.2)[7]? = some [516, 1146, 1546, 1662, 1631, 1692, 2107, 3208, 6453] := by decide
    rw [this] at a
    dsimp only at a
    rw [List.getElem?_eq_none (by simpa using hj9)] at a
    dsimp only at a
    rw [hv] at a
    cases a

/-- Entry of the table for vertical webs. -/
def vert (i j : ℕ) : ℕ := (((rowsAt 0).getD [])[i]?.getD [])[j]?.getD 0

/-- For vertical webs and depths of 0.5, 0.6 and 0.7 times the pitch the constant grows faster and faster for every class of
    top flange but one, the one from 0.2 to 0.3, where the entry for 0.5 does not fit its neighbours. -/
theorem C284_table_viol : ∀ j < 9, vert 4 j + vert 6 j < 2 * vert 5 j ↔ j = 1 := by decide

/-! ### C285: shear flexibility -/

/-- Data of a panel with whole fasteners and sheets: at least one seam and edge fastener spacing, at least one sheet. -/
structure Sound (P : Panel) : Prop where
  t : 0 < P.sheet.t
  h : 0 ≤ P.sheet.h
  pitch : 0 < P.sheet.pitch
  E : 0 < P.sheet.E
  nu : 0 ≤ P.sheet.nu
  width : 0 < P.sheet.width
  nf : 2 ≤ nf P
  a : 0 < P.a
  b : 0 < P.b
  seam : 0 < P.seam.spacing
  seamb : P.seam.spacing ≤ P.b
  edge : 0 < P.edge.spacing
  edgeb : P.edge.spacing ≤ P.b
  edgeE : 0 < P.edgeE
  edgeA : 0 < P.edgeA
  sheets : 1 ≤ nsh P

theorem beta1_pos (n : ℕ) (hn : 2 ≤ n) (loc : Bool) : 0 < beta1 n loc := by
  have := C283_mono loc 2 n (le_refl _) hn
  cases loc
  · rw [C283_table.2.2.2.1] at this; linarith
  · rw [C283_table.1] at this; linarith

theorem nsc_eq (P : Panel) (hs : 0 < P.edge.spacing) (k : ℕ) (hk : Between P.b P.edge.spacing k) : nsc P = k + 1 := by
  obtain ⟨h1, h2⟩ := hk
  have hx : 0 ≤ P.b / P.edge.spacing := by
    apply div_nonneg _ hs.le
    have : (0 : ℝ) ≤ (k + 1) * P.edge.spacing := by positivity
    linarith
  rw [nsc, pyInt_nonneg hx, Int.floor_eq_iff]
  push_cast
  constructor
  · rw [le_div_iff₀ hs]; exact h1
  · rw [div_lt_iff₀ hs]; linarith

/-- The flexibility by the ECCS guide: distortion, shear strain, fasteners in rafters, seams and edges, and edge members. -/
noncomputable def ecFlex (P : Panel) (K : ℝ) (ks ke : ℕ) : ℝ :=
  let E := P.sheet.E / 1000
  let d := P.sheet.pitch
  let t := P.sheet.t
  P.b ^ 2 / P.a ^ 2 * (P.a * d ^ (2.5 : ℝ) * K / (E * t ^ (2.5 : ℝ) * P.b ^ 2)
    + 2 * P.a * (1 + P.sheet.nu) * (1 + 2 * P.sheet.h / d) / (E * t * P.b)
    + 2 * P.a * sp * d / P.b ^ 2
    + ss * sp * (nsh P - 1) / (ks * sp + P.beta1 * ss)
    + 2 * ssc / (ke + 1))
  + P.n ^ 2 * P.b ^ 3 / (P.edgeE / 1000 * P.edgeA * P.a ^ 2)

/-- The number of sheets in the sum is the whole number nearest to the depth of the panel over the width of a sheet: exactly that number if the sheets fit. -/
theorem C285_sheets (P : Panel) : |P.a / P.sheet.width - (nsh P : ℝ)| ≤ 1 / 2 ∧ ∀ m : ℕ, P.sheet.width ≠ 0 → P.a = m * P.sheet.width → nsh P = m := by
  have h := Opt.pyRound_near (P.a / P.sheet.width)
  refine ⟨h, fun m hw ha => ?_⟩
  unfold nsh
  rw [ha, mul_div_assoc, div_self hw, mul_one]
  have := Opt.pyRound_near ((m : ℝ))
  have h2 : |(((m : ℤ) - Opt.pyRound (m : ℝ) : ℤ) : ℝ)| < 1 := by push_cast; linarith
  rw [← Int.cast_abs] at h2
  have h3 : |(m : ℤ) - Opt.pyRound (m : ℝ)| < 1 := by exact_mod_cast h2
  rw [Int.abs_lt_one_iff] at h3
  omega

/-- The shear flexibility is the sum of the guide, for spacings within the panel. -/
theorem C285_partial (P : Panel) (hP : Sound P) (K : ℝ) (hK : kValue P.sheet = .ok K) (ks ke : ℕ)
    (hks : Between P.b P.seam.spacing ks) (hke : Between P.b P.edge.spacing ke) :
    flexibility P = .ok (ecFlex P K ks ke) := by
  have hb1 : 0 < P.beta1 := beta1_pos _ hP.nf _
  have hden : (0 : ℝ) < ks * sp + P.beta1 * ss := by
    have : (0 : ℝ) ≤ ks * sp := by rw [sp]; positivity
    have : (0 : ℝ) < P.beta1 * ss := by rw [ss]; positivity
    linarith
  have e1 := ns_eq P hP.seam ks hks
  have e2 := nsc_eq P hP.edge ke hke
  have hn : ¬ ((ke : ℤ) + 1 = 0) := by omega
  simp only [flexibility, distortion, hK, fastenerDef, e1, e2, Int.cast_natCast, if_neg hden.ne', if_neg hn, bind,
    Except.bind, pure, Except.pure, shearStrain, edgeStrain, ecFlex]
  congr 1
  push_cast
  have : ∀ x : ℝ, x * 0.001 = x / 1000 := fun x => by ring
  simp only [this, div_div, mul_one]
  ring

theorem ecFlex_pos (P : Panel) (hP : Sound P) (K : ℝ) (hK : 0 < K) (ks ke : ℕ) : 0 < ecFlex P K ks ke := by
  obtain ⟨h1, h2, h3, h4, h5, -, h6, h7, h8, -, -, -, -, h9, h10, h11⟩ := hP
  have hb1 : 0 < P.beta1 := beta1_pos _ h6 _
  have hsh : (0 : ℝ) ≤ nsh P - 1 := by
    have : (1 : ℝ) ≤ (nsh P : ℝ) := by exact_mod_cast h11
    linarith
  have h12 : 0 < sp := by rw [sp]; norm_num
  have h13 : 0 < ss := by rw [ss]; norm_num
  have h14 : 0 < ssc := by rw [ssc]; norm_num
  have h15 : 0 < P.sheet.t ^ (2.5 : ℝ) := Real.rpow_pos_of_pos h1 _
  have h16 : 0 < P.sheet.pitch ^ (2.5 : ℝ) := Real.rpow_pos_of_pos h3 _
  unfold ecFlex
  positivity

/-- Every shear flexibility computed for such a panel is positive. -/
theorem C285_pos_partial (P : Panel) (hP : Sound P) (c : ℝ) (hc : flexibility P = .ok c) : 0 < c := by
  obtain ⟨ks, hks⟩ := exists_between hP.seam hP.seamb
  obtain ⟨ke, hke⟩ := exists_between hP.edge hP.edgeb
  cases hK : kValue P.sheet with
  | error e => simp only [flexibility, distortion, hK, bind, Except.bind] at hc; cases hc
  | ok K =>
    rw [C285_partial P hP K hK ks ke hks hke] at hc
    obtain rfl := Except.ok.inj hc
    exact ecFlex_pos P hP K (C284_pos _ _ hK).1 ks ke

/-- A thicker sheet never makes the panel more flexible. -/
theorem C285_thickness_partial (P : Panel) (hP : Sound P) (t' c c' : ℝ) (ht : P.sheet.t ≤ t')
    (hc : flexibility P = .ok c) (hc' : flexibility { P with sheet := { P.sheet with t := t' } } = .ok c') : c' ≤ c := by
  obtain ⟨ks, hks⟩ := exists_between hP.seam hP.seamb
  obtain ⟨ke, hke⟩ := exists_between hP.edge hP.edgeb
  have hP' : Sound { P with sheet := { P.sheet with t := t' } } :=
    { hP with t := hP.t.trans_le ht, h := hP.h, pitch := hP.pitch, nf := hP.nf, sheets := hP.sheets }
  cases hK : kValue P.sheet with
  | error e => simp only [flexibility, distortion, hK, bind, Except.bind] at hc; cases hc
  | ok K =>
    have hK' : kValue { P.sheet with t := t' } = .ok K := hK
    rw [C285_partial P hP K hK ks ke hks hke] at hc
    rw [C285_partial _ hP' K hK' ks ke hks hke] at hc'
    obtain rfl := Except.ok.inj hc
    obtain rfl := Except.ok.inj hc'
    have hKp := (C284_pos _ _ hK).1
    obtain ⟨h1, h2, h3, h4, h5, -, h6, h7, h8, -, -, -, -, h9, h10, h11⟩ := hP
    have h15 : 0 < P.sheet.t ^ (2.5 : ℝ) := Real.rpow_pos_of_pos h1 _
    have h16 : 0 < P.sheet.pitch ^ (2.5 : ℝ) := Real.rpow_pos_of_pos h3 _
    have h17 : P.sheet.t ^ (2.5 : ℝ) ≤ t' ^ (2.5 : ℝ) := Real.rpow_le_rpow h1.le ht (by norm_num)
    have e1 : Panel.beta1 { P with sheet := { P.sheet with t := t' } } = P.beta1 := rfl
    have e2 : nsh { P with sheet := { P.sheet with t := t' } } = nsh P := rfl
    simp only [ecFlex, e1, e2]
    gcongr

/-- With edge fasteners spaced wider than the panel the flexibility cannot be computed: division by zero. -/
theorem C285_viol (P : Panel) (K : ℝ) (hK : kValue P.sheet = .ok K) (hnf : 2 ≤ nf P) (hb : 0 ≤ P.b) (hs : 0 < P.seam.spacing)
    (hsb : P.seam.spacing ≤ P.b) (he : P.b < P.edge.spacing) : flexibility P = .error .zeroDivision := by
  obtain ⟨ks, hks⟩ := exists_between hs hsb
  have hb1 : 0 < P.beta1 := beta1_pos _ hnf _
  have hden : (0 : ℝ) < ks * sp + P.beta1 * ss := by
    have : (0 : ℝ) ≤ ks * sp := by rw [sp]; positivity
    have : (0 : ℝ) < P.beta1 * ss := by rw [ss]; positivity
    linarith
  have hne : nsc P = 0 := by
    have h0 : 0 < P.edge.spacing := hb.trans_lt he
    rw [nsc, pyInt_nonneg (div_nonneg hb h0.le), Int.floor_eq_zero_iff.2 ⟨div_nonneg hb h0.le, (div_lt_one h0).2 he⟩]
  simp only [flexibility, distortion, hK, fastenerDef, ns_eq P hs ks hks, hne, Int.cast_natCast, if_neg hden.ne', if_true,
    bind, Except.bind, pure, Except.pure]

example : ∃ P : Panel, Sound P ∧ Between P.b P.seam.spacing 11 ∧ Between P.b P.edge.spacing 23 := by
  refine ⟨⟨⟨0.96, 130, 111, 312, 936, 61, 420, 350, 210000, 0.3, 3⟩, 24000, 6000, 12, ⟨4.8, 500⟩, ⟨5.5, 250⟩, "trough",
    "en1993", ⟨none, some 6, none⟩, ⟨none, some 5, none⟩, 210000, 1836⟩, ?_, ⟨by norm_num, by norm_num⟩,
    ⟨by norm_num, by norm_num⟩⟩
  have hr : Opt.pyRound ((24000 : ℝ) / 936) = 26 := by
    have hf : ⌊(24000 : ℝ) / 936⌋ = 25 := by rw [Int.floor_eq_iff]; constructor <;> norm_num
    rw [Opt.pyRound, hf, if_neg (by norm_num), if_pos (by norm_num)]; norm_num
  constructor <;> first | (norm_num; done) | (show 2 ≤ 3; norm_num) | (show (1 : ℤ) ≤ Opt.pyRound ((24000 : ℝ) / 936); rw [hr]; norm_num)

/-! ### C286: strengths without a value -/

/-- Neither the edge fastener strength nor the end collapse strength of any panel is given to the caller. -/
theorem C286_viol (P : Panel) (v : ℝ) : edgeStrength P ≠ .ok (some v) ∧ endCollapse P ≠ .ok (some v) := by
  constructor
  · intro h
    rw [edgeStrength, noReturn] at h
    cases hx : (do let F ← fsc P; return P.a / P.b * F * (nsc P : ℝ) : Except PyErr ℝ) with
    | error e => rw [hx] at h; cases h
    | ok x => rw [hx] at h; cases h
  · intro h
    rw [endCollapse, noReturn] at h
    cases h

/-- The strength of the sheet-to-rafter fasteners is `0.6 a Fp / p` with the bearing strength of EN 1993-1-3, and not negative.
    Missing: the other two strengths, and the diameter of the rafter fasteners. -/
theorem C286_partial (P : Panel) (t1 : ℝ) (hr : P.rule = "en1993") (hw : P.rafter.Has t1) (ht : 0 < P.sheet.t)
    (h1 : P.sheet.t ≤ t1) (hf : 0 ≤ P.sheet.fu) (hd : 0 < P.seam.d) (ha : 0 ≤ P.a) (hp : 0 < P.sheet.pitch) :
    rafterStrength P = .ok (0.6 * P.a * ecScrew P.sheet.fu P.seam.d P.sheet.t t1 / P.sheet.pitch) ∧
    0 ≤ 0.6 * P.a * ecScrew P.sheet.fu P.seam.d P.sheet.t t1 / P.sheet.pitch := by
  constructor
  · have h1 : fp P = .ok (screwBearing P.sheet.fu P.seam.d P.sheet.t t1) := by
      simp only [fp, wallFastener, if_pos hr, hw.eq, bind, Except.bind, pure, Except.pure]
    simp only [rafterStrength, h1, bind, Except.bind, pure, Except.pure, ecScrew, screwBearing, screwAlpha_eq _ _ _ ht]
  · have := ecScrew_nonneg hf hd ht h1
    positivity

/-- The diameter of the edge fasteners, the ones that also hold the sheet to the rafters, has no effect on the strengths that
    are returned. -/
theorem C286_diameter_viol (P : Panel) (d' : ℝ) :
    rafterStrength { P with edge := { P.edge with d := d' } } = rafterStrength P ∧
    seamStrength { P with edge := { P.edge with d := d' } } = seamStrength P := ⟨rfl, rfl⟩

end Metku.Skin
