import Verif.Props.TimberMember
import Mathlib.Data.List.Sort

/-!
Torsion of rectangles, reduction of shear near supports and forces of timber members.
-/
namespace Metku.Timber

open TimberSpec

/-! ### C148: torsion -/

theorem sideRatio_of_le {h b : ℝ} (hb : 0 < b) (hle : b ≤ h) : sideRatio h b = h / b := by
  unfold sideRatio
  rw [if_neg]
  rw [not_lt, le_div_iff₀ hb]
  linarith

theorem sideRatio_symm {h b : ℝ} (hh : 0 < h) (hb : 0 < b) : sideRatio h b = sideRatio b h := by
  rcases lt_trichotomy h b with hlt | rfl | hlt
  · rw [sideRatio_of_le hh hlt.le]
    unfold sideRatio
    rw [if_pos (by rw [div_lt_one hb]; exact hlt), one_div_div]
  · rfl
  · rw [sideRatio_of_le hb hlt.le]
    unfold sideRatio
    rw [if_pos (by rw [div_lt_one hh]; exact hlt), one_div_div]

/-- The ratios of the table of the torsion constant. -/
def Tabulated (r : ℝ) : Prop := ((1 < r ∧ r < 1.05) ∨ |r - 1.5| < 0.05 ∨ |r - 2| < 0.05 ∨ |r - 2.5| < 0.05 ∨ |r - 3| < 0.05) ∨ |r - 4| < 0.05 ∨ |r - 5| < 0.05 ∨ |r - 6| < 0.05 ∨ |r - 8| < 0.05 ∨ 9 < r

theorem torAlpha_tab {r : ℝ} (h : Tabulated r) : 0.141 ≤ torAlpha r ∧ torAlpha r ≤ 0.333 := by
  unfold torAlpha
  split_ifs with h1 h2 h3 h4 h5 h6 h7 h8 h9 h10 <;> first | (constructor <;> norm_num; done) | skip
  exfalso
  rcases h with (h | h | h | h | h) | h | h | h | h | h
  · exact h1 h
  · rw [abs_lt] at h; exact h2 ⟨by linarith [h.1], by linarith [h.2]⟩
  · rw [abs_lt] at h; exact h3 ⟨by linarith [h.1], by linarith [h.2]⟩
  · rw [abs_lt] at h; exact h4 ⟨by linarith [h.1], by linarith [h.2]⟩
  · rw [abs_lt] at h; exact h5 ⟨by linarith [h.1], by linarith [h.2]⟩
  · rw [abs_lt] at h; exact h6 ⟨by linarith [h.1], by linarith [h.2]⟩
  · rw [abs_lt] at h; exact h7 ⟨by linarith [h.1], by linarith [h.2]⟩
  · rw [abs_lt] at h; exact h8 ⟨by linarith [h.1], by linarith [h.2]⟩
  · rw [abs_lt] at h; exact h9 ⟨by linarith [h.1], by linarith [h.2]⟩
  · exact h10 h

theorem torAlpha_untab {r : ℝ} (hr : 1 ≤ r) (h : ¬ Tabulated r) : 0.5 < torAlpha r := by
  have key : ∀ c : ℝ, c - 0.05 < r ∧ r < c + 0.05 → |r - c| < 0.05 := fun c hc => abs_lt.2 ⟨by linarith [hc.1], by linarith [hc.2]⟩
  unfold torAlpha
  unfold Tabulated at h
  push Not at h
  obtain ⟨⟨g1, g2, g3, g4, g5⟩, g6, g7, g8, g9, g10⟩ := h
  split_ifs with h1 h2 h3 h4 h5 h6 h7 h8 h9 h10
  · exact absurd h1.2 (not_lt.2 (g1 h1.1))
  · exact absurd (key 1.5 ⟨by linarith [h2.1], by linarith [h2.2]⟩) (not_lt.2 g2)
  · exact absurd (key 2 ⟨by linarith [h3.1], by linarith [h3.2]⟩) (not_lt.2 g3)
  · exact absurd (key 2.5 ⟨by linarith [h4.1], by linarith [h4.2]⟩) (not_lt.2 g4)
  · exact absurd (key 3 ⟨by linarith [h5.1], by linarith [h5.2]⟩) (not_lt.2 g5)
  · exact absurd (key 4 ⟨by linarith [h6.1], by linarith [h6.2]⟩) (not_lt.2 g6)
  · exact absurd (key 5 ⟨by linarith [h7.1], by linarith [h7.2]⟩) (not_lt.2 g7)
  · exact absurd (key 6 ⟨by linarith [h8.1], by linarith [h8.2]⟩) (not_lt.2 g8)
  · exact absurd (key 8 ⟨by linarith [h9.1], by linarith [h9.2]⟩) (not_lt.2 g9)
  · exact absurd h10 (not_lt.2 g10)
  · nlinarith

/-- **C148** (partial).  For a rectangle not wider than deep, the torsion stress is never below that of a thin rectangle and at most 1.61 times as large; the torsion constant does not exceed that of a thin rectangle when the
ratio of the sides is one of the tabulated ones. -/
theorem C148_partial (h b t : ℝ) (hb : 0 < b) (hle : b ≤ h) (ht : 0 ≤ t) :
    t / thinModulus h b ≤ torStress h b t ∧ torStress h b t ≤ 1.61 * (t / thinModulus h b) ∧
    (Tabulated (h / b) → 0.42 * thinInertia h b ≤ torInertia h b ∧ torInertia h b ≤ thinInertia h b) := by
  have hh : 0 < h := lt_of_lt_of_le hb hle
  have hβ := torBeta_bounds (sideRatio_ge hh hb)
  have hmax : max h b = h := max_eq_left hle
  have hmin : min h b = b := min_eq_right hle
  have hp : 0 < h * b ^ 2 := by positivity
  have hp3 : 0 < h * b ^ 3 := by positivity
  have hM : thinModulus h b = h * b ^ 2 / 3 := by
    unfold thinModulus
    rw [hmax, hmin]
  refine ⟨?_, ?_, ?_⟩
  · rw [hM]
    unfold torStress
    refine div_le_div_of_nonneg_left ht (by rw [mul_assoc]; exact mul_pos (by linarith) hp) ?_
    rw [mul_assoc]
    nlinarith
  · rw [hM]
    unfold torStress
    rw [mul_assoc, ← mul_div_assoc, div_le_div_iff₀ (mul_pos (by linarith) hp) (by positivity)]
    have : h * b ^ 2 / 3 ≤ 1.61 * (torBeta (sideRatio h b) * (h * b ^ 2)) := by nlinarith
    nlinarith
  · intro hT
    have hα := torAlpha_tab (r := sideRatio h b) (by rw [sideRatio_of_le hb hle]; exact hT)
    unfold torInertia thinInertia
    rw [hmax, hmin, mul_assoc]
    constructor <;> nlinarith

/-- **C148** (negation).  Between the tabulated ratios, and for squares, the torsion constant is more than one and a half times that of a thin rectangle: more than any rectangle of that size has. -/
theorem C148_violation (h b : ℝ) (hb : 0 < b) (hle : b ≤ h) (hT : ¬ Tabulated (h / b)) : 1.5 * thinInertia h b < torInertia h b := by
  have hh : 0 < h := lt_of_lt_of_le hb hle
  have hα := torAlpha_untab (r := sideRatio h b) (sideRatio_ge hh hb) (by rw [sideRatio_of_le hb hle]; exact hT)
  have hp3 : 0 < h * b ^ 3 := by positivity
  unfold torInertia thinInertia
  rw [max_eq_left hle, min_eq_right hle, mul_assoc]
  nlinarith

/-- A square of 100 mm. -/
example : 1.5 * thinInertia 100 100 < torInertia 100 100 := by
  refine C148_violation 100 100 (by norm_num) le_rfl ?_
  unfold Tabulated
  norm_num [abs_lt, abs_of_neg, abs_of_pos]

/-- A rectangle of 100 by 200 mm. -/
example : torInertia 200 100 ≤ thinInertia 200 100 :=
  ((C148_partial 200 100 0 (by norm_num) (by norm_num) le_rfl).2.2 (.inl (.inr (.inr (.inl (by norm_num)))))).2

/-- **C148** (negation).  A rectangle wider than deep gets a torsion stress below that of the same rectangle turned, and from 1.61 times wider on below that of a thin rectangle. -/
theorem C148_violation_turned (h b t : ℝ) (hh : 0 < h) (hlt : h < b) (ht : 0 < t) : torStress h b t < torStress b h t ∧ (1.61 * h ≤ b → torStress h b t < t / thinModulus h b) := by
  have hb : 0 < b := hh.trans hlt
  have hβ := torBeta_bounds (sideRatio_ge hh hb)
  have hβ0 : 0 < torBeta (sideRatio h b) := by linarith [hβ.1]
  constructor
  · unfold torStress
    rw [sideRatio_symm hb hh]
    refine div_lt_div_of_pos_left ht (by positivity) ?_
    rw [mul_assoc, mul_assoc]
    refine mul_lt_mul_of_pos_left ?_ hβ0
    nlinarith [mul_pos hh hb]
  · intro h16
    unfold torStress thinModulus
    rw [max_eq_right hlt.le, min_eq_left hlt.le]
    refine div_lt_div_of_pos_left ht (by positivity) ?_
    have hp : 0 < h * b := mul_pos hh hb
    have h1 : 0.208 * (h * b * b) ≤ torBeta (sideRatio h b) * (h * b * b) := mul_le_mul_of_nonneg_right hβ.1 (by positivity)
    have h2 : h * b * (1.61 * h) ≤ h * b * b := mul_le_mul_of_nonneg_left h16 hp.le
    have h3 : 0 < h * b * h := mul_pos hp hh
    nlinarith

/-- A plank of 100 by 200 mm lying flat. -/
example : torStress 100 200 1000 < 1000 / thinModulus 100 200 := (C148_violation_turned 100 200 1000 (by norm_num) (by norm_num) (by norm_num)).2 (by norm_num)

/-! ### C149: shear near supports -/

theorem pyGet_nat {α : Type} {l : List α} {n : ℕ} {a : α} (h : l[n]? = some a) : pyGet l (n : ℤ) = .ok a := by
  unfold pyGet
  rw [if_pos (Int.natCast_nonneg n), Int.toNat_natCast, h]
  rfl

theorem pyGet_nat_none {α : Type} {l : List α} {n : ℕ} (h : l.length ≤ n) : pyGet l (n : ℤ) = .error .indexError := by
  unfold pyGet
  rw [if_pos (Int.natCast_nonneg n), Int.toNat_natCast, List.getElem?_eq_none h]
  rfl

theorem sorted_lt {l : List ℝ} (hs : l.Pairwise (· < ·)) {i j : ℕ} {x y : ℝ} (hi : l[i]? = some x) (hj : l[j]? = some y) (hij : i < j) : x < y := by
  obtain ⟨h1, rfl⟩ := List.getElem?_eq_some_iff.1 hi
  obtain ⟨h2, rfl⟩ := List.getElem?_eq_some_iff.1 hj
  exact List.pairwise_iff_getElem.1 hs i j h1 h2 hij

/-- What moving to the edge of the zone at the start finds. -/
theorem shiftStart_spec {l : List ℝ} (hs : l.Pairwise (· < ·)) {s x : ℝ} {n : ℕ} (hn : l[n]? = some x) (hx : x < s) :
    ∃ (k : ℕ) (y : ℝ), shiftStart l s n = k ∧ l[k]? = some y ∧ n ≤ k ∧ y ≤ s ∧ ((∀ z ∈ l, z ≤ s) → k = n) ∧ ((∃ z ∈ l, s < z) → ∀ (j : ℕ) (z : ℝ), k < j → l[j]? = some z → s < z) := by
  have hnl : n < l.length := (List.getElem?_eq_some_iff.1 hn).1
  have hb : ∀ i : ℕ, behind l s ((n : ℤ) + i + 1) = true ↔ ∃ z, l[n + i + 1]? = some z ∧ s < z := by
    intro i
    have e : ((n : ℤ) + i + 1) = ((n + i + 1 : ℕ) : ℤ) := by push_cast; rfl
    unfold behind
    rw [e]
    cases h : l[n + i + 1]? with
    | none =>
      rw [pyGet_nat_none (List.getElem?_eq_none_iff.1 h)]
      simp
    | some z =>
      rw [pyGet_nat h]
      simp
  unfold shiftStart
  cases hf : (List.range l.length).find? fun i : ℕ => behind l s (n + i + 1) with
  | none =>
    have hall : ∀ z ∈ l, z ≤ s := by
      intro z hz
      obtain ⟨j, hj⟩ := List.mem_iff_getElem?.1 hz
      rcases Nat.lt_or_ge n j with hc | hc
      · have hjl : j < l.length := (List.getElem?_eq_some_iff.1 hj).1
        have := List.find?_eq_none.1 hf (j - n - 1) (List.mem_range.2 (by omega))
        rw [hb] at this
        by_contra hlt
        exact this ⟨z, by rw [← hj]; congr 1; omega, not_le.1 hlt⟩
      · rcases Nat.lt_or_ge j n with hc' | hc'
        · exact (sorted_lt hs hj hn hc').le.trans hx.le
        · have : j = n := le_antisymm hc hc'
          rw [this, hn] at hj
          rw [← Option.some.inj hj]
          exact hx.le
    refine ⟨n, x, rfl, hn, le_rfl, hx.le, fun _ => rfl, ?_⟩
    rintro ⟨z, hz, hlt⟩
    exact absurd hlt (not_lt.2 (hall z hz))
  | some i =>
    rw [List.find?_range_eq_some] at hf
    obtain ⟨h1, h2, h3⟩ := hf
    obtain ⟨z, hz, hsz⟩ := (hb i).1 h1
    have hlt : n + i + 1 < l.length := (List.getElem?_eq_some_iff.1 hz).1
    have hk : l[n + i]? = some (l[n + i]'(by omega)) := List.getElem?_eq_getElem (by omega)
    refine ⟨n + i, l[n + i]'(by omega), by simp only [Option.elim_some]; push_cast; rfl, hk, by omega, ?_, ?_, ?_⟩
    · rcases Nat.eq_zero_or_pos i with rfl | hi
      · have : l[n + 0]'(by omega) = x := by
          have := hn
          rw [List.getElem?_eq_getElem (by omega)] at this
          simpa using this
        rw [this]
        exact hx.le
      · by_contra hc
        have := h3 (i - 1) (by omega)
        have hh : behind l s ((n : ℤ) + (i - 1 : ℕ) + 1) = true := (hb (i - 1)).2 ⟨_, by rw [← hk]; congr 1; omega, not_le.1 hc⟩
        rw [hh] at this
        exact absurd this (by simp)
    · intro hall
      exact absurd hsz (not_lt.2 (hall z (List.mem_of_getElem? hz)))
    · intro _ j w hj hw
      rcases Nat.lt_or_ge (n + i + 1) j with hc | hc
      · exact hsz.trans (sorted_lt hs hz hw hc)
      · have : j = n + i + 1 := by omega
        rw [this, hz] at hw
        rw [← Option.some.inj hw]
        exact hsz

/-- What moving to the edge of the zone at the end finds. -/
theorem shiftEnd_spec {l : List ℝ} (hs : l.Pairwise (· < ·)) {s x : ℝ} {n : ℕ} (hn : l[n]? = some x) (hx : s < x) :
    ∃ (k : ℕ) (y : ℝ), shiftEnd l s n = k ∧ l[k]? = some y ∧ k ≤ n ∧ s ≤ y ∧ ((∀ z ∈ l, s ≤ z) → k = n) ∧ ((∃ z ∈ l, z < s) → ∀ (j : ℕ) (z : ℝ), j < k → l[j]? = some z → z < s) := by
  have hnl : n < l.length := (List.getElem?_eq_some_iff.1 hn).1
  have hb : ∀ i : ℕ, i < n → (before l s ((n : ℤ) - i - 1) = true ↔ ∃ z, l[n - i - 1]? = some z ∧ z < s) := by
    intro i hi
    have e : ((n : ℤ) - i - 1) = ((n - i - 1 : ℕ) : ℤ) := by omega
    unfold before
    rw [e]
    cases h : l[n - i - 1]? with
    | none =>
      rw [pyGet_nat_none (List.getElem?_eq_none_iff.1 h)]
      simp
    | some z =>
      rw [pyGet_nat h]
      simp
  have hwrap : ∀ i : ℕ, n ≤ i → i < l.length → before l s ((n : ℤ) - i - 1) = true → ∃ z ∈ l, z < s ∧ ∃ j, n ≤ j + i + 1 - l.length ∧ l[j]? = some z ∧ j + i + 1 = n + l.length := by
    intro i h1 h2 h3
    unfold before pyGet at h3
    rw [if_neg (by omega), if_pos (by omega)] at h3
    have e : ((n : ℤ) - i - 1 + l.length).toNat = n + l.length - i - 1 := by omega
    rw [e, List.getElem?_eq_getElem (by omega)] at h3
    refine ⟨l[n + l.length - i - 1]'(by omega), List.getElem_mem _, of_decide_eq_true h3, n + l.length - i - 1, by omega, List.getElem?_eq_getElem (by omega), by omega⟩
  unfold shiftEnd
  cases hf : (List.range l.length).find? fun i : ℕ => before l s (n - i - 1) with
  | none =>
    have hall : ∀ z ∈ l, s ≤ z := by
      intro z hz
      obtain ⟨j, hj⟩ := List.mem_iff_getElem?.1 hz
      rcases Nat.lt_or_ge j n with hc | hc
      · have := List.find?_eq_none.1 hf (n - j - 1) (List.mem_range.2 (by omega))
        rw [hb (n - j - 1) (by omega)] at this
        by_contra hlt
        exact this ⟨z, by rw [← hj]; congr 1; omega, not_le.1 hlt⟩
      · rcases Nat.lt_or_ge n j with hc' | hc'
        · exact hx.le.trans (sorted_lt hs hn hj hc').le
        · have : j = n := le_antisymm hc' hc
          rw [this, hn] at hj
          rw [← Option.some.inj hj]
          exact hx.le
    refine ⟨n, x, rfl, hn, le_rfl, hx.le, fun _ => rfl, ?_⟩
    rintro ⟨z, hz, hlt⟩
    exact absurd hlt (not_lt.2 (hall z hz))
  | some i =>
    rw [List.find?_range_eq_some] at hf
    obtain ⟨h1, h2, h3⟩ := hf
    have hil : i < l.length := List.mem_range.1 h2
    have hin : i < n := by
      by_contra hc
      push Not at hc
      obtain ⟨z, hz, hzs, -⟩ := hwrap i hc hil h1
      obtain ⟨j, hj⟩ := List.mem_iff_getElem?.1 hz
      have hjn : j < n := by
        by_contra hge
        rcases Nat.eq_or_lt_of_le (not_lt.1 hge) with rfl | hlt
        · rw [hn] at hj
          have := Option.some.inj hj
          linarith
        · have := sorted_lt hs hn hj hlt
          linarith
      have := h3 (n - j - 1) (by omega)
      have hh : before l s ((n : ℤ) - (n - j - 1 : ℕ) - 1) = true := (hb (n - j - 1) (by omega)).2 ⟨z, by rw [← hj]; congr 1; omega, hzs⟩
      rw [hh] at this
      exact absurd this (by simp)
    obtain ⟨z, hz, hsz⟩ := (hb i hin).1 h1
    have hk : l[n - i]? = some (l[n - i]'(by omega)) := List.getElem?_eq_getElem (by omega)
    refine ⟨n - i, l[n - i]'(by omega), by simp only [Option.elim_some]; omega, hk, by omega, ?_, ?_, ?_⟩
    · rcases Nat.eq_zero_or_pos i with rfl | hi
      · have : l[n - 0]'(by omega) = x := by
          have := hn
          rw [List.getElem?_eq_getElem (by omega)] at this
          simpa using this
        rw [this]
        exact hx.le
      · by_contra hc
        have := h3 (i - 1) (by omega)
        have hh : before l s ((n : ℤ) - (i - 1 : ℕ) - 1) = true := (hb (i - 1) (by omega)).2 ⟨_, by rw [← hk]; congr 1; omega, not_le.1 hc⟩
        rw [hh] at this
        exact absurd this (by simp)
    · intro hall
      exact absurd hsz (not_lt.2 (hall z (List.mem_of_getElem? hz)))
    · intro _ j w hj hw
      rcases Nat.lt_or_ge j (n - i - 1) with hc | hc
      · exact (sorted_lt hs hw hz hc).trans hsz
      · have : j = n - i - 1 := by omega
        rw [this, hz] at hw
        rw [← Option.some.inj hw]
        exact hsz

/-- The section the shear check takes, in terms of the zones of the model. -/
theorem shear_zones (m : TMember) (hs : m.locs.Pairwise (· < ·)) (hz : m.zoneStart ≤ 1 - m.zoneEnd) (n : ℕ) (f : Forces) (hf : m.secs[n]? = some f) :
    m.checkShear n false = .ok (m.shearRatio f) ∧ (m.isBeam = false → m.checkShear n true = .ok (m.shearRatio f)) ∧
    (m.isBeam = true → ∃ (k : ℕ) (g : Forces), m.secs[k]? = some g ∧ m.checkShear n true = .ok (m.shearRatio g) ∧
      (m.zoneStart ≤ f.loc → f.loc ≤ 1 - m.zoneEnd → k = n) ∧
      (f.loc < m.zoneStart → n ≤ k ∧ g.loc ≤ m.zoneStart ∧ ((∀ q ∈ m.secs, q.loc ≤ m.zoneStart) → k = n) ∧
        ((∃ q ∈ m.secs, m.zoneStart < q.loc) → ∀ (j : ℕ) (q : Forces), k < j → m.secs[j]? = some q → m.zoneStart < q.loc)) ∧
      (1 - m.zoneEnd < f.loc → k ≤ n ∧ 1 - m.zoneEnd ≤ g.loc ∧ ((∀ q ∈ m.secs, 1 - m.zoneEnd ≤ q.loc) → k = n) ∧
        ((∃ q ∈ m.secs, q.loc < 1 - m.zoneEnd) → ∀ (j : ℕ) (q : Forces), j < k → m.secs[j]? = some q → q.loc < 1 - m.zoneEnd))) := by
  have hg : pyGet m.secs (n : ℤ) = .ok f := pyGet_nat hf
  have hl : ∀ (j : ℕ) (q : Forces), m.secs[j]? = some q → m.locs[j]? = some q.loc := by
    intro j q hq
    unfold TMember.locs
    rw [List.getElem?_map, hq]
    rfl
  have hl' : ∀ (j : ℕ) (y : ℝ), m.locs[j]? = some y → ∃ q, m.secs[j]? = some q ∧ q.loc = y := by
    intro j y hy
    unfold TMember.locs at hy
    rw [List.getElem?_map] at hy
    cases hc : m.secs[j]? with
    | none => rw [hc] at hy; cases hy
    | some q =>
      rw [hc] at hy
      exact ⟨q, rfl, Option.some.inj hy⟩
  have hm : ∀ y, y ∈ m.locs ↔ ∃ q ∈ m.secs, q.loc = y := by
    intro y
    unfold TMember.locs
    rw [List.mem_map]
  refine ⟨?_, ?_, ?_⟩
  · unfold TMember.checkShear
    simp only [Bool.false_and, Bool.false_eq_true, if_false, bind, Except.bind, hg]
  · intro hb
    unfold TMember.checkShear
    simp only [hb, Bool.and_false, Bool.false_eq_true, if_false, bind, Except.bind, hg]
  · intro hb
    have hc : ∀ (k : ℕ) (g : Forces), m.shearIndex n f.loc = k → m.secs[k]? = some g → m.checkShear n true = .ok (m.shearRatio g) := by
      intro k g hk hkg
      unfold TMember.checkShear
      simp only [hb, Bool.and_self, if_true, bind, Except.bind, hg, hk, pyGet_nat hkg]
    rcases lt_or_ge f.loc m.zoneStart with h1 | h1
    · have h2 : ¬ 1 - m.zoneEnd < f.loc := by linarith
      obtain ⟨k, y, e, hk, hnk, hy, hall, hex⟩ := shiftStart_spec hs (hl n f hf) h1
      obtain ⟨g, hkg, rfl⟩ := hl' k y hk
      refine ⟨k, g, hkg, hc k g ?_ hkg, fun h3 => absurd h3 (not_le.2 h1), fun _ => ⟨hnk, hy, ?_, ?_⟩, fun h3 => absurd h3 h2⟩
      · unfold TMember.shearIndex
        simp only [h1, h2, if_true, if_false, e]
      · intro hq
        refine hall fun z hz => ?_
        obtain ⟨q, hqm, rfl⟩ := (hm z).1 hz
        exact hq q hqm
      · rintro ⟨q, hqm, hlt⟩ j p hj hp
        exact hex ⟨q.loc, (hm _).2 ⟨q, hqm, rfl⟩, hlt⟩ j p.loc hj (hl j p hp)
    · rcases lt_or_ge (1 - m.zoneEnd) f.loc with h2 | h2
      · obtain ⟨k, y, e, hk, hnk, hy, hall, hex⟩ := shiftEnd_spec hs (hl n f hf) h2
        obtain ⟨g, hkg, rfl⟩ := hl' k y hk
        refine ⟨k, g, hkg, hc k g ?_ hkg, fun _ h3 => absurd h3 (not_le.2 h2), fun h3 => absurd h3 (not_lt.2 h1), fun _ => ⟨hnk, hy, ?_, ?_⟩⟩
        · unfold TMember.shearIndex
          simp only [not_lt.2 h1, h2, if_true, if_false, e]
        · intro hq
          refine hall fun z hz => ?_
          obtain ⟨q, hqm, rfl⟩ := (hm z).1 hz
          exact hq q hqm
        · rintro ⟨q, hqm, hlt⟩ j p hj hp
          exact hex ⟨q.loc, (hm _).2 ⟨q, hqm, rfl⟩, hlt⟩ j p.loc hj (hl j p hp)
      · refine ⟨n, f, hf, hc n f ?_ hf, fun _ _ => rfl, fun h3 => absurd h3 (not_lt.2 h1), fun h3 => absurd h3 (not_lt.2 h2)⟩
        unfold TMember.shearIndex
        simp only [not_lt.2 h1, not_lt.2 h2, if_false]

/-- **C149** (partial).  A zone reaches from each end of a beam over the depth of the beam and half the depth of the member it meets there.  In a beam of the same depth at both ends whose sections are given in order and whose zones
do not overlap, the shear check of a section outside the zones is that of this section; of a section in a zone it is that of the section of the zone farthest from the support, if the beam goes on behind the zone, and of the
section itself otherwise.  Members that are no beams, and checks without reduction, take the section itself. -/
theorem C149_partial (m : TMember) (hL : 0 < m.L) (hH : m.H 1 = m.H 0) (hs : m.locs.Pairwise (· < ·)) (a b : ℝ) (ha : a * m.L = m.otherStart + m.H 0) (hb : (1 - b) * m.L = m.otherEnd + m.H 1) (hz : a ≤ b) (n : ℕ) (f : Forces)
    (hf : m.secs[n]? = some f) :
    m.checkShear n false = .ok (m.shearRatio f) ∧ (m.isBeam = false → m.checkShear n true = .ok (m.shearRatio f)) ∧
    (m.isBeam = true → ∃ (k : ℕ) (g : Forces), m.secs[k]? = some g ∧ m.checkShear n true = .ok (m.shearRatio g) ∧ (a ≤ f.loc → f.loc ≤ b → k = n) ∧
      (f.loc < a → n ≤ k ∧ g.loc ≤ a ∧ ((∀ q ∈ m.secs, q.loc ≤ a) → k = n) ∧ ((∃ q ∈ m.secs, a < q.loc) → ∀ (j : ℕ) (q : Forces), k < j → m.secs[j]? = some q → a < q.loc)) ∧
      (b < f.loc → k ≤ n ∧ b ≤ g.loc ∧ ((∀ q ∈ m.secs, b ≤ q.loc) → k = n) ∧ ((∃ q ∈ m.secs, q.loc < b) → ∀ (j : ℕ) (q : Forces), j < k → m.secs[j]? = some q → q.loc < b))) := by
  have ea : m.zoneStart = a := by
    unfold TMember.zoneStart
    rw [div_eq_iff hL.ne', ha]
  have eb : 1 - m.zoneEnd = b := by
    unfold TMember.zoneEnd
    rw [← hH, ← hb]
    field_simp
    ring
  have := shear_zones m hs (by rw [ea, eb]; exact hz) n f hf
  rwa [ea, eb] at this

/-- A beam of 4 m with sections at its ends and 100 mm, 500 mm from its start: the zone is 200 mm long, and the section at the support is checked with the force at 100 mm. -/
example : (demoMember [.plane 0 0 9 0, .plane 0 0 8 0.025, .plane 0 0 5 0.125, .plane 0 0 (-9) 1]).checkShear 0 true =
    .ok ((demoMember [.plane 0 0 9 0, .plane 0 0 8 0.025, .plane 0 0 5 0.125, .plane 0 0 (-9) 1]).shearRatio (.plane 0 0 8 0.025)) := by
  obtain ⟨-, -, h⟩ := C149_partial (demoMember [.plane 0 0 9 0, .plane 0 0 8 0.025, .plane 0 0 5 0.125, .plane 0 0 (-9) 1]) (by norm_num [demoMember]) rfl (by norm_num [TMember.locs, demoMember, Forces.plane]) 0.05 0.95
    (by norm_num [demoMember]) (by norm_num [demoMember]) (by norm_num) 0 (.plane 0 0 9 0) rfl
  obtain ⟨k, g, hk, hc, -, h2, -⟩ := h rfl
  obtain ⟨-, hle, -, hex⟩ := h2 (by norm_num [Forces.plane])
  have hlast := hex ⟨.plane 0 0 5 0.125, by simp [demoMember], by norm_num [Forces.plane]⟩
  match k, hk, hlast with
  | 0, _, hlast =>
    have := hlast 1 (.plane 0 0 8 0.025) (by norm_num) rfl
    norm_num [Forces.plane] at this
  | 1, hk, _ =>
    obtain rfl := Option.some.inj hk
    exact hc
  | 2, hk, _ =>
    obtain rfl := Option.some.inj hk
    norm_num [Forces.plane] at hle
  | 3, hk, _ =>
    obtain rfl := Option.some.inj hk
    norm_num [Forces.plane] at hle
  | k + 4, hk, _ => cases hk

/-- **C149** (negation).  In a beam that is lower at its end than at its start, the zone at the end is taken with the depth at the start: a section in front of the zone is checked with the force of another section. -/
theorem C149_violation (m : TMember) (hL : 0 < m.L) (hb : m.isBeam = true) (f0 f1 f2 : Forces) (hm : m.secs = [f0, f1, f2]) (h1 : f0.loc < f1.loc) (h2 : f1.loc < f2.loc) (hs : m.otherStart + m.H 0 ≤ f0.loc * m.L)
    (hz0 : m.otherEnd + m.H 0 < (1 - f0.loc) * m.L) (hz1 : (1 - f1.loc) * m.L ≤ m.otherEnd + m.H 0) (_hz2 : m.otherEnd + m.H 1 ≤ (1 - f2.loc) * m.L) : m.checkShear 2 true = .ok (m.shearRatio f1) := by
  have z0 : m.zoneStart ≤ f0.loc := by
    unfold TMember.zoneStart
    rw [div_le_iff₀ hL]
    exact hs
  have e0 : m.zoneEnd < 1 - f0.loc := by
    unfold TMember.zoneEnd
    rw [div_lt_iff₀ hL]
    exact hz0
  have e1 : 1 - f1.loc ≤ m.zoneEnd := by
    unfold TMember.zoneEnd
    rw [le_div_iff₀ hL]
    exact hz1
  have hp : m.locs.Pairwise (· < ·) := by
    unfold TMember.locs
    rw [hm]
    simp [h1, h2, h1.trans h2]
  obtain ⟨k, g, hk, hc, -, -, h4⟩ := (shear_zones m hp (by linarith) 2 f2 (by rw [hm]; rfl)).2.2 hb
  obtain ⟨hk2, hg, -, hlast⟩ := h4 (by linarith)
  have hlast := hlast ⟨f0, by rw [hm]; simp, by linarith⟩
  rw [hm] at hk
  match k, hk, hlast with
  | 0, hk, _ =>
    obtain rfl := Option.some.inj hk
    linarith
  | 1, hk, _ =>
    obtain rfl := Option.some.inj hk
    exact hc
  | 2, _, hlast =>
    have := hlast 1 f1 (by norm_num) (by rw [hm]; rfl)
    linarith
  | k + 3, hk, _ => cases hk

/-- A beam of 4 m, 400 mm high at its start and 200 mm at its end.  The section 300 mm from the end is in front of the zone of 200 mm and is checked with the force 360 mm from the end. -/
example : ({ demoMember [.plane 0 0 0 0.5, .plane 0 0 (-5) 0.91, .plane 0 0 (-8) 0.925] with H := fun x => 400 - 200 * x } : TMember).checkShear 2 true =
    .ok (({ demoMember [.plane 0 0 0 0.5, .plane 0 0 (-5) 0.91, .plane 0 0 (-8) 0.925] with H := fun x => 400 - 200 * x } : TMember).shearRatio (.plane 0 0 (-5) 0.91)) :=
  C149_violation _ (by norm_num [demoMember]) rfl (.plane 0 0 0 0.5) (.plane 0 0 (-5) 0.91) (.plane 0 0 (-8) 0.925) rfl (by norm_num [Forces.plane]) (by norm_num [Forces.plane]) (by norm_num [Forces.plane, demoMember])
    (by norm_num [Forces.plane, demoMember]) (by norm_num [Forces.plane, demoMember]) (by norm_num [Forces.plane, demoMember])

/-- **C147** (capacity).  When the checks of all sections pass without reduction of shear, or for a member that is no beam, every section carries its own axial and shear forces. -/
theorem C147_capacity (m : TMember) (h : m.Sound) (b : Bool) (hb : b = false ∨ m.isBeam = false) (rs : List ℝ) (hrs : m.checkSections b = .ok rs) (hle : ∀ x ∈ rs, x ≤ 1) (f : Forces) (hf : f ∈ m.secs) :
    f.ned ≤ m.area f.loc * m.ft0d ∧ -f.ned ≤ m.area f.loc * m.fc0d ∧ |f.vyed| ≤ 2 / 3 * (m.area f.loc * m.kcr) * m.fvd ∧ |f.vzed| ≤ 2 / 3 * (m.area f.loc * m.kcr) * m.fvd := by
  obtain ⟨n, hn⟩ := List.mem_iff_getElem?.1 hf
  obtain ⟨row, e, hrow⟩ := ((C147_partial m (.error .valueError) (.error .valueError) (.error .valueError)).1 b rs hrs).2.1 n (List.getElem?_eq_some_iff.1 hn).1
  have hsh : m.checkShear n b = .ok (m.shearRatio f) := by
    unfold TMember.checkShear
    have : (b && m.isBeam) = false := by
      rcases hb with rfl | hb
      · rfl
      · rw [hb, Bool.and_false]
    simp only [pyGet_nat hn, bind, Except.bind, this, Bool.false_eq_true, if_false]
  unfold TMember.resistance at e
  simp only [pyGet_nat hn, bind, Except.bind, hsh] at e
  obtain rfl := Except.ok.inj e
  have get : ∀ (i : ℕ) (x : ℝ), [m.checkNormal f, m.shearRatio f, m.checkBending f, m.checkTorsion f, m.checkBendTens f, m.checkBendComp f][i]? = some x → x ≤ 1 := by
    intro i x hx
    obtain ⟨y, hy, hxy⟩ := hrow i x hx
    exact hxy.trans (hle y (List.mem_of_getElem? hy))
  obtain ⟨c1, c2, -⟩ := C146_partial m h f
  obtain ⟨a1, a2⟩ := c1.1 (get 0 _ rfl)
  obtain ⟨a3, a4⟩ := c2.1 (get 1 _ rfl)
  exact ⟨a1, a2, a3, a4⟩

/-- A column with 10 kN of shear at its foot. -/
noncomputable def demoColumn : TMember := { demoMember [.plane 0 0 10000 0] with isBeam := false }

/-- The column passes and carries the force. -/
example : |(.plane 0 0 10000 0 : Forces).vzed| ≤ 2 / 3 * (demoColumn.area 0 * demoColumn.kcr) * demoColumn.fvd := by
  have hs : demoColumn.Sound := by constructor <;> norm_num [demoColumn, demoMember]
  have hr : demoColumn.checkSections true = .ok [max 0 (demoColumn.checkNormal (.plane 0 0 10000 0)), max 0 (demoColumn.shearRatio (.plane 0 0 10000 0)), max 0 (demoColumn.checkBending (.plane 0 0 10000 0)),
      max 0 (demoColumn.checkTorsion (.plane 0 0 10000 0)), max 0 (demoColumn.checkBendTens (.plane 0 0 10000 0)), max 0 (demoColumn.checkBendComp (.plane 0 0 10000 0))] := rfl
  refine (C147_capacity demoColumn hs true (.inr rfl) _ hr ?_ (.plane 0 0 10000 0) (by simp [demoColumn, demoMember])).2.2.2
  intro x hx
  simp only [List.mem_cons, List.not_mem_nil, or_false] at hx
  rcases hx with rfl | rfl | rfl | rfl | rfl | rfl <;>
    norm_num [TMember.checkNormal, TMember.shearRatio, TMember.checkBending, TMember.checkTorsion, TMember.checkBendTens, TMember.checkBendComp, TMember.sigma0, TMember.sigmaY, TMember.sigmaZ, TMember.tau, demoColumn, demoMember,
      Forces.plane, torStress, shapeFactor, torBeta, sideRatio]

/-! ### C150: forces reach the member -/

theorem assign_cons {e e' : ElemForces} {es : List ElemForces} {x : ℝ} {xs : List ℝ} {fs : List Forces} (h : assignForces (e :: e' :: es) (x :: xs) = .ok fs) :
    ∃ r, assignForces (e' :: es) xs = .ok r ∧ fs = .plane e.n1 e.m1 e.v1 x :: r := by
  unfold assignForces at h
  simp only [bind, Except.bind] at h
  split at h
  · cases h
  rename_i r hr
  exact ⟨r, hr, (Except.ok.inj h).symm⟩

theorem assign_spec : ∀ (es : List ElemForces) (xs : List ℝ) (fs : List Forces), assignForces es xs = .ok fs →
    fs.length = es.length + 1 ∧ (∀ e ∈ es, ∃ f ∈ fs, f.ned = e.n1 ∧ f.myed = e.m1 ∧ f.vzed = e.v1) ∧ (∀ e, es.getLast? = some e → ∃ f ∈ fs, f.ned = e.n2 ∧ f.myed = e.m2 ∧ f.vzed = e.v2) ∧
    (∀ f ∈ fs, (∃ e ∈ es, f.ned = e.n1 ∧ f.myed = e.m1 ∧ f.vzed = e.v1) ∨ ∃ e, es.getLast? = some e ∧ f.ned = e.n2 ∧ f.myed = e.m2 ∧ f.vzed = e.v2) ∧ fs.map Forces.loc = xs.take (es.length + 1) := by
  intro es
  induction es with
  | nil =>
    intro xs fs h
    cases h
  | cons e es ih =>
    intro xs fs h
    cases es with
    | nil =>
      match xs, h with
      | [], h => cases h
      | [_], h => cases h
      | x :: y :: zs, h =>
        obtain rfl := Except.ok.inj h
        refine ⟨rfl, ?_, ?_, ?_, rfl⟩
        · intro q hq
          rcases List.mem_singleton.1 hq with rfl
          exact ⟨_, List.mem_cons_self, rfl, rfl, rfl⟩
        · intro q hq
          obtain rfl := Option.some.inj hq
          exact ⟨.plane e.n2 e.m2 e.v2 y, by simp, rfl, rfl, rfl⟩
        · intro f hf
          simp only [List.mem_cons, List.not_mem_nil, or_false] at hf
          rcases hf with rfl | rfl
          · exact .inl ⟨e, List.mem_cons_self, rfl, rfl, rfl⟩
          · exact .inr ⟨e, rfl, rfl, rfl, rfl⟩
    | cons e' es =>
      cases xs with
      | nil => cases h
      | cons x xs =>
        obtain ⟨r, hr, rfl⟩ := assign_cons h
        obtain ⟨h1, h2, h3, h4, h5⟩ := ih xs r hr
        refine ⟨by rw [List.length_cons, h1]; rfl, ?_, ?_, ?_, ?_⟩
        · intro q hq
          rcases List.mem_cons.1 hq with rfl | hq
          · exact ⟨_, List.mem_cons_self, rfl, rfl, rfl⟩
          · obtain ⟨f, hf, e⟩ := h2 q hq
            exact ⟨f, List.mem_cons_of_mem _ hf, e⟩
        · intro q hq
          rw [List.getLast?_cons_cons] at hq
          obtain ⟨f, hf, e⟩ := h3 q hq
          exact ⟨f, List.mem_cons_of_mem _ hf, e⟩
        · intro f hf
          rcases List.mem_cons.1 hf with rfl | hf
          · exact .inl ⟨e, List.mem_cons_self, rfl, rfl, rfl⟩
          · rcases h4 f hf with ⟨q, hq, e⟩ | ⟨q, hq, e⟩
            · exact .inl ⟨q, List.mem_cons_of_mem _ hq, e⟩
            · exact .inr ⟨q, by rw [List.getLast?_cons_cons]; exact hq, e⟩
        · rw [List.map_cons, h5]
          rfl

/-- **C150** (partial).  A member gets one section per node, in order and at the location of the node, and when the forces are continuous from element to element, the forces at both ends of every element are among those of its
sections. -/
theorem C150_partial (es : List ElemForces) (xs : List ℝ) (fs : List Forces) (h : assignForces es xs = .ok fs) :
    fs.length = es.length + 1 ∧ fs.map Forces.loc = xs.take (es.length + 1) ∧
    ((∀ (i : ℕ) (a b : ElemForces), es[i]? = some a → es[i + 1]? = some b → b.n1 = a.n2 ∧ b.m1 = a.m2 ∧ b.v1 = a.v2) →
      ∀ e ∈ es, (∃ f ∈ fs, f.ned = e.n1 ∧ f.myed = e.m1 ∧ f.vzed = e.v1) ∧ ∃ f ∈ fs, f.ned = e.n2 ∧ f.myed = e.m2 ∧ f.vzed = e.v2) := by
  obtain ⟨h1, h2, h3, -, h5⟩ := assign_spec es xs fs h
  refine ⟨h1, h5, fun hc e he => ⟨h2 e he, ?_⟩⟩
  obtain ⟨i, hi⟩ := List.mem_iff_getElem?.1 he
  have hil : i < es.length := (List.getElem?_eq_some_iff.1 hi).1
  rcases Nat.lt_or_ge (i + 1) es.length with hlt | hge
  · have hb : es[i + 1]? = some (es[i + 1]'hlt) := List.getElem?_eq_getElem hlt
    obtain ⟨c1, c2, c3⟩ := hc i e _ hi hb
    obtain ⟨f, hf, g1, g2, g3⟩ := h2 _ (List.mem_of_getElem? hb)
    exact ⟨f, hf, g1.trans c1, g2.trans c2, g3.trans c3⟩
  · refine h3 e ?_
    rw [List.getLast?_eq_getElem?]
    have : es.length - 1 = i := by omega
    rw [this, hi]

/-- **C150** (negation).  Where the shear force jumps, the value before the jump is lost: if it differs from the forces at the first ends and from the last one, no section has it. -/
theorem C150_violation (es : List ElemForces) (xs : List ℝ) (fs : List Forces) (h : assignForces es xs = .ok fs) (v : ℝ) (h1 : ∀ e ∈ es, e.v1 ≠ v) (h2 : ∀ e, es.getLast? = some e → e.v2 ≠ v) :
    ∀ f ∈ fs, f.vzed ≠ v := by
  obtain ⟨-, -, -, h4, -⟩ := assign_spec es xs fs h
  intro f hf
  rcases h4 f hf with ⟨e, he, -, -, e3⟩ | ⟨e, he, -, -, e3⟩
  · rw [e3]
    exact h1 e he
  · rw [e3]
    exact h2 e he

/-- A beam over two spans with an inner support, 30 kN left of it and 20 kN right of it: no section has the larger force. -/
example : ∃ fs, assignForces [⟨0, 0, 10, -5, 0, -30⟩, ⟨-5, 0, 20, 0, 0, -10⟩] [0, 0.5, 1] = .ok fs ∧ ∀ f ∈ fs, |f.vzed| < 30 := by
  refine ⟨[.plane 0 0 10 0, .plane 0 (-5) 20 0.5, .plane 0 0 (-10) 1], rfl, ?_⟩
  intro f hf
  simp only [List.mem_cons, List.not_mem_nil, or_false] at hf
  rcases hf with rfl | rfl | rfl <;> norm_num [Forces.plane]

/-- The larger force is one of those the negation speaks of. -/
example : ∀ f ∈ ([.plane 0 0 10 0, .plane 0 (-5) 20 0.5, .plane 0 0 (-10) 1] : List Forces), f.vzed ≠ -30 :=
  C150_violation [⟨0, 0, 10, -5, 0, -30⟩, ⟨-5, 0, 20, 0, 0, -10⟩] [0, 0.5, 1] _ rfl (-30) (by norm_num) (by intro e he; obtain rfl := Option.some.inj he; norm_num)

end Metku.Timber
