import Mathlib.Tactic.Linarith
import Mathlib.Tactic.NormNum
import Mathlib.Tactic.FieldSimp
import Mathlib.Tactic.Ring
import Mathlib.Tactic.Positivity
import Mathlib.Order.Bounds.Basic
import Mathlib.Data.List.Count
import Mathlib.Data.List.Nodup
import Verif.Model.Truss2D
import Verif.Props.OptExtra
import Verif.Props.OptSlp

/-! Simple trusses of `truss2d` (C287-C294). -/
set_option linter.unusedSectionVars false

namespace Metku.T2

open Metku

variable {K : Type} [Field K] [LinearOrder K] [IsStrictOrderedRing K]

/-! ### Locations of webs -/

/-- Number of panel points that pass `i` has put on the chord of the odd passes: `dx` keeps the first one at the end. -/
def odd (T : Truss K) (i : ℕ) : ℕ := if T.dx = 0 then (i + 1) / 2 else (i - 1) / 2

theorem clamp_min {a b c d : K} (hd : 0 ≤ d) (hc : c < 1) (h : a = min c b) :
    min c (if 1 < a + d then 1 else a + d) = min c (b + d) := by
  subst h
  by_cases hb : b ≤ c
  · rw [min_eq_right hb]
    by_cases h1 : 1 < b + d
    · rw [if_pos h1, min_eq_left hc.le, min_eq_left (by linarith)]
    · rw [if_neg h1]
  · rw [not_le] at hb
    rw [min_eq_left hb.le]
    by_cases h1 : 1 < c + d
    · rw [if_pos h1, min_eq_left hc.le, min_eq_left (by linarith)]
    · rw [if_neg h1, min_eq_left (by linarith), min_eq_left (by linarith)]

theorem clamp_one {a b d : K} (hd : 0 ≤ d) (h : a = min 1 b) :
    (if 1 < a + d then 1 else a + d) = min 1 (b + d) := by
  subst h
  by_cases hb : b ≤ 1
  · rw [min_eq_right hb]
    by_cases h1 : 1 < b + d
    · rw [if_pos h1, min_eq_left h1.le]
    · rw [if_neg h1, min_eq_right (not_lt.1 h1)]
  · rw [not_le] at hb
    rw [min_eq_left hb.le]
    by_cases h1 : 1 < 1 + d
    · rw [if_pos h1, min_eq_left (by linarith)]
    · rw [if_neg h1]
      have : d = 0 := le_antisymm (by linarith) hd
      rw [this, add_zero, add_zero, min_eq_left hb.le]

theorem dc_nonneg (T : Truss K) (hn : 1 < T.n) : 0 ≤ T.dc1 ∧ 0 ≤ T.dc2 := by
  have h2 : (2 : K) ≤ T.n := by exact_mod_cast hn
  have h0 : (0 : K) ≤ ((T.n / 4 : ℕ) : K) := Nat.cast_nonneg _
  unfold Truss.dc1 Truss.dc2
  constructor
  · split <;> positivity
  · split
    · positivity
    · apply div_nonneg zero_le_one
      linarith

/-- Closed form of the locations: multiples of the two spacings, kept off the end of a chord that meets another one. -/
theorem locs_eq (T : Truss K) (hn : 1 < T.n) (i : ℕ) :
    (T.locs i).1 = (if T.H2 ≠ 0 ∧ ¬ T.flip then min (99999 / 100000) ((i / 2 : ℕ) * T.dc1) else min 1 ((i / 2 : ℕ) * T.dc1)) ∧
    (T.locs i).2 = (if T.flip then min (99999 / 100000) (odd T i * T.dc2) else min 1 (odd T i * T.dc2)) := by
  obtain ⟨hd1, hd2⟩ := dc_nonneg T hn
  have hc : (99999 / 100000 : K) < 1 := by norm_num
  have hc0 : (0 : K) ≤ 99999 / 100000 := by norm_num
  induction i with
  | zero =>
    have h0 : odd T 0 = 0 := by unfold odd; split <;> rfl
    simp only [Truss.locs, h0, Nat.zero_div, Nat.cast_zero, zero_mul, min_eq_right hc0, min_eq_right (zero_le_one' K),
      ite_self, and_self]
  | succ i ih =>
    obtain ⟨ih1, ih2⟩ := ih
    simp only [Truss.locs, Truss.step]
    by_cases he : (i + 1) % 2 = 0
    · rw [if_pos he]
      have e1 : (i + 1) / 2 = i / 2 + 1 := by omega
      have e2 : odd T (i + 1) = odd T i := by
        unfold odd; split <;> omega
      constructor
      · dsimp only
        rw [e1]; push_cast; rw [add_mul, one_mul]
        by_cases hf : T.H2 ≠ 0 ∧ ¬ T.flip
        · rw [if_pos hf] at ih1
          rw [if_pos hf, if_pos hf]
          exact clamp_min hd1 hc ih1
        · rw [if_neg hf] at ih1
          rw [if_neg hf, if_neg hf]
          exact clamp_one hd1 ih1
      · dsimp only
        rw [e2]; exact ih2
    · rw [if_neg he]
      have e1 : (i + 1) / 2 = i / 2 := by omega
      by_cases h1 : i + 1 = 1 ∧ T.dx ≠ 0
      · rw [if_pos h1]
        have e2 : odd T (i + 1) = odd T i := by
          unfold odd; rw [if_neg h1.2, if_neg h1.2]; omega
        rw [e1, e2]
        exact ⟨ih1, ih2⟩
      · rw [if_neg h1]
        have e2 : odd T (i + 1) = odd T i + 1 := by
          unfold odd
          by_cases hx : T.dx = 0
          · rw [if_pos hx, if_pos hx]; omega
          · rw [if_neg hx, if_neg hx]
            have : i + 1 ≠ 1 := fun h => h1 ⟨h, hx⟩
            omega
        constructor
        · dsimp only
          rw [e1]; exact ih1
        · dsimp only
          rw [e2]; push_cast; rw [add_mul, one_mul]
          by_cases hf : T.flip
          · rw [if_pos hf] at ih2
            rw [if_pos hf, if_pos hf]
            exact clamp_min hd2 hc ih2
          · rw [if_neg hf] at ih2
            rw [if_neg hf, if_neg hf]
            exact clamp_one hd2 ih2

/-! ### C287: symmetry -/

theorem locs_range (T : Truss K) (hn : 1 < T.n) (i : ℕ) :
    0 ≤ (T.locs i).1 ∧ (T.locs i).1 ≤ 1 ∧ 0 ≤ (T.locs i).2 ∧ (T.locs i).2 ≤ 1 := by
  obtain ⟨h1, h2⟩ := locs_eq T hn i
  obtain ⟨hd1, hd2⟩ := dc_nonneg T hn
  have hc : (99999 / 100000 : K) ≤ 1 := by norm_num
  have hc0 : (0 : K) ≤ 99999 / 100000 := by norm_num
  have p1 : 0 ≤ ((i / 2 : ℕ) : K) * T.dc1 := mul_nonneg (Nat.cast_nonneg _) hd1
  have p2 : 0 ≤ (odd T i : K) * T.dc2 := mul_nonneg (Nat.cast_nonneg _) hd2
  rw [h1, h2]
  refine ⟨?_, ?_, ?_, ?_⟩ <;> split
  · exact le_min hc0 p1
  · exact le_min zero_le_one p1
  · exact (min_le_left _ _).trans hc
  · exact min_le_left _ _
  · exact le_min hc0 p2
  · exact le_min zero_le_one p2
  · exact (min_le_left _ _).trans hc
  · exact min_le_left _ _

/-- Mirror image of a point about the vertical line through the middle of the truss. -/
def mirror (T : Truss K) (p : K × K) : K × K := (2 * (T.x + T.L1) - p.1, p.2)

theorem topLoc_lt (T : Truss K) (hn : 1 < T.n) (hH : T.H2 ≠ 0) (i : ℕ) : (T.pair i).1.2 < 1 ∧ 0 ≤ (T.pair i).1.2 := by
  obtain ⟨h1, h2⟩ := locs_eq T hn i
  obtain ⟨r1, -, r3, -⟩ := locs_range T hn i
  have hc : (99999 / 100000 : K) < 1 := by norm_num
  unfold Truss.pair
  by_cases hf : T.flip
  · rw [if_pos hf]
    dsimp only
    refine ⟨?_, r3⟩
    rw [h2, if_pos hf]
    exact (min_le_left _ _).trans_lt hc
  · rw [if_neg hf]
    dsimp only
    refine ⟨?_, r1⟩
    rw [h1, if_pos ⟨hH, hf⟩]
    exact (min_le_left _ _).trans_lt hc

theorem pair_snd (T : Truss K) (i : ℕ) : (T.pair i).2 = (1 - (T.pair i).1.1, 2 - (T.pair i).1.2) := by
  unfold Truss.pair
  by_cases hf : T.flip
  · rw [if_pos hf]
  · rw [if_neg hf]

/-- In a symmetric truss with a ridge the two webs of every pair are mirror images of each other; the first one ends on the left
    half of the top chord. -/
theorem C287_partial (T : Truss K) (hn : 1 < T.n) (hH : T.H2 ≠ 0) (hL : T.L2 = T.L1) (hH3 : T.H3 = T.H1) (i : ℕ) :
    ∃ a b, T.webCoords (T.pair i).1 = .ok a ∧ T.webCoords (T.pair i).2 = .ok b ∧
      b.1 = mirror T a.1 ∧ b.2 = mirror T a.2 ∧
      a.2 = (T.x + (T.pair i).1.2 * T.L1, T.y + T.H0 + T.H1 + (T.pair i).1.2 * (T.H2 - T.H1)) := by
  obtain ⟨t1, t0⟩ := topLoc_lt T hn hH i
  have hlen : T.topChords = [((T.x, T.y + T.H0 + T.H1), (T.x + T.L1, T.y + T.H0 + T.H2)),
      ((T.x + T.L1, T.y + T.H0 + T.H2), (T.x + T.L1 + T.L2, T.y + T.H0 + T.H3))] := by
    rw [Truss.topChords, if_pos hH]
  have i1 : topIndex T.topChords.length (T.pair i).1.2 = (0, (T.pair i).1.2) := by
    rw [topIndex, if_neg (not_lt.2 t1.le)]; simp
  have i2 : topIndex T.topChords.length (T.pair i).2.2 = (1, 1 - (T.pair i).1.2) := by
    rw [pair_snd, topIndex, if_pos (by dsimp only; linarith), if_neg (by dsimp only; linarith), hlen]
    dsimp only [List.length]
    congr 1; ring
  refine ⟨(toGlobal T.bottomChord (T.pair i).1.1, toGlobal ((T.x, T.y + T.H0 + T.H1), (T.x + T.L1, T.y + T.H0 + T.H2)) (T.pair i).1.2),
    (toGlobal T.bottomChord (T.pair i).2.1, toGlobal ((T.x + T.L1, T.y + T.H0 + T.H2), (T.x + T.L1 + T.L2, T.y + T.H0 + T.H3))
      (1 - (T.pair i).1.2)), ?_, ?_, ?_, ?_, ?_⟩
  · rw [Truss.webCoords, i1, hlen]; rfl
  · rw [Truss.webCoords, i2, hlen]; rfl
  · rw [pair_snd]
    simp only [toGlobal, Truss.bottomChord, mirror, hL]
    refine Prod.ext ?_ ?_ <;> dsimp only <;> ring
  · simp only [toGlobal, mirror, hL, hH3]
    refine Prod.ext ?_ ?_ <;> dsimp only <;> ring
  · simp only [toGlobal]
    refine Prod.ext ?_ ?_ <;> dsimp only <;> ring

/-- Without a ridge height, with a number of webs divisible by four, the last two webs both end at the right end of the top chord,
    so that no web ends at the left end's mirror image: they are no mirror images of each other. -/
theorem C287_viol (T : Truss K) (k : ℕ) (hk : 0 < k) (hn : T.n = 4 * k) (hH : T.H2 = 0) (hL : T.L1 ≠ 0) :
    ∃ a b, T.webCoords (T.pair (2 * k)).1 = .ok a ∧ T.webCoords (T.pair (2 * k)).2 = .ok b ∧
      a.2 = (T.x + 2 * T.L1, T.y + T.H0 + T.H1) ∧ b.2 = a.2 ∧ b.2 ≠ mirror T a.2 := by
  have hk0 : (0 : K) < k := by exact_mod_cast hk
  have hf : T.flip = false := by rw [Truss.flip, hn]; simp
  have h1 := (locs_eq T (by omega) (2 * k)).1
  have e1 : (2 * k / 2 : ℕ) = k := by omega
  have hd : T.dc1 = 1 / k := by
    rw [Truss.dc1, if_neg (by simp [hf]), hn]; push_cast; congr 1; field_simp
  rw [if_neg (by simp [hH]), e1, hd, mul_one_div_cancel hk0.ne', min_self] at h1
  have hp : (T.pair (2 * k)).1.2 = 1 := by
    rw [Truss.pair, if_neg (by simp [hf])]; exact h1
  have hlen : T.topChords = [((T.x, T.y + T.H0 + T.H1), (T.x + T.L1 * 2, T.y + T.H0 + T.H1))] := by
    rw [Truss.topChords, if_neg (by simp [hH])]
  have hi : topIndex T.topChords.length (1 : K) = (0, 1) := by
    rw [topIndex, if_neg (lt_irrefl _)]; simp
  have hq : (T.pair (2 * k)).2.2 = 1 := by rw [pair_snd, hp]; norm_num
  have hend : toGlobal ((T.x, T.y + T.H0 + T.H1), (T.x + T.L1 * 2, T.y + T.H0 + T.H1)) (1 : K) =
      (T.x + 2 * T.L1, T.y + T.H0 + T.H1) := by
    simp only [toGlobal]; refine Prod.ext ?_ ?_ <;> dsimp only <;> ring
  refine ⟨(toGlobal T.bottomChord (T.pair (2 * k)).1.1, _), (toGlobal T.bottomChord (T.pair (2 * k)).2.1, _), ?_, ?_, hend, rfl, ?_⟩
  · rw [Truss.webCoords, hp, hi, hlen]; rfl
  · rw [Truss.webCoords, hq, hi, hlen]; rfl
  · intro hc
    have := congrArg Prod.fst hc
    simp only [mirror] at this
    apply hL
    linarith

/-! ### C288: chain of webs -/

/-- The webs of one half form a chain: each web shares its bottom or its top end with the one before, and the other end does not
    move back. -/
theorem C288_chain (T : Truss K) (hn : 1 < T.n) (i : ℕ) :
    ((T.pair (i + 1)).1.1 = (T.pair i).1.1 ∧ (T.pair i).1.2 ≤ (T.pair (i + 1)).1.2) ∨
    ((T.pair (i + 1)).1.2 = (T.pair i).1.2 ∧ (T.pair i).1.1 ≤ (T.pair (i + 1)).1.1) := by
  obtain ⟨a1, a2⟩ := locs_eq T hn i
  obtain ⟨b1, b2⟩ := locs_eq T hn (i + 1)
  obtain ⟨hd1, hd2⟩ := dc_nonneg T hn
  have key : ((T.locs (i + 1)).1 = (T.locs i).1 ∧ (T.locs i).2 ≤ (T.locs (i + 1)).2) ∨
      ((T.locs (i + 1)).2 = (T.locs i).2 ∧ (T.locs i).1 ≤ (T.locs (i + 1)).1) := by
    rcases Nat.even_or_odd (i + 1) with he | ho
    · right
      obtain ⟨m, hm⟩ := he
      have e2 : odd T (i + 1) = odd T i := by unfold odd; split <;> omega
      refine ⟨by rw [a2, b2, e2], ?_⟩
      rw [a1, b1]
      have : ((i / 2 : ℕ) : K) * T.dc1 ≤ (((i + 1) / 2 : ℕ) : K) * T.dc1 :=
        mul_le_mul_of_nonneg_right (by exact_mod_cast (by omega)) hd1
      split <;> exact min_le_min_left _ this
    · left
      obtain ⟨m, hm⟩ := ho
      have e1 : (i + 1) / 2 = i / 2 := by omega
      refine ⟨by rw [a1, b1, e1], ?_⟩
      rw [a2, b2]
      have : (odd T i : K) * T.dc2 ≤ (odd T (i + 1) : K) * T.dc2 := by
        apply mul_le_mul_of_nonneg_right _ hd2
        have : odd T i ≤ odd T (i + 1) := by unfold odd; split <;> omega
        exact_mod_cast this
      split <;> exact min_le_min_left _ this
  unfold Truss.pair
  by_cases hf : T.flip
  · simp only [if_pos hf]; exact key
  · simp only [if_neg hf]
    rcases key with h | h
    · exact .inr h
    · exact .inl h

/-- The webs made first in each pair end on the left half of the bottom chord, if the first web starts at the bottom chord or
    the bottom chord is shorter than the top chord (`dx`). -/
theorem C288_half_partial (T : Truss K) (hn : 1 < T.n) (h : T.n % 4 ≠ 0 ∨ T.dx ≠ 0) (i : ℕ) (hi : i ≤ T.n / 2) :
    (T.pair i).1.1 ≤ 1 / 2 := by
  obtain ⟨a1, a2⟩ := locs_eq T hn i
  have hn0 : (0 : K) < T.n := by exact_mod_cast (by omega : 0 < T.n)
  by_cases hf : T.flip
  · rw [Truss.pair, if_pos hf]
    dsimp only
    rw [a1, if_neg (by simp [hf])]
    refine (min_le_right _ _).trans ?_
    rw [Truss.dc1, if_pos hf, mul_one_div, div_le_iff₀ (by positivity)]
    have : 4 * (i / 2) ≤ T.n := by omega
    have : (4 : K) * ((i / 2 : ℕ) : K) ≤ T.n := by exact_mod_cast this
    linarith
  · rw [Truss.pair, if_neg hf]
    dsimp only
    have h4 : T.n % 4 = 0 := by
      simpa [Truss.flip] using hf
    have hdx : T.dx ≠ 0 := h.resolve_left (by simp [h4])
    rw [a2, if_neg hf]
    refine (min_le_right _ _).trans ?_
    have hn4 : 4 ≤ T.n := by omega
    have hn4' : (4 : K) ≤ T.n := by exact_mod_cast hn4
    rw [Truss.dc2, if_neg hf, mul_one_div, div_le_iff₀ (by linarith), odd, if_neg hdx]
    have : 4 * ((i - 1) / 2) + 2 ≤ T.n := by omega
    have : (4 : K) * (((i - 1) / 2 : ℕ) : K) + 2 ≤ T.n := by exact_mod_cast this
    linarith

/-- Otherwise the last web of the left half ends on the right half of the bottom chord: it crosses its mirror image. -/
theorem C288_viol (T : Truss K) (k : ℕ) (hk : 0 < k) (hn : T.n = 4 * k) (hdx : T.dx = 0) :
    1 / 2 < (T.pair (2 * k)).1.1 ∧ (T.pair (2 * k)).2.1 < 1 / 2 := by
  have hf : T.flip = false := by rw [Truss.flip, hn]; simp
  have hk1 : (1 : K) ≤ k := by exact_mod_cast hk
  obtain ⟨-, a2⟩ := locs_eq T (by omega) (2 * k)
  have ho : odd T (2 * k) = k := by rw [odd, if_pos hdx]; omega
  have hd : T.dc2 = 1 / (2 * k - 1) := by
    rw [Truss.dc2, if_neg (by simp [hf]), hn]; push_cast; congr 1; ring
  have hlt : (1 : K) / 2 < (T.pair (2 * k)).1.1 := by
    rw [Truss.pair, if_neg (by simp [hf])]
    dsimp only
    rw [a2, if_neg (by simp [hf]), ho, hd, lt_min_iff]
    refine ⟨by norm_num, ?_⟩
    rw [mul_one_div, lt_div_iff₀ (by linarith)]
    linarith
  refine ⟨hlt, ?_⟩
  rw [pair_snd]
  dsimp only
  linarith

/-- Panel points are evenly spaced: for `n = 4k+2` webs and a bottom chord of full length, web `i` ends at multiples of `1/(2k+1)` of
    the bottom chord and of `1/(k+1)` of its half of the top chord, the last one up to 0.001 % at the ridge. -/
theorem C288_even (T : Truss K) (k : ℕ) (hn : T.n = 4 * k + 2) (hdx : T.dx = 0) (i : ℕ) (hi : i ≤ 2 * k + 1) :
    (T.pair i).1 = (((i / 2 : ℕ) : K) / (2 * k + 1), min (99999 / 100000) ((((i + 1) / 2 : ℕ) : K) / (k + 1))) := by
  have hf : T.flip = true := by rw [Truss.flip, hn]; simp
  obtain ⟨a1, a2⟩ := locs_eq T (by omega) i
  have h4 : (4 * k + 2) / 4 = k := by omega
  rw [Truss.pair, if_pos hf]
  dsimp only
  rw [a1, a2, if_neg (by simp [hf]), if_pos hf, odd, if_pos hdx, Truss.dc1, Truss.dc2, if_pos hf, if_pos hf, hn, h4]
  have e : (1 : K) / (((4 * k + 2 : ℕ) : K) / 2) = 1 / (2 * k + 1) := by push_cast; congr 1; ring
  rw [e, mul_one_div, mul_one_div]
  congr 1
  apply min_eq_right
  rw [div_le_one (by positivity)]
  have : i / 2 ≤ 2 * k + 1 := by omega
  exact_mod_cast this

theorem webs_length (T : Truss K) : T.webs.length = 2 * (T.n / 2) := by
  rw [Truss.webs, List.length_flatMap]
  simp [mul_comm]

/-- The number of webs is the one that was asked for, if it is even. -/
theorem C288_count_partial (T : Truss K) (h : T.n % 2 = 0) : T.webs.length = T.n := by
  rw [webs_length]; omega

/-- With an odd number one web is missing. -/
theorem C288_count_viol (T : Truss K) (h : T.n % 2 = 1) : T.webs.length + 1 = T.n := by
  rw [webs_length]; omega

/-- A truss with a ridge whose right half is not described has two equal halves of the given length: the webs of every pair are
    mirror images about the vertical line through the ridge. -/
theorem C287_default_partial (o : K × K) (s : Simple K) (hL : s.L2 = 0) (hH3 : s.H3 = 0) (hH : s.H2 ≠ 0) (hn : s.n ≠ 1) (i : ℕ) :
    ∃ T a b, Truss.new o s none = .ok T ∧ T.webCoords (T.pair i).1 = .ok a ∧ T.webCoords (T.pair i).2 = .ok b ∧
      a.1.1 + b.1.1 = 2 * (o.1 + s.L1) ∧ a.1.2 = b.1.2 ∧ a.2.1 + b.2.1 = 2 * (o.1 + s.L1) ∧ a.2.2 = b.2.2 := by
  obtain ⟨a, b, ha, hb, h1, h2, _⟩ := C287_partial
    (⟨o.1, o.2, s.H0, s.H1, s.H2, if s.H3 = 0 then s.H1 else s.H3, s.L1, if s.L2 = 0 then s.L1 else s.L2,
      s.dx, if s.n = 0 then 10 else s.n⟩ : Truss K) (by dsimp only; split <;> omega) hH (by simp [hL]) (by simp [hH3]) i
  refine ⟨_, a, b, rfl, ha, hb, ?_⟩
  rw [h1, h2]
  simp only [mirror]
  refine ⟨by ring, trivial, by ring, trivial⟩

/-- Without a number of webs there are ten of them; a given even number is kept. -/
theorem C288_default_partial (o : K × K) (s : Simple K) (hn : s.n % 2 = 0) :
    ∃ T, Truss.new o s none = .ok T ∧ (s.n = 0 → T.webs.length = 10) ∧ (s.n ≠ 0 → T.webs.length = s.n) := by
  refine ⟨_, rfl, ?_, ?_⟩
  · intro h
    rw [C288_count_partial] <;> simp [h]
  · intro h
    rw [C288_count_partial] <;> simp [h, hn]

example : ∃ T : Truss ℚ, 1 < T.n ∧ T.H2 ≠ 0 ∧ T.L2 = T.L1 ∧ T.H3 = T.H1 ∧ T.n = 4 * 2 + 2 ∧ T.dx = 0 ∧
    Truss.new (0, 0) ⟨0, 1000, 2000, 0, 12000, 0, 0, 0⟩ none = .ok T ∧ (T.pair 3).1 = (1 / 5, 2 / 3) :=
  ⟨⟨0, 0, 0, 1000, 2000, 1000, 12000, 12000, 0, 10⟩, by decide +kernel, by decide +kernel, rfl, rfl, rfl, rfl, rfl, by decide +kernel⟩

example : ∃ T : Truss ℚ, T.n = 4 * 2 ∧ T.dx = 0 ∧ T.H2 = 0 ∧ T.L1 ≠ 0 ∧ (T.pair 4).1 = (2 / 3, 1) :=
  ⟨⟨0, 0, 0, 1000, 0, 1000, 12000, 12000, 0, 8⟩, rfl, rfl, rfl, by decide +kernel, by decide +kernel⟩

/-! ### C289: joints of a chord -/

section joints

variable [FloorRing K]

theorem round3_near (x : K) : |round3 x - x| ≤ 1 / 2000 := by
  have h := Opt.pyRound_near (1000 * x)
  rw [abs_le] at h ⊢
  rw [round3]
  constructor <;> linarith [h.1, h.2]

theorem bottom_add (j : Joint K) (s : K) : j.addWeb false s = ⟨j.loc, j.webs + 1⟩ := by
  simp [Joint.addWeb, Joint.moveY]

theorem addWeb_loc_mem (s : K) (js : List (Joint K)) (w : K) (k : Joint K) (hk : k ∈ addWeb false s js w) :
    k.loc = w ∨ ∃ j ∈ js, k.loc = j.loc := by
  induction js with
  | nil =>
    simp only [addWeb, List.mem_singleton] at hk
    subst hk
    left; rw [bottom_add]
  | cons j js ih =>
    rw [addWeb] at hk
    by_cases h : |round3 j.loc - w| ≤ 3 / 100
    · rw [if_pos h, bottom_add] at hk
      rcases List.mem_cons.1 hk with rfl | hk
      · exact .inr ⟨j, by simp, rfl⟩
      · exact .inr ⟨k, by simp [hk], rfl⟩
    · rw [if_neg h] at hk
      rcases List.mem_cons.1 hk with rfl | hk
      · exact .inr ⟨k, by simp, rfl⟩
      · rcases ih hk with h | ⟨j', hj', h⟩
        · exact .inl h
        · exact .inr ⟨j', by simp [hj'], h⟩

theorem addWeb_pairwise (s : K) (js : List (Joint K)) (w : K)
    (h : js.Pairwise fun j k => 3 / 100 < |round3 j.loc - k.loc|) :
    (addWeb false s js w).Pairwise fun j k => 3 / 100 < |round3 j.loc - k.loc| := by
  induction js with
  | nil => simp [addWeb]
  | cons j js ih =>
    rw [addWeb]
    obtain ⟨h1, h2⟩ := List.pairwise_cons.1 h
    by_cases hw : |round3 j.loc - w| ≤ 3 / 100
    · rw [if_pos hw, bottom_add]
      exact List.pairwise_cons.2 ⟨h1, h2⟩
    · rw [if_neg hw]
      refine List.pairwise_cons.2 ⟨fun k hk => ?_, ih h2⟩
      rcases addWeb_loc_mem s js w k hk with e | ⟨j', hj', e⟩
      · rw [e]; exact not_le.1 hw
      · rw [e]; exact h1 _ hj'

/-- The joints of a bottom chord stay more than 0.0295 of its length apart, whatever webs are added. -/
theorem C289_apart (s : K) (ws : List K) :
    (addWebs false s ws).Pairwise fun j k => 59 / 2000 < |j.loc - k.loc| := by
  have : (addWebs false s ws).Pairwise fun j k => 3 / 100 < |round3 j.loc - k.loc| := by
    induction ws using List.reverseRecOn with
    | nil => simp [addWebs]
    | append_singleton ws w ih =>
      rw [addWebs, List.foldl_append]
      exact addWeb_pairwise s _ w ih
  refine this.imp fun {j k} h => ?_
  have hr := round3_near j.loc
  have := abs_sub_abs_le_abs_sub (round3 j.loc - k.loc) (j.loc - k.loc)
  have e : round3 j.loc - k.loc - (j.loc - k.loc) = round3 j.loc - j.loc := by ring
  rw [e] at this
  linarith

theorem moveY_webs (j : Joint K) (top : Bool) (s : K) : (j.moveY top s).webs = j.webs := by
  have hs : ∀ (j : Joint K) v, (j.setLoc v).webs = j.webs := by
    intro j v; unfold Joint.setLoc; dsimp only; split <;> rfl
  unfold Joint.moveY
  split
  · dsimp only
    split <;> split <;> simp only [hs]
  · rfl

theorem addWeb_sum (top : Bool) (s : K) (js : List (Joint K)) (w : K) :
    ((addWeb top s js w).map Joint.webs).sum = (js.map Joint.webs).sum + 1 := by
  induction js with
  | nil => simp [addWeb, Joint.addWeb, moveY_webs]
  | cons j js ih =>
    rw [addWeb]
    by_cases hw : |round3 j.loc - w| ≤ 3 / 100
    · rw [if_pos hw]; simp [Joint.addWeb, moveY_webs]; omega
    · rw [if_neg hw]; simp only [List.map_cons, List.sum_cons, ih]; omega

/-- No web is lost: every web belongs to exactly one joint of the chord. -/
theorem C289_webs (top : Bool) (s : K) (ws : List K) : ((addWebs top s ws).map Joint.webs).sum = ws.length := by
  induction ws using List.reverseRecOn with
  | nil => simp [addWebs]
  | append_singleton ws w ih =>
    rw [addWebs, List.foldl_append]
    show ((addWeb top s (addWebs top s ws) w).map Joint.webs).sum = _
    rw [addWeb_sum, ih]; simp

theorem addWeb_exact (s : K) (js : List (Joint K)) (w : K) (hn : (js.map Joint.loc).Nodup)
    (h : ∀ j ∈ js, j.loc = w ∨ 61 / 2000 < |j.loc - w|) (k : Joint K) (hk : k ∈ addWeb false s js w) :
    (k ∈ js ∧ k.loc ≠ w) ∨ (k.loc = w ∧ ((∃ j ∈ js, j.loc = w ∧ k.webs = j.webs + 1) ∨ (k.webs = 1 ∧ ∀ j ∈ js, j.loc ≠ w))) := by
  induction js with
  | nil =>
    simp only [addWeb, List.mem_singleton] at hk
    subst hk
    rw [bottom_add]
    exact .inr ⟨rfl, .inr ⟨rfl, by simp⟩⟩
  | cons j js ih =>
    rw [List.map_cons, List.nodup_cons] at hn
    rw [addWeb] at hk
    have hr := round3_near j.loc
    rcases h j (by simp) with e | e
    · have hw : |round3 j.loc - w| ≤ 3 / 100 := by rw [← e]; linarith
      rw [if_pos hw, bottom_add] at hk
      rcases List.mem_cons.1 hk with rfl | hk
      · exact .inr ⟨e, .inl ⟨j, by simp, e, rfl⟩⟩
      · refine .inl ⟨by simp [hk], fun hc => hn.1 ?_⟩
        rw [e, ← hc]; exact List.mem_map_of_mem hk
    · have hw : ¬ |round3 j.loc - w| ≤ 3 / 100 := by
        rw [not_le]
        have := abs_sub_abs_le_abs_sub (j.loc - w) (round3 j.loc - w)
        have e2 : j.loc - w - (round3 j.loc - w) = -(round3 j.loc - j.loc) := by ring
        rw [e2, abs_neg] at this
        linarith
      have hne : j.loc ≠ w := by rintro rfl; rw [sub_self, abs_zero] at e; linarith
      rw [if_neg hw] at hk
      rcases List.mem_cons.1 hk with rfl | hk
      · exact .inl ⟨by simp, hne⟩
      · rcases ih hn.2 (fun j' hj' => h j' (by simp [hj'])) hk with ⟨a, b⟩ | ⟨a, ⟨j', hj', b, c⟩ | ⟨b, c⟩⟩
        · exact .inl ⟨by simp [a], b⟩
        · exact .inr ⟨a, .inl ⟨j', by simp [hj'], b, c⟩⟩
        · refine .inr ⟨a, .inr ⟨b, fun j' hj' => ?_⟩⟩
          rcases List.mem_cons.1 hj' with rfl | hj'
          · exact hne
          · exact c j' hj'

theorem addWeb_locs (s : K) (js : List (Joint K)) (w : K)
    (h : ∀ j ∈ js, j.loc = w ∨ 61 / 2000 < |j.loc - w|) :
    (addWeb false s js w).map Joint.loc = if w ∈ js.map Joint.loc then js.map Joint.loc else js.map Joint.loc ++ [w] := by
  induction js with
  | nil => simp [addWeb, bottom_add]
  | cons j js ih =>
    rw [addWeb]
    have hr := round3_near j.loc
    rcases h j (by simp) with e | e
    · have hw : |round3 j.loc - w| ≤ 3 / 100 := by rw [← e]; linarith
      rw [if_pos hw, bottom_add, if_pos (by simp [e])]
      rfl
    · have hw : ¬ |round3 j.loc - w| ≤ 3 / 100 := by
        rw [not_le]
        have := abs_sub_abs_le_abs_sub (j.loc - w) (round3 j.loc - w)
        have e2 : j.loc - w - (round3 j.loc - w) = -(round3 j.loc - j.loc) := by ring
        rw [e2, abs_neg] at this
        linarith
      have hne : w ≠ j.loc := by rintro rfl; rw [sub_self, abs_zero] at e; linarith
      rw [if_neg hw, List.map_cons, ih (fun j' hj' => h j' (by simp [hj'])), List.map_cons]
      by_cases hm : w ∈ js.map Joint.loc
      · rw [if_pos hm, if_pos (List.mem_cons_of_mem _ hm)]
      · rw [if_neg hm, if_neg (by simp only [List.mem_cons, not_or]; exact ⟨hne, hm⟩)]
        rfl

/-- If different webs end at the same place or more than 0.0305 of the length apart, then there is one joint for each place, and it
    holds the webs that end there. -/
theorem C289_partial (s : K) (ws : List K) (h : ∀ a ∈ ws, ∀ b ∈ ws, a = b ∨ 61 / 2000 < |a - b|) :
    ((addWebs false s ws).map Joint.loc).Nodup ∧
    (∀ x, x ∈ (addWebs false s ws).map Joint.loc ↔ x ∈ ws) ∧
    ∀ j ∈ addWebs false s ws, j.webs = ws.count j.loc := by
  induction ws using List.reverseRecOn with
  | nil => simp [addWebs]
  | append_singleton ws w ih =>
    obtain ⟨h1, h2, h3⟩ := ih (fun a ha b hb => h a (by simp [ha]) b (by simp [hb]))
    have hstep : addWebs false s (ws ++ [w]) = addWeb false s (addWebs false s ws) w := by
      rw [addWebs, List.foldl_append]; rfl
    have hj : ∀ j ∈ addWebs false s ws, j.loc = w ∨ 61 / 2000 < |j.loc - w| := fun j hj =>
      h _ (by simp [(h2 _).1 (List.mem_map_of_mem hj)]) w (by simp)
    have hl := addWeb_locs s _ w hj
    rw [hstep]
    refine ⟨?_, fun x => ?_, fun k hk => ?_⟩
    · rw [hl]
      split
      · exact h1
      · rename_i hm
        rw [List.nodup_append]
        refine ⟨h1, by simp, fun a ha b hb => ?_⟩
        rw [List.mem_singleton.1 hb]
        rintro rfl; exact hm ha
    · rw [hl]
      split
      · rename_i hm
        rw [h2, List.mem_append, List.mem_singleton]
        constructor
        · exact .inl
        · rintro (hx | rfl)
          · exact hx
          · exact (h2 _).1 hm
      · rw [List.mem_append, List.mem_append, h2]
    · rw [List.count_append]
      rcases addWeb_exact s _ w h1 hj k hk with ⟨a, b⟩ | ⟨a, ⟨j', hj', b, c⟩ | ⟨b, c⟩⟩
      · rw [h3 k a, List.count_singleton]
        simp [Ne.symm b]
      · rw [c, h3 j' hj', a, b]; simp
      · rw [b, a, List.count_eq_zero.2 (fun hm => ?_)]
        · simp
        · obtain ⟨j, hj, e⟩ := List.mem_map.1 ((h2 w).2 hm)
          exact c j hj e

/-- With 70 or more webs (`4k+2`) the first two panel points of the bottom chord, which are different places, are given one joint. -/
theorem C289_viol (T : Truss K) (s : K) (k : ℕ) (hk : 17 ≤ k) (hn : T.n = 4 * k + 2) (hdx : T.dx = 0) :
    (T.pair 1).1.1 ≠ (T.pair 2).1.1 ∧ (addWebs false s [(T.pair 1).1.1, (T.pair 2).1.1]).length = 1 := by
  have e1 := C288_even T k hn hdx 1 (by omega)
  have e2 := C288_even T k hn hdx 2 (by omega)
  have a1 : (T.pair 1).1.1 = 0 := by rw [e1]; simp
  have a2 : (T.pair 2).1.1 = 1 / (2 * k + 1) := by rw [e2]; simp
  have hk' : (17 : K) ≤ k := by exact_mod_cast hk
  have hp : (0 : K) < 1 / (2 * k + 1) := by positivity
  rw [a1, a2]
  refine ⟨hp.ne, ?_⟩
  have h0 : round3 (0 : K) = 0 := by
    rw [round3, mul_zero]
    have := Opt.pyRound_int (K := K) 0
    rw [Int.cast_zero] at this
    rw [this]; simp
  have : |round3 (0 : K) - 1 / (2 * k + 1)| ≤ 3 / 100 := by
    rw [h0, zero_sub, abs_neg, abs_of_pos hp, div_le_iff₀ (by linarith)]
    linarith
  simp only [addWebs, List.foldl_cons, List.foldl_nil, addWeb, bottom_add, if_pos this, List.length_cons, List.length_nil]

example : ∃ ws : List ℚ, (∀ a ∈ ws, ∀ b ∈ ws, a = b ∨ 61 / 2000 < |a - b|) ∧ ws.length = 4 ∧
    (addWebs false (1 / 100) ws).map Joint.loc = [0, 1 / 3, 2 / 3] :=
  ⟨[0, 1 / 3, 1 / 3, 2 / 3], by decide +kernel, rfl, by decide +kernel⟩

end joints

/-! ### C290: angle of web and chord -/

open Real in
/-- On a horizontal chord, and for webs not steeper than the vertical that are steeper than the chord, the angle is the acute one
    between the two lines. -/
theorem C290_partial (w c : ℝ) (h : (c = 0 ∧ 0 ≤ w ∧ w ≤ π) ∨ (0 ≤ c ∧ c ≤ w ∧ w ≤ π / 2)) :
    0 ≤ theta w c ∧ theta w c ≤ π / 2 ∧ cos (theta w c) = |cos (w - c)| := by
  have hp := pi_pos
  rcases h with ⟨rfl, h0, h1⟩ | ⟨h0, h1, h2⟩
  · rw [theta, sub_zero, sub_zero, abs_of_nonneg h0, abs_of_nonneg (by linarith)]
    rcases le_total w (π / 2) with h | h
    · rw [min_eq_left (by linarith)]
      exact ⟨h0, h, by rw [abs_of_nonneg (cos_nonneg_of_neg_pi_div_two_le_of_le (by linarith) h)]⟩
    · rw [min_eq_right (by linarith)]
      refine ⟨by linarith, by linarith, ?_⟩
      rw [cos_pi_sub, abs_of_nonpos (cos_nonpos_of_pi_div_two_le_of_le h (by linarith))]
  · rw [theta, abs_of_nonneg (by linarith), abs_of_nonneg (by linarith), min_eq_left (by linarith)]
    exact ⟨by linarith, by linarith, by
      rw [abs_of_nonneg (cos_nonneg_of_neg_pi_div_two_le_of_le (by linarith) (by linarith))]⟩

open Real in
/-- On a rising chord the angle of a web that leans the other way is too small. -/
theorem C290_viol (w c : ℝ) (hc : 0 < c) (hw : π / 2 < w) (h : w + c ≤ π) :
    theta w c = π - w - c ∧ |cos (w - c)| < cos (theta w c) := by
  have hp := pi_pos
  have e : theta w c = π - w - c := by
    rw [theta, abs_of_nonneg (by linarith), abs_of_nonneg (by linarith), min_eq_right (by linarith)]
  refine ⟨e, ?_⟩
  rw [e, abs_lt]
  constructor
  · rw [neg_lt, ← cos_pi_sub]
    rw [show cos (π - (w - c)) = cos (π - w + c) by congr 1; ring]
    exact cos_lt_cos_of_nonneg_of_le_pi (by linarith) (by linarith) (by linarith)
  · exact cos_lt_cos_of_nonneg_of_le_pi (by linarith) (by linarith) (by linarith)

open Real in
example : ∃ w c : ℝ, 0 < c ∧ π / 2 < w ∧ w + c ≤ π := ⟨3 * π / 4, π / 8, by positivity, by linarith [pi_pos], by linarith [pi_pos]⟩

/-! ### C291: gap and eccentricity of a K joint -/

open Real in
/-- A gap that is set is read back; the eccentricity that follows from it, when set, leads to the same gap. -/
theorem C291_gap (s : KState) (d : KData) (v g' : ℝ) (h1 : sin d.t1 ≠ 0) (h2 : sin d.t2 ≠ 0) (h3 : sin (d.t1 + d.t2) ≠ 0) :
    (s.setG v).getG d = v ∧ (s.setE ((s.setG v).getE d) g').getG d = v := by
  have : (s.setE ((s.setG v).getE d) g').getG d = (s.setG v).getG d := by
    simp [KState.getG, KState.getE, KState.setE]
  rw [this, and_self]
  simp only [KState.getG, KState.getE, KState.setG, if_true]
  field_simp
  ring

open Real in
/-- An eccentricity that is set is read back, and the gap is the distance of the inner edges of the webs on the face of the chord,
    if their axes meet at this eccentricity from the axis of the chord. -/
theorem C291_ecc (s : KState) (d : KData) (v g' : ℝ) (h1 : sin d.t1 ≠ 0) (h2 : sin d.t2 ≠ 0) :
    (s.setE v g').getE d = v ∧
    (s.setE v g').getG d = (d.h0 / 2 + v) * (cos d.t1 / sin d.t1) - d.h1 / 2 / sin d.t1 +
      ((d.h0 / 2 + v) * (cos d.t2 / sin d.t2) - d.h2 / 2 / sin d.t2) := by
  constructor
  · simp [KState.getE, KState.setE]
  · simp only [KState.getG, KState.getE, KState.setE, Bool.false_eq_true, if_false]
    rw [sin_add]
    field_simp
    ring

open Real in
example : ∃ d : KData, 0 < d.h0 ∧ sin d.t1 ≠ 0 ∧ sin d.t2 ≠ 0 ∧ sin (d.t1 + d.t2) ≠ 0 :=
  ⟨⟨100, 50, 50, π / 4, π / 4⟩, by norm_num, by simp, by simp, by
    dsimp only; rw [show π / 4 + π / 4 = π / 2 by ring, sin_pi_div_two]; norm_num⟩

/-! ### C292: deflection and forces of joints -/

theorem foldl_max_isGreatest (a : K) (l : List K) : IsGreatest {x | x ∈ a :: l} (l.foldl max a) := by
  induction l generalizing a with
  | nil => simp
  | cons b l ih =>
    obtain ⟨h1, h2⟩ := ih (max a b)
    rw [List.foldl_cons]
    constructor
    · rcases List.mem_cons.1 h1 with h | h
      · rw [h]
        rcases max_choice a b with e | e <;> rw [e] <;> simp
      · exact List.mem_cons_of_mem _ (List.mem_cons_of_mem _ h)
    · rintro x hx
      have hm := h2 (show max a b ∈ max a b :: l by simp)
      rcases List.mem_cons.1 hx with rfl | hx
      · exact (le_max_left _ _).trans hm
      · rcases List.mem_cons.1 hx with rfl | hx
        · exact (le_max_right _ _).trans hm
        · exact h2 (List.mem_cons_of_mem _ hx)

/-- With one bottom chord the deflection is the largest vertical displacement of its nodes, up or down. -/
theorem C292_partial (l : List K) (d : K) (h : deflection [l] = .ok d) :
    IsGreatest {x | ∃ v ∈ l, x = |v|} d := by
  cases l with
  | nil => simp [deflection, pyMax] at h
  | cons a l =>
    have h' : (l.map fun d => |d|).foldl max |a| = d := by simpa [deflection, pyMax] using h
    have := foldl_max_isGreatest |a| (l.map fun d => |d|)
    rw [h'] at this
    convert this using 1
    ext x
    simp only [Set.mem_ofPred_eq, List.mem_cons, List.mem_map]
    constructor
    · rintro ⟨v, rfl | hv, rfl⟩
      · exact .inl rfl
      · exact .inr ⟨v, hv, rfl⟩
    · rintro (rfl | ⟨v, hv, rfl⟩)
      · exact ⟨a, .inl rfl, rfl⟩
      · exact ⟨v, .inr hv, rfl⟩

/-- With several bottom chords only the last one counts. -/
theorem C292_viol (cs : List (List K)) (l : List K) : deflection (cs ++ [l]) = deflection [l] := by
  simp [deflection]

example : deflection ([[3, -7, 2]] : List (List ℚ)) = .ok 7 ∧ deflection ([[3, -7, 2], [1, -1]] : List (List ℚ)) = .ok 1 := by
  constructor <;> rfl

/-- Joints of two webs (K) are designed for the larger of the chord forces on both sides, as absolute values. -/
theorem C292_forces_partial (N M : LoadId → Option (ChordForces K)) (n m : ChordForces K) (hN : N .uls = some n)
    (hM : M .uls = some m) : ∃ a b, jointForces .K .uls N M = .ok (a, b) ∧
      (∀ x ∈ [m.c01, m.c02], |x| ≤ a) ∧ (∃ x ∈ [m.c01, m.c02], |x| = a) ∧
      (∀ x ∈ [n.c01, n.c02], |x| ≤ b) ∧ ∃ x ∈ [n.c01, n.c02], |x| = b := by
  refine ⟨max (|m.c01|) (|m.c02|), max (|n.c01|) (|n.c02|), ?_, ?_, ?_, ?_, ?_⟩
  · simp [jointForces, hN, hM, m0, n0, bind, Except.bind, pure, Except.pure]
  · simp
  · rcases max_choice (|m.c01|) (|m.c02|) with e | e <;> rw [e] <;> simp
  · simp
  · rcases max_choice (|n.c01|) (|n.c02|) with e | e <;> rw [e] <;> simp

/-- For any other load the joints are given the forces of the ultimate limit state all the same; if that was not calculated the call
    fails; joints of three webs always fail. -/
theorem C292_forces_viol (N M : LoadId → Option (ChordForces K)) :
    (∀ k i, jointForces k (.other i) N M = jointForces k .uls N M) ∧
    (∀ k i, M .uls = none → jointForces k i N M = .error .keyError) ∧
    (∀ i n m, N .uls = some n → M .uls = some m → jointForces .KT i N M = .error .unboundLocal) := by
  refine ⟨fun k i => rfl, fun k i h => by simp [jointForces, h], fun i n m hN hM => ?_⟩
  simp [jointForces, hN, hM, m0, bind, Except.bind]

/-! ### C293: heights -/

/-- Setting a height of a truss with a ridge moves the top chords to where a truss made with that height has them; the other eave
    follows the left one if both were equally high. -/
theorem C293_partial (T : Truss K) (hH : T.H2 ≠ 0) (v : K) :
    (∃ T', setH1 T T.ends v = .ok (T', T'.ends) ∧
      T' = { T with H1 := v, H3 := if T.H1 = T.H3 then v else T.H3 }) ∧
    (setH3 T T.ends v = .ok ({ T with H3 := v }, ({ T with H3 := v } : Truss K).ends)) ∧
    (v ≠ 0 → setH2 T T.ends v = .ok ({ T with H2 := v }, ({ T with H2 := v } : Truss K).ends)) := by
  refine ⟨⟨{ T with H1 := v, H3 := if T.H1 = T.H3 then v else T.H3 }, ?_, rfl⟩, ?_, fun hv => ?_⟩
  · by_cases h : T.H1 = T.H3
    · simp [setH1, setH3, Truss.ends, hH, h, bind, Except.bind, pure, Except.pure, add_assoc]
    · simp [setH1, Truss.ends, hH, h, bind, Except.bind, pure, Except.pure, add_assoc]
  · simp [setH3, Truss.ends, hH, add_assoc]
  · simp [setH2, Truss.ends, hH, hv, add_assoc]

/-- A flat truss that was made without `H3` cannot be given another height; a column made of a truss cannot be made; a truss with a
    load `q` cannot be made; its sections cannot be checked. -/
theorem C293_viol (o : K × K) (s : Simple K) (v q : K) (h2 : s.H2 = 0) (h3 : s.H3 = 0) :
    (∃ T, Truss.new o s none = .ok T ∧ setH1 T T.ends v = .error .indexError ∧ setH2 T T.ends v = .error .indexError ∧
      setH3 T T.ends v = .error .indexError) ∧
    Truss.new o s (some q) = .error .nameError ∧ trussColumnNew (K := K) = .error .indexError ∧
    (∃ e, checkCrossSection = .error e) ∧ ∃ e, localCoord v = .error e := by
  refine ⟨⟨_, rfl, ?_, ?_, ?_⟩, rfl, rfl, ⟨_, rfl⟩, ?_⟩
  · simp [setH1, setH3, Truss.ends, h2, h3, bind, Except.bind]
  · simp [setH2, Truss.ends, h2]
  · simp [setH3, Truss.ends, h2]
  · unfold localCoord; split
    · exact ⟨_, rfl⟩
    · exact ⟨_, rfl⟩

/-- A flat truss whose halves are not equally long: top and bottom chord do not end above each other. -/
theorem C293_flat_viol (T : Truss K) (h2 : T.H2 = 0) (hL : T.L1 ≠ T.L2) (hdx : T.dx = 0) :
    T.ends.ridge.1 ≠ T.bottomChord.2.1 := by
  simp only [Truss.ends, h2, ne_eq, not_true_eq_false, if_false, Truss.bottomChord, hdx]
  intro h
  apply hL
  linarith

example : ∃ (T : Truss ℚ) (s : Simple ℚ), T.H2 ≠ 0 ∧ T.H1 = T.H3 ∧ s.H2 = 0 ∧ s.H3 = 0 :=
  ⟨⟨0, 0, 0, 1000, 2000, 1000, 12000, 12000, 0, 10⟩, ⟨0, 1000, 0, 0, 12000, 0, 0, 0⟩, by decide +kernel, rfl, rfl, rfl⟩

/-! ### C294: members of a chord -/

/-- The members between neighbouring joints cover the chord from the first to the last joint. -/
theorem C294_partial (L : K) (hL : 0 ≤ L) (l : List K) (hl : l ≠ []) (hs : l.Pairwise (· ≤ ·)) :
    (memberLengths L l).length + 1 = l.length ∧
    (memberLengths L l).sum = L * (l.getLast hl - l.head hl) ∧ ∀ x ∈ memberLengths L l, 0 ≤ x := by
  induction l with
  | nil => exact absurd rfl hl
  | cons a l ih =>
    cases l with
    | nil => simp [memberLengths]
    | cons b l =>
      obtain ⟨h1, h2⟩ := List.pairwise_cons.1 hs
      obtain ⟨i1, i2, i3⟩ := ih (by simp) h2
      have hab : a ≤ b := h1 b (by simp)
      refine ⟨by rw [memberLengths, List.length_cons, i1]; rfl, ?_, ?_⟩
      · have hg : (a :: b :: l).getLast hl = (b :: l).getLast (by simp) := List.getLast_cons _
        rw [memberLengths, List.sum_cons, i2, hg, ← mul_sub, abs_mul, abs_of_nonneg hL,
          abs_of_nonpos (by linarith)]
        simp only [List.head_cons]
        ring
      · intro x hx
        rw [memberLengths] at hx
        rcases List.mem_cons.1 hx with rfl | hx
        · exact abs_nonneg _
        · exact i3 x hx

/-- The parts of the chord outside the joints belong to no member. -/
theorem C294_viol (L : K) (hL : 0 < L) (l : List K) (hl : l ≠ []) (hs : l.Pairwise (· ≤ ·)) (h : 0 < l.head hl)
    (h' : l.getLast hl ≤ 1) : (memberLengths L l).sum < L := by
  rw [(C294_partial L hL.le l hl hs).2.1]
  nlinarith

example : ∃ (l : List ℚ) (hl : l ≠ []), l.Pairwise (· ≤ ·) ∧ 0 < l.head hl ∧ l.getLast hl ≤ 1 ∧ memberLengths 10 l = [3, 4] :=
  ⟨[1 / 10, 4 / 10, 8 / 10], by simp, by decide +kernel, by decide +kernel, by decide +kernel, by decide +kernel⟩

end Metku.T2
