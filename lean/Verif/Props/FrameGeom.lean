import Mathlib.Tactic.Linarith
import Mathlib.Tactic.FieldSimp
import Mathlib.Tactic.Ring
import Mathlib.Tactic.NormNum
import Mathlib.Tactic.Positivity
import Mathlib.Tactic.LinearCombination
import Mathlib.Data.Rat.Floor
import Verif.Model.FrameGeom
import Verif.Spec.Frame

/-! Rounding, intersections of members and points on members of a frame. -/
namespace Metku.Frame2D

open Metku.FrameSpec

set_option linter.unusedSectionVars false

variable {K : Type} [Field K] [LinearOrder K] [IsStrictOrderedRing K] [FloorRing K]

/-! ### Rounding -/

theorem ten_pos (n : ℕ) : (0 : K) < 10 ^ n := by positivity

/-- Rounding yields an integer multiple of `10⁻ⁿ` within half of it. -/
theorem roundTo_spec (n : ℕ) (x : K) : ∃ k : ℤ, roundTo n x = (k : K) / 10 ^ n ∧ |(k : K) - x * 10 ^ n| ≤ 1 / 2 := by
  have h1 := Int.floor_le (x * 10 ^ n)
  have h2 := Int.lt_floor_add_one (x * 10 ^ n)
  unfold roundTo
  simp only
  split_ifs with a b c
  · exact ⟨_, rfl, by rw [abs_le]; constructor <;> linarith⟩
  · exact ⟨_, rfl, by push_cast; rw [abs_le]; constructor <;> linarith⟩
  · exact ⟨_, rfl, by rw [abs_le]; constructor <;> linarith⟩
  · exact ⟨_, rfl, by push_cast; rw [abs_le]; constructor <;> linarith⟩

theorem roundTo_decimals (n : ℕ) (x : K) : Decimals n (roundTo n x) := by
  obtain ⟨k, h, _⟩ := roundTo_spec n x
  exact ⟨k, h⟩

theorem roundTo_near (n : ℕ) (x : K) : |roundTo n x - x| ≤ 1 / 2 / 10 ^ n := by
  obtain ⟨k, h, hk⟩ := roundTo_spec n x
  have p := ten_pos (K := K) n
  have e : roundTo n x - x = ((k : K) - x * 10 ^ n) / 10 ^ n := by rw [h]; field_simp
  rw [e, abs_div, abs_of_pos p]
  exact div_le_div_of_nonneg_right hk p.le

/-- A number that has the decimals is kept. -/
theorem roundTo_of_decimals {n : ℕ} {x : K} (h : Decimals n x) : roundTo n x = x := by
  obtain ⟨k, rfl⟩ := h
  obtain ⟨j, hj, hd⟩ := roundTo_spec n ((k : K) / 10 ^ n)
  have p := ten_pos (K := K) n
  rw [div_mul_cancel₀ _ p.ne'] at hd
  have : j = k := by
    have h1 : |((j - k : ℤ) : K)| < ((1 : ℤ) : K) := by push_cast; linarith
    rw [← Int.cast_abs, Int.cast_lt] at h1
    have := Int.abs_lt_one_iff.mp h1
    omega
  rw [hj, this]

/-- Rounding keeps the order. -/
theorem roundTo_mono (n : ℕ) {x y : K} (h : x ≤ y) : roundTo n x ≤ roundTo n y := by
  have p := ten_pos (K := K) n
  have hs : x * 10 ^ n ≤ y * 10 ^ n := mul_le_mul_of_nonneg_right h p.le
  have hf : ⌊x * 10 ^ n⌋ ≤ ⌊y * 10 ^ n⌋ := Int.floor_le_floor hs
  unfold roundTo
  simp only
  apply div_le_div_of_nonneg_right _ p.le
  rw [Int.cast_le]
  rcases hf.lt_or_eq with hlt | heq
  · split_ifs <;> omega
  · rw [heq]
    split_ifs with a b c d e <;> first | omega | (exfalso; linarith)

theorem roundPt_decimals (n : ℕ) (p : Pt K) : DecimalPt n (roundPt n p) := ⟨roundTo_decimals n _, roundTo_decimals n _⟩

theorem roundPt_of_decimals {n : ℕ} {p : Pt K} (h : DecimalPt n p) : roundPt n p = p := by
  rcases p with ⟨a, b⟩
  unfold roundPt
  simp only
  rw [roundTo_of_decimals h.1, roundTo_of_decimals h.2]

theorem Decimals.mono {n m : ℕ} (h : n ≤ m) {x : K} (hx : Decimals n x) : Decimals m x := by
  obtain ⟨k, rfl⟩ := hx
  refine ⟨k * 10 ^ (m - n), ?_⟩
  have e : (10 : K) ^ m = 10 ^ n * 10 ^ (m - n) := by rw [← pow_add]; congr 1; omega
  push_cast
  rw [e]
  have p := ten_pos (K := K) n
  have q := ten_pos (K := K) (m - n)
  field_simp

/-- Two numbers with `n` decimals are equal or differ by at least `10⁻ⁿ`. -/
theorem decimals_gap {n : ℕ} {x y : K} (hx : Decimals n x) (hy : Decimals n y) (h : x ≠ y) : 1 / 10 ^ n ≤ |x - y| := by
  obtain ⟨k, rfl⟩ := hx
  obtain ⟨j, rfl⟩ := hy
  have p := ten_pos (K := K) n
  have hk : k ≠ j := fun e => h (by rw [e])
  rw [← sub_div, abs_div, abs_of_pos p]
  apply div_le_div_of_nonneg_right _ p.le
  have h1 : (1 : ℤ) ≤ |k - j| := Int.one_le_abs (sub_ne_zero.mpr hk)
  have : ((1 : ℤ) : K) ≤ ((|k - j| : ℤ) : K) := Int.cast_le.mpr h1
  push_cast at this
  exact this

/-! ### Intersection of lines -/

theorem det_eq_zero_iff (a b c d : Pt K) : det a b c d = 0 ↔ Parallel a b c d := by
  unfold det Parallel
  constructor <;> intro h <;> linarith

theorem lineIntersection_self (a b : Pt K) : lineIntersection a b a b = none := by
  unfold lineIntersection
  rw [if_pos]
  unfold det
  ring

/-- The exact point before rounding. -/
theorem lineIntersection_eq {a b c d p : Pt K} (hn : ¬ Parallel a b c d) (h1 : OnLine a b p) (h2 : OnLine c d p) :
    lineIntersection a b c d = some (roundPt 5 p) := by
  have hd : det a b c d ≠ 0 := fun h => hn ((det_eq_zero_iff a b c d).mp h)
  unfold lineIntersection
  rw [if_neg hd]
  obtain ⟨t, ht1, ht2⟩ := h1
  obtain ⟨s, hs1, hs2⟩ := h2
  have c1 : (p.1 - a.1) * (b.2 - a.2) = (p.2 - a.2) * (b.1 - a.1) := by rw [ht1, ht2]; ring
  have c2 : (p.1 - c.1) * (d.2 - c.2) = (p.2 - c.2) * (d.1 - c.1) := by rw [hs1, hs2]; ring
  congr 2
  rcases p with ⟨x, y⟩
  simp only at c1 c2
  refine Prod.ext ?_ ?_
  · simp only
    rw [div_eq_iff hd]
    unfold det
    linear_combination (d.1 - c.1) * c1 - (b.1 - a.1) * c2
  · simp only
    rw [div_eq_iff hd]
    unfold det
    linear_combination (d.2 - c.2) * c1 - (b.2 - a.2) * c2

/-- Lines that are not parallel have a common point. -/
theorem exists_common {a b c d : Pt K} (hn : ¬ Parallel a b c d) : ∃ p, OnLine a b p ∧ OnLine c d p := by
  have hd : det a b c d ≠ 0 := fun h => hn ((det_eq_zero_iff a b c d).mp h)
  unfold det at hd
  refine ⟨(a.1 + ((a.1 - c.1) * (c.2 - d.2) - (a.2 - c.2) * (c.1 - d.1)) / ((a.1 - b.1) * (c.2 - d.2) - (a.2 - b.2) * (c.1 - d.1)) * (b.1 - a.1),
    a.2 + ((a.1 - c.1) * (c.2 - d.2) - (a.2 - c.2) * (c.1 - d.1)) / ((a.1 - b.1) * (c.2 - d.2) - (a.2 - b.2) * (c.1 - d.1)) * (b.2 - a.2)),
    ⟨_, rfl, rfl⟩, ⟨((a.1 - c.1) * (a.2 - b.2) - (a.2 - c.2) * (a.1 - b.1)) / ((a.1 - b.1) * (c.2 - d.2) - (a.2 - b.2) * (c.1 - d.1)), ?_, ?_⟩⟩
  · simp only
    rw [div_mul_eq_mul_div, div_mul_eq_mul_div, ← mul_left_inj' hd, add_mul, add_mul, div_mul_cancel₀ _ hd, div_mul_cancel₀ _ hd]
    ring
  · simp only
    rw [div_mul_eq_mul_div, div_mul_eq_mul_div, ← mul_left_inj' hd, add_mul, add_mul, div_mul_cancel₀ _ hd, div_mul_cancel₀ _ hd]
    ring

/-- C167: `line_intersection` yields nothing exactly for parallel lines, and otherwise the one common point of the two lines, within half a unit of the fifth decimal; when that point has at most five decimals, the point itself; exchanging the members changes nothing. -/
theorem C167 (a b c d : Pt K) :
    (lineIntersection a b c d = none ↔ Parallel a b c d)
    ∧ (∀ p, ¬ Parallel a b c d → OnLine a b p → OnLine c d p →
        ∃ q, lineIntersection a b c d = some q ∧ |q.1 - p.1| ≤ 1 / 2 / 10 ^ 5 ∧ |q.2 - p.2| ≤ 1 / 2 / 10 ^ 5 ∧ DecimalPt 5 q ∧ (DecimalPt 5 p → q = p))
    ∧ (¬ Parallel a b c d → ∃! p, OnLine a b p ∧ OnLine c d p)
    ∧ lineIntersection a b c d = lineIntersection c d a b := by
  have sym : Parallel a b c d ↔ Parallel c d a b := by unfold Parallel; constructor <;> intro h <;> linarith
  refine ⟨?_, ?_, ?_, ?_⟩
  · rw [← det_eq_zero_iff]
    unfold lineIntersection
    split_ifs with h <;> simp [h]
  · intro p hn h1 h2
    exact ⟨_, lineIntersection_eq hn h1 h2, roundTo_near 5 _, roundTo_near 5 _, roundPt_decimals 5 p, fun h => roundPt_of_decimals h⟩
  · intro hn
    obtain ⟨p, h1, h2⟩ := exists_common hn
    refine ⟨p, ⟨h1, h2⟩, ?_⟩
    rintro q ⟨k1, k2⟩
    have hd : det a b c d ≠ 0 := fun h => hn ((det_eq_zero_iff a b c d).mp h)
    have e : ∀ r : Pt K, OnLine a b r → OnLine c d r →
        r.1 * det a b c d = (a.1 * b.2 - a.2 * b.1) * (c.1 - d.1) - (a.1 - b.1) * (c.1 * d.2 - c.2 * d.1)
        ∧ r.2 * det a b c d = (a.1 * b.2 - a.2 * b.1) * (c.2 - d.2) - (a.2 - b.2) * (c.1 * d.2 - c.2 * d.1) := by
      rintro ⟨x, y⟩ ⟨t, ht1, ht2⟩ ⟨s, hs1, hs2⟩
      simp only at ht1 ht2 hs1 hs2 ⊢
      have c1 : (x - a.1) * (b.2 - a.2) = (y - a.2) * (b.1 - a.1) := by rw [ht1, ht2]; ring
      have c2 : (x - c.1) * (d.2 - c.2) = (y - c.2) * (d.1 - c.1) := by rw [hs1, hs2]; ring
      unfold det
      constructor
      · linear_combination -((d.1 - c.1) * c1 - (b.1 - a.1) * c2)
      · linear_combination -((d.2 - c.2) * c1 - (b.2 - a.2) * c2)
    have hq := e q k1 k2
    have hp := e p h1 h2
    exact Prod.ext (mul_right_cancel₀ hd (hq.1.trans hp.1.symm)) (mul_right_cancel₀ hd (hq.2.trans hp.2.symm))
  · by_cases hn : Parallel a b c d
    · have h1 : lineIntersection a b c d = none := by unfold lineIntersection; rw [if_pos ((det_eq_zero_iff _ _ _ _).mpr hn)]
      have h2 : lineIntersection c d a b = none := by unfold lineIntersection; rw [if_pos ((det_eq_zero_iff _ _ _ _).mpr (sym.mp hn))]
      rw [h1, h2]
    · obtain ⟨p, h1, h2⟩ := exists_common hn
      rw [lineIntersection_eq hn h1 h2, lineIntersection_eq (fun h => hn (sym.mpr h)) h2 h1]

example : ¬ Parallel ((0, 0) : ℚ × ℚ) (3000, 1000) (1000, 0) (1000, 2000) ∧ OnLine ((0, 0) : ℚ × ℚ) (3000, 1000) (1000, 1000 / 3) ∧ OnLine ((1000, 0) : ℚ × ℚ) (1000, 2000) (1000, 1000 / 3) := by
  refine ⟨by unfold Parallel; norm_num, ⟨1 / 3, by norm_num, by norm_num⟩, ⟨1 / 6, by norm_num, by norm_num⟩⟩

/-! ### Points on members -/

/-- A member as the constructor leaves it: the coordinates are rounded, the ends differ, no node is known. -/
structure Fresh (m : Member K) : Prop where
  d1 : DecimalPt prec m.start
  d2 : DecimalPt prec m.stop
  ne : m.start ≠ m.stop
  num : 0 < m.num
  added : m.added = []
  nodes : m.nodes = []
  elems : m.elems = []
  n1 : m.n1 = none
  n2 : m.n2 = none
  built : m.built = false

/-- The constructor makes such members whenever the rounded ends differ. -/
theorem fresh_new {a b : Pt K} {n : ℕ} (t : MType) (s1 s2 : Option K) (w : K) (hn : 0 < n) (h : roundPt prec a ≠ roundPt prec b) :
    Fresh (Member.new a b n t s1 s2 w) :=
  ⟨roundPt_decimals _ _, roundPt_decimals _ _, h, hn, rfl, rfl, rfl, rfl, rfl, rfl⟩

/-- Rounded ends are on one vertical or clearly apart. -/
theorem dx_cases {m : Member K} (h1 : DecimalPt prec m.start) (h2 : DecimalPt prec m.stop) :
    m.stop.1 = m.start.1 ∨ (1 : K) / 10 ^ 8 < |m.stop.1 - m.start.1| := by
  by_cases h : m.stop.1 = m.start.1
  · exact Or.inl h
  · right
    have := decimals_gap h2.1 h1.1 h
    refine lt_of_lt_of_le ?_ this
    unfold prec
    norm_num

theorem onSegment_line {a b p : Pt K} (h : OnSegment a b p) : OnLine a b p := by
  obtain ⟨t, _, _, h1, h2⟩ := h
  exact ⟨t, h1, h2⟩

/-- C168: on a member whose ends are rounded and differ, `point_intersection` never raises, is true for every point of the member, and when it is true the point is closer than `1e-8` to a point of the member. -/
theorem C168 {m : Member K} (h1 : DecimalPt prec m.start) (h2 : DecimalPt prec m.stop) (hne : m.start ≠ m.stop) (p : Pt K) :
    (∃ b, m.pointIntersection p = .ok b)
    ∧ (OnSegment m.start m.stop p → m.pointIntersection p = .ok true)
    ∧ (m.pointIntersection p = .ok true → NearSegment (1 / 10 ^ 8) m.start m.stop p) := by
  have small : (0 : K) < 1 / 10 ^ 8 := by positivity
  rcases dx_cases h1 h2 with hv | hs
  · have hy : m.stop.2 - m.start.2 ≠ 0 := by
      intro h
      exact hne (Prod.ext hv.symm (by linarith))
    have e : m.pointIntersection p = .ok (decide (0 ≤ (p.2 - m.start.2) / (m.stop.2 - m.start.2) ∧ (p.2 - m.start.2) / (m.stop.2 - m.start.2) ≤ 1 ∧ |m.start.1 - p.1| < 1 / 10 ^ 8)) := by
      unfold Member.pointIntersection
      rw [if_neg (by rw [hv, sub_self, abs_zero]; exact not_lt.mpr small.le), if_neg hy]
    rw [e]
    refine ⟨⟨_, rfl⟩, ?_, ?_⟩
    · rintro ⟨t, t0, t1, x, y⟩
      have ht : (p.2 - m.start.2) / (m.stop.2 - m.start.2) = t := by rw [y, div_eq_iff hy]; ring
      rw [ht, x, hv, sub_self, mul_zero, add_zero, sub_self, abs_zero]
      simp only [t0, t1, small, and_self, decide_true]
    · intro h
      have h' := of_decide_eq_true (Except.ok.inj h)
      refine ⟨(m.start.1, p.2), ⟨(p.2 - m.start.2) / (m.stop.2 - m.start.2), h'.1, h'.2.1, ?_, ?_⟩, ?_, ?_⟩
      · simp only
        rw [hv]
        ring
      · simp only
        rw [div_mul_cancel₀ _ hy]
        ring
      · rw [abs_sub_comm]
        exact h'.2.2
      · simp only [sub_self, abs_zero]
        exact small
  · have hx : m.stop.1 - m.start.1 ≠ 0 := fun h => by rw [h, abs_zero] at hs; linarith
    have e : m.pointIntersection p = .ok (decide (0 ≤ (p.1 - m.start.1) / (m.stop.1 - m.start.1) ∧ (p.1 - m.start.1) / (m.stop.1 - m.start.1) ≤ 1 ∧ |m.start.2 + (p.1 - m.start.1) / (m.stop.1 - m.start.1) * (m.stop.2 - m.start.2) - p.2| < 1 / 10 ^ 8)) := by
      unfold Member.pointIntersection
      rw [if_pos hs]
    rw [e]
    refine ⟨⟨_, rfl⟩, ?_, ?_⟩
    · rintro ⟨t, t0, t1, x, y⟩
      have ht : (p.1 - m.start.1) / (m.stop.1 - m.start.1) = t := by rw [x, div_eq_iff hx]; ring
      rw [ht, y, sub_self, abs_zero]
      simp only [t0, t1, small, and_self, decide_true]
    · intro h
      have h' := of_decide_eq_true (Except.ok.inj h)
      refine ⟨(p.1, m.start.2 + (p.1 - m.start.1) / (m.stop.1 - m.start.1) * (m.stop.2 - m.start.2)), ⟨_, h'.1, h'.2.1, ?_, rfl⟩, ?_, ?_⟩
      · simp only
        rw [div_mul_cancel₀ _ hx]
        ring
      · simp only [sub_self, abs_zero]
        exact small
      · simp only
        rw [abs_sub_comm]
        exact h'.2.2

/-- A sloping rafter and a point in its middle. -/
def rafter : Member ℚ := Member.new (0, 0) (6000, 1500) 4 .beam none none 1

example : DecimalPt prec rafter.start ∧ DecimalPt prec rafter.stop ∧ rafter.start ≠ rafter.stop ∧ OnSegment rafter.start rafter.stop (3000, 750) := by
  have e1 : rafter.start = (0, 0) := roundPt_of_decimals ⟨⟨0, by norm_num⟩, ⟨0, by norm_num⟩⟩
  have e2 : rafter.stop = (6000, 1500) := roundPt_of_decimals ⟨⟨6000000, by unfold prec; norm_num⟩, ⟨1500000, by unfold prec; norm_num⟩⟩
  refine ⟨roundPt_decimals _ _, roundPt_decimals _ _, by rw [e1, e2]; simp, ?_⟩
  rw [e1, e2]
  exact ⟨1 / 2, by norm_num, by norm_num, by norm_num, by norm_num⟩

end Metku.Frame2D
