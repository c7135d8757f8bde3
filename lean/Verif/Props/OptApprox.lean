import Mathlib.Analysis.Calculus.Deriv.Inv
import Mathlib.Analysis.Calculus.Deriv.Mul
import Mathlib.Analysis.Calculus.Deriv.Add
import Mathlib.Analysis.Calculus.Deriv.Pow
import Mathlib.Analysis.Convex.Function
import Mathlib.Tactic.Positivity
import Mathlib.Tactic.FieldSimp
import Mathlib.Tactic.Ring
import Mathlib.Tactic.Linarith
import Mathlib.Tactic.NormNum
import Verif.Model.OptApprox

/-!
Properties C17 and C18: convex linearisation and moving asymptotes.
-/
namespace Metku.Opt

open scoped BigOperators

/-! ### Helper facts -/

theorem sum_update_eq {n : Nat} (g : Fin n → ℝ → ℝ) (x : Fin n → ℝ) (i : Fin n) (t : ℝ) :
    ∑ j, g j (Function.update x i t j) = g i t + ∑ j ∈ Finset.univ.erase i, g j (x j) := by
  rw [← Finset.add_sum_erase _ _ (Finset.mem_univ i), Function.update_self]
  congr 1
  refine Finset.sum_congr rfl fun j hj => ?_
  rw [Function.update_of_ne (Finset.ne_of_mem_erase hj)]

theorem hasDerivAt_sum_update {n : Nat} (c : ℝ) (g : Fin n → ℝ → ℝ) (x : Fin n → ℝ) (i : Fin n) (t g' : ℝ)
    (h : HasDerivAt (g i) g' t) :
    HasDerivAt (fun s => c + ∑ j, g j (Function.update x i s j)) g' t := by
  have e : (fun s => c + ∑ j, g j (Function.update x i s j)) =
      fun s => c + (g i s + ∑ j ∈ Finset.univ.erase i, g j (x j)) := by
    funext s; rw [sum_update_eq]
  rw [e]
  exact (h.add_const _).const_add c

/-- Scalar convexity of `t ↦ 1/t` in two-point form. -/
theorem inv_convex {a b u v : ℝ} (hu : 0 < u) (hv : 0 < v) (ha : 0 ≤ a) (hb : 0 ≤ b) (hab : a + b = 1) :
    1 / (a * u + b * v) ≤ a * (1 / u) + b * (1 / v) := by
  have hw : 0 < a * u + b * v := by
    rcases eq_or_lt_of_le ha with h | h
    · have : b = 1 := by linarith
      rw [← h, this]; linarith
    · have := mul_pos h hu
      have := mul_nonneg hb hv.le
      linarith
  rw [div_le_iff₀ hw]
  have key : (a * (1 / u) + b * (1 / v)) * (a * u + b * v) - 1 = a * b * (u - v) ^ 2 / (u * v) := by
    have hb' : b = 1 - a := by linarith
    rw [hb']; field_simp; ring
  have : 0 ≤ a * b * (u - v) ^ 2 / (u * v) := by positivity
  linarith

/-! ### C17 -/

/-- Value at the expansion point. -/
theorem C17_value {n : Nat} (xk : Fin n → ℝ) (fk : ℝ) (d : Fin n → ℝ) : conlin xk fk d xk = fk := by
  simp [conlin]

/-- Partial derivatives at the expansion point, for every sign pattern of the gradient. -/
theorem C17_gradient {n : Nat} (xk : Fin n → ℝ) (fk : ℝ) (d : Fin n → ℝ) (hpos : ∀ i, 0 < xk i) (i : Fin n) :
    HasDerivAt (fun t => conlin xk fk d (Function.update xk i t)) (d i) (xk i) := by
  unfold conlin
  refine hasDerivAt_sum_update fk (fun j t => conlinFactor (d j) (xk j) t * d j * (t - xk j)) xk i (xk i) (d i) ?_
  by_cases h : 0 ≤ d i
  · have e : (fun t => conlinFactor (d i) (xk i) t * d i * (t - xk i)) = fun t => d i * (t - xk i) := by
      funext t; simp [conlinFactor, h]
    rw [e]
    simpa using ((hasDerivAt_id (xk i)).sub_const (xk i)).const_mul (d i)
  · have e : (fun t => conlinFactor (d i) (xk i) t * d i * (t - xk i)) =
        fun t => (xk i / t * d i) * (t - xk i) := by
      funext t; simp [conlinFactor, h]
    rw [e]
    have hx := (hpos i).ne'
    have h1 : HasDerivAt (fun t : ℝ => xk i / t * d i) (xk i * (-(xk i ^ 2)⁻¹) * d i) (xk i) := by
      have := ((hasDerivAt_inv hx).const_mul (xk i)).mul_const (d i)
      simpa [div_eq_mul_inv] using this
    have h2 := h1.mul ((hasDerivAt_id (xk i)).sub_const (xk i))
    have : xk i * (-(xk i ^ 2)⁻¹) * d i * (id (xk i) - xk i) + xk i / xk i * d i * 1 = d i := by
      simp [div_self hx]
    rw [this] at h2
    exact h2

theorem conlin_term_convex {d xk u v a b : ℝ} (hxk : 0 < xk) (hu : 0 < u) (hv : 0 < v) (ha : 0 ≤ a) (hb : 0 ≤ b)
    (hab : a + b = 1) :
    conlinFactor d xk (a * u + b * v) * d * ((a * u + b * v) - xk) ≤
      a * (conlinFactor d xk u * d * (u - xk)) + b * (conlinFactor d xk v * d * (v - xk)) := by
  by_cases h : 0 ≤ d
  · simp only [conlinFactor, h, if_true]
    have : b = 1 - a := by linarith
    rw [this]; apply le_of_eq; ring
  · have hd : d < 0 := not_le.1 h
    have hw : 0 < a * u + b * v := by
      rcases eq_or_lt_of_le ha with h | h
      · have : b = 1 := by linarith
        rw [← h, this]; linarith
      · have := mul_pos h hu
        have := mul_nonneg hb hv.le
        linarith
    have e : ∀ t : ℝ, 0 < t → conlinFactor d xk t * d * (t - xk) = xk * d - xk ^ 2 * d * (1 / t) := by
      intro t ht
      simp only [conlinFactor, h, if_false]
      field_simp
    rw [e _ hw, e _ hu, e _ hv]
    have key := inv_convex hu hv ha hb hab
    have hc : 0 < -(xk ^ 2 * d) := by
      have := mul_pos (pow_pos hxk 2) (neg_pos.2 hd)
      linarith
    have h2 := mul_le_mul_of_nonneg_left key hc.le
    have : b = 1 - a := by linarith
    rw [this] at h2 ⊢
    nlinarith [h2]

/-- Convexity for positive design variables. -/
theorem C17_convex {n : Nat} (xk : Fin n → ℝ) (fk : ℝ) (d : Fin n → ℝ) (hpos : ∀ i, 0 < xk i) :
    ConvexOn ℝ {x : Fin n → ℝ | ∀ i, 0 < x i} (conlin xk fk d) := by
  refine ⟨?_, ?_⟩
  · intro x hx y hy a b ha hb hab i
    simp only [Pi.add_apply, Pi.smul_apply, smul_eq_mul]
    rcases eq_or_lt_of_le ha with h | h
    · have : b = 1 := by linarith
      rw [← h, this]; have := hy i; linarith
    · have := mul_pos h (hx i)
      have := mul_nonneg hb (hy i).le
      linarith
  · intro x hx y hy a b ha hb hab
    have hterm := fun i => conlin_term_convex (d := d i) (hpos i) (hx i) (hy i) ha hb hab
    have hs := Finset.sum_le_sum (s := Finset.univ) fun i _ => hterm i
    simp only [conlin, Pi.add_apply, Pi.smul_apply, smul_eq_mul]
    rw [Finset.sum_add_distrib, ← Finset.mul_sum, ← Finset.mul_sum] at hs
    have hfk : fk = a * fk + b * fk := by rw [← add_mul, hab, one_mul]
    linarith

/-- Mixed gradient signs, positive point. -/
example : (∀ i, 0 < (![1, 2] : Fin 2 → ℝ) i) ∧ conlin ![1, 2] 5 ![3, -4] (![2, 4] : Fin 2 → ℝ) = 4 := by
  refine ⟨by intro i; fin_cases i <;> simp, ?_⟩
  simp [conlin, conlinFactor, Fin.sum_univ_two]; norm_num

/-! ### C18: the approximation -/

/-- Value at the expansion point. -/
theorem C18_value {n : Nat} (xk : Fin n → ℝ) (fk : ℝ) (d L U : Fin n → ℝ) : mma xk fk d L U xk = fk := by
  simp [mma]

theorem mmaTerm_deriv {xk d L U t : ℝ} (hL : L < t) (hU : t < U) :
    HasDerivAt (mmaTerm xk d L U) (mmaP xk d U / (U - t) ^ 2 - mmaQ xk d L / (t - L) ^ 2) t := by
  have h1 : HasDerivAt (fun s : ℝ => (U - s)⁻¹) (1 / (U - t) ^ 2) t := by
    have := ((hasDerivAt_id t).const_sub U).inv (sub_pos.2 hU).ne'
    refine HasDerivAt.congr_deriv (f := fun s : ℝ => (U - s)⁻¹) this ?_
    simp
  have h2 : HasDerivAt (fun s : ℝ => (s - L)⁻¹) (-1 / (t - L) ^ 2) t := by
    have := ((hasDerivAt_id t).sub_const L).inv (sub_pos.2 hL).ne'
    refine HasDerivAt.congr_deriv (f := fun s : ℝ => (s - L)⁻¹) this ?_
    simp
  have h := (h1.const_mul (mmaP xk d U)).add (h2.const_mul (mmaQ xk d L))
  have e : mmaTerm xk d L U = fun s => mmaP xk d U * (U - s)⁻¹ + mmaQ xk d L * (s - L)⁻¹ := by
    funext s; simp [mmaTerm, div_eq_mul_inv]
  rw [e]
  refine h.congr_deriv ?_
  ring

/-- The reported gradient is the gradient, everywhere between the asymptotes. -/
theorem C18_grad {n : Nat} (xk : Fin n → ℝ) (fk : ℝ) (d L U x : Fin n → ℝ) (hL : ∀ i, L i < x i) (hU : ∀ i, x i < U i)
    (i : Fin n) :
    HasDerivAt (fun t => mma xk fk d L U (Function.update x i t)) (mmaGrad xk d L U x i) (x i) := by
  unfold mma mmaGrad
  exact hasDerivAt_sum_update _ (fun j t => mmaTerm (xk j) (d j) (L j) (U j) t) x i (x i) _ (mmaTerm_deriv (hL i) (hU i))

/-- At the expansion point the gradient is the given one, for every sign pattern. -/
theorem C18_gradient {n : Nat} (xk : Fin n → ℝ) (fk : ℝ) (d L U : Fin n → ℝ) (hL : ∀ i, L i < xk i)
    (hU : ∀ i, xk i < U i) (i : Fin n) :
    HasDerivAt (fun t => mma xk fk d L U (Function.update xk i t)) (d i) (xk i) := by
  have h := C18_grad xk fk d L U xk hL hU i
  have h1 : (U i - xk i) ≠ 0 := (sub_pos.2 (hU i)).ne'
  have h2 : (xk i - L i) ≠ 0 := (sub_pos.2 (hL i)).ne'
  have e : mmaGrad xk d L U xk i = d i := by
    unfold mmaGrad mmaP mmaQ
    split
    · field_simp; ring
    · field_simp; ring
  rw [e] at h
  exact h

/-- The approximation is convex between the asymptotes. -/
theorem C18_convex {n : Nat} (xk : Fin n → ℝ) (fk : ℝ) (d L U : Fin n → ℝ) :
    ConvexOn ℝ {x : Fin n → ℝ | ∀ i, L i < x i ∧ x i < U i} (mma xk fk d L U) := by
  have hconv : ∀ {a b u v l : ℝ}, l < u → l < v → 0 ≤ a → 0 ≤ b → a + b = 1 → l < a * u + b * v := by
    intro a b u v l hu hv ha hb hab
    have : a * u + b * v - l = a * (u - l) + b * (v - l) := by
      have : b = 1 - a := by linarith
      rw [this]; ring
    rcases eq_or_lt_of_le ha with h | h
    · have hb1 : b = 1 := by linarith
      rw [← h, hb1]; linarith
    · have := mul_pos h (sub_pos.2 hu)
      have := mul_nonneg hb (sub_pos.2 hv).le
      linarith
  have hconv' : ∀ {a b u v r : ℝ}, u < r → v < r → 0 ≤ a → 0 ≤ b → a + b = 1 → a * u + b * v < r := by
    intro a b u v r hu hv ha hb hab
    have := hconv (l := -r) (u := -u) (v := -v) (by linarith) (by linarith) ha hb hab
    linarith
  refine ⟨?_, ?_⟩
  · intro x hx y hy a b ha hb hab i
    simp only [Pi.add_apply, Pi.smul_apply, smul_eq_mul]
    exact ⟨hconv (hx i).1 (hy i).1 ha hb hab, hconv' (hx i).2 (hy i).2 ha hb hab⟩
  · intro x hx y hy a b ha hb hab
    have hterm : ∀ i, mmaTerm (xk i) (d i) (L i) (U i) (a * x i + b * y i) ≤
        a * mmaTerm (xk i) (d i) (L i) (U i) (x i) + b * mmaTerm (xk i) (d i) (L i) (U i) (y i) := by
      intro i
      have k1 := inv_convex (sub_pos.2 (hx i).2) (sub_pos.2 (hy i).2) ha hb hab
      have k2 := inv_convex (sub_pos.2 (hx i).1) (sub_pos.2 (hy i).1) ha hb hab
      have e1 : a * (U i - x i) + b * (U i - y i) = U i - (a * x i + b * y i) := by
        have : b = 1 - a := by linarith
        rw [this]; ring
      have e2 : a * (x i - L i) + b * (y i - L i) = (a * x i + b * y i) - L i := by
        have : b = 1 - a := by linarith
        rw [this]; ring
      rw [e1] at k1
      rw [e2] at k2
      have hp : 0 ≤ mmaP (xk i) (d i) (U i) := by
        unfold mmaP; split
        · rename_i h; positivity
        · exact le_refl 0
      have hq : 0 ≤ mmaQ (xk i) (d i) (L i) := by
        unfold mmaQ; split
        · exact le_refl 0
        · rename_i h
          have hd : 0 < -d i := neg_pos.2 (not_le.1 h)
          have : -(xk i - L i) ^ 2 * d i = (xk i - L i) ^ 2 * (-d i) := by ring
          rw [this]; positivity
      have m1 := mul_le_mul_of_nonneg_left k1 hp
      have m2 := mul_le_mul_of_nonneg_left k2 hq
      unfold mmaTerm
      rw [div_eq_mul_one_div (mmaP _ _ _) (U i - (a * x i + b * y i)), div_eq_mul_one_div (mmaQ _ _ _) (a * x i + b * y i - L i),
        div_eq_mul_one_div (mmaP _ _ _) (U i - x i), div_eq_mul_one_div (mmaQ _ _ _) (x i - L i),
        div_eq_mul_one_div (mmaP _ _ _) (U i - y i), div_eq_mul_one_div (mmaQ _ _ _) (y i - L i)]
      nlinarith [m1, m2]
    have hs := Finset.sum_le_sum (s := Finset.univ) fun i _ => hterm i
    simp only [mma, Pi.add_apply, Pi.smul_apply, smul_eq_mul]
    rw [Finset.sum_add_distrib, ← Finset.mul_sum, ← Finset.mul_sum] at hs
    set r := fk - ∑ i, mmaTerm (xk i) (d i) (L i) (U i) (xk i) with hr
    have hfk : r = a * r + b * r := by rw [← add_mul, hab, one_mul]
    linarith

/-! ### C18: the asymptotes -/

section
variable {K : Type} [Field K] [LinearOrder K] [IsStrictOrderedRing K]

/-- States the solver can reach: it starts with one point and no asymptotes, and every iteration appends asymptotes and
    whatever point the sub-problem solver returns. -/
inductive MmaReach (lb ub : K) : MmaState K → Prop
  | start (x : K) : MmaReach lb ub ⟨[x], [], []⟩
  | next {s s' x} : MmaReach lb ub s → mmaIter s lb ub x = some s' → MmaReach lb ub s'

theorem mmaReach_lengths {lb ub : K} {s : MmaState K} (h : MmaReach lb ub s) :
    s.xs.length = s.Ls.length + 1 ∧ s.Us.length = s.Ls.length := by
  induction h with
  | start x => simp
  | next h hs ih =>
    unfold mmaIter at hs
    cases ha : mmaAsymptotes _ lb ub with
    | none => rw [ha] at hs; cases hs
    | some LU =>
      rw [ha] at hs
      cases hs
      simp [ih.1, ih.2]

/-- C18: in every reachable state new asymptotes are found and strictly enclose the current point, at a distance between fixed multiples
    of the variable's range. -/
theorem C18_asymptotes {lb ub : K} (hb : lb < ub) {s : MmaState K} (h : MmaReach lb ub s) :
    ∃ x rest L U, s.xs = x :: rest ∧ mmaAsymptotes s lb ub = some (L, U) ∧
      x - 10 * (ub - lb) ≤ L ∧ L ≤ x - 1 / 10 * (ub - lb) ∧ x + 1 / 100 * (ub - lb) ≤ U ∧ U ≤ x + 10 * (ub - lb) ∧
      L < x ∧ x < U := by
  obtain ⟨hl1, hl2⟩ := mmaReach_lengths h
  obtain ⟨xs, Ls, Us⟩ := s
  simp only at hl1 hl2
  have hD : 0 < ub - lb := sub_pos.2 hb
  have fin : ∀ x a b : K, x - 10 * (ub - lb) ≤ min (max (x - 10 * (ub - lb)) a) (x - 1 / 10 * (ub - lb)) ∧
      min (max (x - 10 * (ub - lb)) a) (x - 1 / 10 * (ub - lb)) ≤ x - 1 / 10 * (ub - lb) ∧
      x + 1 / 100 * (ub - lb) ≤ min (max (x + 1 / 100 * (ub - lb)) b) (x + 10 * (ub - lb)) ∧
      min (max (x + 1 / 100 * (ub - lb)) b) (x + 10 * (ub - lb)) ≤ x + 10 * (ub - lb) ∧
      min (max (x - 10 * (ub - lb)) a) (x - 1 / 10 * (ub - lb)) < x ∧
      x < min (max (x + 1 / 100 * (ub - lb)) b) (x + 10 * (ub - lb)) := by
    intro x a b
    refine ⟨le_min (le_max_left _ _) (by linarith), min_le_right _ _,
      le_min (le_max_left _ _) (by linarith), min_le_right _ _, ?_, ?_⟩
    · exact lt_of_le_of_lt (min_le_right _ _) (by linarith)
    · exact lt_min (lt_max_of_lt_left (by linarith)) (by linarith)
  cases xs with
  | nil => simp at hl1
  | cons x rest =>
    by_cases hr : rest.length ≤ 1
    · refine ⟨x, rest, _, _, rfl, ?_, fin x (x - 1 / 2 * (ub - lb)) (x + 1 / 2 * (ub - lb))⟩
      simp only [mmaAsymptotes, hr, if_true, Option.map_some]
    · match rest, Ls, Us, hl1, hl2, hr with
      | [], _, _, _, _, hr => exact absurd (by simp) hr
      | [_], _, _, _, _, hr => exact absurd (by simp) hr
      | _ :: _ :: _, [], _, hl1, _, _ => simp at hl1
      | _ :: _ :: _, _ :: _, [], _, hl2, _ => simp at hl2
      | x1 :: x2 :: rest, L :: Ls, U :: Us, hl1, hl2, hr =>
        refine ⟨x, x1 :: x2 :: rest, _, _, rfl, ?_, fin x (x - mmaGamma x x1 x2 * (x1 - L)) (x + mmaGamma x x1 x2 * (U - x1))⟩
        simp only [mmaAsymptotes, hr, if_false, Option.map_some]

/-- C18: the sub-problem's bounds contain the current point, and lie strictly inside the asymptotes when the lower asymptote is
    nonnegative. -/
theorem C18_bounds_partial {lb ub L U x : K} (hx1 : lb ≤ x) (hx2 : x ≤ ub) (hL : L < x) (hU : x < U) :
    (mmaBounds lb ub L U x).1 ≤ x ∧ x ≤ (mmaBounds lb ub L U x).2 ∧
    lb ≤ (mmaBounds lb ub L U x).1 ∧ (mmaBounds lb ub L U x).2 ≤ ub ∧
    (mmaBounds lb ub L U x).2 < U ∧ (0 ≤ L → L < (mmaBounds lb ub L U x).1) := by
  have hr : 0 ≤ ub - lb := by linarith
  unfold mmaBounds
  simp only
  refine ⟨max_le (max_le hx1 ?_) (by linarith), le_min (le_min hx2 (by linarith)) (by linarith),
    (le_max_left _ _).trans (le_max_left _ _), (min_le_left _ _).trans (min_le_left _ _), ?_, ?_⟩
  · rcases le_or_gt 0 L with h | h
    · rw [abs_of_nonneg h]; linarith
    · rw [abs_of_neg h]
      rcases le_or_gt 0 x with h2 | h2 <;> linarith
  · exact lt_of_le_of_lt ((min_le_left _ _).trans (min_le_right _ _)) (by linarith)
  · intro h
    refine lt_max_of_lt_left (lt_max_of_lt_right ?_)
    rw [abs_of_nonneg h]; linarith

/-- The bounds used by the problem's own MMA approximation are strictly inside the asymptotes for every `mu` in (0, 1]. -/
theorem C18_bounds_mu {mu lb ub L U x : K} (h0 : 0 < mu) (h1 : mu ≤ 1) (hx1 : lb ≤ x) (hx2 : x ≤ ub) (hL : L < x) (hU : x < U) :
    (mmaBoundsMu mu lb ub L U x).1 ≤ x ∧ x ≤ (mmaBoundsMu mu lb ub L U x).2 ∧
    L < (mmaBoundsMu mu lb ub L U x).1 ∧ (mmaBoundsMu mu lb ub L U x).2 < U := by
  unfold mmaBoundsMu
  simp only
  have e1 : 0 < mu * (x - L) := mul_pos h0 (sub_pos.2 hL)
  have e2 : 0 < mu * (U - x) := mul_pos h0 (sub_pos.2 hU)
  have e3 : mu * (x - L) ≤ x - L := by
    simpa using mul_le_mul_of_nonneg_right h1 (sub_pos.2 hL).le
  have e4 : mu * (U - x) ≤ U - x := by
    simpa using mul_le_mul_of_nonneg_right h1 (sub_pos.2 hU).le
  refine ⟨max_le hx1 (by linarith), le_min hx2 (by linarith), lt_max_of_lt_right (by linarith),
    lt_of_le_of_lt (min_le_right _ _) (by linarith)⟩

end

/-- C18 fails for the solver's bounds when the lower asymptote is negative (`abs(L[i])` in mma.py 57): with range
    [-10, 10] and the iterates 0, 1, 1/2 the lower asymptote becomes -6.5 and the sub-problem's lower bound -7.1 lies
    beyond it. -/
theorem C18_violation :
    ∃ (s : MmaState ℚ) (x L U : ℚ), MmaReach (-10) 10 s ∧ s.xs.head? = some x ∧ mmaAsymptotes s (-10) 10 = some (L, U) ∧
      (mmaBounds (-10) 10 L U x).1 < L := by
  have a1 : mmaAsymptotes (⟨[0], [], []⟩ : MmaState ℚ) (-10) 10 = some (-10, 10) := by norm_num [mmaAsymptotes]
  have a2 : mmaAsymptotes (⟨[1, 0], [-10], [10]⟩ : MmaState ℚ) (-10) 10 = some (-9, 11) := by
    norm_num [mmaAsymptotes]
  have a3 : mmaAsymptotes (⟨[1 / 2, 1, 0], [-9, -10], [11, 10]⟩ : MmaState ℚ) (-10) 10 = some (-(13 / 2), 15 / 2) := by
    norm_num [mmaAsymptotes, mmaGamma]
  refine ⟨⟨[1 / 2, 1, 0], [-9, -10], [11, 10]⟩, 1 / 2, -(13 / 2), 15 / 2, ?_, rfl, a3, ?_⟩
  · refine .next (s := ⟨[1, 0], [-10], [10]⟩) (x := 1 / 2) (.next (s := ⟨[0], [], []⟩) (x := 1) (.start 0) ?_) ?_
    · simp [mmaIter, a1]
    · simp [mmaIter, a2]
  · have h : |(-(13 / 2) : ℚ)| = 13 / 2 := by rw [abs_neg, abs_of_pos (by norm_num)]
    norm_num [mmaBounds, h]

/-- In the very first iteration the bound can coincide with the asymptote, where the approximation has a pole. -/
theorem C18_violation_first :
    ∃ x L U : ℚ, mmaAsymptotes ⟨[x], [], []⟩ (-10) 10 = some (L, U) ∧ (mmaBounds (-10) 10 L U x).1 = L := by
  refine ⟨1, -9, 11, ?_, ?_⟩
  · norm_num [mmaAsymptotes]
  · have h : |(-9 : ℚ)| = 9 := by rw [abs_neg, abs_of_pos (by norm_num)]
    norm_num [mmaBounds, h]

/-- A reachable state three iterations in. -/
example : ∃ s : MmaState ℚ, MmaReach (0 : ℚ) 10 s ∧ s.xs.length = 4 := by
  have step : ∀ s : MmaState ℚ, MmaReach (0 : ℚ) 10 s → ∀ _ : ℚ, ∃ s', MmaReach (0 : ℚ) 10 s' ∧ s'.xs.length = s.xs.length + 1 := by
    intro s h x
    obtain ⟨_, _, L, U, _, ha, _⟩ := C18_asymptotes (by norm_num) h
    exact ⟨⟨x :: s.xs, L :: s.Ls, U :: s.Us⟩, .next h (x := x) (by simp [mmaIter, ha]), by simp⟩
  obtain ⟨s1, h1, e1⟩ := step _ (.start 3) 5
  obtain ⟨s2, h2, e2⟩ := step _ h1 4
  obtain ⟨s3, h3, e3⟩ := step _ h2 6
  exact ⟨s3, h3, by rw [e3, e2, e1]; rfl⟩

end Metku.Opt
