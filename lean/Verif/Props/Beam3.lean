import Verif.Model.Beam3
import Verif.Props.FemBeam

/-!
Properties C235-C237: beam elements in space.
-/
namespace Metku.Fem

open Matrix

set_option linter.unusedSectionVars false

/-! ### C235: local axes -/

/-- Specification: inner product of two vectors in space. -/
def inner3 (a b : V3) : ℝ := a 0 * b 0 + a 1 * b 1 + a 2 * b 2

/-- Specification: the point `X` lies on the straight line through `X1` and `X2`. -/
def OnLine (X1 X2 X : V3) : Prop := ∃ s : ℝ, ∀ i, X i - X1 i = s * (X2 i - X1 i)

/-- Specification: Euclidean distance of two points. -/
noncomputable def dist3 (X1 X2 : V3) : ℝ := Real.sqrt ((X2 0 - X1 0) ^ 2 + (X2 1 - X1 1) ^ 2 + (X2 2 - X1 2) ^ 2)

/-- Specification: three axes (rows) of unit length, mutually perpendicular, right-handed. -/
structure RightHanded (M : Matrix (Fin 3) (Fin 3) ℝ) : Prop where
  unit : ∀ i, inner3 (M i) (M i) = 1
  perp : inner3 (M 0) (M 1) = 0 ∧ inner3 (M 0) (M 2) = 0 ∧ inner3 (M 1) (M 2) = 0
  right : M.det = 1

theorem norm3_sq (v : V3) : norm3 v ^ 2 = inner3 v v := by
  unfold norm3 inner3
  rw [Real.sq_sqrt (by positivity)]
  ring

theorem norm3_pos {v : V3} (h : v ≠ 0) : 0 < norm3 v := by
  unfold norm3
  apply Real.sqrt_pos.mpr
  by_contra hn
  apply h
  have h0 : v 0 ^ 2 + v 1 ^ 2 + v 2 ^ 2 ≤ 0 := not_lt.mp hn
  have a0 : v 0 = 0 := by nlinarith [sq_nonneg (v 0), sq_nonneg (v 1), sq_nonneg (v 2)]
  have a1 : v 1 = 0 := by nlinarith [sq_nonneg (v 0), sq_nonneg (v 1), sq_nonneg (v 2)]
  have a2 : v 2 = 0 := by nlinarith [sq_nonneg (v 0), sq_nonneg (v 1), sq_nonneg (v 2)]
  ext i
  fin_cases i <;> simp [a0, a1, a2]

/-- Lagrange: if the cross product of two vectors vanishes and the second is not zero, the first is a multiple of it. -/
theorem parallel_of_cross {a b : V3} (hb : b ≠ 0) (h : crossProduct a b = 0) : ∃ s : ℝ, ∀ i, a i = s * b i := by
  have h0 := congrFun h 0
  have h1 := congrFun h 1
  have h2 := congrFun h 2
  simp [cross_apply] at h0 h1 h2
  have hp : 0 < inner3 b b := by rw [← norm3_sq]; exact pow_pos (norm3_pos hb) 2
  have hp' : b 0 * b 0 + b 1 * b 1 + b 2 * b 2 ≠ 0 := hp.ne'
  refine ⟨inner3 a b / inner3 b b, fun i => ?_⟩
  unfold inner3
  rw [div_mul_eq_mul_div, eq_div_iff hp']
  fin_cases i <;> simp
  · linear_combination b 2 * h1 * (-1) + b 1 * h2
  · linear_combination b 2 * h0 - b 0 * h2
  · linear_combination b 0 * h1 - b 1 * h0

/-- The second axis is the normalised product of reference and member direction, whatever length is stored. -/
theorem localY_eq {X1 X2 X3 : V3} {L : ℝ} (hL : 0 < L) (h3 : ¬ OnLine X1 X2 X3) :
    localY X1 X2 X3 L = fun i => (crossProduct (fun i => X3 i - X1 i) (fun i => X2 i - X1 i) : V3) i /
      norm3 (crossProduct (fun i => X3 i - X1 i) (fun i => X2 i - X1 i)) := by
  set d : V3 := fun i => X2 i - X1 i with hd
  set e : V3 := fun i => X3 i - X1 i with he
  have he0 : e ≠ 0 := fun h => h3 ⟨0, fun i => by have := congrFun h i; simp [he] at this; linarith⟩
  have hne : 0 < norm3 e := norm3_pos he0
  have hL0 := hL.ne'
  -- the vector VZ0
  have hvz : (crossProduct (fun i => e i / norm3 e) (direction3 X1 X2 L) : V3) = fun i => (1 / (norm3 e * L)) * (crossProduct e d) i := by
    ext i
    fin_cases i <;> simp [cross_apply, direction3, hd] <;> field_simp
  have hvn : norm3 (crossProduct (fun i => e i / norm3 e) (direction3 X1 X2 L)) = 1 / (norm3 e * L) * norm3 (crossProduct e d) := by
    rw [hvz]
    unfold norm3 at hne ⊢
    rw [show ((1 / (√(e 0 ^ 2 + e 1 ^ 2 + e 2 ^ 2) * L) * (crossProduct e d) 0) ^ 2 + (1 / (√(e 0 ^ 2 + e 1 ^ 2 + e 2 ^ 2) * L) * (crossProduct e d) 1) ^ 2
      + (1 / (√(e 0 ^ 2 + e 1 ^ 2 + e 2 ^ 2) * L) * (crossProduct e d) 2) ^ 2) = (1 / (√(e 0 ^ 2 + e 1 ^ 2 + e 2 ^ 2) * L)) ^ 2 *
      ((crossProduct e d) 0 ^ 2 + (crossProduct e d) 1 ^ 2 + (crossProduct e d) 2 ^ 2) by ring, Real.sqrt_mul (by positivity),
      Real.sqrt_sq (by positivity)]
  unfold localY
  change (fun i => (crossProduct (fun i => e i / norm3 e) (direction3 X1 X2 L)) i /
    norm3 (crossProduct (fun i => e i / norm3 e) (direction3 X1 X2 L))) = _
  rw [hvn]
  ext i
  rw [congrFun hvz i]
  field_simp

/-- What the axes are, for any stored length `L`: the second axis is a unit vector perpendicular to member and reference
    direction, the third completes the triple; the first and third have length `distance / L`. -/
theorem axes_general {X1 X2 X3 : V3} {L : ℝ} (hL : 0 < L) (h12 : X1 ≠ X2) (h3 : ¬ OnLine X1 X2 X3) :
    let M := axes3 X1 X2 X3 L
    inner3 (M 0) (M 0) = (dist3 X1 X2 / L) ^ 2 ∧ inner3 (M 1) (M 1) = 1 ∧ inner3 (M 2) (M 2) = (dist3 X1 X2 / L) ^ 2 ∧
    inner3 (M 0) (M 1) = 0 ∧ inner3 (M 0) (M 2) = 0 ∧ inner3 (M 1) (M 2) = 0 ∧
    M.det = (dist3 X1 X2 / L) ^ 2 ∧
    inner3 (fun i => X3 i - X1 i) (M 1) = 0 ∧ 0 < inner3 (fun i => X3 i - X1 i) (M 2) := by
  intro M
  set d : V3 := fun i => X2 i - X1 i with hd
  set e : V3 := fun i => X3 i - X1 i with he
  have hd0 : d ≠ 0 := fun h => h12 (by ext i; have := congrFun h i; simp [hd] at this; linarith)
  have he0 : e ≠ 0 := fun h => h3 ⟨0, fun i => by have := congrFun h i; simp [he] at this; linarith⟩
  have hx0 : crossProduct e d ≠ 0 := fun h => h3 (by
    obtain ⟨s, hs⟩ := parallel_of_cross hd0 h
    exact ⟨s, hs⟩)
  have hne : 0 < norm3 e := norm3_pos he0
  have hL0 := hL.ne'
  have hs : norm3 (crossProduct e d) ^ 2 = inner3 (crossProduct e d) (crossProduct e d) := norm3_sq _
  set n := norm3 (crossProduct e d) with hn
  have hn0 : 0 < n := norm3_pos hx0
  have hy : localY X1 X2 X3 L = fun i => (crossProduct e d) i / n := localY_eq hL h3
  have hdist : dist3 X1 X2 ^ 2 = inner3 d d := by
    unfold dist3 inner3
    rw [Real.sq_sqrt (by positivity)]; simp [hd]; ring
  have r0 : M 0 = fun i => d i / L := by ext i; simp [M, axes3, direction3, hd]
  have r1 : M 1 = fun i => (crossProduct e d) i / n := by
    ext i; simp [M, axes3]; rw [hy]
  have r2 : M 2 = fun i => (crossProduct d (crossProduct e d)) i / (L * n) := by
    have : M 2 = crossProduct (direction3 X1 X2 L) (localY X1 X2 X3 L) := by ext i; simp [M, axes3]
    rw [this, hy]
    ext i
    fin_cases i <;> simp [cross_apply, direction3, hd] <;> field_simp
  have hdet : M.det = inner3 (M 0) (crossProduct (M 1) (M 2)) := by
    rw [Matrix.det_fin_three]
    simp only [inner3, cross_apply]
    simp
    ring
  have hs' : n ^ 2 = (e 1 * d 2 - e 2 * d 1) ^ 2 + (e 2 * d 0 - e 0 * d 2) ^ 2 + (e 0 * d 1 - e 1 * d 0) ^ 2 := by
    rw [hs]; simp [inner3, cross_apply]; ring
  have hD : dist3 X1 X2 ^ 2 = d 0 ^ 2 + d 1 ^ 2 + d 2 ^ 2 := by rw [hdist]; unfold inner3; ring
  have hn0' := hn0.ne'
  rw [hdet, r0, r1, r2]
  simp only [inner3, cross_apply, div_pow, hD]
  simp only [Matrix.cons_val_zero, Matrix.cons_val_one, Matrix.cons_val, Fin.isValue]
  refine ⟨?_, ?_, ?_, ?_, ?_, ?_, ?_, ?_, ?_⟩
  · field_simp
  · rw [show (e 1 * d 2 - e 2 * d 1) / n * ((e 1 * d 2 - e 2 * d 1) / n) + (e 2 * d 0 - e 0 * d 2) / n * ((e 2 * d 0 - e 0 * d 2) / n) +
      (e 0 * d 1 - e 1 * d 0) / n * ((e 0 * d 1 - e 1 * d 0) / n) = ((e 1 * d 2 - e 2 * d 1) ^ 2 + (e 2 * d 0 - e 0 * d 2) ^ 2 + (e 0 * d 1 - e 1 * d 0) ^ 2) / n ^ 2 by
        field_simp, ← hs', div_self (by positivity)]
  · field_simp
    rw [hs']; ring
  · field_simp; ring
  · field_simp; ring
  · field_simp; ring
  · field_simp
    rw [hs']; ring
  · field_simp; ring
  · have : e 0 * ((d 1 * (e 0 * d 1 - e 1 * d 0) - d 2 * (e 2 * d 0 - e 0 * d 2)) / (L * n)) +
        e 1 * ((d 2 * (e 1 * d 2 - e 2 * d 1) - d 0 * (e 0 * d 1 - e 1 * d 0)) / (L * n)) +
        e 2 * ((d 0 * (e 2 * d 0 - e 0 * d 2) - d 1 * (e 1 * d 2 - e 2 * d 1)) / (L * n)) = n ^ 2 / (L * n) := by
      rw [hs']; field_simp; ring
    rw [this]; positivity

/-- C235: for a member of non-zero length whose reference point is not on its line, with the length known exactly, the local
    axes are a right-handed orthonormal triple whose first axis points from the first to the second node; the reference
    point lies in the local xz plane on the side of positive z. -/
theorem C235_partial {X1 X2 X3 : V3} (h12 : X1 ≠ X2) (h3 : ¬ OnLine X1 X2 X3) :
    let M := axes3 X1 X2 X3 (dist3 X1 X2)
    RightHanded M ∧ (∀ i, dist3 X1 X2 * M 0 i = X2 i - X1 i) ∧
    inner3 (fun i => X3 i - X1 i) (M 1) = 0 ∧ 0 < inner3 (fun i => X3 i - X1 i) (M 2) := by
  intro M
  have hd : 0 < dist3 X1 X2 := by
    have : dist3 X1 X2 = norm3 (fun i => X2 i - X1 i) := rfl
    rw [this]
    exact norm3_pos fun h => h12 (by ext i; have := congrFun h i; simp at this; linarith)
  obtain ⟨a, b, c, e, f, g, h, i, j⟩ := axes_general hd h12 h3
  rw [div_self hd.ne', one_pow] at a c h
  refine ⟨⟨fun k => by fin_cases k <;> [exact a; exact b; exact c], ⟨e, f, g⟩, h⟩, fun k => ?_, i, j⟩
  simp only [M, axes3, direction3, Matrix.of_apply, Matrix.cons_val_zero]
  field_simp

/-- C235: the lengths actually used are rounded to three decimals; then first and third axis have length
    `distance / rounded length`, and the triple is orthonormal exactly when rounding did not change the length. -/
theorem C235_rounded_partial {X1 X2 X3 : V3} {L : ℝ} (hL : 0 < L) (h12 : X1 ≠ X2) (h3 : ¬ OnLine X1 X2 X3) :
    RightHanded (axes3 X1 X2 X3 L) ↔ L = dist3 X1 X2 := by
  have hd : 0 ≤ dist3 X1 X2 := Real.sqrt_nonneg _
  constructor
  · intro h
    obtain ⟨a, -⟩ := axes_general hL h12 h3
    have := h.unit 0
    rw [a] at this
    have h1 : dist3 X1 X2 / L = 1 := by
      have h0 : 0 ≤ dist3 X1 X2 / L := by positivity
      nlinarith
    rw [div_eq_one_iff_eq hL.ne'] at h1
    exact h1.symm
  · intro h
    subst h
    exact (C235_partial h12 h3).1

/-- C235: the reference point chosen by default is never on the line of the member. -/
theorem C235_default {X1 X2 : V3} {L : ℝ} (hL : 0 < L) (hlen : |dist3 X1 X2 / L - 1| ≤ 1 / 2) :
    ¬ OnLine X1 X2 (defaultRef X1 X2 L) := by
  have hdist : dist3 X1 X2 ^ 2 = (X2 0 - X1 0) ^ 2 + (X2 1 - X1 1) ^ 2 + (X2 2 - X1 2) ^ 2 := by
    unfold dist3; rw [Real.sq_sqrt (by positivity)]
  have hlow : 1 / 2 ≤ dist3 X1 X2 / L := by have := (abs_le.mp hlen).1; linarith
  have hlow2 : L ^ 2 / 4 ≤ (X2 0 - X1 0) ^ 2 + (X2 1 - X1 1) ^ 2 + (X2 2 - X1 2) ^ 2 := by
    rw [← hdist]
    rw [le_div_iff₀ hL] at hlow
    nlinarith
  rintro ⟨s, hs⟩
  unfold defaultRef at hs
  split_ifs at hs with ha hb
  · -- member along y: reference above the second node
    have e0 := hs 0; have e1 := hs 1; have e2 := hs 2
    simp at e0 e1 e2
    have hs1 : s ≠ 1 := by rintro rfl; linarith
    have z0 : X2 0 - X1 0 = 0 := by
      have : (1 - s) * (X2 0 - X1 0) = 0 := by linarith
      rcases mul_eq_zero.mp this with h | h
      · exact absurd (by linarith) hs1
      · exact h
    have z1 : X2 1 - X1 1 = 0 := by
      have : (1 - s) * (X2 1 - X1 1) = 0 := by linarith
      rcases mul_eq_zero.mp this with h | h
      · exact absurd (by linarith) hs1
      · exact h
    unfold norm3 at ha
    rw [Real.sqrt_lt' (by norm_num)] at ha
    simp [cross_apply, direction3, z0, z1] at ha
    rw [z0, z1] at hlow2
    have : (1:ℝ)/4 ≤ ((X2 2 - X1 2) / L) ^ 2 := by
      rw [div_pow, le_div_iff₀ (by positivity)]; nlinarith
    norm_num at ha
    linarith
  · have e0 := hs 0; have e1 := hs 1; have e2 := hs 2
    simp at e0 e1 e2
    have hs1 : s ≠ 1 := by rintro rfl; linarith
    have z1 : X2 1 - X1 1 = 0 := by
      have : (1 - s) * (X2 1 - X1 1) = 0 := by linarith
      rcases mul_eq_zero.mp this with h | h
      · exact absurd (by linarith) hs1
      · exact h
    have z2 : X2 2 - X1 2 = 0 := by
      have : (1 - s) * (X2 2 - X1 2) = 0 := by linarith
      rcases mul_eq_zero.mp this with h | h
      · exact absurd (by linarith) hs1
      · exact h
    unfold norm3 at hb
    rw [Real.sqrt_lt' (by norm_num)] at hb
    simp [cross_apply, direction3, z1, z2] at hb
    rw [z1, z2] at hlow2
    have : (1:ℝ)/4 ≤ ((X2 0 - X1 0) / L) ^ 2 := by
      rw [div_pow, le_div_iff₀ (by positivity)]; nlinarith
    norm_num at hb
    linarith
  · have e0 := hs 0; have e1 := hs 1; have e2 := hs 2
    simp at e0 e1 e2
    have hs1 : s ≠ 1 := by rintro rfl; linarith
    have z0 : X2 0 - X1 0 = 0 := by
      have : (1 - s) * (X2 0 - X1 0) = 0 := by linarith
      rcases mul_eq_zero.mp this with h | h
      · exact absurd (by linarith) hs1
      · exact h
    have z1 : X2 1 - X1 1 = 0 := by
      have : (1 - s) * (X2 1 - X1 1) = 0 := by linarith
      rcases mul_eq_zero.mp this with h | h
      · exact absurd (by linarith) hs1
      · exact h
    apply hb
    unfold norm3
    simp [cross_apply, direction3, z0, z1]
    norm_num

/-- C235, members in the vertical plane (both ends with the same y) and without a given reference point: the local y axis is
    the global y axis exactly for members running in positive x, or, if vertical within 1e-6, running downwards; otherwise
    it is the negative global y axis. -/
theorem C235_plane_partial {X1 X2 : V3} {L : ℝ} (hL : 0 < L) (hlen : |dist3 X1 X2 / L - 1| ≤ 1 / 2)
    (hy : X1 1 = X2 1) :
    axes3 X1 X2 (defaultRef X1 X2 L) L 1 =
      (if |X2 0 - X1 0| < 1e-6 * L then (if X2 2 < X1 2 then ![0, 1, 0] else ![0, -1, 0])
       else if X1 0 < X2 0 then ![0, 1, 0] else ![0, -1, 0]) := by
  have hoff := C235_default hL hlen
  have hdist : dist3 X1 X2 ^ 2 = (X2 0 - X1 0) ^ 2 + (X2 1 - X1 1) ^ 2 + (X2 2 - X1 2) ^ 2 := by
    unfold dist3; rw [Real.sq_sqrt (by positivity)]
  have hlow : 1 / 2 ≤ dist3 X1 X2 / L := by have := (abs_le.mp hlen).1; linarith
  have hy0 : X2 1 - X1 1 = 0 := by linarith
  have hlow2 : L ^ 2 / 4 ≤ (X2 0 - X1 0) ^ 2 + (X2 2 - X1 2) ^ 2 := by
    rw [hy0] at hdist
    rw [le_div_iff₀ hL] at hlow
    nlinarith
  have hL2 : 0 < L ^ 2 := by positivity
  have hrow : ∀ X3, axes3 X1 X2 X3 L 1 = localY X1 X2 X3 L := fun X3 => by ext i; simp [axes3]
  have hny : ¬ norm3 (crossProduct (direction3 X1 X2 L) ![0, 1, 0]) < 1e-6 := by
    unfold norm3
    rw [Real.sqrt_lt' (by norm_num)]
    simp [cross_apply, direction3]
    rw [div_pow, div_pow, ← add_div, le_div_iff₀ hL2]
    norm_num
    nlinarith
  have hz : norm3 (crossProduct (direction3 X1 X2 L) ![0, 0, 1]) = |X2 0 - X1 0| / L := by
    unfold norm3
    simp [cross_apply, direction3, hy0]
    rw [Real.sqrt_sq_eq_abs, abs_div, abs_of_pos hL]
  rw [hrow, localY_eq hL hoff]
  have hcond : (norm3 (crossProduct (direction3 X1 X2 L) ![0, 0, 1]) < 1e-6) ↔ |X2 0 - X1 0| < 1e-6 * L := by
    rw [hz, div_lt_iff₀ hL]
  unfold defaultRef
  rw [if_neg hny]
  by_cases hv : |X2 0 - X1 0| < 1e-6 * L
  · rw [if_pos (hcond.mpr hv), if_pos hv]
    have hdx : (X2 0 - X1 0) ^ 2 < L ^ 2 / 4 := by
      have h1 := abs_lt.mp hv
      norm_num at h1
      nlinarith
    have hdz : X2 2 - X1 2 ≠ 0 := by intro h; rw [h] at hlow2; linarith
    have hn : norm3 (crossProduct (fun i => ![X2 0 + 1, X2 1, X2 2] i - X1 i) (fun i => X2 i - X1 i)) = |X2 2 - X1 2| := by
      unfold norm3
      simp [cross_apply, hy0]
      rw [show ((X2 2 - X1 2) * (X2 0 - X1 0) - (X2 0 + 1 - X1 0) * (X2 2 - X1 2)) = -(X2 2 - X1 2) by ring, neg_sq,
        Real.sqrt_sq_eq_abs]
    rw [hn]
    ext i
    split_ifs with hs
    · have hn' : |X2 2 - X1 2| = -(X2 2 - X1 2) := abs_of_neg (by linarith)
      rw [hn']
      fin_cases i <;> simp [cross_apply, hy0]
      rw [div_eq_one_iff_eq (by simpa using sub_ne_zero.mp hdz |>.symm |> sub_ne_zero.mpr)]
      ring
    · have hn' : |X2 2 - X1 2| = X2 2 - X1 2 := abs_of_nonneg (by linarith)
      rw [hn']
      fin_cases i <;> simp [cross_apply, hy0]
      rw [div_eq_iff hdz]
      ring
  · rw [if_neg (fun h => hv (hcond.mp h)), if_neg hv]
    have hdx : X2 0 - X1 0 ≠ 0 := by
      intro h; apply hv; rw [h]; simp; norm_num; exact hL
    have hn : norm3 (crossProduct (fun i => ![X2 0, X2 1, X2 2 + 1] i - X1 i) (fun i => X2 i - X1 i)) = |X2 0 - X1 0| := by
      unfold norm3
      simp [cross_apply, hy0]
      rw [show ((X2 2 + 1 - X1 2) * (X2 0 - X1 0) - (X2 0 - X1 0) * (X2 2 - X1 2)) = (X2 0 - X1 0) by ring,
        Real.sqrt_sq_eq_abs]
    rw [hn]
    ext i
    split_ifs with hs
    · have hn' : |X2 0 - X1 0| = X2 0 - X1 0 := abs_of_pos (by linarith)
      rw [hn']
      fin_cases i <;> simp [cross_apply, hy0]
      rw [div_eq_one_iff_eq hdx]
      ring
    · have hn' : |X2 0 - X1 0| = -(X2 0 - X1 0) := abs_of_nonpos (by linarith)
      rw [hn']
      fin_cases i <;> simp [cross_apply, hy0]
      rw [div_eq_iff (by simpa using sub_ne_zero.mp hdx |>.symm |> sub_ne_zero.mpr)]
      ring

/-- C235 fails: "in the plane case, the local and global y axes coincide" (comment in the constructor) is wrong for every
    member of the vertical plane that runs in negative x and for every vertical column drawn upwards. -/
theorem C235_violation_plane :
    (∀ x y z l : ℝ, 0 < l → axes3 ![x + l, y, z] ![x, y, z] (defaultRef ![x + l, y, z] ![x, y, z] l) l 1 = ![0, -1, 0]) ∧
    (∀ x y z l : ℝ, 0 < l → axes3 ![x, y, z] ![x, y, z + l] (defaultRef ![x, y, z] ![x, y, z + l] l) l 1 = ![0, -1, 0]) := by
  constructor
  · intro x y z l hl
    have hd : dist3 ![x + l, y, z] ![x, y, z] = l := by
      unfold dist3; simp
      rw [Real.sqrt_sq_eq_abs, abs_of_pos hl]
    rw [C235_plane_partial hl (by rw [hd, div_self hl.ne']; norm_num) (by simp)]
    rw [if_neg (by simp [abs_of_pos hl]; norm_num; linarith), if_neg (by simp; linarith)]
  · intro x y z l hl
    have hd : dist3 ![x, y, z] ![x, y, z + l] = l := by
      unfold dist3; simp
      rw [Real.sqrt_sq_eq_abs, abs_of_pos hl]
    rw [C235_plane_partial hl (by rw [hd, div_self hl.ne']; norm_num) (by simp)]
    rw [if_pos (by simp; norm_num; linarith), if_neg (by simp; linarith)]

example : ∃ X1 X2 X3 : V3, X1 ≠ X2 ∧ ¬ OnLine X1 X2 X3 ∧ dist3 X1 X2 = 5 :=
  ⟨![0, 0, 0], ![3, 0, 4], ![3, 0, 5], fun h => by have := congrFun h 0; simp at this,
    fun ⟨s, hs⟩ => by have h0 := hs 0; have h2 := hs 2; simp at h0 h2; rw [h0] at h2; norm_num at h2,
    by unfold dist3; simp; rw [show (3:ℝ) ^ 2 + 4 ^ 2 = 5 ^ 2 by norm_num, Real.sqrt_sq (by norm_num)]⟩

/-! ### C236: stiffness of a beam in space -/

section field
variable {K : Type} [Field K] [LinearOrder K] [IsStrictOrderedRing K]

/-- Specification: the bending of the member in its local xy plane, as nodal values of a plane member
    (deflection `uy`, slope `rz`). -/
def planeY (q : Fin 12 → K) : Fin 6 → K := ![q 0, q 1, q 5, q 6, q 7, q 11]

/-- Specification: the bending of the member in its local xz plane; a positive rotation about y turns the z axis towards x,
    so the slope of the deflection `uz` is `-ry`. -/
def planeZ (q : Fin 12 → K) : Fin 6 → K := ![q 0, q 2, -q 4, q 6, q 8, -q 10]

/-- Specification: a small rigid motion (translation `t`, rotation `w`) of the member from the origin to `(L,0,0)`:
    displacement `t + w × r`, rotation `w` at both ends. -/
def rigid3 (L : K) (t w : Fin 3 → K) : Fin 12 → K :=
  ![t 0, t 1, t 2, w 0, w 1, w 2, t 0, t 1 + w 2 * L, t 2 - w 1 * L, w 0, w 1, w 2]

theorem sum_univ_twelve {M : Type} [AddCommMonoid M] (f : Fin 12 → M) :
    ∑ i, f i = f 0 + f 1 + f 2 + f 3 + f 4 + f 5 + f 6 + f 7 + f 8 + f 9 + f 10 + f 11 := by
  rw [Fin.sum_univ_castSucc, Fin.sum_univ_castSucc, Fin.sum_univ_castSucc, Fin.sum_univ_castSucc, Fin.sum_univ_eight]
  rfl

/-- C236: the stiffness matrix is symmetric. -/
theorem C236_symm (E G A I1 I2 J L : K) : (beam3Kloc E G A I1 I2 J L).IsSymm := by
  ext i j
  fin_cases i <;> fin_cases j <;> rfl

/-- The twelve nodal forces produced by displacements `q`. -/
theorem beam3_mulVec (E G A I1 I2 J L : K) (q : Fin 12 → K) :
    beam3Kloc E G A I1 I2 J L *ᵥ q =
      ![E * A / L * (q 0 - q 6),
        (beamKloc E A I2 L *ᵥ planeY q) 1,
        (beamKloc E A I1 L *ᵥ planeZ q) 1,
        G * J / L * (q 3 - q 9),
        -(beamKloc E A I1 L *ᵥ planeZ q) 2,
        (beamKloc E A I2 L *ᵥ planeY q) 2,
        E * A / L * (q 6 - q 0),
        (beamKloc E A I2 L *ᵥ planeY q) 4,
        (beamKloc E A I1 L *ᵥ planeZ q) 4,
        G * J / L * (q 9 - q 3),
        -(beamKloc E A I1 L *ᵥ planeZ q) 5,
        (beamKloc E A I2 L *ᵥ planeY q) 5] := by
  ext i
  simp only [mulVec, dotProduct, sum_univ_twelve, Fin.sum_univ_six]
  fin_cases i <;> simp [beam3Kloc, beamKloc, planeY, planeZ] <;> ring

end field

/-- C236: twice the stored energy is that of stretching, of uniform twisting and of bending in the two principal planes,
    where the bending about the local y axis uses the section's `Iy` and that about the z axis `Iz`. -/
theorem C236_energy {E G A I1 I2 J L : ℝ} (hL : 0 < L) (q : Fin 12 → ℝ) {a b c d a' b' c' d' : ℝ}
    (hv : Deflection L (planeY q) a b c d) (hw : Deflection L (planeZ q) a' b' c' d') :
    q ⬝ᵥ (beam3Kloc E G A I1 I2 J L *ᵥ q) =
      (∫ _ in (0 : ℝ)..L, E * A * ((q 6 - q 0) / L) ^ 2) + (∫ _ in (0 : ℝ)..L, G * J * ((q 9 - q 3) / L) ^ 2) +
      (∫ x in (0 : ℝ)..L, E * I2 * curvature c d x ^ 2) + ∫ x in (0 : ℝ)..L, E * I1 * curvature c' d' x ^ 2 := by
  have hq : ∀ (M : Matrix (Fin 6) (Fin 6) ℝ) (x : Fin 6 → ℝ), ∑ i, ∑ j, x i * M i j * x j = x ⬝ᵥ (M *ᵥ x) := by
    intro M x
    simp only [mulVec, dotProduct, Finset.mul_sum, mul_assoc]
  have h1 := C55_elastic (E := E) (A := A) (I := I2) hL (planeY q) hv
  have h2 := C55_elastic (E := E) (A := A) (I := I1) hL (planeZ q) hw
  rw [hq] at h1 h2
  have r0 : ∀ I (x : Fin 6 → ℝ), (beamKloc E A I L *ᵥ x) 0 = E * A / L * (x 0 - x 3) := by
    intro I x; simp [beamKloc, mulVec, dotProduct, Fin.sum_univ_six]; ring
  have r3 : ∀ I (x : Fin 6 → ℝ), (beamKloc E A I L *ᵥ x) 3 = E * A / L * (x 3 - x 0) := by
    intro I x; simp [beamKloc, mulVec, dotProduct, Fin.sum_univ_six]; ring
  rw [beam3_mulVec]
  simp only [dotProduct, Fin.sum_univ_six, r0, r3] at h1 h2
  simp only [dotProduct, sum_univ_twelve]
  simp only [intervalIntegral.integral_const, intervalIntegral.integral_const_mul, smul_eq_mul, sub_zero]
  generalize beamKloc E A I2 L *ᵥ planeY q = wy at *
  generalize beamKloc E A I1 L *ᵥ planeZ q = wz at *
  simp only [planeY, planeZ] at h1 h2
  simp only [Matrix.cons_val, Matrix.cons_val_zero, Matrix.cons_val_one] at h1 h2 ⊢
  have hL0 := hL.ne'
  have e1 : q 0 * (E * A / L * (q 0 - q 6)) + q 6 * (E * A / L * (q 6 - q 0)) = E * A * ((q 6 - q 0) / L) ^ 2 * L := by
    field_simp; ring
  have e2 : q 3 * (G * J / L * (q 3 - q 9)) + q 9 * (G * J / L * (q 9 - q 3)) = G * J * ((q 9 - q 3) / L) ^ 2 * L := by
    field_simp; ring
  linarith

/-- C236: for positive moduli and section properties the energy is never negative, and exactly the small rigid motions of
    the member cause no nodal forces. -/
theorem C236_psd {E G A I1 I2 J L : ℝ} (hE : 0 < E) (hG : 0 < G) (hA : 0 < A) (h1 : 0 < I1) (h2 : 0 < I2) (hJ : 0 < J)
    (hL : 0 < L) (q : Fin 12 → ℝ) :
    0 ≤ q ⬝ᵥ (beam3Kloc E G A I1 I2 J L *ᵥ q) ∧
    (beam3Kloc E G A I1 I2 J L *ᵥ q = 0 ↔ ∃ t w, q = rigid3 L t w) := by
  have hL0 := hL.ne'
  constructor
  · obtain ⟨a, b, c, d, hv, -⟩ := C53_deflection hL (planeY q)
    obtain ⟨a', b', c', d', hw, -⟩ := C53_deflection hL (planeZ q)
    rw [C236_energy hL q hv hw]
    have hle := hL.le
    have i1 : 0 ≤ ∫ _ in (0 : ℝ)..L, E * A * ((q 6 - q 0) / L) ^ 2 :=
      intervalIntegral.integral_nonneg hle fun _ _ => by positivity
    have i2 : 0 ≤ ∫ _ in (0 : ℝ)..L, G * J * ((q 9 - q 3) / L) ^ 2 :=
      intervalIntegral.integral_nonneg hle fun _ _ => by positivity
    have i3 : 0 ≤ ∫ x in (0 : ℝ)..L, E * I2 * curvature c d x ^ 2 :=
      intervalIntegral.integral_nonneg hle fun _ _ => by positivity
    have i4 : 0 ≤ ∫ x in (0 : ℝ)..L, E * I1 * curvature c' d' x ^ 2 :=
      intervalIntegral.integral_nonneg hle fun _ _ => by positivity
    linarith
  · rw [beam3_mulVec]
    have key : ∀ (I : ℝ), 0 < I → ∀ x : Fin 6 → ℝ, (beamKloc E A I L *ᵥ x) 1 = 0 → (beamKloc E A I L *ᵥ x) 2 = 0 →
        x 5 = x 2 ∧ x 4 = x 1 + x 2 * L := by
      intro I hI x e1 e2
      simp [beamKloc, mulVec, dotProduct, Fin.sum_univ_six] at e1 e2
      have hEI : E * I ≠ 0 := (mul_pos hE hI).ne'
      field_simp at e1 e2
      have f1 : 2 * (x 1 - x 4) + L * (x 2 + x 5) = 0 := by
        have : (E * I) * (2 * (x 1 - x 4) + L * (x 2 + x 5)) = 0 := by linear_combination e1 / 6
        exact (mul_eq_zero.mp this).resolve_left hEI
      have f2 : 3 * (x 1 - x 4) + L * (2 * x 2 + x 5) = 0 := by
        have : (E * I) * (3 * (x 1 - x 4) + L * (2 * x 2 + x 5)) = 0 := by linear_combination e2 / 2
        exact (mul_eq_zero.mp this).resolve_left hEI
      have f3 : L * (x 5 - x 2) = 0 := by linear_combination 3 * f1 - 2 * f2
      have f4 : x 5 = x 2 := by
        rcases mul_eq_zero.mp f3 with h | h
        · exact absurd h hL0
        · linarith
      refine ⟨f4, ?_⟩
      rw [f4] at f1
      linear_combination -f1 / 2
    constructor
    · intro h
      have g0 := congrFun h 0; have g1 := congrFun h 1; have g2 := congrFun h 2; have g3 := congrFun h 3
      have g4 := congrFun h 4; have g5 := congrFun h 5
      simp only [Matrix.cons_val, Matrix.cons_val_zero, Matrix.cons_val_one, Pi.zero_apply] at g0 g1 g2 g3 g4 g5
      obtain ⟨y1, y2⟩ := key I2 h2 (planeY q) g1 g5
      obtain ⟨z1, z2⟩ := key I1 h1 (planeZ q) g2 (by linarith)
      simp [planeY, planeZ] at y1 y2 z1 z2
      have x0 : q 6 = q 0 := by
        rcases mul_eq_zero.mp g0 with h | h
        · exact absurd h (by positivity)
        · linarith
      have x3 : q 9 = q 3 := by
        rcases mul_eq_zero.mp g3 with h | h
        · exact absurd h (by positivity)
        · linarith
      refine ⟨![q 0, q 1, q 2], ![q 3, q 4, q 5], ?_⟩
      ext i
      fin_cases i <;> simp [rigid3, x0, x3, y1, y2, z1, z2]
      ring
    · rintro ⟨t, w, rfl⟩
      have hb : ∀ (I : ℝ) (x : Fin 6 → ℝ), x 5 = x 2 → x 4 = x 1 + x 2 * L →
          (beamKloc E A I L *ᵥ x) 1 = 0 ∧ (beamKloc E A I L *ᵥ x) 2 = 0 ∧ (beamKloc E A I L *ᵥ x) 4 = 0 ∧
          (beamKloc E A I L *ᵥ x) 5 = 0 := by
        intro I x e5 e4
        simp [beamKloc, mulVec, dotProduct, Fin.sum_univ_six, e5, e4]
        refine ⟨?_, ?_, ?_, ?_⟩ <;> field_simp <;> ring
      obtain ⟨a1, a2, a4, a5⟩ := hb I2 (planeY (rigid3 L t w)) (by simp [planeY, rigid3]) (by simp [planeY, rigid3])
      obtain ⟨b1, b2, b4, b5⟩ := hb I1 (planeZ (rigid3 L t w)) (by simp [planeZ, rigid3]) (by simp [planeZ, rigid3]; ring)
      rw [a1, a2, a4, a5, b1, b2, b4, b5]
      ext i
      fin_cases i <;> simp [rigid3]

/-- Specification: the small rigid motion `u(X) = t + w × X` of the two nodes of a member, in global axes. -/
def rigidGlobal (X1 X2 t w : V3) : Fin 12 → ℝ :=
  ![t 0 + (w 1 * X1 2 - w 2 * X1 1), t 1 + (w 2 * X1 0 - w 0 * X1 2), t 2 + (w 0 * X1 1 - w 1 * X1 0), w 0, w 1, w 2,
    t 0 + (w 1 * X2 2 - w 2 * X2 1), t 1 + (w 2 * X2 0 - w 0 * X2 2), t 2 + (w 0 * X2 1 - w 1 * X2 0), w 0, w 1, w 2]

/-- Local displacements: each of the four triples is turned into the local axes. -/
theorem beam3T_mulVec (M : Matrix (Fin 3) (Fin 3) ℝ) (q : Fin 12 → ℝ) :
    beam3T M *ᵥ q =
      ![inner3 (M 0) ![q 0, q 1, q 2], inner3 (M 1) ![q 0, q 1, q 2], inner3 (M 2) ![q 0, q 1, q 2],
        inner3 (M 0) ![q 3, q 4, q 5], inner3 (M 1) ![q 3, q 4, q 5], inner3 (M 2) ![q 3, q 4, q 5],
        inner3 (M 0) ![q 6, q 7, q 8], inner3 (M 1) ![q 6, q 7, q 8], inner3 (M 2) ![q 6, q 7, q 8],
        inner3 (M 0) ![q 9, q 10, q 11], inner3 (M 1) ![q 9, q 10, q 11], inner3 (M 2) ![q 9, q 10, q 11]] := by
  ext i
  simp only [mulVec, dotProduct, sum_univ_twelve, beam3T, Matrix.of_apply]
  fin_cases i <;> simp [inner3]

/-- C236: in global axes, with the length known exactly, every small rigid motion of the member is free of nodal forces and
    the matrix is symmetric and never gives negative energy. -/
theorem C236_global_partial {E G : ℝ} {s : Section3 ℝ} {X1 X2 X3 : V3} {k : Matrix (Fin 12) (Fin 12) ℝ} {J : ℝ}
    (hE : 0 < E) (hG : 0 < G) (hA : 0 < s.A) (h1 : 0 < s.Iy) (h2 : 0 < s.Iz) (hJ : 0 < J) (hs : s.It = some J)
    (h12 : X1 ≠ X2) (h3 : ¬ OnLine X1 X2 X3) (hk : beam3K E G s X1 X2 X3 (dist3 X1 X2) = .ok k) :
    k.IsSymm ∧ (∀ q, 0 ≤ q ⬝ᵥ (k *ᵥ q)) ∧ ∀ t w, k *ᵥ rigidGlobal X1 X2 t w = 0 := by
  have hd : 0 < dist3 X1 X2 := by
    have : dist3 X1 X2 = norm3 (fun i => X2 i - X1 i) := rfl
    rw [this]
    exact norm3_pos fun h => h12 (by ext i; have := congrFun h i; simp at this; linarith)
  have hk' : k = congrT (beam3T (axes3 X1 X2 X3 (dist3 X1 X2))) (beam3Kloc E G s.A s.Iy s.Iz J (dist3 X1 X2)) := by
    simp [beam3K, beam3KlocOf, hs, getOr, bind, Except.bind, pure, Except.pure] at hk
    exact hk.symm
  obtain ⟨hM, hx, -, -⟩ := C235_partial h12 h3
  set M := axes3 X1 X2 X3 (dist3 X1 X2) with hMdef
  have hM2 : M 2 = crossProduct (M 0) (M 1) := rfl
  set L := dist3 X1 X2
  have hS : (beam3Kloc E G s.A s.Iy s.Iz J L)ᵀ = beam3Kloc E G s.A s.Iy s.Iz J L := C236_symm E G s.A s.Iy s.Iz J L
  refine ⟨?_, fun q => ?_, fun t w => ?_⟩
  · rw [hk', Matrix.IsSymm, congrT]
    simp only [transpose_mul, transpose_transpose, hS, Matrix.mul_assoc]
  · rw [hk', congrT, ← mulVec_mulVec, ← mulVec_mulVec, dotProduct_mulVec, vecMul_transpose]
    exact (C236_psd hE hG hA h1 h2 hJ hd _).1
  · rw [hk', congrT, ← mulVec_mulVec, ← mulVec_mulVec]
    rw [(C236_psd hE hG hA h1 h2 hJ hd _).2.mpr ?_, mulVec_zero]
    have u0 := hM.unit 0
    have p01 := hM.perp.1
    have m20 : M 2 0 = M 0 1 * M 1 2 - M 0 2 * M 1 1 := by rw [hM2]; simp [cross_apply]
    have m21 : M 2 1 = M 0 2 * M 1 0 - M 0 0 * M 1 2 := by rw [hM2]; simp [cross_apply]
    have m22 : M 2 2 = M 0 0 * M 1 1 - M 0 1 * M 1 0 := by rw [hM2]; simp [cross_apply]
    have x0 := hx 0; have x1 := hx 1; have x2 := hx 2
    have y0 : X2 0 = X1 0 + L * M 0 0 := by linarith
    have y1 : X2 1 = X1 1 + L * M 0 1 := by linarith
    have y2 : X2 2 = X1 2 + L * M 0 2 := by linarith
    simp only [inner3] at u0 p01
    set u : V3 := ![t 0 + (w 1 * X1 2 - w 2 * X1 1), t 1 + (w 2 * X1 0 - w 0 * X1 2), t 2 + (w 0 * X1 1 - w 1 * X1 0)] with hu
    refine ⟨![inner3 (M 0) u, inner3 (M 1) u, inner3 (M 2) u], ![inner3 (M 0) w, inner3 (M 1) w, inner3 (M 2) w], ?_⟩
    rw [beam3T_mulVec]
    ext i
    fin_cases i <;> simp [rigidGlobal, rigid3, inner3, hu]
    · rw [y0, y1, y2]; ring
    · rw [y0, y1, y2, m20, m21, m22]; ring
    · rw [y0, y1, y2, m20, m21, m22]
      linear_combination (L * (M 0 0 * w 0 + M 0 1 * w 1 + M 0 2 * w 2)) * p01 - L * (M 1 0 * w 0 + M 1 1 * w 1 + M 1 2 * w 2) * u0

/-- C236 fails: a beam in space with a `BeamSection` – the section class of the same package, which is given its torsional
    constant – has no stiffness matrix: the constant is looked up under another name and the request raises. -/
theorem C236_violation_section (E G A Iy Iz J : ℝ) (X1 X2 X3 : V3) (L : ℝ) :
    beam3K E G (beamSection A Iy Iz J) X1 X2 X3 L = .error .attributeError := rfl

example : ∃ k, beam3K 210 81 ⟨10, 100, 50, some 20⟩ ![0, 0, 0] ![3, 0, 4] ![3, 0, 5] 5 = .ok k := ⟨_, rfl⟩

/-! ### C237: line loads on a beam in space -/

/-- Specification: work done by a load with end values `q1, q2` on the deflection `a + b x + c x² + d x³`. -/
noncomputable def loadWork (L q1 q2 a b c d : ℝ) : ℝ :=
  ∫ x in (0 : ℝ)..L, intensity q1 q2 L x * (a + b * x + c * x ^ 2 + d * x ^ 3)

theorem loadWork_eq {L : ℝ} (hL : 0 < L) (q1 q2 : ℝ) (q : Fin 6 → ℝ) {a b c d : ℝ} (hw : Deflection L q a b c d) :
    loadWork L q1 q2 a b c d =
      (7 / 20 * q1 * L + 3 / 20 * q2 * L) * q 1 + L ^ 2 * (1 / 20 * q1 + 1 / 30 * q2) * q 2 +
      (3 / 20 * q1 * L + 7 / 20 * q2 * L) * q 4 - L ^ 2 * (1 / 30 * q1 + 1 / 20 * q2) * q 5 := by
  obtain ⟨h1, h2, h4, h5⟩ := hw
  unfold loadWork
  have hp : ∀ x, intensity q1 q2 L x * (a + b * x + c * x ^ 2 + d * x ^ 3) =
      q1 * a + (q1 * b + (q2 - q1) / L * a) * x + (q1 * c + (q2 - q1) / L * b) * x ^ 2 +
      (q1 * d + (q2 - q1) / L * c) * x ^ 3 + (q2 - q1) / L * d * x ^ 4 := by
    intro x; unfold intensity; field_simp; ring
  simp only [hp]
  rw [integral_poly4, ← h1, ← h2, ← h4, ← h5]
  field_simp
  ring

/-- C237, loads along the local y axis: the nodal loads do the same work as the load itself, for every cubic deflection of
    the member (and none on the other displacements). -/
theorem C237_y_partial {L q1 q2 : ℝ} (hL : 0 < L) {f : Fin 12 → ℝ} (hf : beam3Floc L true .y q1 q2 = .ok f)
    (q : Fin 12 → ℝ) {a b c d : ℝ} (hv : Deflection L (planeY q) a b c d) :
    f ⬝ᵥ q = loadWork L q1 q2 a b c d := by
  obtain rfl := Except.ok.inj hf
  rw [loadWork_eq hL q1 q2 _ hv]
  simp only [dotProduct, sum_univ_twelve, planeY]
  simp
  ring

/-- C237 fails for loads along the local z axis: the moments have the wrong sign.  The forces are right, so the work is right
    as long as the ends do not rotate; but on a rotation about y of either end alone the nodal loads do exactly the opposite of the
    work of the load. -/
theorem C237_violation_z {L q1 q2 : ℝ} (hL : 0 < L) (h1 : 0 ≤ q1) (h12 : 0 < q1 + q2) {f : Fin 12 → ℝ}
    (hf : beam3Floc L true .z q1 q2 = .ok f) (q : Fin 12 → ℝ) {a b c d : ℝ} (hw : Deflection L (planeZ q) a b c d) :
    (q 4 = 0 → q 10 = 0 → f ⬝ᵥ q = loadWork L q1 q2 a b c d) ∧
    (q 2 = 0 → q 8 = 0 → f ⬝ᵥ q = -loadWork L q1 q2 a b c d) ∧
    (q 2 = 0 → q 8 = 0 → q 4 = 1 → q 10 = 0 → loadWork L q1 q2 a b c d < 0) := by
  obtain rfl := Except.ok.inj hf
  rw [loadWork_eq hL q1 q2 _ hw]
  simp only [dotProduct, sum_univ_twelve, planeZ]
  simp
  refine ⟨fun a b => by rw [a, b]; ring, fun a b => by rw [a, b]; ring, fun a b c d => ?_⟩
  rw [a, b, c, d]
  have : 0 < L ^ 2 * (1 / 20 * q1 + 1 / 30 * q2) := by
    have : 0 < 1 / 20 * q1 + 1 / 30 * q2 := by linarith
    positivity
  norm_num at this ⊢
  linarith

/-- C237 fails for loads along the member (they produce no nodal loads) and for every load given in global axes (the request
    raises). -/
theorem C237_violation_xg (L q1 q2 : ℝ) :
    beam3Floc L true .x q1 q2 = .ok 0 ∧ ∀ dir, beam3Floc L false dir q1 q2 = .error .valueError := by
  refine ⟨?_, fun dir => rfl⟩
  simp only [beam3Floc, if_true]
  congr 1
  ext i
  fin_cases i <;> rfl

example : ∃ f a b c d, beam3Floc (2 : ℝ) true .z 1 1 = .ok f ∧ Deflection (2 : ℝ) (planeZ (Pi.single 4 1)) a b c d :=
  ⟨_, 0, -1, 1, -1 / 4, rfl, by simp [Deflection, planeZ]; norm_num⟩

end Metku.Fem
