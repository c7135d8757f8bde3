import Verif.Props.PlaneTrussTab

/-! The nodes of symmetric roof trusses in closed form. -/

namespace Metku.Truss

open Metku.Steel Metku.Rhs

noncomputable section

/-- A symmetric roof truss: equal halves, equal ends, the bottom chord not longer than the top chord, a positive height at the supports and a ridge that is not lower. -/
structure Sym (T : Sloped) : Prop where
  L : T.L2 = T.L1
  dx : T.dx2 = T.dx1
  right : T.right = T.left
  pos : 0 < T.L1
  dx0 : 0 ≤ T.dx1
  dxL : T.dx1 < T.L1
  left : 0 < T.left
  mid : T.left ≤ T.mid

/-- The height of the roof above the eaves: rising with constant slope to the ridge at `L1` and falling with the same slope. -/
def roof (T : Sloped) (x : ℝ) : ℝ := if x ≤ T.L1 then (T.mid - T.left) * (x / T.L1) else (T.mid - T.left) * ((2 * T.L1 - x) / T.L1)

theorem roof_left {T : Sloped} {x : ℝ} (h : x ≤ T.L1) : roof T x = (T.mid - T.left) * (x / T.L1) := if_pos h

theorem roof_right {T : Sloped} (_hT : Sym T) {x : ℝ} (h : T.L1 ≤ x) : roof T x = (T.mid - T.left) * ((2 * T.L1 - x) / T.L1) := by
  unfold roof
  split_ifs with k
  · have : x = T.L1 := le_antisymm k h
    rw [this]
    ring
  · rfl

theorem Sym.span {T : Sloped} (hT : Sym T) : T.span = 2 * T.L1 := by
  rw [Sloped.span, hT.L]
  ring

theorem Sym.xmid {T : Sloped} (hT : Sym T) : T.xmid = (T.L1, T.mid - T.left) := by
  rw [Sloped.xmid, hT.span]
  refine Prod.ext ?_ rfl
  dsimp only
  ring

theorem Sym.xend {T : Sloped} (hT : Sym T) : T.xend = (2 * T.L1, 0) := by
  rw [Sloped.xend, hT.span, hT.right, sub_self]

/-- The y-coordinate of the end of the top chord. -/
theorem roof_end {T : Sloped} (hT : Sym T) : roof T (2 * T.L1) = 0 := by
  rw [roof_right hT (by have := hT.pos; linarith)]
  simp

theorem roof_zero {T : Sloped} (hT : Sym T) : roof T 0 = 0 := by
  rw [roof_left hT.pos.le]
  simp

theorem roof_nonneg {T : Sloped} (hT : Sym T) {x : ℝ} (h0 : 0 ≤ x) (h1 : x ≤ 2 * T.L1) : 0 ≤ roof T x := by
  have := hT.pos
  have hm : 0 ≤ T.mid - T.left := sub_nonneg.2 hT.mid
  unfold roof
  split_ifs
  · positivity
  · exact mul_nonneg hm (div_nonneg (by linarith) this.le)

/-- Nodes that divide a part of the bottom chord into equal parts. -/
theorem half_bot (a b y e : ℝ) (n : ℕ) (h : b - a = e * (n - 1)) : along (a, y) (vec (a, y) (b, y)) (linspace n) = tab n fun i : ℕ => (a + i * e, y) := by
  rw [linspace_tab, along_tab]
  apply tab_congr
  intro i hi
  unfold vec
  dsimp only
  rw [h, sub_self, mul_zero, add_zero]
  refine Prod.ext ?_ rfl
  dsimp only
  rcases Nat.eq_zero_or_pos i with rfl | hp
  · simp
  · have : (n : ℝ) - 1 ≠ 0 := by
      have h2 : (2 : ℝ) ≤ n := by exact_mod_cast (by omega : 2 ≤ n)
      linarith
    field_simp

/-- Top nodes that are found from points of the bottom chord, up to the ridge and from there on. -/
theorem top_build {T : Sloped} (hT : Sym T) {m k : ℕ} (hm : 0 < m) {X Y : ℕ → Pt} {X2 : Pt} (hX2 : X2 = (2 * T.L1, 0)) (x : ℕ → ℝ)
    (h0 : x 0 = 0) (hA : ∀ i < m, (X i).1 = x (i + 1)) (hL : ∀ i < m, (X i).1 ≤ T.L1) (hr : (X (m - 1)).1 = T.L1)
    (hB : ∀ i < k, (Y i).1 = x (m + 1 + i)) (hR : ∀ i < k, T.L1 ≤ (Y i).1) (he : x (m + k + 1) = 2 * T.L1) :
    (do
      let A ← topPoints (0, 0) (vec (0, 0) T.xmid) (tab m X)
      let B ← topPoints (lastOf (0, 0) A) (vec T.xmid X2) (tab k Y)
      .ok ((0, 0) :: A ++ B ++ [X2])) = Except.ok (ε := PyErr) (tab (m + k + 2) fun i => (x i, roof T (x i))) := by
  have hp := hT.pos.ne'
  rw [hT.xmid, hX2, topPoints_tab (by simpa [vec] using hp)]
  simp only [bind, Except.bind]
  rw [lastOf_tab _ hm, topPoints_tab (by
    have : 2 * T.L1 - T.L1 ≠ 0 := by
      intro h
      exact hp (by linarith)
    simpa [vec] using this)]
  dsimp only
  congr 1
  rw [tab_cons m _ _ (fun i => (x i, roof T (x i))) (by rw [h0, roof_zero hT]) ?_, tab_append (m + 1) k _ _ (fun i => (x i, roof T (x i))) (fun _ _ => rfl) ?_,
    tab_snoc (m + 1 + k) _ _ (fun i => (x i, roof T (x i))) (fun _ _ => rfl) ?_]
  · congr 1
    omega
  · rw [show m + 1 + k = m + k + 1 by omega, he, roof_end hT]
  · intro i hi
    have h1 := hR i hi
    rw [← hB i hi, roof_right hT h1, hr]
    refine Prod.ext rfl ?_
    dsimp only [vec]
    rw [show 2 * T.L1 - T.L1 = T.L1 by ring]
    field_simp
    ring
  · intro i hi
    have h1 := hL i hi
    rw [← hA i hi, roof_left h1]
    refine Prod.ext rfl ?_
    dsimp only [vec]
    field_simp
    ring

/-- Top nodes that divide both slopes into equal parts. -/
theorem top_along {T : Sloped} (hT : Sym T) {N : ℕ} (hN : 0 < N) {X2 : Pt} (hX2 : X2 = (2 * T.L1, 0)) :
    along (0, 0) (vec (0, 0) T.xmid) (linspace (N + 1)) ++ along T.xmid (vec T.xmid X2) (linspace (N + 1)).tail =
      tab (2 * N + 1) fun i : ℕ => (i * (T.L1 / N), roof T (i * (T.L1 / N))) := by
  have hp := hT.pos
  have hN' : (0 : ℝ) < N := by exact_mod_cast hN
  rw [hT.xmid, hX2, linspace_tab, tab_tail, along_tab, along_tab]
  rw [tab_append (N + 1) (N + 1 - 1) _ _ (fun i : ℕ => (i * (T.L1 / N), roof T (i * (T.L1 / N)))) ?_ ?_]
  · congr 1
    omega
  · intro i hi
    have hi' : (i : ℝ) ≤ N := by exact_mod_cast (by omega : i ≤ N)
    have h1 : (i : ℝ) * (T.L1 / N) ≤ T.L1 := by
      rw [mul_div_assoc', div_le_iff₀ hN', mul_comm]
      exact mul_le_mul_of_nonneg_left hi' hp.le
    rw [roof_left h1]
    refine Prod.ext ?_ ?_
    · dsimp only [vec]
      push_cast
      rw [add_sub_cancel_right]
      field_simp
      try ring
    · dsimp only [vec]
      push_cast
      rw [add_sub_cancel_right]
      field_simp
      try ring
  · intro i hi
    have hi' : (0 : ℝ) ≤ i := by positivity
    have h1 : T.L1 ≤ ((N + 1 + i : ℕ) : ℝ) * (T.L1 / N) := by
      rw [mul_div_assoc', le_div_iff₀ hN', mul_comm]
      push_cast
      exact mul_le_mul_of_nonneg_right (by linarith) hp.le
    rw [roof_right hT h1]
    refine Prod.ext ?_ ?_
    · dsimp only [vec]
      push_cast
      rw [add_sub_cancel_right]
      field_simp
      try ring
    · dsimp only [vec]
      push_cast
      rw [add_sub_cancel_right]
      field_simp
      try ring

end

end Metku.Truss
