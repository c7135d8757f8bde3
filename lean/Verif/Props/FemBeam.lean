import Verif.Props.FemLoads

/-!
Properties C53-C55: beam theory behind the element matrices.
-/
namespace Metku.Fem

open Matrix

set_option linter.unusedSectionVars false

section field
variable {K : Type} [Field K] [LinearOrder K] [IsStrictOrderedRing K]

/-- Specification: the deflection `a + b x + c x² + d x³` has the end values and end slopes `q 1, q 2, q 4, q 5`. -/
def Deflection (L : K) (q : Fin 6 → K) (a b c d : K) : Prop :=
  a = q 1 ∧ b = q 2 ∧ a + b * L + c * L ^ 2 + d * L ^ 3 = q 4 ∧ b + 2 * c * L + 3 * d * L ^ 2 = q 5

/-- C53, members without load: the reported axial force is `E A` times the elongation per length at both ends (tension
    positive), the bending moments are `E I w''` and the shear force is `E I w'''` of the deflection with the given
    end values. -/
theorem C53_unloaded {E A I L : K} (hL : 0 < L) (q : Fin 6 → K) {a b c d : K} (hw : Deflection L q a b c d) :
    beamForces (beamKloc E A I L) q none =
      ((E * A * ((q 3 - q 0) / L), E * A * ((q 3 - q 0) / L)),
       (E * I * (2 * c), E * I * (2 * c + 6 * d * L)),
       (E * I * (6 * d), E * I * (6 * d))) := by
  obtain ⟨h1, h2, h4, h5⟩ := hw
  have hL0 := hL.ne'
  simp only [beamForces, beamKloc, mulVec, dotProduct, Fin.sum_univ_six]
  simp only [Matrix.of_apply, Matrix.cons_val', Matrix.cons_val, Matrix.cons_val_zero, Matrix.cons_val_one]
  rw [← h1, ← h2, ← h4, ← h5]
  refine Prod.ext (Prod.ext ?_ ?_) (Prod.ext (Prod.ext ?_ ?_) (Prod.ext ?_ ?_)) <;> simp only <;> field_simp <;> ring

/-- Such a deflection exists and is unique. -/
theorem C53_deflection {L : K} (hL : 0 < L) (q : Fin 6 → K) : ∃ a b c d, Deflection L q a b c d ∧
    ∀ a' b' c' d', Deflection L q a' b' c' d' → a' = a ∧ b' = b ∧ c' = c ∧ d' = d := by
  have hL0 := hL.ne'
  refine ⟨q 1, q 2, (3 * (q 4 - q 1) - L * (2 * q 2 + q 5)) / L ^ 2, (2 * (q 1 - q 4) + L * (q 2 + q 5)) / L ^ 3,
    ⟨rfl, rfl, by field_simp; ring, by field_simp; ring⟩, ?_⟩
  rintro a' b' c' d' ⟨h1, h2, h4, h5⟩
  subst h1 h2
  refine ⟨rfl, rfl, ?_, ?_⟩
  · rw [eq_div_iff (by positivity)]
    linear_combination 3 * h4 - L * h5
  · rw [eq_div_iff (by positivity)]
    linear_combination (-2) * h4 + L * h5

/-- The bar of the same data: its nodal forces are the reported tension acting along the member. -/
theorem C53_rod {E A L c0 c1 : K} (q : Fin 4 → K) :
    let N := (rodForces2 E A L c0 c1 q).1
    rodK2 E A L c0 c1 *ᵥ q = ![-N * c0, -N * c1, N * c0, N * c1] := by
  ext i
  fin_cases i <;>
    simp [rodForces2, rodK2, congrT, rodT2, rodKloc, mulVec, dotProduct, Fin.sum_univ_four, Matrix.mul_apply, Fin.sum_univ_two] <;> ring

/-- Equilibrium of the end forces of a member with end forces `k w - f`. -/
theorem beam_equilibrium {E A I L : K} (hL : 0 < L) (w : Fin 6 → K) :
    (beamKloc E A I L *ᵥ w) 0 + (beamKloc E A I L *ᵥ w) 3 = 0 ∧
    (beamKloc E A I L *ᵥ w) 1 + (beamKloc E A I L *ᵥ w) 4 = 0 ∧
    (beamKloc E A I L *ᵥ w) 2 + (beamKloc E A I L *ᵥ w) 5 = L * (beamKloc E A I L *ᵥ w) 1 := by
  have hL0 := hL.ne'
  simp only [beamKloc, mulVec, dotProduct, Fin.sum_univ_six]
  simp only [Matrix.of_apply, Matrix.cons_val', Matrix.cons_val, Matrix.cons_val_zero, Matrix.cons_val_one]
  refine ⟨by ring, by ring, by field_simp; ring⟩

end field

/-- Specification: end forces `((N0, N1), (M0, M1), (V0, V1))` satisfy the differential equations `N' = -qx`, `V' = qy`, `M' = V` of a
    member with load intensities `qx`, `qy` (integrated over its length). -/
def Admissible (F : (ℝ × ℝ) × (ℝ × ℝ) × (ℝ × ℝ)) (L : ℝ) (qx qy : ℝ → ℝ) : Prop :=
  F.1.2 = F.1.1 - ∫ s in (0 : ℝ)..L, qx s ∧
  F.2.2.2 = F.2.2.1 + ∫ s in (0 : ℝ)..L, qy s ∧
  F.2.1.2 = F.2.1.1 + F.2.2.1 * L + ∫ s in (0 : ℝ)..L, (L - s) * qy s

theorem integral_moment' (q1 q2 : ℝ) {L : ℝ} (hL : 0 < L) :
    ∫ s in (0 : ℝ)..L, (L - s) * intensity q1 q2 L s = L ^ 2 * (q1 / 3 + q2 / 6) := by
  have h : (fun s => (L - s) * intensity q1 q2 L s) = fun s => L * intensity q1 q2 L s - s * intensity q1 q2 L s := by
    ext s; ring
  have hc : Continuous fun s => intensity q1 q2 L s := by unfold intensity; fun_prop
  rw [h, intervalIntegral.integral_sub (by apply Continuous.intervalIntegrable; fun_prop)
    (by apply Continuous.intervalIntegrable; fun_prop), intervalIntegral.integral_const_mul, integral_intensity _ _ hL,
    integral_moment _ _ hL]
  ring

theorem admissible_of {E A I L : ℝ} (hL : 0 < L) {rel : List (Fin 6)} {k : Matrix (Fin 6) (Fin 6) ℝ} {fc : Fin 6 → ℝ}
    {qx1 qx2 qy1 qy2 : ℝ} (h : beamKlocRel E A I L rel = .ok k)
    (hf : condenseLoad (beamKloc E A I L) rel (fixedEnd L qx1 qx2 qy1 qy2) = .ok fc) (q : Fin 6 → ℝ) :
    Admissible (beamForces k q (some fc)) L (intensity qx1 qx2 L) (intensity qy1 qy2 L) ∧
    ∀ i ∈ rel, (k *ᵥ q - fc) i = 0 := by
  obtain ⟨h0, w, hw1, hw2, hw3⟩ := C10_loaded h hf q
  have hR : ∀ i, (k *ᵥ q - fc) i = (beamKloc E A I L *ᵥ w) i - fixedEnd L qx1 qx2 qy1 qy2 i := by
    intro i
    by_cases hi : i ∈ rel
    · exact (h0 i hi).trans (hw2 i hi).symm
    · exact hw3 i hi
  obtain ⟨e1, e2, e3⟩ := beam_equilibrium (E := E) (A := A) (I := I) hL w
  refine ⟨?_, fun i hi => h0 i hi⟩
  unfold Admissible
  rw [integral_moment' _ _ hL]
  have i1 : (∫ s in (0 : ℝ)..L, intensity qx1 qx2 L s) = L * (qx1 + qx2) / 2 := integral_intensity _ _ hL
  have i2 : (∫ s in (0 : ℝ)..L, intensity qy1 qy2 L s) = L * (qy1 + qy2) / 2 := integral_intensity _ _ hL
  rw [i1, i2]
  simp only [beamForces, hR]
  have f0 : fixedEnd L qx1 qx2 qy1 qy2 0 + fixedEnd L qx1 qx2 qy1 qy2 3 = L * (qx1 + qx2) / 2 := by simp [fixedEnd]; ring
  have f1 : fixedEnd L qx1 qx2 qy1 qy2 1 + fixedEnd L qx1 qx2 qy1 qy2 4 = L * (qy1 + qy2) / 2 := by simp [fixedEnd]; ring
  have f2 : L * fixedEnd L qx1 qx2 qy1 qy2 1 - fixedEnd L qx1 qx2 qy1 qy2 2 - fixedEnd L qx1 qx2 qy1 qy2 5
      = L ^ 2 * (qy1 / 3 + qy2 / 6) := by simp [fixedEnd]; ring
  refine ⟨by linarith, by linarith, by linarith⟩

/-- C53, loaded members, any end releases, any displacements: the reported end forces satisfy equilibrium with the member's
    own load, for loads perpendicular to the member and for loads in global axes with unit factor, and vanish in released
    directions.  (Loads along the member in local axes produce no nodal loads at all, `C09_violation_axial`.) -/
theorem C53_partial {E A I L c0 c1 : ℝ} (hL : 0 < L) {rel : List (Fin 6)} {k : Matrix (Fin 6) (Fin 6) ℝ} {fc : Fin 6 → ℝ}
    (l : LineLoad ℝ) (h : beamKlocRel E A I L rel = .ok k)
    (hf : condenseLoad (beamKloc E A I L) rel (beamFloc L c0 c1 l) = .ok fc) (q : Fin 6 → ℝ) :
    (l.isLocal = true → l.dir = .y →
      Admissible (beamForces k q (some fc)) L (fun _ => 0) (intensity (l.f * l.q1) (l.f * l.q2) L)) ∧
    (l.isLocal = false → l.f = 1 → l.dir = .x →
      Admissible (beamForces k q (some fc)) L (fun s => c0 * intensity l.q1 l.q2 L s) (fun s => -c1 * intensity l.q1 l.q2 L s)) ∧
    (l.isLocal = false → l.f = 1 → l.dir ≠ .x →
      Admissible (beamForces k q (some fc)) L (fun s => c1 * intensity l.q1 l.q2 L s) (fun s => c0 * intensity l.q1 l.q2 L s)) ∧
    (∀ i ∈ rel, (k *ᵥ q - fc) i = 0) := by
  have hin : ∀ c q1 q2 : ℝ, (fun s => c * intensity q1 q2 L s) = intensity (q1 * c) (q2 * c) L := by
    intro c q1 q2; ext s; unfold intensity; ring
  have hz : (fun _ : ℝ => (0 : ℝ)) = intensity 0 0 L := by ext s; unfold intensity; ring
  refine ⟨fun hl hd => ?_, fun hl h1 hd => ?_, fun hl h1 hd => ?_, fun i hi => ?_⟩
  · have e : beamFloc L c0 c1 l = fixedEnd L 0 0 (l.f * l.q1) (l.f * l.q2) := by
      unfold beamFloc; simp only [hl, hd, if_true]
    rw [e] at hf
    rw [hz]
    exact (admissible_of hL h hf q).1
  · have e : beamFloc L c0 c1 l = fixedEnd L (l.q1 * c0) (l.q2 * c0) (l.q1 * -c1) (l.q2 * -c1) := by
      unfold beamFloc; simp only [hl, hd, h1, one_mul, Bool.false_eq_true, if_false]
    rw [e] at hf
    rw [hin, hin]
    exact (admissible_of hL h hf q).1
  · have e : beamFloc L c0 c1 l = fixedEnd L (l.q1 * c1) (l.q2 * c1) (l.q1 * c0) (l.q2 * c0) := by
      unfold beamFloc
      cases hdir : l.dir with
      | x => exact absurd hdir hd
      | y => simp only [hl, h1, one_mul, Bool.false_eq_true, if_false]
      | other => simp only [hl, h1, one_mul, Bool.false_eq_true, if_false]
    rw [e] at hf
    rw [hin, hin]
    exact (admissible_of hL h hf q).1
  · obtain ⟨h0, _⟩ := C10_loaded h hf q
    exact h0 i hi

/-- The hypotheses are met: a beam without releases under a uniform load of -10. -/
example : ∃ k fc, beamKlocRel (210000 : ℝ) 5380 83600000 6000 [] = .ok k ∧
    condenseLoad (beamKloc (210000 : ℝ) 5380 83600000 6000) [] (beamFloc 6000 1 0 ⟨2, 1, -10, -10, .y, false⟩) = .ok fc :=
  ⟨_, _, by unfold beamKlocRel condense; rw [if_pos rfl], by unfold condenseLoad; rw [if_pos rfl]⟩

/-! ### Energy -/

/-- Second derivative of the deflection. -/
def curvature (c d x : ℝ) : ℝ := 2 * c + 6 * d * x

/-- First derivative of the deflection. -/
def slope (b c d x : ℝ) : ℝ := b + 2 * c * x + 3 * d * x ^ 2

theorem integral_poly4 (k0 k1 k2 k3 k4 L : ℝ) :
    ∫ x in (0 : ℝ)..L, (k0 + k1 * x + k2 * x ^ 2 + k3 * x ^ 3 + k4 * x ^ 4)
      = k0 * L + k1 * L ^ 2 / 2 + k2 * L ^ 3 / 3 + k3 * L ^ 4 / 4 + k4 * L ^ 5 / 5 := by
  rw [intervalIntegral.integral_add (by apply Continuous.intervalIntegrable; fun_prop) (by apply Continuous.intervalIntegrable; fun_prop),
    intervalIntegral.integral_add (by apply Continuous.intervalIntegrable; fun_prop) (by apply Continuous.intervalIntegrable; fun_prop),
    intervalIntegral.integral_add (by apply Continuous.intervalIntegrable; fun_prop) (by apply Continuous.intervalIntegrable; fun_prop),
    intervalIntegral.integral_add (by apply Continuous.intervalIntegrable; fun_prop) (by apply Continuous.intervalIntegrable; fun_prop)]
  have h1 : ∫ x in (0 : ℝ)..L, k1 * x = k1 * (L ^ 2 / 2) := by
    rw [intervalIntegral.integral_const_mul]; simp
  rw [h1]
  simp only [intervalIntegral.integral_const_mul, integral_pow, intervalIntegral.integral_const]
  simp
  ring

/-- C55, elastic part: the energy of the stiffness matrix is the strain energy of bar and beam theory,
    `E A (Δ/L)² L + ∫ E I w''²`. -/
theorem C55_elastic {E A I L : ℝ} (hL : 0 < L) (q : Fin 6 → ℝ) {a b c d : ℝ} (hw : Deflection L q a b c d) :
    ∑ i, ∑ j, q i * beamKloc E A I L i j * q j =
      E * A * ((q 3 - q 0) / L) ^ 2 * L + E * I * ∫ x in (0 : ℝ)..L, curvature c d x ^ 2 := by
  have hp : ∀ x, curvature c d x ^ 2 = 4 * c ^ 2 + 24 * c * d * x + 36 * d ^ 2 * x ^ 2 + 0 * x ^ 3 + 0 * x ^ 4 := by
    intro x; unfold curvature; ring
  simp only [hp]
  rw [integral_poly4]
  obtain ⟨h1, h2, h4, h5⟩ := hw
  have hL0 := hL.ne'
  simp only [beamKloc, Fin.sum_univ_six]
  simp only [Matrix.of_apply, Matrix.cons_val', Matrix.cons_val, Matrix.cons_val_zero, Matrix.cons_val_one]
  rw [← h1, ← h2, ← h4, ← h5]
  field_simp
  ring

/-- C55, geometric part: the energy of the geometric stiffness matrix is `P ∫ w'²`, for every axial force; the matrix is
    symmetric, and axial displacements do not enter. -/
theorem C55_geometric {P L : ℝ} (hL : 0 < L) (q : Fin 6 → ℝ) {a b c d : ℝ} (hw : Deflection L q a b c d) :
    (∑ i, ∑ j, q i * beamGeoLoc P L i j * q j = P * ∫ x in (0 : ℝ)..L, slope b c d x ^ 2) ∧
    (∀ i j, beamGeoLoc P L i j = beamGeoLoc P L j i) := by
  constructor
  · have hp : ∀ x, slope b c d x ^ 2 = b ^ 2 + 4 * b * c * x + (4 * c ^ 2 + 6 * b * d) * x ^ 2 + 12 * c * d * x ^ 3 + 9 * d ^ 2 * x ^ 4 := by
      intro x; unfold slope; ring
    simp only [hp]
    rw [integral_poly4]
    obtain ⟨h1, h2, h4, h5⟩ := hw
    have hL0 := hL.ne'
    simp only [beamGeoLoc, Fin.sum_univ_six]
    simp only [Matrix.of_apply, Matrix.cons_val', Matrix.cons_val, Matrix.cons_val_zero, Matrix.cons_val_one]
    rw [← h1, ← h2, ← h4, ← h5]
    field_simp
    ring
  · intro i j
    fin_cases i <;> fin_cases j <;> simp [beamGeoLoc]

/-- C55 in global axes: the geometric stiffness matrix assembled into the model has the energy of the rotated displacements and is
    symmetric; under tension it is never negative. -/
theorem C55_geometric_global {P L c0 c1 : ℝ} (hL : 0 < L) (x : Fin 6 → ℝ) :
    (∑ i, ∑ j, x i * beamGeo P L c0 c1 i j * x j =
      ∑ i, ∑ j, (beamT c0 c1 *ᵥ x) i * beamGeoLoc P L i j * (beamT c0 c1 *ᵥ x) j) ∧
    (∀ i j, beamGeo P L c0 c1 i j = beamGeo P L c0 c1 j i) ∧
    (0 ≤ P → 0 ≤ ∑ i, ∑ j, x i * beamGeo P L c0 c1 i j * x j) := by
  have hs : (beamGeoLoc P L).IsSymm := by
    ext i j; exact (C55_geometric hL 0 (a := 0) (b := 0) (c := 0) (d := 0) (by simp [Deflection])).2 j i
  have hq : ∀ {n : Nat} (M : Matrix (Fin n) (Fin n) ℝ) (y : Fin n → ℝ), y ⬝ᵥ M *ᵥ y = ∑ i, ∑ j, y i * M i j * y j := by
    intro n M y
    simp only [dotProduct, mulVec, Finset.mul_sum, ← mul_assoc]
  have h1 : ∑ i, ∑ j, x i * beamGeo P L c0 c1 i j * x j =
      ∑ i, ∑ j, (beamT c0 c1 *ᵥ x) i * beamGeoLoc P L i j * (beamT c0 c1 *ᵥ x) j := by
    rw [← hq, ← hq]
    unfold beamGeo
    rw [quad_congrT]
  refine ⟨h1, fun i j => (congrT_symm _ _ hs).apply j i, fun hP => ?_⟩
  rw [h1]
  obtain ⟨a, b, c, d, hw, _⟩ := C53_deflection hL (beamT c0 c1 *ᵥ x)
  rw [(C55_geometric hL _ hw).1]
  apply mul_nonneg hP
  apply intervalIntegral.integral_nonneg hL.le
  intro u _
  positivity

/-! ### Semi-rigid ends -/

section semi
variable {K : Type} [Field K] [LinearOrder K] [IsStrictOrderedRing K]

/-- Bending forces (shear, moment at the first end, shear, moment at the second end) of an ordinary beam with end deflections
    `w0, w1` and end rotations `p0, p1`. -/
def plainBending (E I L w0 p0 w1 p1 : K) : Fin 4 → K :=
  ![12 * E * I / L ^ 3 * (w0 - w1) + 6 * E * I / L ^ 2 * (p0 + p1),
    6 * E * I / L ^ 2 * (w0 - w1) + E * I / L * (4 * p0 + 2 * p1),
    12 * E * I / L ^ 3 * (w1 - w0) - 6 * E * I / L ^ 2 * (p0 + p1),
    6 * E * I / L ^ 2 * (w0 - w1) + E * I / L * (2 * p0 + 4 * p1)]

theorem spring_equilibrium {E I L g0 g1 d : K} (hL : L ≠ 0) (hd : d ≠ 0) (hdd : d = (1 + 4 * g0) * (1 + 4 * g1) - 4 * g0 * g1)
    (w0 t0 w1 t1 : K) :
    let s1 := -6 * g0 / L * (1 + 2 * g1) * w0 + -4 * g0 * (1 + 3 * g1) * t0 + 6 * g0 / L * (1 + 2 * g1) * w1 + -2 * g0 * t1
    let s3 := -6 * g1 / L * (1 + 2 * g0) * w0 + -2 * g1 * t0 + 6 * g1 / L * (1 + 2 * g0) * w1 + -4 * g1 * (1 + 3 * g0) * t1
    g0 * plainBending E I L w0 (t0 + s1 / d) w1 (t1 + s3 / d) 1 * L = -(E * I) * (s1 / d) ∧
    g1 * plainBending E I L w0 (t0 + s1 / d) w1 (t1 + s3 / d) 3 * L = -(E * I) * (s3 / d) := by
  intro s1 s3
  simp only [plainBending, Matrix.cons_val]
  constructor
  · have h : g0 * (6 * E * I / L ^ 2 * (w0 - w1) + E * I / L * (4 * t0 + 2 * t1)) * L * d
        + E * I * g0 * (4 * s1 + 2 * s3) + E * I * s1 = 0 := by
      rw [hdd]; simp only [s1, s3]; field_simp; ring
    field_simp at h ⊢
    linear_combination h
  · have h : g1 * (6 * E * I / L ^ 2 * (w0 - w1) + E * I / L * (2 * t0 + 4 * t1)) * L * d
        + E * I * g1 * (2 * s1 + 4 * s3) + E * I * s3 = 0 := by
      rw [hdd]; simp only [s1, s3]; field_simp; ring
    field_simp at h ⊢
    linear_combination h

/-- C54: a beam with end stiffnesses `r0, r1` behaves as an ordinary beam attached through rotational springs: for all nodal
    deflections and rotations there are beam end rotations `p0, p1` such that the spring moments `r (θ - p)` (or `p = θ` for
    a stiffness at the rigid limit) equal the beam's end moments, and the nodal forces are those of the ordinary beam. -/
theorem C54 {E I L r0 r1 : K} (hE : 0 < E) (hI : 0 < I) (hL : 0 < L) (h0 : 0 < r0) (h1 : 0 < r1)
    (h0' : r0 ≤ 10 ^ 20) (h1' : r1 ≤ 10 ^ 20) (w0 t0 w1 t1 : K) :
    ∃ p0 p1 : K,
      (if r0 = 10 ^ 20 then p0 = t0 else r0 * (t0 - p0) = plainBending E I L w0 p0 w1 p1 1) ∧
      (if r1 = 10 ^ 20 then p1 = t1 else r1 * (t1 - p1) = plainBending E I L w0 p0 w1 p1 3) ∧
      semiBend E I L r0 r1 *ᵥ ![w0, t0, w1, t1] = plainBending E I L w0 p0 w1 p1 := by
  have hLn := hL.ne'
  -- gamma as reciprocal stiffness
  have hg : ∀ r : K, 0 < r → (r = 10 ^ 20 ∧ semiGamma E I L r = 0) ∨ (r ≠ 10 ^ 20 ∧ semiGamma E I L r * (r * L) = E * I) := by
    intro r hr
    unfold semiGamma
    by_cases h : r = 10 ^ 20
    · left; exact ⟨h, if_pos h⟩
    · right; refine ⟨h, ?_⟩
      rw [if_neg h]; field_simp
  have hn0 := semiGamma_nonneg hE hI hL h0
  have hn1 := semiGamma_nonneg hE hI hL h1
  have hd := semiDelta_pos hn0 hn1
  have G0 := hg r0 h0
  have G1 := hg r1 h1
  unfold semiBend
  simp only
  set g0 := semiGamma E I L r0 with hg0
  set g1 := semiGamma E I L r1 with hg1
  set d := semiDelta g0 g1 with hdd
  set y : Fin 4 → K := ![w0, t0, w1, t1] with hy
  set s := semiS L g0 g1 *ᵥ y with hs
  have hs0 : s 0 = 0 := by simp [hs, semiS]
  have hs2 : s 2 = 0 := by simp [hs, semiS]
  have hs1 : s 1 = -6 * g0 / L * (1 + 2 * g1) * w0 + -4 * g0 * (1 + 3 * g1) * t0 + 6 * g0 / L * (1 + 2 * g1) * w1 + -2 * g0 * t1 := by
    simp [hs, hy, semiS]; ring
  have hs3 : s 3 = -6 * g1 / L * (1 + 2 * g0) * w0 + -2 * g1 * t0 + 6 * g1 / L * (1 + 2 * g0) * w1 + -4 * g1 * (1 + 3 * g0) * t1 := by
    simp [hs, hy, semiS]; ring
  set z : Fin 4 → K := y + (1 / d) • s with hz
  have hpb : semiK00 E I L *ᵥ z = plainBending E I L w0 (t0 + s 1 / d) w1 (t1 + s 3 / d) := by
    have za : ∀ i, z i = y i + 1 / d * s i := fun i => rfl
    have z0 : z 0 = w0 := by rw [za, hs0, mul_zero, add_zero]; rfl
    have z2 : z 2 = w1 := by rw [za, hs2, mul_zero, add_zero]; rfl
    have z1 : z 1 = t0 + s 1 / d := by rw [za]; simp only [hy, Matrix.cons_val]; ring
    have z3 : z 3 = t1 + s 3 / d := by rw [za]; simp only [hy, Matrix.cons_val]; ring
    rw [← z0, ← z1, ← z2, ← z3]
    ext i
    fin_cases i <;> simp [semiK00, plainBending, mulVec, dotProduct, Fin.sum_univ_four] <;> ring
  -- spring equilibrium at both ends
  have eq0 : g0 * plainBending E I L w0 (t0 + s 1 / d) w1 (t1 + s 3 / d) 1 * L = -(E * I) * (s 1 / d) := by
    rw [hs1, hs3]
    exact (spring_equilibrium hLn hd.ne' rfl w0 t0 w1 t1).1
  have eq1 : g1 * plainBending E I L w0 (t0 + s 1 / d) w1 (t1 + s 3 / d) 3 * L = -(E * I) * (s 3 / d) := by
    rw [hs1, hs3]
    exact (spring_equilibrium hLn hd.ne' rfl w0 t0 w1 t1).2
  have hEI : E * I ≠ 0 := (mul_pos hE hI).ne'
  -- in terms of the stiffnesses
  have q0 : (r0 = 10 ^ 20 ∧ s 1 = 0) ∨ (r0 ≠ 10 ^ 20 ∧ r0 * (-(s 1 / d)) = plainBending E I L w0 (t0 + s 1 / d) w1 (t1 + s 3 / d) 1) := by
    rcases G0 with ⟨a, b⟩ | ⟨a, b⟩
    · left; refine ⟨a, ?_⟩; rw [hs1, b]; ring
    · right; refine ⟨a, ?_⟩
      have hg0n : g0 ≠ 0 := by rintro h; rw [h, zero_mul] at b; exact hEI b.symm
      have : g0 * L ≠ 0 := mul_ne_zero hg0n hLn
      apply mul_left_cancel₀ this
      linear_combination (-(s 1 / d)) * b - eq0
  have q1 : (r1 = 10 ^ 20 ∧ s 3 = 0) ∨ (r1 ≠ 10 ^ 20 ∧ r1 * (-(s 3 / d)) = plainBending E I L w0 (t0 + s 1 / d) w1 (t1 + s 3 / d) 3) := by
    rcases G1 with ⟨a, b⟩ | ⟨a, b⟩
    · left; refine ⟨a, ?_⟩; rw [hs3, b]; ring
    · right; refine ⟨a, ?_⟩
      have hg1n : g1 ≠ 0 := by rintro h; rw [h, zero_mul] at b; exact hEI b.symm
      have : g1 * L ≠ 0 := mul_ne_zero hg1n hLn
      apply mul_left_cancel₀ this
      linear_combination (-(s 3 / d)) * b - eq1
  refine ⟨t0 + s 1 / d, t1 + s 3 / d, ?_, ?_, ?_⟩
  · rcases q0 with ⟨a, b⟩ | ⟨a, b⟩
    · rw [if_pos a, b]; ring
    · rw [if_neg a, ← b]; ring
  · rcases q1 with ⟨a, b⟩ | ⟨a, b⟩
    · rw [if_pos a, b]; ring
    · rw [if_neg a, ← b]; ring
  · rw [← hpb]
    have houter : ∀ (r : K) (i : Fin 4), ((if r < 10 ^ 20 then (r / d ^ 2) • Matrix.of (fun a b => semiS L g0 g1 i a * semiS L g0 g1 i b)
        else (0 : Matrix (Fin 4) (Fin 4) K)) *ᵥ y) = if r < 10 ^ 20 then (fun a => r / d ^ 2 * (semiS L g0 g1 i a * s i)) else 0 := by
      intro r i
      split
      · ext a
        rw [hs]
        simp [mulVec, dotProduct, Fin.sum_univ_four]
        ring
      · rw [zero_mulVec]
    simp only [add_mulVec, smul_mulVec, ← mulVec_mulVec, ← hs, houter]
    have hdn := hd.ne'
    have hk : semiK00 E I L *ᵥ z = semiK00 E I L *ᵥ y + (1 / d) • (semiK00 E I L *ᵥ s) := by
      rw [hz, mulVec_add, mulVec_smul]
    -- Sᵀ applied to k00 z cancels the springs
    have hST : ∀ a, ((semiS L g0 g1)ᵀ *ᵥ (semiK00 E I L *ᵥ z)) a
        = semiS L g0 g1 1 a * (semiK00 E I L *ᵥ z) 1 + semiS L g0 g1 3 a * (semiK00 E I L *ᵥ z) 3 := by
      intro a
      have r0 : ∀ a, semiS L g0 g1 0 a = 0 := by intro a; fin_cases a <;> simp [semiS]
      have r2 : ∀ a, semiS L g0 g1 2 a = 0 := by intro a; fin_cases a <;> simp [semiS]
      simp only [mulVec, dotProduct, Fin.sum_univ_four, Matrix.transpose_apply, r0, r2]
      ring
    have hST' : (semiS L g0 g1)ᵀ *ᵥ (semiK00 E I L *ᵥ z) =
        (semiS L g0 g1)ᵀ *ᵥ (semiK00 E I L *ᵥ y) + (1 / d) • ((semiS L g0 g1)ᵀ *ᵥ (semiK00 E I L *ᵥ s)) := by
      rw [hk, mulVec_add, mulVec_smul]
    ext a
    have hSTa := hST a
    rw [hST'] at hSTa
    have e0 : (if r0 < 10 ^ 20 then (fun a => r0 / d ^ 2 * (semiS L g0 g1 1 a * s 1)) else 0 : Fin 4 → K) a
        = -(1 / d) * (semiS L g0 g1 1 a * (semiK00 E I L *ᵥ z) 1) := by
      rcases q0 with ⟨ra, b⟩ | ⟨ra, b⟩
      · rw [if_neg (by rw [ra]; exact lt_irrefl _)]
        have g0z : g0 = 0 := by
          rcases G0 with ⟨_, b⟩ | ⟨a, _⟩
          · exact b
          · exact absurd ra a
        have : semiS L g0 g1 1 a = 0 := by rw [g0z]; fin_cases a <;> simp [semiS]
        rw [this]; simp
      · rw [if_pos (lt_of_le_of_ne h0' ra), hpb, ← b]
        field_simp
    have e1 : (if r1 < 10 ^ 20 then (fun a => r1 / d ^ 2 * (semiS L g0 g1 3 a * s 3)) else 0 : Fin 4 → K) a
        = -(1 / d) * (semiS L g0 g1 3 a * (semiK00 E I L *ᵥ z) 3) := by
      rcases q1 with ⟨ra, b⟩ | ⟨ra, b⟩
      · rw [if_neg (by rw [ra]; exact lt_irrefl _)]
        have g1z : g1 = 0 := by
          rcases G1 with ⟨_, b⟩ | ⟨a, _⟩
          · exact b
          · exact absurd ra a
        have : semiS L g0 g1 3 a = 0 := by rw [g1z]; fin_cases a <;> simp [semiS]
        rw [this]; simp
      · rw [if_pos (lt_of_le_of_ne h1' ra), hpb, ← b]
        field_simp
    simp only [Pi.add_apply] at hSTa ⊢
    rw [e0, e1, hk]
    simp only [Pi.add_apply, Pi.smul_apply, smul_eq_mul] at hSTa ⊢
    have e2 : (1 / d) * (((semiS L g0 g1)ᵀ *ᵥ (semiK00 E I L *ᵥ y)) a + 1 / d * ((semiS L g0 g1)ᵀ *ᵥ (semiK00 E I L *ᵥ s)) a)
        = (1 / d) * (semiS L g0 g1 1 a * (semiK00 E I L *ᵥ z) 1 + semiS L g0 g1 3 a * (semiK00 E I L *ᵥ z) 3) := by rw [hSTa]
    have e3 : 1 / d ^ 2 * ((semiS L g0 g1)ᵀ *ᵥ (semiK00 E I L *ᵥ s)) a = 1 / d * (1 / d * ((semiS L g0 g1)ᵀ *ᵥ (semiK00 E I L *ᵥ s)) a) := by
      field_simp
    have hkz := congrFun hk
    simp only [Pi.add_apply, Pi.smul_apply, smul_eq_mul] at hkz
    rw [← hkz, ← hkz] at *
    rw [e3]
    have hk_a := hkz a
    linear_combination e2

/-- A joint stiffness of a typical end plate connection meets the hypotheses. -/
example : (0 : ℚ) < 210000 ∧ (0 : ℚ) < 83600000 ∧ (0 : ℚ) < 6000 ∧ (0 : ℚ) < 20000000000 ∧ (20000000000 : ℚ) ≤ 10 ^ 20 := by norm_num

end semi

end Metku.Fem
