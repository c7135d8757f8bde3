import Verif.Model.SecondOrder
import Verif.Props.FemBeam
import Mathlib.Analysis.Calculus.MeanValue
import Mathlib.Analysis.SpecialFunctions.Trigonometric.Deriv
import Mathlib.Analysis.SpecialFunctions.Trigonometric.Bounds

/-!
Properties C239, C240: the plane beam in second-order analysis.
-/
namespace Metku.Fem

open Matrix

/-- Specification: `v` is the deflection of a member with bending stiffness `EI` under the axial force `N` (tension positive) and the
    uniform transverse load `q`: `EI v'''' - N v'' = q` (`v1`, `v2`, `v3` are its derivatives). -/
structure BeamColumn (EI N q : ℝ) (v v1 v2 v3 : ℝ → ℝ) : Prop where
  d0 : ∀ x, HasDerivAt v (v1 x) x
  d1 : ∀ x, HasDerivAt v1 (v2 x) x
  d2 : ∀ x, HasDerivAt v2 (v3 x) x
  d3 : ∀ x, HasDerivAt v3 ((q + N * v2 x) / EI) x

theorem const_of_deriv_zero {f : ℝ → ℝ} (h : ∀ x, HasDerivAt f 0 x) (x y : ℝ) : f x = f y :=
  is_const_of_deriv_eq_zero (fun x => (h x).differentiableAt) (fun x => (h x).deriv) x y

/-- First integrals of the differential equation, between the two ends. -/
theorem beamColumn_ends {EI k q : ℝ} (hE : EI ≠ 0) (hk : k ≠ 0) {v v1 v2 v3 : ℝ → ℝ} (h : BeamColumn EI (-(EI * k ^ 2)) q v v1 v2 v3)
    (L : ℝ) :
    v3 L + k ^ 2 * v1 L = v3 0 + k ^ 2 * v1 0 + q / EI * L ∧
    v2 L + k ^ 2 * v L = v2 0 + k ^ 2 * v 0 + (v3 0 + k ^ 2 * v1 0) * L + q / EI * L ^ 2 / 2 ∧
    v3 L = v3 0 * Real.cos (k * L) - k * (v2 0 - q / EI / k ^ 2) * Real.sin (k * L) ∧
    (v2 L - q / EI / k ^ 2) * k = (v2 0 - q / EI / k ^ 2) * k * Real.cos (k * L) + v3 0 * Real.sin (k * L) := by
  have g3 : ∀ x, HasDerivAt v3 (q / EI - k ^ 2 * v2 x) x := by
    intro x
    have := h.d3 x
    convert this using 1
    field_simp
    ring
  have a1 : ∀ x, v3 x + k ^ 2 * v1 x - q / EI * x = v3 0 + k ^ 2 * v1 0 := by
    intro x
    have := const_of_deriv_zero (f := fun x => v3 x + k ^ 2 * v1 x - q / EI * x) (fun x => by
      have := ((g3 x).add ((h.d1 x).const_mul (k ^ 2))).sub ((hasDerivAt_id x).const_mul (q / EI))
      refine (this.congr_deriv ?_)
      ring) x 0
    simpa using this
  refine ⟨by linarith [a1 L], ?_, ?_⟩
  · have := const_of_deriv_zero (f := fun x => v2 x + k ^ 2 * v x - (v3 0 + k ^ 2 * v1 0) * x - q / EI / 2 * x ^ 2) (fun x => by
      have := (((h.d2 x).add ((h.d0 x).const_mul (k ^ 2))).sub ((hasDerivAt_id x).const_mul (v3 0 + k ^ 2 * v1 0))).sub
        ((hasDerivAt_pow 2 x).const_mul (q / EI / 2))
      refine (this.congr_deriv ?_)
      have := a1 x
      norm_num
      linarith) L 0
    simp only [mul_zero, ne_eq, OfNat.ofNat_ne_zero, not_false_eq_true, zero_pow, sub_zero] at this
    linarith
  · have hkx : ∀ x, HasDerivAt (fun x => k * x) k x := fun x => by simpa using (hasDerivAt_id x).const_mul k
    have hs : ∀ x, HasDerivAt (fun x => Real.sin (k * x)) (Real.cos (k * x) * k) x := fun x => (hkx x).sin
    have hc : ∀ x, HasDerivAt (fun x => Real.cos (k * x)) (-Real.sin (k * x) * k) x := fun x => (hkx x).cos
    have hy : ∀ x, HasDerivAt (fun x => v2 x - q / EI / k ^ 2) (v3 x) x := fun x => (h.d2 x).sub_const _
    have b1 := const_of_deriv_zero (f := fun x => (v2 x - q / EI / k ^ 2) * k * Real.cos (k * x) - v3 x * Real.sin (k * x)) (fun x => by
      have := (((hy x).mul_const k).mul (hc x)).sub ((g3 x).mul (hs x))
      refine (this.congr_deriv ?_)
      field_simp
      ring) L 0
    have b2 := const_of_deriv_zero (f := fun x => (v2 x - q / EI / k ^ 2) * k * Real.sin (k * x) + v3 x * Real.cos (k * x)) (fun x => by
      have := (((hy x).mul_const k).mul (hs x)).add ((g3 x).mul (hc x))
      refine (this.congr_deriv ?_)
      field_simp
      ring) L 0
    simp only [mul_zero, Real.cos_zero, Real.sin_zero, sub_zero, zero_add, mul_one] at b1 b2
    have := Real.sin_sq_add_cos_sq (k * L)
    constructor
    · linear_combination (-Real.sin (k * L)) * b1 + Real.cos (k * L) * b2 - v3 L * this
    · linear_combination Real.cos (k * L) * b1 + Real.sin (k * L) * b2 - (v2 L - q / EI / k ^ 2) * k * this

/-! ### C239: second-order stiffness -/

theorem mul_sqrt_sq {E I P : ℝ} (hE : 0 < E) (hI : 0 < I) (hP : 0 < P) :
    0 < √(P / E / I) ∧ E * I * √(P / E / I) ^ 2 = P := by
  refine ⟨Real.sqrt_pos.mpr (by positivity), ?_⟩
  rw [Real.sq_sqrt (by positivity)]
  field_simp

/-- The matrix with `λ = k L` inserted. -/
theorem beamKcomp_rows {E A I L P k : ℝ} (hL : 0 < L) (hk : √(P / E / I) = k) (q : Fin 6 → ℝ) :
    let s := Real.sin (k * L)
    let c := Real.cos (k * L)
    let D := stabD (k * L)
    (beamKcomp E A I L P *ᵥ q) 0 = E * A / L * (q 0 - q 3) ∧
    (beamKcomp E A I L P *ᵥ q) 3 = E * A / L * (q 3 - q 0) ∧
    (beamKcomp E A I L P *ᵥ q) 1 = E * I * (k ^ 3 * s * (q 1 - q 4) + k ^ 2 * (1 - c) * (q 2 + q 5)) / D ∧
    (beamKcomp E A I L P *ᵥ q) 4 = -(E * I * (k ^ 3 * s * (q 1 - q 4) + k ^ 2 * (1 - c) * (q 2 + q 5)) / D) ∧
    (beamKcomp E A I L P *ᵥ q) 2 =
      E * I * (k ^ 2 * (1 - c) * (q 1 - q 4) + k * (s - k * L * c) * q 2 + k * (k * L - s) * q 5) / D ∧
    (beamKcomp E A I L P *ᵥ q) 5 =
      E * I * (k ^ 2 * (1 - c) * (q 1 - q 4) + k * (s - k * L * c) * q 5 + k * (k * L - s) * q 2) / D := by
  have hL0 := hL.ne'
  simp only [beamKcomp, hk, mulVec, dotProduct, Fin.sum_univ_six]
  simp only [Matrix.of_apply, Matrix.cons_val', Matrix.cons_val, Matrix.cons_val_zero, Matrix.cons_val_one]
  refine ⟨by ring, by ring, ?_, ?_, ?_, ?_⟩ <;> · field_simp; ring

/-- Specification: the forces on the ends of the member, in the directions of its undeformed axes. -/
noncomputable def endForces (E A I L P : ℝ) (q : Fin 6 → ℝ) (v1 v2 v3 : ℝ → ℝ) : Fin 6 → ℝ :=
  ![E * A * ((q 0 - q 3) / L), E * I * v3 0 - P * v1 0, -(E * I * v2 0),
    -(E * A * ((q 0 - q 3) / L)), -(E * I * v3 L - P * v1 L), E * I * v2 L]

/-- C239: a member in compression without releases.  For every deflection solving `EI v'''' - P v'' = 0` with the end values and
    slopes of the nodal displacements, the second-order matrix gives the nodal forces of that deflection: transverse forces
    `± (EI v''' - P v')` (`P` negative in compression) and moments `∓ EI v''` at the ends, and the axial forces of linear stretching.  The load must not be a
    buckling load of the clamped member (`stabD ≠ 0`). -/
theorem C239_partial {E A I L P : ℝ} (hE : 0 < E) (hI : 0 < I) (hL : 0 < L) (hP : P < 0)
    (hD : stabD (√(|P| / E / I) * L) ≠ 0) {v v1 v2 v3 : ℝ → ℝ} (h : BeamColumn (E * I) P 0 v v1 v2 v3)
    {q : Fin 6 → ℝ} (h1 : v 0 = q 1) (h2 : v1 0 = q 2) (h4 : v L = q 4) (h5 : v1 L = q 5) :
    ∃ k, beamKloc2 E A I L [] P = .ok k ∧ k *ᵥ q = endForces E A I L P q v1 v2 v3 := by
  have hP' : 0 < |P| := abs_pos.mpr hP.ne
  obtain ⟨hk, hkP⟩ := mul_sqrt_sq hE hI hP'
  generalize hkd : √(|P| / E / I) = k at hk hkP hD
  refine ⟨beamKcomp E A I L |P|, by simp [beamKloc2, hP, bind, Except.bind, condense], ?_⟩
  obtain ⟨r0, r3, r1, r4, r2, r5⟩ := beamKcomp_rows (A := A) hL hkd q
  have hEI : E * I ≠ 0 := by positivity
  have hPk : P = -(E * I * k ^ 2) := by rw [hkP, abs_of_neg hP]; ring
  rw [hPk] at h
  obtain ⟨e1, e2, e3, hc2⟩ := beamColumn_ends hEI hk.ne' h L
  simp only [zero_div, zero_mul, add_zero, sub_zero] at e1 e2 e3 hc2
  rw [h1, h4, h2] at e2
  rw [h2, h5] at e1
  set s := Real.sin (k * L)
  set c := Real.cos (k * L)
  have hsc : s ^ 2 + c ^ 2 = 1 := Real.sin_sq_add_cos_sq _
  have hDd : stabD (k * L) = 2 - 2 * c - k * L * s := rfl
  set D := stabD (k * L)
  have g1 : v3 0 * (c - 1) - k * s * v2 0 = k ^ 2 * (q 2 - q 5) := by linarith
  have g2' : v2 L = v2 0 + k ^ 2 * (q 1 - q 4) + (v3 0 + k ^ 2 * q 2) * L := by linarith
  have g2 : v2 0 * k * (c - 1) + v3 0 * (s - k * L) = k ^ 3 * (q 1 - q 4) + k ^ 3 * q 2 * L := by
    rw [g2'] at hc2
    linarith
  have hA2 : v2 0 * D = -(k ^ 2 * (1 - c) * (q 1 - q 4) + k * (s - k * L * c) * q 2 + k * (k * L - s) * q 5) := by
    rw [hDd]
    have hk0 := hk.ne'
    apply mul_left_cancel₀ hk0
    linear_combination (-(s - k * L)) * g1 + (c - 1) * g2 - k * v2 0 * hsc
  have hA3 : (v3 0 + k ^ 2 * q 2) * D = k ^ 3 * s * (q 1 - q 4) + k ^ 2 * (1 - c) * (q 2 + q 5) := by
    rw [hDd]
    linear_combination (c - 1) * g1 + s * g2 - v3 0 * hsc
  have hA2' : v2 0 = -(k ^ 2 * (1 - c) * (q 1 - q 4) + k * (s - k * L * c) * q 2 + k * (k * L - s) * q 5) / D := by
    rw [eq_div_iff hD]; exact hA2
  have hA3' : v3 0 + k ^ 2 * q 2 = (k ^ 3 * s * (q 1 - q 4) + k ^ 2 * (1 - c) * (q 2 + q 5)) / D := by
    rw [eq_div_iff hD]; exact hA3
  have hsh : E * I * v3 0 - P * v1 0 = E * I * (v3 0 + k ^ 2 * q 2) := by rw [h2, hPk]; ring
  have hshL : E * I * v3 L - P * v1 L = E * I * (v3 0 + k ^ 2 * q 2) := by rw [h5, ← e1, hPk]; ring
  have hv2L : v2 L = (k ^ 2 * (1 - c) * (q 1 - q 4) + k * (s - k * L * c) * q 5 + k * (k * L - s) * q 2) / D := by
    rw [g2', hA3', hA2', eq_div_iff hD]
    field_simp
    rw [hDd]
    ring
  unfold endForces
  rw [hsh, hshL, hv2L, hA3', hA2']
  ext i
  fin_cases i
  · show (beamKcomp E A I L |P| *ᵥ q) 0 = E * A * ((q 0 - q 3) / L); rw [r0]; ring
  · show (beamKcomp E A I L |P| *ᵥ q) 1 = E * I * _; rw [r1]; ring
  · show (beamKcomp E A I L |P| *ᵥ q) 2 = -(E * I * _); rw [r2]; ring
  · show (beamKcomp E A I L |P| *ᵥ q) 3 = -(E * A * ((q 0 - q 3) / L)); rw [r3]; ring
  · show (beamKcomp E A I L |P| *ᵥ q) 4 = -(E * I * _); rw [r4]; ring
  · show (beamKcomp E A I L |P| *ᵥ q) 5 = E * I * _; rw [r5]; ring

/-- Such a deflection exists for all nodal displacements. -/
theorem C239_deflection {EI P L : ℝ} (hEI : 0 < EI) (hP : P < 0) (hD : stabD (√(-P / EI) * L) ≠ 0) (q : Fin 6 → ℝ) :
    ∃ v v1 v2 v3, BeamColumn EI P 0 v v1 v2 v3 ∧ v 0 = q 1 ∧ v1 0 = q 2 ∧ v L = q 4 ∧ v1 L = q 5 := by
  have hk : 0 < √(-P / EI) := Real.sqrt_pos.mpr (div_pos (by linarith) hEI)
  have hkP : EI * √(-P / EI) ^ 2 = -P := by
    rw [Real.sq_sqrt (div_nonneg (by linarith) hEI.le)]; field_simp
  generalize √(-P / EI) = k at hk hkP hD
  have hk0 := hk.ne'
  have hsc : Real.sin (k * L) ^ 2 + Real.cos (k * L) ^ 2 = 1 := Real.sin_sq_add_cos_sq _
  have hDd : stabD (k * L) = 2 - 2 * Real.cos (k * L) - k * L * Real.sin (k * L) := rfl
  set s := Real.sin (k * L) with hs
  set c := Real.cos (k * L) with hc
  set D := stabD (k * L)
  set A2 : ℝ := -(k ^ 2 * (1 - c) * (q 1 - q 4) + k * (s - k * L * c) * q 2 + k * (k * L - s) * q 5) / D with hA2
  set B3 : ℝ := (k ^ 3 * s * (q 1 - q 4) + k ^ 2 * (1 - c) * (q 2 + q 5)) / D with hB3
  -- curvature `A2 cos kx + A3/k sin kx` with `A3 = B3 - k² q 2`
  set A3 : ℝ := B3 - k ^ 2 * q 2 with hA3
  have hkx : ∀ x, HasDerivAt (fun x => k * x) k x := fun x => by simpa using (hasDerivAt_id x).const_mul k
  have dc : ∀ x, HasDerivAt (fun x => Real.cos (k * x)) (-Real.sin (k * x) * k) x := fun x => (hkx x).cos
  have ds : ∀ x, HasDerivAt (fun x => Real.sin (k * x)) (Real.cos (k * x) * k) x := fun x => (hkx x).sin
  refine ⟨fun x => q 1 + A2 / k ^ 2 + B3 / k ^ 2 * x - (A2 / k ^ 2 * Real.cos (k * x) + A3 / k ^ 3 * Real.sin (k * x)),
    fun x => B3 / k ^ 2 + A2 / k * Real.sin (k * x) - A3 / k ^ 2 * Real.cos (k * x),
    fun x => A2 * Real.cos (k * x) + A3 / k * Real.sin (k * x),
    fun x => A3 * Real.cos (k * x) - k * A2 * Real.sin (k * x), ⟨fun x => ?_, fun x => ?_, fun x => ?_, fun x => ?_⟩, ?_, ?_, ?_, ?_⟩
  · have := (((hasDerivAt_id x).const_mul (B3 / k ^ 2)).const_add (q 1 + A2 / k ^ 2)).sub
      (((dc x).const_mul (A2 / k ^ 2)).add ((ds x).const_mul (A3 / k ^ 3)))
    refine (this.congr_deriv ?_)
    field_simp; ring
  · have := (((ds x).const_mul (A2 / k)).const_add (B3 / k ^ 2)).sub ((dc x).const_mul (A3 / k ^ 2))
    refine (this.congr_deriv ?_)
    field_simp; ring
  · have := ((dc x).const_mul A2).add ((ds x).const_mul (A3 / k))
    refine (this.congr_deriv ?_)
    field_simp; ring
  · have := ((dc x).const_mul A3).sub ((ds x).const_mul (k * A2))
    refine (this.congr_deriv ?_)
    have hPP : P = -(EI * k ^ 2) := by linarith
    rw [hPP]
    field_simp; ring
  · simp
  · simp only [mul_zero, Real.sin_zero, Real.cos_zero, mul_one, add_zero]
    rw [hA3]; field_simp; ring
  · show q 1 + A2 / k ^ 2 + B3 / k ^ 2 * L - (A2 / k ^ 2 * c + A3 / k ^ 3 * s) = q 4
    rw [hA3, hA2, hB3]
    field_simp
    rw [hDd]
    linear_combination (-k * (q 1 - q 4 + L * q 2)) * hsc
  · show B3 / k ^ 2 + A2 / k * s - A3 / k ^ 2 * c = q 5
    rw [hA3, hA2, hB3]
    field_simp
    rw [hDd]
    linear_combination (q 5 - q 2) * hsc

theorem sin_sub_pos {x : ℝ} (h0 : 0 < x) (h1 : x < Real.pi) : 0 < Real.sin x - x * Real.cos x := by
  have hs := Real.sin_pos_of_pos_of_lt_pi h0 h1
  by_cases h : x < Real.pi / 2
  · have hc : 0 < Real.cos x := Real.cos_pos_of_mem_Ioo ⟨by linarith [Real.pi_pos], h⟩
    have := Real.lt_tan h0 h
    rw [Real.tan_eq_sin_div_cos, lt_div_iff₀ hc] at this
    linarith
  · have hc : Real.cos x ≤ 0 := Real.cos_nonpos_of_pi_div_two_le_of_le (by linarith) (by linarith [Real.pi_pos])
    nlinarith

theorem stabD_half (x : ℝ) : stabD (2 * x) = 4 * Real.sin x * (Real.sin x - x * Real.cos x) := by
  unfold stabD
  rw [Real.cos_two_mul, Real.sin_two_mul]
  have := Real.sin_sq_add_cos_sq x
  linear_combination (-4) * this

/-- The condition holds below the first buckling load of the clamped member, `4 π² EI / L²`. -/
theorem C239_below_buckling {EI P L : ℝ} (hEI : 0 < EI) (hL : 0 < L) (hP : 0 < P) (hcr : P < 4 * Real.pi ^ 2 * EI / L ^ 2) :
    0 < stabD (√(P / EI) * L) := by
  have hx : √(P / EI) * L = 2 * (√(P / EI) * L / 2) := by ring
  have h0 : 0 < √(P / EI) := Real.sqrt_pos.mpr (by positivity)
  have h1 : √(P / EI) * L / 2 < Real.pi := by
    have : √(P / EI) < 2 * Real.pi / L := by
      rw [Real.sqrt_lt' (by positivity [Real.pi_pos])]
      rw [div_lt_iff₀ hEI]
      calc P < _ := hcr
        _ = _ := by field_simp; ring
    rw [lt_div_iff₀ hL] at this
    linarith
  rw [hx, stabD_half]
  have h2 : 0 < √(P / EI) * L / 2 := by positivity
  have := sin_sub_pos h2 h1
  have := Real.sin_pos_of_pos_of_lt_pi h2 h1
  positivity

open Classical in
/-- C239, members in compression with releases: the nodal forces of the matrix are those of a deflection that agrees with the nodal
    displacements in the directions that are not released, and its forces in released directions are zero. -/
theorem C239_releases_partial {E A I L P : ℝ} (hE : 0 < E) (hI : 0 < I) (hL : 0 < L) (hP : P < 0)
    (hD : stabD (√(|P| / E / I) * L) ≠ 0) {rel : List (Fin 6)} {k : Matrix (Fin 6) (Fin 6) ℝ}
    (hk : beamKloc2 E A I L rel P = .ok k) (q : Fin 6 → ℝ) :
    ∃ w : Fin 6 → ℝ, (∀ i, i ∉ rel → w i = q i) ∧ (∀ i ∈ rel, (k *ᵥ q) i = 0) ∧
      ∀ v v1 v2 v3, BeamColumn (E * I) P 0 v v1 v2 v3 → v 0 = w 1 → v1 0 = w 2 → v L = w 4 → v1 L = w 5 →
        k *ᵥ q = endForces E A I L P w v1 v2 v3 := by
  have hk' : condense (beamKcomp E A I L |P|) rel = .ok k := by
    simpa [beamKloc2, hP, bind, Except.bind] using hk
  by_cases hne : rel = []
  · subst hne
    refine ⟨q, fun _ _ => rfl, fun i hi => (by cases hi), fun v v1 v2 v3 h h1 h2 h4 h5 => ?_⟩
    obtain ⟨k', hk'', he⟩ := C239_partial (A := A) hE hI hL hP hD h h1 h2 h4 h5
    rw [hk] at hk''; cases hk''
    exact he
  · obtain ⟨hdet, _⟩ := condense_ok hne hk'
    refine ⟨complete rel q (relDisp (beamKcomp E A I L |P|) rel q 0), fun i hi => complete_off _ _ hi,
      fun i hi => condense_row_rel hne hk' q hi, fun v v1 v2 v3 h h1 h2 h4 h5 => ?_⟩
    obtain ⟨k0, hk0, he⟩ := C239_partial (A := A) hE hI hL hP hD h h1 h2 h4 h5
    have hk0' : k0 = beamKcomp E A I L |P| := by
      have : Except.ok (beamKcomp E A I L |P|) = Except.ok (ε := PyErr) k0 := by
        rw [← hk0]; simp [beamKloc2, hP, bind, Except.bind, condense]
      cases this; rfl
    subst hk0'
    rw [← he]
    ext i
    by_cases hi : i ∈ rel
    · rw [condense_row_rel hne hk' q hi, relDisp_zero hdet q 0 hi]; rfl
    · exact condense_row hne hk' q hi

/-- C239 fails in tension: the matrix is that without axial force, although a member in tension that only rotates as a rigid body needs
    transverse end forces `∓ P θ` for equilibrium. -/
theorem C239_violation_tension {E A I L P : ℝ} (hL : 0 < L) (hP : 0 < P) :
    ∃ (k : Matrix (Fin 6) (Fin 6) ℝ) (q : Fin 6 → ℝ) (v v1 v2 v3 : ℝ → ℝ), beamKloc2 E A I L [] P = .ok k ∧
      BeamColumn (E * I) P 0 v v1 v2 v3 ∧ v 0 = q 1 ∧ v1 0 = q 2 ∧ v L = q 4 ∧ v1 L = q 5 ∧
      (k *ᵥ q) 1 = 0 ∧ endForces E A I L P q v1 v2 v3 1 = -P := by
  refine ⟨beamKloc E A I L, ![0, 0, 1, 0, L, 1], fun x => x, fun _ => 1, fun _ => 0, fun _ => 0, ?_,
    ⟨fun x => hasDerivAt_id x, fun x => hasDerivAt_const x 1, fun x => hasDerivAt_const x 0, fun x => ?_⟩, rfl, rfl, rfl, rfl, ?_, ?_⟩
  · simp [beamKloc2, hP.not_gt, bind, Except.bind, condense, beamKlocRel]
  · refine ((hasDerivAt_const x (0 : ℝ)).congr_deriv ?_)
    simp
  · simp only [beamKloc, mulVec, dotProduct, Fin.sum_univ_six]
    simp
    field_simp; ring
  · simp [endForces]

/-- C239 fails in tension with releases: the second-order matrix cannot be formed at all. -/
theorem C239_violation_hinges (E A I L : ℝ) {P : ℝ} (hP : 0 ≤ P) {rel : List (Fin 6)} (hrel : rel ≠ []) :
    beamKloc2 E A I L rel P = .error .linAlgError := by
  classical
  have hc : ∀ k0 : Matrix (Fin 6) (Fin 6) ℝ, (∀ i ∈ rel, ∀ j, k0 i j = 0) → condense k0 rel = .error .linAlgError := by
    intro k0 h0
    unfold condense
    rw [if_neg hrel]
    dsimp only
    rw [if_pos]
    have : Nonempty (Fin rel.length) := ⟨⟨0, List.length_pos_iff.mpr hrel⟩⟩
    have hz : k0.submatrix (fun a : Fin rel.length => rel[a]) (fun a : Fin rel.length => rel[a]) = 0 := by
      ext a b
      exact h0 _ (List.getElem_mem _) _
    rw [hz]
    exact Matrix.det_zero
  unfold beamKloc2
  rw [if_neg (not_lt.mpr hP)]
  simp only [bind, Except.bind]
  cases hk : beamKlocRel E A I L rel with
  | error e =>
    unfold beamKlocRel condense at hk
    rw [if_neg hrel] at hk
    dsimp only at hk
    split at hk
    · cases hk; rfl
    · cases hk
  | ok k0 =>
    simp only
    have := condense_ok hrel hk
    convert hc k0 ?_ using 1
    intro i hi j
    rw [this.2]
    simp [hi]

/-! ### C240: loads in second-order analysis -/

/-- The clamped member under uniform load in closed form. -/
theorem clamped_ends {EI k q L : ℝ} (hEI : 0 < EI) (hk : 0 < k) (hD : stabD (k * L) ≠ 0) {v v1 v2 v3 : ℝ → ℝ}
    (h : BeamColumn EI (-(EI * k ^ 2)) q v v1 v2 v3) (h1 : v 0 = 0) (h2 : v1 0 = 0) (h4 : v L = 0) (h5 : v1 L = 0) :
    let lam := k * (1 / 2 * L)
    EI * v3 0 = -(q * L / 2) ∧ EI * v3 L = q * L / 2 ∧
    EI * v2 0 = q / k ^ 2 * (1 - lam * Real.cos lam / Real.sin lam) ∧
    EI * v2 L = q / k ^ 2 * (1 - lam * Real.cos lam / Real.sin lam) := by
  intro lam
  have hEI0 := hEI.ne'
  have hk0 := hk.ne'
  obtain ⟨e1, e2, e3, e4⟩ := beamColumn_ends hEI0 hk0 h L
  rw [h1, h2, h4] at e2
  rw [h2, h5] at e1
  have hkL : k * L = 2 * lam := by simp only [lam]; ring
  have hlam : k * L / 2 = lam := by rw [hkL]; ring
  have hD' : 4 * Real.sin lam * (Real.sin lam - lam * Real.cos lam) ≠ 0 := by rw [← stabD_half, ← hkL]; exact hD
  have hs : Real.sin lam ≠ 0 := fun h0 => hD' (by rw [h0]; ring)
  have hsl : Real.sin lam - lam * Real.cos lam ≠ 0 := fun h0 => hD' (by rw [h0]; ring)
  rw [hkL, Real.cos_two_mul, Real.sin_two_mul] at e3 e4
  have hsc := Real.sin_sq_add_cos_sq lam
  set s := Real.sin lam
  set c := Real.cos lam
  set w := q / EI with hw
  have hq : q = w * EI := by rw [hw]; field_simp
  have hL : L = 2 * lam / k := by rw [← hkL]; field_simp
  -- two equations for the moment and shear at the first end
  set B := v2 0 - w / k ^ 2 with hB
  have g1 : v3 0 * (2 * c ^ 2 - 2) - k * B * (2 * s * c) = w * L := by linarith
  have g2 : B * k * (2 * c ^ 2 - 2) + v3 0 * (2 * s * c - k * L) = k * (w * L ^ 2 / 2) := by
    have : v2 L = v2 0 + v3 0 * L + w * L ^ 2 / 2 := by linarith
    have hBL : v2 L - w / k ^ 2 = B + v3 0 * L + w * L ^ 2 / 2 := by rw [this, hB]; ring
    rw [hBL] at e4
    linarith
  have g1' : v3 0 * s + k * B * c = -(w * L / 2) / s := by
    rw [eq_div_iff hs]
    linear_combination (-1 / 2) * g1 + v3 0 * hsc
  have g2' : -(2 * s) * (B * k * s - v3 0 * c) - v3 0 * (k * L) = k * (w * L ^ 2 / 2) := by
    linear_combination g2 - 2 * B * k * hsc
  -- the odd part: multiply out
  have hA3 : v3 0 = -(w * L / 2) := by
    have key : (v3 0 + w * L / 2) * (s - lam * c) = 0 := by
      have t1 : (v3 0 * s + k * B * c) * s = -(w * L / 2) := by rw [g1']; field_simp
      rw [hkL] at g2'
      have hkk : k * (w * L ^ 2 / 2) = lam * (w * L) := by rw [← hlam]; ring
      rw [hkk] at g2'
      linear_combination s * t1 + (c / 2) * g2' - v3 0 * s * hsc
    rcases mul_eq_zero.mp key with h | h
    · linarith
    · exact absurd h hsl
  have hBv : k * B = -(w * L / 2) * c / s := by
    have t1 : (v3 0 * s + k * B * c) * s = -(w * L / 2) := by rw [g1']; field_simp
    rw [hkL] at g2'
    rw [hA3] at t1 g2'
    rw [eq_div_iff hs]
    have hkk : k * (w * L ^ 2 / 2) = lam * (w * L) := by rw [← hlam]; ring
    rw [hkk] at g2'
    linear_combination c * t1 - (s / 2) * g2' - (k * B * s) * hsc
  have hv2 : EI * v2 0 = q / k ^ 2 * (1 - lam * c / s) := by
    have : v2 0 = B + w / k ^ 2 := by rw [hB]; ring
    rw [this, hq, ← hlam]
    have : B = -(w * L / 2) * c / s / k := by rw [← hBv]; field_simp
    rw [this]
    field_simp
    ring
  refine ⟨by rw [hA3, hq]; ring, ?_, hv2, ?_⟩
  · have : v3 L = v3 0 + w * L := by linarith
    rw [this, hA3, hq]; ring
  · rw [← hv2]
    have : v2 L = v2 0 + v3 0 * L + w * L ^ 2 / 2 := by linarith
    rw [this, hA3]; ring

/-- C240: loads given in global axes, on a member in compression, with equal intensities at the two ends and unit factor: the nodal
    loads are the forces needed to hold the ends of the member with its second-order deflection between clamped ends: shear
    forces, end moments and the resultant along the member. -/
theorem C240_partial {E I L P c0 c1 : ℝ} (hE : 0 < E) (hI : 0 < I) (hP : P < 0) (hD : stabD (√(|P| / E / I) * L) ≠ 0)
    {l : LineLoad ℝ} (hl : l.isLocal = false) (hf : l.f = 1) (hu : l.q2 = l.q1) {f : Fin 6 → ℝ}
    (h : beamFloc2 (some E) I L c0 c1 P l = .ok f) {v v1 v2 v3 : ℝ → ℝ}
    (hv : BeamColumn (E * I) P ((if l.dir = .x then -c1 else c0) * l.q1) v v1 v2 v3)
    (h1 : v 0 = 0) (h2 : v1 0 = 0) (h4 : v L = 0) (h5 : v1 L = 0) :
    f = ![(if l.dir = .x then c0 else c1) * l.q1 * L / 2, -(E * I * v3 0), E * I * v2 0,
      (if l.dir = .x then c0 else c1) * l.q1 * L / 2, E * I * v3 L, -(E * I * v2 L)] := by
  have hP' : 0 < |P| := abs_pos.mpr hP.ne
  obtain ⟨hk, hkP⟩ := mul_sqrt_sq hE hI hP'
  unfold beamFloc2 at h
  rw [hl] at h
  simp only [Bool.false_eq_true, if_false, hf, one_mul, hu, if_neg (not_le.mpr hP)] at h
  generalize √(|P| / E / I) = k at hk hkP hD h
  have hPk : P = -(E * I * k ^ 2) := by rw [hkP, abs_of_neg hP]; ring
  rw [hPk] at hv
  obtain ⟨r1, r2, r3, r4⟩ := clamped_ends (by positivity) hk hD hv h1 h2 h4 h5
  rw [r1, r2, r3, r4]
  have hkL : k * L = 2 * (k * (1 / 2 * L)) := by ring
  have hs : Real.sin (k * (1 / 2 * L)) ≠ 0 := by
    intro h0
    apply hD
    rw [hkL, stabD_half, h0]; ring
  have hL : L ≠ 0 := by
    rintro rfl
    apply hs; simp
  have hk0 := hk.ne'
  have hf' : f = compEnd L (k * (1 / 2 * L)) (Real.sin (k * (1 / 2 * L))) (Real.cos (k * (1 / 2 * L))) (-1)
      (l.q1 * if l.dir = .x then -c1 else c0) (l.q1 * if l.dir = .x then c0 else c1) (l.q1 * if l.dir = .x then c0 else c1) := by
    cases hd : l.dir <;> simp only [hd] at h <;> simp only [reduceCtorEq, if_true, if_false] <;> exact (Except.ok.inj h).symm
  rw [hf']
  generalize (if l.dir = .x then -c1 else c0) = y
  generalize (if l.dir = .x then c0 else c1) = x
  generalize Real.sin (k * (1 / 2 * L)) = s at hs ⊢
  generalize Real.cos (k * (1 / 2 * L)) = c
  unfold compEnd
  ext i
  fin_cases i <;> simp <;> field_simp <;> ring

/-- The deflection of the clamped member exists. -/
theorem C240_deflection {EI P L q : ℝ} (hEI : 0 < EI) (hP : P < 0) (hD : stabD (√(-P / EI) * L) ≠ 0) :
    ∃ v v1 v2 v3, BeamColumn EI P q v v1 v2 v3 ∧ v 0 = 0 ∧ v1 0 = 0 ∧ v L = 0 ∧ v1 L = 0 := by
  obtain ⟨v, v1, v2, v3, h, h1, h2, h4, h5⟩ := C239_deflection hEI hP hD ![0, 0, 0, 0, q / P / 2 * L ^ 2, q / P * L]
  refine ⟨fun x => v x - q / P / 2 * x ^ 2, fun x => v1 x - q / P * x, fun x => v2 x - q / P, v3,
    ⟨fun x => ?_, fun x => ?_, fun x => (h.d2 x).sub_const _, fun x => ?_⟩, ?_, ?_, ?_, ?_⟩
  · refine (((h.d0 x).sub ((hasDerivAt_pow 2 x).const_mul (q / P / 2))).congr_deriv ?_)
    norm_num; ring
  · refine (((h.d1 x).sub ((hasDerivAt_id x).const_mul (q / P))).congr_deriv ?_)
    ring
  · refine ((h.d3 x).congr_deriv ?_)
    have := hP.ne
    field_simp; ring
  · simpa using h1
  · simpa using h2
  · simp only [h4]; simp
  · simp only [h5]; simp

/-- C240 in tension: the nodal loads are those of linear analysis. -/
theorem C240_tension {secE : Option ℝ} {Iy L c0 c1 P : ℝ} (hP : 0 ≤ P) (l : LineLoad ℝ) :
    beamFloc2 secE Iy L c0 c1 P l = .ok (beamFloc L c0 c1 l) := by
  unfold beamFloc2 beamFloc
  by_cases hl : l.isLocal = true
  · simp only [hl, if_true, if_pos hP]
    cases l.dir <;> rfl
  · simp only [hl, if_pos hP]; rfl

/-- C240 fails for loads in local axes: on a horizontal member in compression below its Euler load, a load of positive intensity
    gives a negative moment at the first node, while the same load given in global axes gives the (correct) positive one. -/
theorem C240_violation_local {E I L P q : ℝ} (hE : 0 < E) (hI : 0 < I) (hL : 0 < L) (hP : P < 0) (hq : 0 < q)
    (hcr : √(|P| / E / I) * L < Real.pi) :
    ∃ f g, beamFloc2 (some E) I L 1 0 P ⟨0, 1, q, q, .y, true⟩ = .ok f ∧
      beamFloc2 (some E) I L 1 0 P ⟨0, 1, q, q, .y, false⟩ = .ok g ∧ f 2 < 0 ∧ 0 < g 2 := by
  have hP' : 0 < |P| := abs_pos.mpr hP.ne
  obtain ⟨hk, -⟩ := mul_sqrt_sq hE hI hP'
  unfold beamFloc2
  simp only [if_true, Bool.false_eq_true, if_false, if_neg (not_le.mpr hP)]
  refine ⟨_, _, rfl, rfl, ?_, ?_⟩
  · generalize √(|P| / E / I) = k at hk hcr ⊢
    have h0 : 0 < k * L := by positivity
    have hs := Real.sin_pos_of_pos_of_lt_pi h0 hcr
    have hd := sin_sub_pos h0 hcr
    simp only [compEnd, Matrix.cons_val]
    have : k * (1 / 2 * L) * Real.cos (k * L) - Real.sin (k * L) < 0 := by
      have : k * (1 / 2 * L) * Real.cos (k * L) = (k * L * Real.cos (k * L)) / 2 := by ring
      rw [this]; linarith
    rw [one_mul]
    apply div_neg_of_neg_of_pos _ hs
    apply div_neg_of_neg_of_pos _ (by positivity)
    apply mul_neg_of_pos_of_neg (by positivity) this
  · generalize √(|P| / E / I) = k at hk hcr ⊢
    have h0 : 0 < k * (1 / 2 * L) := by positivity
    have h1 : k * (1 / 2 * L) < Real.pi := by nlinarith [Real.pi_pos]
    have hs := Real.sin_pos_of_pos_of_lt_pi h0 h1
    have hd := sin_sub_pos h0 h1
    simp only [compEnd, Matrix.cons_val]
    rw [neg_one_mul, Left.neg_pos_iff]
    apply div_neg_of_neg_of_pos _ hs
    apply div_neg_of_neg_of_pos _ (by positivity)
    apply mul_neg_of_pos_of_neg (by positivity)
    linarith

/-- C240 fails for intensities that vary: only the intensity at the first node counts, so a triangular load that vanishes there is
    lost altogether on members in compression. -/
theorem C240_violation_triangle {E I L P q : ℝ} (hP : P < 0) (isLocal : Bool) :
    ∃ f, beamFloc2 (some E) I L 1 0 P ⟨0, 1, 0, q, .y, isLocal⟩ = .ok f ∧ f = 0 := by
  unfold beamFloc2
  cases isLocal <;>
  · simp only [if_true, Bool.false_eq_true, if_false, if_neg (not_le.mpr hP)]
    refine ⟨_, rfl, ?_⟩
    ext i
    fin_cases i <;> simp [compEnd]

/-- C240 fails for members with a section without modulus of elasticity, like `BeamSection`: line loads on them raise when the
    member is in compression. -/
theorem C240_violation_section {Iy L c0 c1 P : ℝ} (hP : P < 0) {l : LineLoad ℝ} (hl : l.isLocal = false ∨ l.dir = .y) :
    beamFloc2 none Iy L c0 c1 P l = .error .attributeError := by
  unfold beamFloc2
  by_cases h : l.isLocal = true
  · have hd : l.dir = .y := by
      rcases hl with h' | h'
      · rw [h] at h'; cases h'
      · exact h'
    simp only [h, if_true, hd, if_neg (not_le.mpr hP)]
  · simp only [h, if_neg (not_le.mpr hP)]; rfl

/-! ### Examples -/

/-- A column under half its Euler load. -/
example : stabD (√(|(-(Real.pi ^ 2 / 2))| / 1 / 1) * 1) ≠ 0 := by
  have hpi := Real.pi_pos
  have : |(-(Real.pi ^ 2 / 2))| = Real.pi ^ 2 / 2 := by rw [abs_neg, abs_of_pos (by positivity)]
  rw [this, div_one]
  refine (C239_below_buckling one_pos one_pos (by positivity) ?_).ne'
  have := sq_pos_of_pos hpi
  norm_num
  linarith

/-- A sway deflection of that column. -/
example : ∃ v v1 v2 v3, BeamColumn 1 (-(Real.pi ^ 2 / 2)) 0 v v1 v2 v3 ∧ v 0 = 0 ∧ v1 0 = 0 ∧ v 1 = 1 ∧ v1 1 = 0 := by
  have hpi := Real.pi_pos
  have := C239_deflection (EI := 1) (P := -(Real.pi ^ 2 / 2)) (L := 1) one_pos (by have := sq_pos_of_pos hpi; linarith)
    (C239_below_buckling one_pos one_pos (by have := sq_pos_of_pos hpi; linarith)
      (by have := sq_pos_of_pos hpi; norm_num; linarith)).ne' ![0, 0, 0, 0, 1, 0]
  simpa using this

end Metku.Fem
