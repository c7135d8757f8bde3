import Verif.Lemmas.Condense
import Verif.Lemmas.SemiRigid
import Mathlib.Analysis.SpecialFunctions.Integrals.Basic
import Mathlib.Analysis.Real.Sqrt
import Mathlib.Tactic.NormNum
import Mathlib.Tactic.Linarith

/-!
Properties of single elements: C03 (element part), C04, C08, C09, C10, C11, C12, C14.
-/
namespace Metku.Fem

open Matrix

section field
variable {K : Type} [Field K] [LinearOrder K] [IsStrictOrderedRing K]

/-! ### C03, element part -/

/-- Symmetric and never negative energy. -/
def SymPSD {n : Nat} (M : Matrix (Fin n) (Fin n) K) : Prop :=
  (∀ i j, M i j = M j i) ∧ ∀ x : Fin n → K, 0 ≤ ∑ i, ∑ j, x i * M i j * x j

theorem symPSD_of {n : Nat} {M : Matrix (Fin n) (Fin n) K} (hs : M.IsSymm)
    (hq : ∀ x : Fin n → K, 0 ≤ x ⬝ᵥ M *ᵥ x) : SymPSD M := by
  refine ⟨fun i j => hs.apply j i, fun x => ?_⟩
  have := hq x
  simp only [dotProduct, mulVec, Finset.mul_sum, ← mul_assoc] at this
  exact this

/-- C03, bar element in the plane. -/
theorem C03_rod2 {E A L : K} (hE : 0 < E) (hA : 0 < A) (hL : 0 < L) (c0 c1 : K) :
    SymPSD (rodK2 E A L c0 c1) := by
  apply symPSD_of (congrT_symm _ _ (rodKloc_symm _))
  intro x
  rw [quad_congrT, rodKloc_quad]
  positivity

/-- C03, bar element in space. -/
theorem C03_rod3 {E A L : K} (hE : 0 < E) (hA : 0 < A) (hL : 0 < L) (c0 c1 c2 : K) :
    SymPSD (rodK3 E A L c0 c1 c2) := by
  apply symPSD_of (congrT_symm _ _ (rodKloc_symm _))
  intro x
  rw [quad_congrT, rodKloc_quad]
  positivity

/-- C03, spring element. -/
theorem C03_spring {k : K} (hk : 0 ≤ k) (c0 c1 : K) : SymPSD (springK2 k c0 c1) := by
  apply symPSD_of (congrT_symm _ _ (rodKloc_symm _))
  intro x
  rw [quad_congrT, rodKloc_quad]
  positivity

theorem beamKloc_psd {E A I L : K} (hE : 0 < E) (hA : 0 < A) (hI : 0 < I) (hL : 0 < L) (x : Fin 6 → K) :
    0 ≤ x ⬝ᵥ beamKloc E A I L *ᵥ x := by
  rw [beamKloc_quad _ _ _ _ hL.ne']
  positivity

theorem beamKlocRel_symm_psd {E A I L : K} (hE : 0 < E) (hA : 0 < A) (hI : 0 < I) (hL : 0 < L)
    {rel : List (Fin 6)} {k0 : Matrix (Fin 6) (Fin 6) K} (h : beamKlocRel E A I L rel = .ok k0) :
    k0.IsSymm ∧ ∀ x : Fin 6 → K, 0 ≤ x ⬝ᵥ k0 *ᵥ x := by
  unfold beamKlocRel at h
  refine ⟨condense_symm (beamKloc_symm E A I L) h, fun x => ?_⟩
  by_cases hne : rel = []
  · unfold condense at h; rw [if_pos hne] at h; cases h
    exact beamKloc_psd hE hA hI hL x
  · obtain ⟨w, hw⟩ := condense_quad hne h x
    rw [hw]; exact beamKloc_psd hE hA hI hL w

/-- C03, beam element with or without end releases. -/
theorem C03_beam {E A I L : K} (hE : 0 < E) (hA : 0 < A) (hI : 0 < I) (hL : 0 < L) (c0 c1 : K)
    {rel : List (Fin 6)} {k : Matrix (Fin 6) (Fin 6) K} (h : beamK E A I L c0 c1 rel = .ok k) : SymPSD k := by
  unfold beamK at h
  cases h0 : beamKlocRel E A I L rel with
  | error e => rw [h0] at h; cases h
  | ok k0 =>
    rw [h0] at h
    cases h
    obtain ⟨hs, hq⟩ := beamKlocRel_symm_psd hE hA hI hL h0
    apply symPSD_of (congrT_symm _ _ hs)
    intro x
    rw [quad_congrT]
    exact hq _

/-- C03, semi-rigid beam: any end stiffnesses given by the user (clamped by the constructor). -/
theorem C03_semi {E A I L : K} (hE : 0 < E) (hA : 0 < A) (hI : 0 < I) (hL : 0 < L) (c0 c1 r0 r1 : K) :
    SymPSD (semiK E A I L c0 c1 r0 r1) := by
  set s0 := semiClamp r0 with hs0
  set s1 := semiClamp r1 with hs1
  have p0 : 0 < s0 := semiClamp_pos r0
  have p1 : 0 < s1 := semiClamp_pos r1
  have hbs := semiBend_symm E I L s0 s1
  have hsym : (semiKloc E A I L s0 s1).IsSymm := by
    ext i j
    fin_cases i <;> fin_cases j <;> simp [semiKloc] <;> exact hbs.apply _ _
  have hbq : ∀ y : Fin 4 → K, 0 ≤ y ⬝ᵥ semiBend E I L s0 s1 *ᵥ y := by
    intro y
    rw [semiBend_quad, semiK00_quad _ _ _ hL.ne']
    have h1 : ∀ (r d t : K), 0 < r → (0 : K) ≤ if r < 10 ^ 20 then r / d ^ 2 * t ^ 2 else 0 := by
      intro r d t hr
      split
      · positivity
      · exact le_refl _
    have := h1 s0 (semiDelta (semiGamma E I L s0) (semiGamma E I L s1))
      ((semiS L (semiGamma E I L s0) (semiGamma E I L s1) *ᵥ y) 1) p0
    have := h1 s1 (semiDelta (semiGamma E I L s0) (semiGamma E I L s1))
      ((semiS L (semiGamma E I L s0) (semiGamma E I L s1) *ᵥ y) 3) p1
    positivity
  apply symPSD_of (congrT_symm _ _ hsym)
  intro x
  rw [quad_congrT]
  set z := beamT c0 c1 *ᵥ x
  have hz : z ⬝ᵥ semiKloc E A I L s0 s1 *ᵥ z =
      E * A / L * (z 3 - z 0) ^ 2 +
      ![z 1, z 2, z 4, z 5] ⬝ᵥ semiBend E I L s0 s1 *ᵥ ![z 1, z 2, z 4, z 5] := by
    simp [semiKloc, dotProduct, mulVec, Fin.sum_univ_six, Fin.sum_univ_four]
    ring
  rw [hz]
  have := hbq ![z 1, z 2, z 4, z 5]
  positivity

/-- C03 applies: a steel beam with a hinge at its second end has a stiffness matrix
    (`condense` succeeds), for every positive data. -/
theorem C10_hinge_defined {E A I L : K} (hE : 0 < E) (hI : 0 < I) (hL : 0 < L) :
    ∃ k, beamKlocRel E A I L [5] = .ok k := by
  unfold beamKlocRel condense
  rw [if_neg (by simp)]
  simp only
  rw [if_neg]
  · exact ⟨_, rfl⟩
  · intro h
    have h2 := (Matrix.det_fin_one _).symm.trans h
    revert h2
    simp [beamKloc]
    exact ⟨⟨hE.ne', hI.ne'⟩, hL.ne'⟩

example : ∃ k, beamK (210000 : ℚ) 5380 83600000 6000 (3/5) (4/5) [5] = .ok k := by
  obtain ⟨k, hk⟩ := C10_hinge_defined (E := (210000 : ℚ)) (A := 5380) (I := 83600000) (L := 6000)
    (by norm_num) (by norm_num) (by norm_num)
  exact ⟨_, by unfold beamK; rw [hk]; rfl⟩

/-! ### C04 rigid-body motion -/

/-- Nodal displacements of a plane rigid-body motion: translation `(tx, ty)` and infinitesimal rotation
    `θ` about the point `(xc, yc)`, of an element with ends `(x1, y1)`, `(x2, y2)`; with rotations. -/
def rigid (tx ty θ xc yc x1 y1 x2 y2 : K) : Fin 6 → K :=
  ![tx - θ * (y1 - yc), ty + θ * (x1 - xc), θ, tx - θ * (y2 - yc), ty + θ * (x2 - xc), θ]

/-- The same without rotational degrees of freedom (bars). -/
def rigidBar (tx ty θ xc yc x1 y1 x2 y2 : K) : Fin 4 → K :=
  ![tx - θ * (y1 - yc), ty + θ * (x1 - xc), tx - θ * (y2 - yc), ty + θ * (x2 - xc)]

/-- C04 for bars: every rigid motion, every (rounded) length. -/
theorem C04_rod (E A L tx ty θ xc yc x1 y1 x2 y2 : K) :
    rodK2 E A L ((x2 - x1) / L) ((y2 - y1) / L) *ᵥ rigidBar tx ty θ xc yc x1 y1 x2 y2 = 0 := by
  unfold rodK2 congrT
  rw [← mulVec_mulVec, ← mulVec_mulVec]
  have h : rodT2 ((x2 - x1) / L) ((y2 - y1) / L) *ᵥ rigidBar tx ty θ xc yc x1 y1 x2 y2 =
      (((x2 - x1) / L) * (tx - θ * (y1 - yc)) + ((y2 - y1) / L) * (ty + θ * (x1 - xc))) • ![1, 1] := by
    ext i
    fin_cases i
    · simp [rodT2, rigidBar, mulVec, dotProduct, Fin.sum_univ_four]
    · simp [rodT2, rigidBar, mulVec, dotProduct, Fin.sum_univ_four]
      ring
  rw [h, mulVec_smul]
  have h2 : rodKloc (E * A / L) *ᵥ ![1, 1] = 0 := by
    ext i; fin_cases i <;> simp [rodKloc, mulVec, dotProduct]
  rw [h2, smul_zero, mulVec_zero]

/-- Local components of a rigid motion of an exactly measured beam. -/
theorem beamT_rigid {L tx ty θ xc yc x1 y1 x2 y2 : K} (hL : L ≠ 0)
    (hlen : (x2 - x1) ^ 2 + (y2 - y1) ^ 2 = L ^ 2) :
    ∃ a b : K, beamT ((x2 - x1) / L) ((y2 - y1) / L) *ᵥ rigid tx ty θ xc yc x1 y1 x2 y2
      = ![a, b, θ, a, b + θ * L, θ] := by
  refine ⟨((x2 - x1) / L) * (tx - θ * (y1 - yc)) + ((y2 - y1) / L) * (ty + θ * (x1 - xc)),
    -((y2 - y1) / L) * (tx - θ * (y1 - yc)) + ((x2 - x1) / L) * (ty + θ * (x1 - xc)), ?_⟩
  ext i
  fin_cases i
  · simp [beamT, rigid, mulVec, dotProduct, Fin.sum_univ_six]
  · simp [beamT, rigid, mulVec, dotProduct, Fin.sum_univ_six]
  · simp [beamT, rigid, mulVec, dotProduct, Fin.sum_univ_six]
  · simp [beamT, rigid, mulVec, dotProduct, Fin.sum_univ_six]
    field_simp
    ring
  · simp [beamT, rigid, mulVec, dotProduct, Fin.sum_univ_six]
    field_simp
    linear_combination θ * hlen
  · simp [beamT, rigid, mulVec, dotProduct, Fin.sum_univ_six]

theorem beamKloc_rigid {E A I L : K} (hL : L ≠ 0) (a b θ : K) :
    beamKloc E A I L *ᵥ ![a, b, θ, a, b + θ * L, θ] = 0 := by
  ext i
  fin_cases i <;> simp [beamKloc, mulVec, dotProduct, Fin.sum_univ_six] <;> field_simp <;> ring

theorem condense_kernel {k0 kc : Matrix (Fin 6) (Fin 6) K} {rel : List (Fin 6)}
    (h : condense k0 rel = .ok kc) (v : Fin 6 → K) (hv : k0 *ᵥ v = 0) : kc *ᵥ v = 0 := by
  by_cases hne : rel = []
  · unfold condense at h; rw [if_pos hne] at h; cases h; exact hv
  · have hd := (condense_ok hne h).1
    have hw : complete rel v (relDisp k0 rel v 0) = v := by
      apply condense_unique hd
      · intro i hi; exact complete_off _ _ hi
      · intro i hi; rw [relDisp_zero hd v 0 hi, hv]
    ext i
    by_cases hi : i ∈ rel
    · rw [condense_row_rel hne h v hi]; rfl
    · rw [condense_row hne h v hi, hw, hv]

/-- C04 for beams with any end releases, provided the rounded length equals the true distance
    (`C04_violation` shows that without this the statement is false). -/
theorem C04_beam_partial {E A I L tx ty θ xc yc x1 y1 x2 y2 : K} (hL : 0 < L)
    (hlen : (x2 - x1) ^ 2 + (y2 - y1) ^ 2 = L ^ 2) {rel : List (Fin 6)} {k : Matrix (Fin 6) (Fin 6) K}
    (h : beamK E A I L ((x2 - x1) / L) ((y2 - y1) / L) rel = .ok k) :
    k *ᵥ rigid tx ty θ xc yc x1 y1 x2 y2 = 0 := by
  unfold beamK at h
  cases h0 : beamKlocRel E A I L rel with
  | error e => rw [h0] at h; cases h
  | ok k0 =>
    rw [h0] at h
    cases h
    obtain ⟨a, b, hab⟩ := beamT_rigid (tx := tx) (ty := ty) (θ := θ) (xc := xc) (yc := yc) hL.ne' hlen
    unfold congrT
    rw [← mulVec_mulVec, ← mulVec_mulVec, hab, condense_kernel h0 _ (beamKloc_rigid hL.ne' a b θ), mulVec_zero]

/-- C04, translations: no condition on the length (rounding harmless). -/
theorem C04_beam_translation {E A I L tx ty c0 c1 : K} (hL : 0 < L)
    {rel : List (Fin 6)} {k : Matrix (Fin 6) (Fin 6) K} (h : beamK E A I L c0 c1 rel = .ok k) :
    k *ᵥ ![tx, ty, 0, tx, ty, 0] = 0 := by
  unfold beamK at h
  cases h0 : beamKlocRel E A I L rel with
  | error e => rw [h0] at h; cases h
  | ok k0 =>
    rw [h0] at h
    cases h
    have hab : beamT c0 c1 *ᵥ ![tx, ty, 0, tx, ty, 0] =
        ![c0 * tx + c1 * ty, -c1 * tx + c0 * ty, 0, c0 * tx + c1 * ty, -c1 * tx + c0 * ty + 0 * L, 0] := by
      ext i
      fin_cases i <;> simp [beamT, mulVec, dotProduct, Fin.sum_univ_six]
    unfold congrT
    rw [← mulVec_mulVec, ← mulVec_mulVec, hab, condense_kernel h0 _ (beamKloc_rigid hL.ne' _ _ 0), mulVec_zero]

/-- C04 for semi-rigid beams with exactly measured length. -/
theorem C04_semi_partial {E A I L tx ty θ xc yc x1 y1 x2 y2 r0 r1 : K} (hL : 0 < L)
    (hlen : (x2 - x1) ^ 2 + (y2 - y1) ^ 2 = L ^ 2) :
    semiK E A I L ((x2 - x1) / L) ((y2 - y1) / L) r0 r1 *ᵥ rigid tx ty θ xc yc x1 y1 x2 y2 = 0 := by
  obtain ⟨a, b, hab⟩ := beamT_rigid (tx := tx) (ty := ty) (θ := θ) (xc := xc) (yc := yc) hL.ne' hlen
  unfold semiK congrT
  rw [← mulVec_mulVec, ← mulVec_mulVec, hab]
  suffices hz : semiKloc E A I L (semiClamp r0) (semiClamp r1) *ᵥ ![a, b, θ, a, b + θ * L, θ] = 0 by
    rw [hz, mulVec_zero]
  have hL0 := hL.ne'
  have hK : semiK00 E I L *ᵥ ![b, θ, b + θ * L, θ] = 0 := by
    ext i
    fin_cases i <;> simp [semiK00, mulVec, dotProduct, Fin.sum_univ_four] <;> field_simp <;> ring
  have hS : ∀ g0 g1 : K, semiS L g0 g1 *ᵥ ![b, θ, b + θ * L, θ] = 0 := by
    intro g0 g1
    ext i
    fin_cases i <;> simp [semiS, mulVec, dotProduct, Fin.sum_univ_four] <;> field_simp <;> ring
  have houter : ∀ (g0 g1 r d : K) (i : Fin 4), (if r < 10 ^ 20 then (r / d ^ 2) •
      Matrix.of (fun a b => semiS L g0 g1 i a * semiS L g0 g1 i b) else (0 : Matrix (Fin 4) (Fin 4) K)) *ᵥ
        ![b, θ, b + θ * L, θ] = 0 := by
    intro g0 g1 r d i
    split
    · rw [smul_mulVec]
      have : (Matrix.of (fun a b => semiS L g0 g1 i a * semiS L g0 g1 i b)) *ᵥ ![b, θ, b + θ * L, θ]
          = fun a => semiS L g0 g1 i a * (semiS L g0 g1 *ᵥ ![b, θ, b + θ * L, θ]) i := by
        ext a
        simp [mulVec, dotProduct, Fin.sum_univ_four]
        ring
      rw [this, hS]
      ext a; simp
    · rw [zero_mulVec]
  have hB : semiBend E I L (semiClamp r0) (semiClamp r1) *ᵥ ![b, θ, b + θ * L, θ] = 0 := by
    unfold semiBend
    simp only [add_mulVec, smul_mulVec, ← mulVec_mulVec, hS, hK, mulVec_zero, smul_zero, houter, add_zero]
  set B := semiBend E I L (semiClamp r0) (semiClamp r1) with hBdef
  have hrow : ∀ i, B i 0 * b + B i 1 * θ + B i 2 * (b + θ * L) + B i 3 * θ = 0 := by
    intro i
    have := congrFun hB i
    simpa [mulVec, dotProduct, Fin.sum_univ_four] using this
  ext i
  fin_cases i
  · simp [semiKloc, mulVec, dotProduct, Fin.sum_univ_six]
  · have := hrow 0; simp [semiKloc, mulVec, dotProduct, Fin.sum_univ_six, ← hBdef]; linarith
  · have := hrow 1; simp [semiKloc, mulVec, dotProduct, Fin.sum_univ_six, ← hBdef]; linarith
  · simp [semiKloc, mulVec, dotProduct, Fin.sum_univ_six]
  · have := hrow 2; simp [semiKloc, mulVec, dotProduct, Fin.sum_univ_six, ← hBdef]; linarith
  · have := hrow 3; simp [semiKloc, mulVec, dotProduct, Fin.sum_univ_six, ← hBdef]; linarith

/-- A 3-4-5 beam meets the hypotheses of `C04_beam_partial`. -/
example : ∃ k, beamK (210000 : ℚ) 5380 83600000 5 ((4 - 1) / 5) ((6 - 2) / 5) [2] = .ok k ∧
    ((4 : ℚ) - 1) ^ 2 + (6 - 2) ^ 2 = 5 ^ 2 := by
  have : ∃ k, beamKlocRel (210000 : ℚ) 5380 83600000 5 [2] = .ok k := by
    unfold beamKlocRel condense
    rw [if_neg (by simp)]
    simp only
    rw [if_neg (by intro h; have h2 := (Matrix.det_fin_one _).symm.trans h; revert h2; simp [beamKloc])]
    exact ⟨_, rfl⟩
  obtain ⟨k, hk⟩ := this
  exact ⟨_, by unfold beamK; rw [hk]; rfl, by norm_num⟩

end field

end Metku.Fem
