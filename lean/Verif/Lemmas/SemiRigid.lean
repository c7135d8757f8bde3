import Verif.Lemmas.Elements
import Mathlib.Tactic.Linarith

/-! Semi-rigid beam: helper lemmas. -/
namespace Metku.Fem

open Matrix

variable {K : Type} [Field K] [LinearOrder K] [IsStrictOrderedRing K]

theorem semiClamp_pos (k : K) : 0 < semiClamp k := by
  unfold semiClamp
  split
  · positivity
  · rename_i h
    split
    · positivity
    · push Not at h
      have : (0 : K) < 1 / 10 ^ 4 := by positivity
      linarith

theorem semiGamma_nonneg {E I L k : K} (hE : 0 < E) (hI : 0 < I) (hL : 0 < L) (hk : 0 < k) :
    0 ≤ semiGamma E I L k := by
  unfold semiGamma
  split
  · exact le_refl _
  · positivity

theorem semiDelta_pos {g0 g1 : K} (h0 : 0 ≤ g0) (h1 : 0 ≤ g1) : 0 < semiDelta g0 g1 := by
  unfold semiDelta
  have := mul_nonneg h0 h1
  nlinarith

theorem semiBend_symm (E I L r0 r1 : K) : (semiBend E I L r0 r1).IsSymm := by
  unfold semiBend Matrix.IsSymm
  simp only [transpose_add, transpose_smul, transpose_mul, transpose_transpose, (semiK00_symm E I L).eq]
  congr 1
  · congr 1
    rw [add_comm ((1 / _) • (_ * semiK00 E I L)), Matrix.mul_assoc]
  · congr 1 <;>
    · split
      · rw [transpose_smul]; congr 1; ext a b; simp [mul_comm]
      · simp

/-- The bending energy of the semi-rigid beam: beam energy at the rotated ends plus spring energies. -/
theorem semiBend_quad (E I L r0 r1 : K) (x : Fin 4 → K) :
    let g0 := semiGamma E I L r0
    let g1 := semiGamma E I L r1
    let d := semiDelta g0 g1
    let S := semiS L g0 g1
    x ⬝ᵥ semiBend E I L r0 r1 *ᵥ x =
      (x + (1 / d) • (S *ᵥ x)) ⬝ᵥ semiK00 E I L *ᵥ (x + (1 / d) • (S *ᵥ x))
      + (if r0 < 10 ^ 20 then r0 / d ^ 2 * ((S *ᵥ x) 1) ^ 2 else 0)
      + (if r1 < 10 ^ 20 then r1 / d ^ 2 * ((S *ᵥ x) 3) ^ 2 else 0) := by
  intro g0 g1 d S
  have houter : ∀ (r : K) (i : Fin 4), x ⬝ᵥ (if r < 10 ^ 20 then (r / d ^ 2) •
      Matrix.of (fun a b => S i a * S i b) else (0 : Matrix (Fin 4) (Fin 4) K)) *ᵥ x
      = if r < 10 ^ 20 then r / d ^ 2 * ((S *ᵥ x) i) ^ 2 else 0 := by
    intro r i
    split
    · rw [smul_mulVec, dotProduct_smul, smul_eq_mul]
      congr 1
      simp [dotProduct, mulVec, Fin.sum_univ_four]
      ring
    · simp
  have hk : semiBend E I L r0 r1 = semiK00 E I L + ((1 / d) • (semiK00 E I L * S) + (1 / d) • (Sᵀ * semiK00 E I L)
      + (1 / d ^ 2) • (Sᵀ * semiK00 E I L * S))
      + ((if r0 < 10 ^ 20 then (r0 / d ^ 2) • Matrix.of (fun a b => S 1 a * S 1 b) else 0)
        + (if r1 < 10 ^ 20 then (r1 / d ^ 2) • Matrix.of (fun a b => S 3 a * S 3 b) else 0)) := rfl
  rw [hk]
  simp only [add_mulVec, dotProduct_add]
  rw [houter, houter, ← add_assoc]
  congr 2
  simp only [mulVec_add, mulVec_smul, dotProduct_add, add_dotProduct, smul_dotProduct, dotProduct_smul,
    smul_mulVec, smul_eq_mul, ← mulVec_mulVec]
  have ht : ∀ y : Fin 4 → K, x ⬝ᵥ Sᵀ *ᵥ y = (S *ᵥ x) ⬝ᵥ y := by
    intro y; rw [dotProduct_mulVec, vecMul_transpose]
  rw [ht, ht]
  by_cases hd : d = 0
  · simp [hd]
  · field_simp
    ring

end Metku.Fem
