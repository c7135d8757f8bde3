import Verif.Model.Elements
import Verif.Lemmas.Assembly
import Mathlib.Tactic.FieldSimp
import Mathlib.Tactic.Positivity
import Mathlib.Tactic.LinearCombination
import Mathlib.Data.Matrix.Basic

/-! Helper lemmas about element matrices. -/
namespace Metku.Fem

open Matrix

variable {K : Type} [Field K]

theorem quad_congrT {m n : Type} [Fintype m] [Fintype n] (T : Matrix m n K) (k : Matrix m m K) (x y : n → K) :
    x ⬝ᵥ (congrT T k) *ᵥ y = (T *ᵥ x) ⬝ᵥ k *ᵥ (T *ᵥ y) := by
  unfold congrT
  rw [← mulVec_mulVec, ← mulVec_mulVec, dotProduct_mulVec, vecMul_transpose]

theorem congrT_symm {m n : Type} [Fintype m] (T : Matrix m n K) (k : Matrix m m K) (h : k.IsSymm) :
    (congrT T k).IsSymm := by
  unfold congrT Matrix.IsSymm
  rw [transpose_mul, transpose_mul, transpose_transpose, h.eq, Matrix.mul_assoc]

theorem form_matNat {n : Nat} (M : Matrix (Fin n) (Fin n) K) (w u : Nat → K) :
    form n (matNat M) w u = (fun i : Fin n => w i) ⬝ᵥ M *ᵥ (fun i : Fin n => u i) := by
  unfold form dotProduct mulVec dotProduct
  rw [Finset.sum_range]
  apply Finset.sum_congr rfl
  intro i _
  rw [Finset.sum_range, Finset.mul_sum]
  apply Finset.sum_congr rfl
  intro j _
  simp [matNat, mul_assoc]

theorem matNat_symm {n : Nat} (M : Matrix (Fin n) (Fin n) K) (h : M.IsSymm) (i j : Nat) :
    matNat M i j = matNat M j i := by
  unfold matNat
  by_cases hij : i < n ∧ j < n
  · rw [dif_pos hij, dif_pos hij.symm]
    exact h.apply _ _
  · rw [dif_neg hij, dif_neg (fun h => hij h.symm)]

theorem rodKloc_quad (k : K) (x : Fin 2 → K) :
    x ⬝ᵥ rodKloc k *ᵥ x = k * (x 1 - x 0) ^ 2 := by
  simp [rodKloc, dotProduct, mulVec, Fin.sum_univ_two]
  ring

theorem rodKloc_symm (k : K) : (rodKloc k).IsSymm := by
  ext i j
  fin_cases i <;> fin_cases j <;> simp [rodKloc]

theorem beamKloc_symm (E A I L : K) : (beamKloc E A I L).IsSymm := by
  ext i j
  fin_cases i <;> fin_cases j <;> simp [beamKloc]

theorem beamKloc_quad [CharZero K] (E A I L : K) (hL : L ≠ 0) (x : Fin 6 → K) :
    x ⬝ᵥ beamKloc E A I L *ᵥ x = E * A / L * (x 3 - x 0) ^ 2 + E * I / L * (x 5 - x 2) ^ 2
      + 12 * (E * I) / L ^ 3 * (x 1 - x 4 + L * (x 2 + x 5) / 2) ^ 2 := by
  simp [beamKloc, dotProduct, mulVec, Fin.sum_univ_six]
  field_simp
  ring

theorem semiK00_symm (E I L : K) : (semiK00 E I L).IsSymm := by
  ext i j
  fin_cases i <;> fin_cases j <;> simp [semiK00]

theorem semiK00_quad [CharZero K] (E I L : K) (hL : L ≠ 0) (x : Fin 4 → K) :
    x ⬝ᵥ semiK00 E I L *ᵥ x = E * I / L * (x 3 - x 1) ^ 2
      + 12 * (E * I) / L ^ 3 * (x 0 - x 2 + L * (x 1 + x 3) / 2) ^ 2 := by
  simp [semiK00, dotProduct, mulVec, Fin.sum_univ_four]
  field_simp
  ring

end Metku.Fem
