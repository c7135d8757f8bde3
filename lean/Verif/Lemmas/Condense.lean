import Verif.Lemmas.Elements
import Mathlib.LinearAlgebra.Matrix.NonsingularInverse
import Mathlib.Algebra.BigOperators.Fin
import Mathlib.LinearAlgebra.Matrix.ToLinearEquiv

/-! Static condensation (`condense`, `condenseLoad`): helper lemmas. -/
namespace Metku.Fem

open Matrix

set_option linter.unusedSectionVars false

variable {K : Type} [Field K] [DecidableEq K]

/-- Block of released degrees of freedom. -/
abbrev blk (k0 : Matrix (Fin 6) (Fin 6) K) (rel : List (Fin 6)) : Matrix (Fin rel.length) (Fin rel.length) K :=
  k0.submatrix (fun a : Fin rel.length => rel[a]) (fun a : Fin rel.length => rel[a])

theorem condense_ok {k0 kc : Matrix (Fin 6) (Fin 6) K} {rel : List (Fin 6)} (hne : rel ≠ [])
    (h : condense k0 rel = .ok kc) :
    (blk k0 rel).det ≠ 0 ∧ kc = Matrix.of fun i j => if i ∈ rel ∨ j ∈ rel then (0 : K)
      else k0 i j - ∑ a, ∑ b, k0 i rel[a] * (blk k0 rel)⁻¹ a b * k0 rel[b] j := by
  unfold condense at h
  rw [if_neg hne] at h
  simp only at h
  split at h
  · cases h
  · rename_i hd
    cases h
    exact ⟨hd, rfl⟩

theorem blk_nodup {k0 : Matrix (Fin 6) (Fin 6) K} {rel : List (Fin 6)} (h : (blk k0 rel).det ≠ 0) :
    Function.Injective (fun a : Fin rel.length => rel[a]) := by
  intro a b hab
  by_contra hne
  apply h
  apply Matrix.det_zero_of_row_eq hne
  ext c
  simp only at hab
  simp only [blk, Matrix.submatrix_apply, hab]

/-- Completion of a displacement pattern by released displacements `y`. -/
def complete (rel : List (Fin 6)) (v : Fin 6 → K) (y : Fin rel.length → K) : Fin 6 → K :=
  fun i => (if i ∈ rel then 0 else v i) + ∑ a, if rel[a] = i then y a else 0

theorem complete_off {rel : List (Fin 6)} (v : Fin 6 → K) (y : Fin rel.length → K) {i : Fin 6} (hi : i ∉ rel) :
    complete rel v y i = v i := by
  unfold complete
  rw [if_neg hi, Finset.sum_eq_zero, add_zero]
  intro a _
  rw [if_neg]
  rintro rfl
  exact hi (List.getElem_mem _)

theorem mulVec_complete (k0 : Matrix (Fin 6) (Fin 6) K) (rel : List (Fin 6)) (v : Fin 6 → K)
    (y : Fin rel.length → K) (i : Fin 6) :
    (k0 *ᵥ complete rel v y) i = (∑ j, k0 i j * (if j ∈ rel then 0 else v j)) + ∑ a, k0 i rel[a] * y a := by
  unfold mulVec dotProduct complete
  simp only [mul_add, Finset.sum_add_distrib, Finset.mul_sum]
  congr 1
  rw [Finset.sum_comm]
  apply Finset.sum_congr rfl
  intro a _
  rw [Finset.sum_eq_single (rel[a])]
  · simp
  · intro b _ hb; rw [if_neg (Ne.symm hb), mul_zero]
  · intro h; exact absurd (Finset.mem_univ _) h

/-- Released displacements for which the released forces vanish, with additional load `f`. -/
noncomputable def relDisp (k0 : Matrix (Fin 6) (Fin 6) K) (rel : List (Fin 6)) (v f : Fin 6 → K) : Fin rel.length → K :=
  (blk k0 rel)⁻¹ *ᵥ (fun b => f rel[b] - ∑ j, k0 rel[b] j * (if j ∈ rel then 0 else v j))

theorem relDisp_zero {k0 : Matrix (Fin 6) (Fin 6) K} {rel : List (Fin 6)} (h : (blk k0 rel).det ≠ 0)
    (v f : Fin 6 → K) {i : Fin 6} (hi : i ∈ rel) :
    (k0 *ᵥ complete rel v (relDisp k0 rel v f)) i = f i := by
  obtain ⟨n, hn, rfl⟩ := List.getElem_of_mem hi
  rw [mulVec_complete]
  have h2 : ∑ a, k0 rel[n] rel[a] * relDisp k0 rel v f a = ((blk k0 rel) *ᵥ relDisp k0 rel v f) ⟨n, hn⟩ := rfl
  rw [h2]
  unfold relDisp
  rw [mulVec_mulVec, Matrix.mul_nonsing_inv _ (isUnit_iff_ne_zero.mpr h), one_mulVec]
  simp

theorem condense_row {k0 kc : Matrix (Fin 6) (Fin 6) K} {rel : List (Fin 6)} (hne : rel ≠ [])
    (h : condense k0 rel = .ok kc) (v : Fin 6 → K) {i : Fin 6} (hi : i ∉ rel) :
    (kc *ᵥ v) i = (k0 *ᵥ complete rel v (relDisp k0 rel v 0)) i := by
  obtain ⟨_, hkc⟩ := condense_ok hne h
  rw [mulVec_complete, hkc]
  unfold mulVec dotProduct
  simp only [Matrix.of_apply, hi, false_or]
  have : ∑ a, k0 i rel[a] * relDisp k0 rel v 0 a =
      - ∑ j, (∑ a, ∑ b, k0 i rel[a] * (blk k0 rel)⁻¹ a b * k0 rel[b] j) * (if j ∈ rel then 0 else v j) := by
    unfold relDisp mulVec dotProduct
    simp only [Pi.zero_apply, zero_sub, mul_neg, Finset.sum_neg_distrib, Finset.mul_sum, Finset.sum_mul]
    congr 1
    rw [Finset.sum_comm' (s := Finset.univ) (t := fun _ => Finset.univ) (t' := Finset.univ)
      (s' := fun _ => Finset.univ) (by simp)]
    rw [Finset.sum_comm]
    conv_rhs => rw [Finset.sum_comm]
    apply Finset.sum_congr rfl; intro a _
    conv_rhs => rw [Finset.sum_comm]
    apply Finset.sum_congr rfl; intro b _
    apply Finset.sum_congr rfl; intro j _
    ring
  rw [this, ← sub_eq_add_neg, ← Finset.sum_sub_distrib]
  apply Finset.sum_congr rfl
  intro j _
  by_cases hj : j ∈ rel
  · simp [hj]
  · simp [hj]; ring

theorem condense_row_rel {k0 kc : Matrix (Fin 6) (Fin 6) K} {rel : List (Fin 6)} (hne : rel ≠ [])
    (h : condense k0 rel = .ok kc) (v : Fin 6 → K) {i : Fin 6} (hi : i ∈ rel) : (kc *ᵥ v) i = 0 := by
  obtain ⟨_, hkc⟩ := condense_ok hne h
  rw [hkc]
  unfold mulVec dotProduct
  simp [hi]

theorem condense_symm {k0 kc : Matrix (Fin 6) (Fin 6) K} {rel : List (Fin 6)} (hs : k0.IsSymm)
    (h : condense k0 rel = .ok kc) : kc.IsSymm := by
  by_cases hne : rel = []
  · unfold condense at h; rw [if_pos hne] at h; cases h; exact hs
  · obtain ⟨_, hkc⟩ := condense_ok hne h
    have hb : (blk k0 rel).IsSymm := by
      ext a b; exact hs.apply _ _
    have hi : ∀ a b, (blk k0 rel)⁻¹ a b = (blk k0 rel)⁻¹ b a := by
      intro a b
      have : ((blk k0 rel)⁻¹)ᵀ = (blk k0 rel)⁻¹ := by rw [Matrix.transpose_nonsing_inv, hb.eq]
      conv_lhs => rw [← this]
      rfl
    ext i j
    rw [Matrix.transpose_apply, hkc]
    simp only [Matrix.of_apply, or_comm (a := j ∈ rel)]
    split
    · rfl
    · rw [hs.apply j i]
      congr 1
      rw [Finset.sum_comm]
      apply Finset.sum_congr rfl; intro a _
      apply Finset.sum_congr rfl; intro b _
      rw [hi b a, hs.apply, hs.apply i]
      ring

theorem condense_quad {k0 kc : Matrix (Fin 6) (Fin 6) K} {rel : List (Fin 6)} (hne : rel ≠ [])
    (h : condense k0 rel = .ok kc) (v : Fin 6 → K) :
    ∃ w : Fin 6 → K, v ⬝ᵥ kc *ᵥ v = w ⬝ᵥ k0 *ᵥ w := by
  refine ⟨complete rel v (relDisp k0 rel v 0), ?_⟩
  unfold dotProduct
  apply Finset.sum_congr rfl
  intro i _
  by_cases hi : i ∈ rel
  · rw [condense_row_rel hne h v hi, relDisp_zero (condense_ok hne h).1 v 0 hi]; simp
  · rw [condense_row hne h v hi, complete_off _ _ hi]

theorem condense_unique {k0 : Matrix (Fin 6) (Fin 6) K} {rel : List (Fin 6)} (hd : (blk k0 rel).det ≠ 0)
    (w w' : Fin 6 → K) (h1 : ∀ i, i ∉ rel → w i = w' i)
    (h2 : ∀ i ∈ rel, (k0 *ᵥ w) i = (k0 *ᵥ w') i) : w = w' := by
  set e : Fin 6 → K := w - w' with he
  have hoff : ∀ i, i ∉ rel → e i = 0 := fun i hi => by simp [he, h1 i hi]
  have hrow : ∀ i ∈ rel, (k0 *ᵥ e) i = 0 := fun i hi => by
    simp [he, mulVec_sub, h2 i hi]
  have hinj := blk_nodup hd
  have hsum : ∀ i, (k0 *ᵥ e) i = ∑ a : Fin rel.length, k0 i rel[a] * e rel[a] := by
    intro i
    have h3 : (k0 *ᵥ e) i = ∑ j ∈ Finset.univ.image (fun a : Fin rel.length => rel[a]), k0 i j * e j := by
      unfold mulVec dotProduct
      symm
      apply Finset.sum_subset (Finset.subset_univ _)
      intro j _ hj
      rw [hoff j, mul_zero]
      intro hm
      obtain ⟨n, hn, rfl⟩ := List.getElem_of_mem hm
      exact hj (Finset.mem_image.mpr ⟨⟨n, hn⟩, Finset.mem_univ _, rfl⟩)
    rw [h3, Finset.sum_image (fun a _ b _ hab => hinj hab)]
  have hz : (blk k0 rel) *ᵥ (fun a => e rel[a]) = 0 := by
    ext b
    have := hrow rel[b] (List.getElem_mem _)
    rw [hsum] at this
    exact this
  have hz2 := Matrix.eq_zero_of_mulVec_eq_zero hd hz
  have : e = 0 := by
    ext i
    by_cases hi : i ∈ rel
    · obtain ⟨n, hn, rfl⟩ := List.getElem_of_mem hi
      exact congrFun hz2 ⟨n, hn⟩
    · exact hoff i hi
  exact sub_eq_zero.mp this

theorem condenseLoad_ok {k0 : Matrix (Fin 6) (Fin 6) K} {rel : List (Fin 6)} {f fc : Fin 6 → K} (hne : rel ≠ [])
    (h : condenseLoad k0 rel f = .ok fc) :
    (blk k0 rel).det ≠ 0 ∧ fc = fun i => if i ∈ rel then (0 : K)
      else f i - ∑ a, ∑ b, k0 i rel[a] * (blk k0 rel)⁻¹ a b * f rel[b] := by
  unfold condenseLoad at h
  rw [if_neg hne] at h
  simp only at h
  split at h
  · cases h
  · rename_i hd
    cases h
    exact ⟨hd, rfl⟩

/-- With line load: the condensed pair (`kc`, `fc`) gives the end forces of the member whose released
    displacements make `k0 w - f` vanish in the released directions. -/
theorem condense_load_row {k0 kc : Matrix (Fin 6) (Fin 6) K} {rel : List (Fin 6)} {f fc : Fin 6 → K}
    (hne : rel ≠ []) (h : condense k0 rel = .ok kc) (hf : condenseLoad k0 rel f = .ok fc) (v : Fin 6 → K)
    {i : Fin 6} (hi : i ∉ rel) :
    (kc *ᵥ v) i - fc i = (k0 *ᵥ complete rel v (relDisp k0 rel v f)) i - f i := by
  rw [condense_row hne h v hi, (condenseLoad_ok hne hf).2]
  simp only [hi, if_false]
  rw [mulVec_complete, mulVec_complete]
  have : ∑ a, k0 i rel[a] * relDisp k0 rel v f a = ∑ a, k0 i rel[a] * relDisp k0 rel v 0 a
      + ∑ a, ∑ b, k0 i rel[a] * (blk k0 rel)⁻¹ a b * f rel[b] := by
    rw [← Finset.sum_add_distrib]
    apply Finset.sum_congr rfl; intro a _
    have : relDisp k0 rel v f a = relDisp k0 rel v 0 a + ∑ b, (blk k0 rel)⁻¹ a b * f rel[b] := by
      unfold relDisp mulVec dotProduct
      rw [← Finset.sum_add_distrib]
      apply Finset.sum_congr rfl; intro b _
      simp only [Pi.zero_apply]
      ring
    rw [this, mul_add, Finset.mul_sum]
    congr 1
    apply Finset.sum_congr rfl; intro b _
    ring
  rw [this]
  ring

end Metku.Fem
