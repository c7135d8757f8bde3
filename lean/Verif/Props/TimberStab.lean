import Verif.Model.TimberStab
import Verif.Spec.TimberStab
import Verif.Props.TimberShear

/-!
Buckling factors, lateral supports and buckling lengths of timber members.
-/
namespace Metku.Timber

open TimberSpec Real

/-! ### C151: reduction of buckling -/

theorem betaC_pos (k : Kind) : 0 < betaC k ∧ betaC k ≤ 0.2 := by
  unfold betaC
  split_ifs <;> norm_num

theorem kFac_ge (k : Kind) {l : ℝ} (hl : 0 ≤ l) : l ≤ kFac (betaC k) l := by
  obtain ⟨h1, h2⟩ := betaC_pos k
  unfold kFac
  rcases le_or_gt 0.3 l with h | h
  · nlinarith [sq_nonneg (l - 1), mul_nonneg h1.le (sub_nonneg.2 h)]
  · nlinarith [sq_nonneg (l - 1), mul_nonneg h1.le hl]

theorem rad_nonneg (k : Kind) {l : ℝ} (hl : 0 ≤ l) : 0 ≤ kFac (betaC k) l ^ 2 - l ^ 2 := by
  have := kFac_ge k hl
  nlinarith

/-- The inverse of the reduction. -/
noncomputable def kInv (bc l : ℝ) : ℝ := kFac bc l + √(kFac bc l ^ 2 - l ^ 2)

theorem kC_eq (bc l : ℝ) : kC bc l = (kInv bc l)⁻¹ := rfl

theorem kInv_quad (k : Kind) {l : ℝ} (hl : 0 ≤ l) : kInv (betaC k) l ^ 2 - (1 + betaC k * (l - 0.3) + l ^ 2) * kInv (betaC k) l + l ^ 2 = 0 := by
  have h := Real.sq_sqrt (rad_nonneg k hl)
  have h2 : 1 + betaC k * (l - 0.3) + l ^ 2 = 2 * kFac (betaC k) l := by
    unfold kFac
    ring
  rw [h2]
  unfold kInv
  nlinarith

theorem kInv_pos (k : Kind) {l : ℝ} (hl : 0 ≤ l) : 0 < kInv (betaC k) l := by
  have h1 := kFac_ge k hl
  have h2 := Real.sqrt_nonneg (kFac (betaC k) l ^ 2 - l ^ 2)
  rcases hl.eq_or_lt with rfl | h
  · have : 0 < kFac (betaC k) 0 := by
      obtain ⟨h3, h4⟩ := betaC_pos k
      unfold kFac
      nlinarith
    unfold kInv
    linarith
  · unfold kInv
    linarith

theorem kInv_ge (k : Kind) {l : ℝ} (hl : 0.3 ≤ l) : 1 ≤ kInv (betaC k) l ∧ l ^ 2 ≤ kInv (betaC k) l := by
  obtain ⟨h1, -⟩ := betaC_pos k
  have hk : (1 + l ^ 2) / 2 ≤ kFac (betaC k) l := by
    unfold kFac
    nlinarith [mul_nonneg h1.le (sub_nonneg.2 hl)]
  have hs : |1 - l ^ 2| / 2 ≤ √(kFac (betaC k) l ^ 2 - l ^ 2) := by
    refine Real.le_sqrt_of_sq_le ?_
    rw [div_pow, sq_abs]
    nlinarith [sq_nonneg l]
  unfold kInv
  have a1 := le_abs_self (1 - l ^ 2)
  have a2 := neg_abs_le (1 - l ^ 2)
  constructor <;> linarith

/-- **C151** (partial).  From the relative slenderness 0.3 on, the reduction of buckling solves the equation of Ayrton and Perry with the imperfection of the material, is not above one nor above the Euler stress, and falls strictly with
the slenderness.  The root in the code is of a number that is not negative for every slenderness. -/
theorem C151_partial (k : Kind) :
    (∀ l : ℝ, 0 ≤ l → 0 ≤ kFac (betaC k) l ^ 2 - l ^ 2) ∧ (∀ l : ℝ, 0.3 ≤ l → Perry ((if k = .solid then 1 / 5 else 1 / 10) * (l - 0.3)) l (kC (betaC k) l)) ∧
    ∀ l l' : ℝ, 0.3 ≤ l → l < l' → kC (betaC k) l' < kC (betaC k) l := by
  have hβ : (if k = .solid then (1 : ℝ) / 5 else 1 / 10) = betaC k := by
    unfold betaC
    split_ifs <;> norm_num
  refine ⟨fun l hl => rad_nonneg k hl, fun l hl => ?_, fun l l' hl hlt => ?_⟩
  · have hl0 : (0 : ℝ) ≤ l := by linarith
    have hp := kInv_pos k hl0
    have hq := kInv_quad k hl0
    obtain ⟨g1, g2⟩ := kInv_ge k hl
    rw [kC_eq, hβ]
    refine ⟨inv_pos.2 hp, ?_, inv_le_one_of_one_le₀ g1, ?_⟩
    · field_simp
      nlinarith
    · rw [inv_mul_le_iff₀ hp, mul_one]
      exact g2
  · have hl0 : (0 : ℝ) ≤ l := by linarith
    have hl0' : (0 : ℝ) ≤ l' := by linarith
    have hp := kInv_pos k hl0
    have hp' := kInv_pos k hl0'
    obtain ⟨g1, g2⟩ := kInv_ge k hl
    obtain ⟨g1', g2'⟩ := kInv_ge k (hl.trans hlt.le)
    rw [kC_eq, kC_eq]
    refine inv_strictAnti₀ hp ?_
    by_contra hc
    push Not at hc
    have e : ∀ x : ℝ, 0 ≤ x → (kInv (betaC k) x - 1) * (1 - x ^ 2 / kInv (betaC k) x) = betaC k * (x - 0.3) := by
      intro x hx
      have hpx := kInv_pos k hx
      have hqx := kInv_quad k hx
      field_simp
      nlinarith
    have e1 := e l hl0
    have e2 := e l' hl0'
    have hb := (betaC_pos k).1
    have q1 : l ^ 2 / kInv (betaC k) l ≤ l' ^ 2 / kInv (betaC k) l' := by
      rw [div_le_div_iff₀ hp hp']
      exact mul_le_mul (by nlinarith) hc hp'.le (by positivity)
    have q2 : 0 ≤ 1 - l' ^ 2 / kInv (betaC k) l' := by
      rw [sub_nonneg, div_le_one hp']
      exact g2'
    have q3 : (kInv (betaC k) l' - 1) * (1 - l' ^ 2 / kInv (betaC k) l') ≤ (kInv (betaC k) l - 1) * (1 - l ^ 2 / kInv (betaC k) l) :=
      mul_le_mul (by linarith) (by linarith) q2 (by linarith)
    rw [e1, e2] at q3
    nlinarith [mul_pos hb (sub_pos.2 hlt)]

/-- A strut of glulam with relative slenderness 1. -/
example : Perry ((if Kind.glt = .solid then 1 / 5 else 1 / 10) * (1 - 0.3)) 1 (kC (betaC .glt) 1) ∧ kC (betaC .glt) 1 < kC (betaC .glt) 0.5 :=
  ⟨(C151_partial .glt).2.1 1 (by norm_num), (C151_partial .glt).2.2 0.5 1 (by norm_num) (by norm_num)⟩

/-- **C151** (negation).  Below the relative slenderness 0.3 the reduction is above one: short struts are rated stronger than their cross section. -/
theorem C151_violation (k : Kind) (l : ℝ) (hl : 0 ≤ l) (h : l < 0.3) : 1 < kC (betaC k) l := by
  obtain ⟨h1, -⟩ := betaC_pos k
  have hk : kFac (betaC k) l < (1 + l ^ 2) / 2 := by
    unfold kFac
    nlinarith [mul_pos h1 (sub_pos.2 h)]
  have hk0 := kFac_ge k hl
  have hs : √(kFac (betaC k) l ^ 2 - l ^ 2) < (1 - l ^ 2) / 2 := by
    refine (Real.sqrt_lt' (by nlinarith)).2 ?_
    nlinarith
  rw [kC_eq]
  refine (one_lt_inv₀ (kInv_pos k hl)).2 ?_
  unfold kInv
  linarith

example : 1 < kC (betaC .solid) 0.1 := C151_violation .solid 0.1 (by norm_num) (by norm_num)

/-! ### C152: reduction of lateral buckling -/

theorem kCrit_red (l : ℝ) : LateralRed l (kCrit l) := by
  unfold LateralRed kCrit
  refine ⟨fun h => ?_, fun h h' => ?_, fun h => ?_⟩
  · rw [if_pos (by linarith)]
  · rw [if_neg (by linarith), if_pos (by linarith)]
  · rw [if_neg (by linarith), if_neg (by linarith)]
    have : 0 < l := by linarith
    field_simp

/-- **C152** (partial).  The reduction of lateral buckling is that of EN 1995-1-1 (6.34), lies between zero and one, rates no stress above the critical one, and falls with the slenderness up to 1.4 and from 1.4 on, and otherwise but for 0.0003. -/
theorem C152_partial :
    (∀ l : ℝ, 0 < kCrit l ∧ kCrit l ≤ 1) ∧ (∀ fmk s : ℝ, 0 < fmk → 0 < s → kCrit (relM fmk s) * fmk ≤ s) ∧
    (∀ l l' : ℝ, l ≤ l' → l' ≤ 1.4 → kCrit l' ≤ kCrit l) ∧ (∀ l l' : ℝ, 1.4 < l → l ≤ l' → kCrit l' ≤ kCrit l) ∧ (∀ l l' : ℝ, l ≤ l' → kCrit l' ≤ kCrit l + 0.0003) ∧ ∀ l : ℝ, LateralRed l (kCrit l) := by
  have hinv : ∀ l : ℝ, 1.4 < l → 1 / l ^ 2 ≤ 0.5103 := by
    intro l hl
    rw [div_le_iff₀ (by positivity)]
    nlinarith
  have h3 : ∀ l l' : ℝ, l ≤ l' → l' ≤ 1.4 → kCrit l' ≤ kCrit l := by
    intro l l' h h'
    unfold kCrit
    split_ifs <;> linarith
  have h4 : ∀ l l' : ℝ, 1.4 < l → l ≤ l' → kCrit l' ≤ kCrit l := by
    intro l l' h h'
    unfold kCrit
    rw [if_neg (by linarith), if_neg (by linarith), if_neg (by linarith), if_neg (by linarith)]
    exact one_div_le_one_div_of_le (by positivity) (by nlinarith)
  refine ⟨fun l => ?_, ?_, h3, h4, ?_, kCrit_red⟩
  · unfold kCrit
    split_ifs with g1 g2
    · norm_num
    · constructor <;> linarith
    · have hl : 1.4 < l := not_le.1 g2
      exact ⟨by positivity, (hinv l hl).trans (by norm_num)⟩
  · intro fmk s hf hs
    have hq : 0 < fmk / s := by positivity
    have hsq : relM fmk s ^ 2 = fmk / s := Real.sq_sqrt hq.le
    have hpos : 0 < relM fmk s := Real.sqrt_pos.2 hq
    have key : kCrit (relM fmk s) * relM fmk s ^ 2 ≤ 1 := by
      generalize relM fmk s = l at hpos
      unfold kCrit
      split_ifs with g1 g2
      · nlinarith
      · nlinarith [sq_nonneg (l - 1.3867), mul_nonneg hpos.le (sq_nonneg (l - 1.3867))]
      · rw [one_div_mul_cancel (by positivity)]
    rw [hsq, ← mul_div_assoc, div_le_one hs] at key
    exact key
  · intro l l' h
    rcases le_or_gt l' 1.4 with c | c
    · linarith [h3 l l' h c]
    · rcases le_or_gt l 1.4 with d | d
      · have h5 : kCrit l' ≤ 0.5103 := by
          unfold kCrit
          rw [if_neg (by linarith), if_neg (by linarith)]
          exact hinv l' c
        have h6 : 0.51 ≤ kCrit l := by
          unfold kCrit
          split_ifs <;> linarith
        linarith
      · linarith [h4 l l' d h]

/-- A beam whose critical stress is half its strength. -/
example : kCrit (relM 30 15) * 30 ≤ 15 := C152_partial.2.1 30 15 (by norm_num) (by norm_num)

/-- **C152** (negation).  The reduction rises at the slenderness 1.4. -/
theorem C152_violation : ∃ l l' : ℝ, 0 < l ∧ l < l' ∧ kCrit l < kCrit l' := by
  refine ⟨1.4, 1.4001, by norm_num, by norm_num, ?_⟩
  unfold kCrit
  norm_num

/-- **C152** (negation).  Between the tabulated ratios of sides, and for squares, the critical stress is more than 1.2 times the one with the torsion constant of a thin rectangle, which no rectangle of that size exceeds. -/
theorem C152_violation_torsion (e005 g005 b h lef : ℝ) (he : 0 < e005) (hg : 0 < g005) (hb : 0 < b) (hle : b ≤ h) (hT : ¬ Tabulated (h / b)) (hl : 0 < lef) :
    1.2 * sigmaCrit e005 g005 b h (thinInertia h b) lef < sigmaCrit e005 g005 b h (torInertia h b) lef := by
  have hh : 0 < h := lt_of_lt_of_le hb hle
  have h1 := C148_violation h b hb hle hT
  have ht : 0 < thinInertia h b := by
    unfold thinInertia
    rw [max_eq_left hle, min_eq_right hle]
    positivity
  unfold sigmaCrit
  rw [← mul_div_assoc]
  refine div_lt_div_of_pos_right ?_ (by positivity)
  have hc : 0 < e005 * (h * b ^ 3 / 12) * g005 := by positivity
  have hr : 1.2 * √(e005 * (h * b ^ 3 / 12) * g005 * thinInertia h b) < √(e005 * (h * b ^ 3 / 12) * g005 * torInertia h b) := by
    have e : 1.2 * √(e005 * (h * b ^ 3 / 12) * g005 * thinInertia h b) = √(1.44 * (e005 * (h * b ^ 3 / 12) * g005 * thinInertia h b)) := by
      rw [Real.sqrt_mul (by norm_num : (0 : ℝ) ≤ 1.44), show (1.44 : ℝ) = 1.2 ^ 2 by norm_num, Real.sqrt_sq (by norm_num : (0 : ℝ) ≤ 1.2)]
    rw [e]
    refine Real.sqrt_lt_sqrt (by positivity) ?_
    nlinarith [mul_lt_mul_of_pos_left h1 hc, mul_pos hc ht]
  nlinarith [mul_lt_mul_of_pos_left hr Real.pi_pos]

/-- A square of 100 mm. -/
example : 1.2 * sigmaCrit 9400 540 100 100 (thinInertia 100 100) 3000 < sigmaCrit 9400 540 100 100 (torInertia 100 100) 3000 := by
  refine C152_violation_torsion 9400 540 100 100 3000 (by norm_num) (by norm_num) (by norm_num) le_rfl ?_ (by norm_num)
  unfold Tabulated
  norm_num [abs_lt, abs_of_neg, abs_of_pos]

/-! ### C153: segments between lateral supports -/

theorem sortR_sorted (l : List ℝ) : (sortR l).Pairwise (· ≤ ·) := List.pairwise_insertionSort _ l

theorem sortR_perm (l : List ℝ) : (sortR l).Perm l := List.perm_insertionSort _ l

theorem sortR_eq {l r : List ℝ} (hp : l.Perm r) (hs : r.Pairwise (· ≤ ·)) : sortR l = r :=
  List.Perm.eq_of_pairwise (fun _ _ _ _ h1 h2 => le_antisymm h1 h2) (sortR_sorted l) hs ((sortR_perm l).trans hp)

/-- The ends of the segments are 0, the supports in order, and 1. -/
theorem edges_eq {s : List ℝ} (h : ∀ x ∈ s, 0 ≤ x ∧ x ≤ 1) : edges s = 0 :: (sortR s ++ [1]) := by
  refine sortR_eq ?_ ?_
  · have h1 : (s ++ [0, 1]).Perm (0 :: (s ++ [1])) := List.perm_middle
    exact h1.trans (List.Perm.cons _ ((sortR_perm s).symm.append_right _))
  · have hm : ∀ x ∈ sortR s, 0 ≤ x ∧ x ≤ 1 := fun x hx => h x ((sortR_perm s).mem_iff.1 hx)
    rw [List.pairwise_cons, List.pairwise_append]
    refine ⟨?_, sortR_sorted s, List.pairwise_singleton _ _, ?_⟩
    · intro a ha
      rcases List.mem_append.1 ha with ha | ha
      · exact (hm a ha).1
      · rw [List.mem_singleton.1 ha]
        exact zero_le_one
    · intro a ha b hb
      rw [List.mem_singleton.1 hb]
      exact (hm a ha).2

theorem getD_at {l : List ℝ} {i : ℕ} (h : i < l.length) : l.getD i 0 = l[i] := by
  rw [List.getD_eq_getElem?_getD, List.getElem?_eq_getElem h]
  rfl

theorem segLengths_eq {L : ℝ} {s : List ℝ} (h : ∀ x ∈ s, 0 ≤ x ∧ x ≤ 1) : segLengths L s = (segs s).map fun g => L * (g.2 - g.1) := by
  unfold segLengths segs
  rw [edges_eq h]
  generalize sortR s = t
  refine List.ext_getElem ?_ ?_
  · simp
  · intro i h1 h2
    simp only [List.length_map, List.length_range] at h1
    simp only [List.getElem_map, List.getElem_range, List.tail_cons, List.getElem_zip]
    unfold segLength
    rcases Nat.eq_zero_or_pos i with rfl | hi
    · cases t with
      | nil => simp
      | cons a t => simp
    · obtain ⟨j, rfl⟩ : ∃ j, i = j + 1 := ⟨i - 1, by omega⟩
      have hj : j < t.length := by omega
      rw [if_neg (by omega), if_neg (by omega)]
      simp only [List.getElem_cons_succ, Nat.add_sub_cancel]
      rw [List.getElem_append_left hj, getD_at hj]
      split_ifs with hc
      · rw [List.getElem_append_right (by omega)]
        simp
      · rw [List.getElem_append_left (by omega), getD_at (by omega)]

theorem sum_segs (L : ℝ) : ∀ (a : ℝ) (l : List ℝ) (z : ℝ), (a :: l).getLast? = some z → (((a :: l).zip (a :: l).tail).map fun g : ℝ × ℝ => L * (g.2 - g.1)).sum = L * (z - a)
  | a, [], z, h => by
    obtain rfl := Option.some.inj h
    simp
  | a, b :: l, z, h => by
    rw [List.getLast?_cons_cons] at h
    have ih := sum_segs L b l z h
    simp only [List.tail_cons, List.zip_cons_cons, List.map_cons, List.sum_cons] at ih ⊢
    rw [ih]
    ring

/-- **C153** (partial).  The lateral supports divide a member into one segment more than there are supports, from its start to its end and in order; the lengths of the segments are the distances of their ends, are not negative and have
together the length of the member.  It does not matter in which order the supports are given. -/
theorem C153_partial (L : ℝ) (hL : 0 ≤ L) (s : List ℝ) (h : ∀ x ∈ s, 0 ≤ x ∧ x ≤ 1) :
    Partition (edges s) ∧ (∀ x, x ∈ edges s ↔ x = 0 ∨ x = 1 ∨ x ∈ s) ∧ (segLengths L s).length = s.length + 1 ∧ (segs s).length = s.length + 1 ∧
    (∀ (i : ℕ) (a b : ℝ), (edges s)[i]? = some a → (edges s)[i + 1]? = some b → (segLengths L s)[i]? = some (L * (b - a))) ∧ (∀ l ∈ segLengths L s, 0 ≤ l) ∧ (segLengths L s).sum = L ∧
    ∀ s' : List ℝ, s'.Perm s → segLengths L s' = segLengths L s := by
  have hlen : (segs s).length = s.length + 1 := by
    unfold segs
    rw [edges_eq h]
    simp [(sortR_perm s).length_eq]
  have hpart : Partition (edges s) := by
    refine ⟨by rw [edges_eq h]; rfl, ?_, sortR_sorted _⟩
    rw [edges_eq h, ← List.cons_append, List.getLast?_append]
    rfl
  refine ⟨hpart, ?_, ?_, hlen, ?_, ?_, ?_, ?_⟩
  · intro x
    unfold edges
    rw [(sortR_perm _).mem_iff, List.mem_append]
    simp only [List.mem_cons, List.not_mem_nil, or_false]
    tauto
  · rw [segLengths_eq h, List.length_map, hlen]
  · intro i a b ha hb
    rw [segLengths_eq h, List.getElem?_map]
    unfold segs
    have : ((edges s).zip (edges s).tail)[i]? = some (a, b) := by
      rw [List.getElem?_zip_eq_some]
      refine ⟨ha, ?_⟩
      rw [List.getElem?_tail]
      exact hb
    rw [this]
    rfl
  · intro l hl
    rw [segLengths_eq h, List.mem_map] at hl
    obtain ⟨g, hg, rfl⟩ := hl
    refine mul_nonneg hL (sub_nonneg.2 ?_)
    unfold segs at hg
    obtain ⟨i, hi⟩ := List.mem_iff_getElem?.1 hg
    rw [List.getElem?_zip_eq_some] at hi
    obtain ⟨h1, h2⟩ := hi
    rw [List.getElem?_tail] at h2
    obtain ⟨b1, e1⟩ := List.getElem?_eq_some_iff.1 h1
    obtain ⟨b2, e2⟩ := List.getElem?_eq_some_iff.1 h2
    rw [← e1, ← e2]
    exact List.pairwise_iff_getElem.1 hpart.ordered i (i + 1) b1 b2 (by omega)
  · rw [segLengths_eq h]
    unfold segs
    have hl := hpart.last
    rw [edges_eq h] at hl ⊢
    rw [sum_segs L 0 _ 1 hl]
    ring
  · intro s' hp
    unfold segLengths
    rw [sortR_eq (hp.trans (sortR_perm s).symm) (sortR_sorted s)]

/-- A member of 6 m with supports at a half and a quarter. -/
example : segLengths 6000 [0.5, 0.25] = [1500, 1500, 3000] := by
  have hs : sortR [0.5, 0.25] = [0.25, 0.5] := sortR_eq (List.Perm.swap _ _ _) (by norm_num)
  unfold segLengths
  rw [hs]
  norm_num [segLength, List.range_succ, List.getD]

example : (segLengths 6000 [0.5, 0.25]).sum = 6000 := (C153_partial 6000 (by norm_num) [0.5, 0.25] (by norm_num)).2.2.2.2.2.2.1

/-- A sorted list with an element that occurs twice has two equal neighbours. -/
theorem sorted_dup {l : List ℝ} (hs : l.Pairwise (· ≤ ·)) (hn : ¬ l.Nodup) : ∃ (i : ℕ) (a : ℝ), l[i]? = some a ∧ l[i + 1]? = some a := by
  by_contra hc
  push Not at hc
  refine hn ?_
  have h2 : l.Pairwise (· < ·) := by
    rw [List.pairwise_iff_getElem]
    intro i j hi hj hij
    have h3 : l[i] ≤ l[i + 1]'(by omega) := List.pairwise_iff_getElem.1 hs i (i + 1) hi (by omega) (by omega)
    have h4 : l[i] ≠ l[i + 1]'(by omega) := by
      intro e
      exact hc i l[i] (List.getElem?_eq_getElem hi) (by rw [List.getElem?_eq_getElem (by omega), e])
    refine lt_of_lt_of_le (lt_of_le_of_ne h3 h4) ?_
    rcases Nat.lt_or_ge (i + 1) j with h5 | h5
    · exact List.pairwise_iff_getElem.1 hs (i + 1) j (by omega) hj h5
    · have : j = i + 1 := by omega
      subst this
      exact le_rfl
  exact h2.imp fun h => h.ne

/-- **C153** (negation).  Generating a frame again adds the neighbours of a member as supports once more: the member gets more segments than before, one of them of length zero. -/
theorem C153_violation (L : ℝ) (s inner : List ℝ) (hs : ∀ x ∈ s, 0 ≤ x ∧ x ≤ 1) (hi : ∀ x ∈ inner, 0 ≤ x ∧ x ≤ 1) (hne : inner ≠ []) :
    (segLengths L (addNeighbours s inner)).length < (segLengths L (addNeighbours (addNeighbours s inner) inner)).length ∧ 0 ∈ segLengths L (addNeighbours (addNeighbours s inner) inner) := by
  have hp1 : (addNeighbours s inner).Perm (s ++ inner) := sortR_perm _
  have hp2 : (addNeighbours (addNeighbours s inner) inner).Perm (s ++ inner ++ inner) := (sortR_perm _).trans (hp1.append_right inner)
  have hm : ∀ x ∈ addNeighbours (addNeighbours s inner) inner, 0 ≤ x ∧ x ≤ 1 := by
    intro x hx
    have := hp2.mem_iff.1 hx
    simp only [List.mem_append] at this
    rcases this with (h | h) | h
    · exact hs x h
    · exact hi x h
    · exact hi x h
  have hlen : ∀ t : List ℝ, (segLengths L t).length = t.length + 1 := by
    intro t
    unfold segLengths
    rw [List.length_map, List.length_range, (sortR_perm t).length_eq]
  have hpos : 0 < inner.length := List.length_pos_iff.2 hne
  refine ⟨?_, ?_⟩
  · rw [hlen, hlen, hp1.length_eq, hp2.length_eq]
    simp only [List.length_append]
    omega
  · have hd : ¬ (addNeighbours (addNeighbours s inner) inner).Nodup := by
      rw [hp2.nodup_iff]
      intro h
      obtain ⟨x, hx⟩ := List.exists_mem_of_ne_nil _ hne
      exact (List.nodup_append.1 h).2.2 x (List.mem_append_right _ hx) x hx rfl
    have hd' : ¬ (edges (addNeighbours (addNeighbours s inner) inner)).Nodup := by
      intro h
      have h2 := (sortR_perm _).nodup_iff.1 h
      exact hd (List.nodup_append.1 h2).1
    obtain ⟨i, a, h1, h2⟩ := sorted_dup (sortR_sorted _) hd'
    have e : (segs (addNeighbours (addNeighbours s inner) inner))[i]? = some (a, a) := by
      unfold segs
      rw [List.getElem?_zip_eq_some]
      exact ⟨h1, by rw [List.getElem?_tail]; exact h2⟩
    rw [segLengths_eq hm, List.mem_map]
    exact ⟨(a, a), List.mem_of_getElem? e, by simp⟩

/-- A beam with a column under its middle, generated twice. -/
example : 0 ∈ segLengths 6000 (addNeighbours (addNeighbours [] [0.5]) [0.5]) := (C153_violation 6000 [] [0.5] (by simp) (by norm_num) (by simp)).2

end Metku.Timber
