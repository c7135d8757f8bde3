import Verif.Props.FemElements
import Verif.Model.Length
import Mathlib.Analysis.SpecialFunctions.Integrals.Basic

/-!
Properties C04 (violation), C08, C09, C10, C11, C12, C14.
-/
namespace Metku.Fem

open Matrix

/-! ### C04: what the rounding of lengths does -/

theorem pyLength_one_one : pyLength 1 1 = 1414 / 1000 := by
  unfold pyLength
  have h : round (1000 * Real.sqrt (1 ^ 2 + 1 ^ 2)) = (1414 : ℤ) := by
    rw [round_eq, Int.floor_eq_iff]
    have h0 : (0 : ℝ) ≤ 1 ^ 2 + 1 ^ 2 := by norm_num
    have h1 : (1.4141 : ℝ) ≤ Real.sqrt (1 ^ 2 + 1 ^ 2) := Real.le_sqrt_of_sq_le (by norm_num)
    have h2 : Real.sqrt (1 ^ 2 + 1 ^ 2) ≤ (1.4143 : ℝ) := Real.sqrt_le_iff.mpr ⟨by norm_num, by norm_num⟩
    constructor
    · push_cast; linarith
    · push_cast; linarith
  rw [h]; norm_num

/-- C04 fails for beams whose true length is not a multiple of 0.001: a pure rotation of the beam from (0,0)
    to (1,1) about its first node produces a non-zero moment at the first node. -/
theorem C04_violation {E A I : ℝ} (hE : 0 < E) (hI : 0 < I) :
    ∃ k, beamK E A I (pyLength 1 1) (1 / pyLength 1 1) (1 / pyLength 1 1) [] = .ok k ∧
      (k *ᵥ rigid 0 0 1 0 0 0 0 1 1) 2 ≠ 0 := by
  refine ⟨congrT (beamT (1 / pyLength 1 1) (1 / pyLength 1 1)) (beamKloc E A I (pyLength 1 1)), ?_, ?_⟩
  · simp [beamK, beamKlocRel, condense]
  · rw [pyLength_one_one]
    have : ((congrT (beamT (1 / (1414 / 1000)) (1 / (1414 / 1000))) (beamKloc E A I (1414 / 1000)) *ᵥ
        rigid 0 0 1 0 0 0 0 1 1) 2) = -(E * I * (453000 / 353393243)) := by
      unfold congrT
      rw [← mulVec_mulVec, ← mulVec_mulVec]
      simp [beamT, rigid, beamKloc, mulVec, dotProduct, Fin.sum_univ_six]
      ring_nf
    rw [this]
    exact neg_ne_zero.mpr (by positivity)

section field
variable {K : Type} [Field K] [LinearOrder K] [IsStrictOrderedRing K]

/-! ### C08 bar forces -/

/-- C08: both reported end forces are equal; they are positive exactly when the first-order change of the
    distance between the ends (`dx * (u2 - u1) + dy * (v2 - v1)`, the inner product of the bar vector with
    the relative displacement) is positive, zero when it is zero; and the stiffness matrix turns the same
    displacements into this force along the bar axis, equal and opposite at the two ends. -/
theorem C08 {E A L dx dy : K} (hE : 0 < E) (hA : 0 < A) (hL : 0 < L) (q : Fin 4 → K) :
    let N := rodForces2 E A L (dirCos dx L) (dirCos dy L) q
    N.1 = N.2 ∧
    (0 < N.1 ↔ 0 < dx * (q 2 - q 0) + dy * (q 3 - q 1)) ∧
    (N.1 = 0 ↔ dx * (q 2 - q 0) + dy * (q 3 - q 1) = 0) ∧
    rodK2 E A L (dirCos dx L) (dirCos dy L) *ᵥ q =
      ![-(N.1 * (dx / L)), -(N.1 * (dy / L)), N.1 * (dx / L), N.1 * (dy / L)] := by
  intro N
  have hN : N.1 = E * A / L ^ 2 * (dx * (q 2 - q 0) + dy * (q 3 - q 1)) := by
    simp only [N, rodForces2, rodT2, dirCos]
    simp [mulVec, dotProduct, Fin.sum_univ_four]
    field_simp
    ring
  have hpos : 0 < E * A / L ^ 2 := by positivity
  refine ⟨rfl, ?_, ?_, ?_⟩
  · rw [hN]; exact mul_pos_iff_of_pos_left hpos
  · rw [hN]
    constructor
    · intro h; rcases mul_eq_zero.mp h with h | h
      · exact absurd h hpos.ne'
      · exact h
    · intro h; rw [h, mul_zero]
  · rw [hN]
    unfold rodK2 congrT
    rw [← mulVec_mulVec, ← mulVec_mulVec]
    have hL' := hL.ne'
    ext i
    fin_cases i <;> simp [rodT2, rodKloc, dirCos, mulVec, dotProduct, Fin.sum_univ_four] <;> field_simp <;> ring

example : 0 < (rodForces2 (210000 : ℚ) 500 5 (dirCos (-3) 5) (dirCos 4 5) ![0, 0, -1/1000, 0]).1 := by
  rw [(C08 (by norm_num) (by norm_num) (by norm_num) _).2.1]
  simp; norm_num

/-! ### C10 end releases -/

/-- C10: the condensed local stiffness transmits nothing in released directions, and in the others it
    gives the force of the unreleased beam whose released displacements adjust so that the released forces
    vanish; these displacements exist and are unique. -/
theorem C10 {E A I L : K} {rel : List (Fin 6)} {k : Matrix (Fin 6) (Fin 6) K}
    (h : beamKlocRel E A I L rel = .ok k) (v : Fin 6 → K) :
    (∀ i ∈ rel, ∑ j, k i j * v j = 0) ∧
    ∃! w : Fin 6 → K, (∀ i, i ∉ rel → w i = v i) ∧
      (∀ i ∈ rel, ∑ j, beamKloc E A I L i j * w j = 0) ∧
      (∀ i, i ∉ rel → ∑ j, k i j * v j = ∑ j, beamKloc E A I L i j * w j) := by
  unfold beamKlocRel at h
  by_cases hne : rel = []
  · have hk : k = beamKloc E A I L := by
      unfold condense at h; rw [if_pos hne] at h; cases h; rfl
    subst hne hk
    refine ⟨by simp, v, ⟨by simp, by simp, by simp⟩, ?_⟩
    rintro w ⟨hw, _, _⟩
    ext i; exact hw i (by simp)
  · have hd := (condense_ok hne h).1
    refine ⟨fun i hi => condense_row_rel hne h v hi, complete rel v (relDisp (beamKloc E A I L) rel v 0),
      ⟨fun i hi => complete_off _ _ hi, fun i hi => relDisp_zero hd v 0 hi, fun i hi => condense_row hne h v hi⟩, ?_⟩
    rintro w ⟨hw1, hw2, _⟩
    apply condense_unique hd
    · intro i hi; rw [hw1 i hi, complete_off _ _ hi]
    · intro i hi; rw [relDisp_zero hd v 0 hi]; exact hw2 i hi

/-- C10 with a line load on the released member: the reported end force vector `k q - floc` vanishes in
    released directions and equals that of the unreleased member elsewhere. -/
theorem C10_loaded {E A I L : K} {rel : List (Fin 6)} {k : Matrix (Fin 6) (Fin 6) K} {f fc : Fin 6 → K}
    (h : beamKlocRel E A I L rel = .ok k) (hf : condenseLoad (beamKloc E A I L) rel f = .ok fc) (v : Fin 6 → K) :
    (∀ i ∈ rel, ∑ j, k i j * v j - fc i = 0) ∧
    ∃ w : Fin 6 → K, (∀ i, i ∉ rel → w i = v i) ∧
      (∀ i ∈ rel, ∑ j, beamKloc E A I L i j * w j - f i = 0) ∧
      (∀ i, i ∉ rel → ∑ j, k i j * v j - fc i = ∑ j, beamKloc E A I L i j * w j - f i) := by
  unfold beamKlocRel at h
  by_cases hne : rel = []
  · have hk : k = beamKloc E A I L := by
      unfold condense at h; rw [if_pos hne] at h; cases h; rfl
    have hfc : fc = f := by
      unfold condenseLoad at hf; rw [if_pos hne] at hf; cases hf; rfl
    subst hne hk hfc
    exact ⟨by simp, v, by simp, by simp, by simp⟩
  · have hd := (condense_ok hne h).1
    refine ⟨fun i hi => ?_, complete rel v (relDisp (beamKloc E A I L) rel v f), fun i hi => complete_off _ _ hi,
      fun i hi => ?_, fun i hi => condense_load_row hne h hf v hi⟩
    · have h1 := condense_row_rel hne h v hi
      rw [(condenseLoad_ok hne hf).2]
      simp only [hi, if_true, sub_zero]
      exact h1
    · have h1 := relDisp_zero hd v f hi
      rw [← h1]
      exact sub_self _

/-- Hinges at both ends: the condensation is defined, so `C10` and `C10_loaded` apply. -/
example {E A I L : K} (hE : 0 < E) (hI : 0 < I) (hL : 0 < L) : ∃ k, beamKlocRel E A I L [2, 5] = .ok k := by
  unfold beamKlocRel condense
  rw [if_neg (by simp)]
  simp only
  rw [if_neg]
  · exact ⟨_, rfl⟩
  · intro h
    have h2 := (Matrix.det_fin_two _).symm.trans h
    simp [beamKloc] at h2
    have : 4 * (E * I) / L * (4 * (E * I) / L) - 2 * (E * I) / L * (2 * (E * I) / L) = 12 * (E * I) ^ 2 / L ^ 2 := by
      field_simp; ring
    rw [this] at h2
    have : 0 < 12 * (E * I) ^ 2 / L ^ 2 := by positivity
    linarith

/-! ### C11 the load factor -/

/-- C11 for loads in local coordinates: scaling the factor scales the nodal loads. -/
theorem C11_local_partial (L c0 c1 s : K) (l : LineLoad K) (hl : l.isLocal = true) :
    beamNodalLoads L c0 c1 { l with f := s * l.f } = s • beamNodalLoads L c0 c1 l := by
  unfold beamNodalLoads
  rw [← mulVec_smul]
  congr 1
  unfold beamFloc
  simp only [hl, if_true]
  cases l.dir <;> ext i <;> fin_cases i <;> simp [fixedEnd] <;> ring

/-- What the code does for loads in global coordinates: scaling the factor by `s` scales the nodal
    loads by `s²`. -/
theorem C11_global_square (L c0 c1 s : K) (l : LineLoad K) (hl : l.isLocal = false) :
    beamNodalLoads L c0 c1 { l with f := s * l.f } = (s ^ 2) • beamNodalLoads L c0 c1 l := by
  unfold beamNodalLoads
  rw [← mulVec_smul]
  congr 1
  unfold beamFloc
  simp only [hl]
  cases l.dir <;> ext i <;> fin_cases i <;> simp [fixedEnd] <;> ring

/-- C11 is false for global loads: doubling the factor of a unit load on a horizontal beam quadruples
    the nodal loads. -/
theorem C11_violation :
    ∃ (l : LineLoad ℚ) (L c0 c1 : ℚ), l.isLocal = false ∧
      beamNodalLoads L c0 c1 { l with f := 2 * l.f } ≠ (2 : ℚ) • beamNodalLoads L c0 c1 l := by
  refine ⟨⟨2, 1, -10, -10, .y, false⟩, 6, 1, 0, rfl, fun h => ?_⟩
  have := congrFun h 1
  simp [beamNodalLoads, beamFloc, fixedEnd, beamT, mulVec, dotProduct, Fin.sum_univ_six] at this
  norm_num at this

/-! ### C12 several line loads on one member -/

/-- What the code stores: the fixed-end forces of the last line load of the case only. -/
theorem C12_last_wins (L c0 c1 : K) (ls : List (LineLoad K)) (d : FlocDict K) (l : LineLoad K) :
    storeAll L c0 c1 (ls ++ [l]) d l.sid l.sid = some (beamFloc L c0 c1 l) := by
  unfold storeAll
  rw [List.filter_append, List.foldl_append]
  simp [storeFloc]

/-- C12 when a case has at most one line load on the member: the stored vector is the sum of the
    fixed-end vectors of the case's loads, whatever loads of other cases there are.
    Missing from the full statement: two or more loads (false, `C12_violation`). -/
theorem C12_partial (L c0 c1 : K) (ls : List (LineLoad K)) (d : FlocDict K) (sid : Nat) (l : LineLoad K)
    (h : ls.filter (·.sid = sid) = [l]) :
    storeAll L c0 c1 ls d sid sid = some (((ls.filter (·.sid = sid)).map (beamFloc L c0 c1)).sum) := by
  have hl : l.sid = sid := by
    have : l ∈ ls.filter (·.sid = sid) := by rw [h]; simp
    simpa using (List.mem_filter.mp this).2
  unfold storeAll
  rw [h]
  simp [storeFloc, hl]

/-- C12 is false: with two equal line loads the stored fixed-end vector, and so the end moment of a beam
    clamped at both ends, is that of one load only. -/
theorem C12_violation :
    ∃ (ls : List (LineLoad ℚ)) (L c0 c1 : ℚ),
      storeAll L c0 c1 ls (fun _ => none) 2 2 ≠ some ((ls.filter (·.sid = 2)).map (beamFloc L c0 c1)).sum ∧
      (beamForces (beamKloc 210000 5380 83600000 L) 0 (storeAll L c0 c1 ls (fun _ => none) 2 2)).2.1.1 = -30 ∧
      (beamForces (beamKloc 210000 5380 83600000 L) 0
        (some ((ls.filter (·.sid = 2)).map (beamFloc L c0 c1)).sum)).2.1.1 = -60 := by
  refine ⟨[⟨2, 1, -10, -10, .y, true⟩, ⟨2, 1, -10, -10, .y, true⟩], 6, 1, 0, fun h => ?_, ?_, ?_⟩
  · have h2 := congrFun (Option.some.inj h) 1
    simp [storeAll, storeFloc, beamFloc, fixedEnd] at h2
    norm_num at h2
  · simp [storeAll, storeFloc, beamFloc, fixedEnd, beamForces]
    norm_num
  · simp [storeAll, storeFloc, beamFloc, fixedEnd, beamForces]
    norm_num

example : ([⟨2, 1, -10, -10, .y, true⟩, ⟨3, 1, -5, -7, .x, false⟩] : List (LineLoad ℚ)).filter (·.sid = 2)
    = [⟨2, 1, -10, -10, .y, true⟩] := by simp

/-! ### C14 shape functions -/

/-- C14, the part that holds for every length: functions 0, 1, 2 take the right end values. -/
theorem C14_partial {L : K} (hL : 0 < L) :
    shapeFun L 0 = ![1, 0, 0, 0] ∧
    (shapeFun L L 0 = 0 ∧ shapeFun L L 1 = 0 ∧ shapeFun L L 2 = 1) := by
  have h := hL.ne'
  refine ⟨?_, ?_, ?_, ?_⟩
  · ext i; fin_cases i <;> simp [shapeFun]
  · simp [shapeFun]; field_simp; ring
  · simp [shapeFun]; field_simp; ring
  · simp [shapeFun]; field_simp; ring

/-- C14 at unit length: all end values are right and every cubic is reproduced from its end values and
    end slopes. -/
theorem C14_unit_partial (a b c d x : K) :
    shapeFun (1 : K) 1 = ![0, 0, 1, 0] ∧
    a + b * x + c * x ^ 2 + d * x ^ 3 =
      a * shapeFun 1 x 0 + b * shapeFun 1 x 1 + (a + b + c + d) * shapeFun 1 x 2
        + (b + 2 * c + 3 * d) * shapeFun 1 x 3 := by
  refine ⟨?_, ?_⟩
  · ext i; fin_cases i <;> simp [shapeFun] <;> norm_num
  · simp [shapeFun]; ring

/-- C14 is false for every length other than 1: the fourth function does not vanish at the far end. -/
theorem C14_violation {L : K} (hL : 0 < L) (h1 : L ≠ 1) : shapeFun L L 3 ≠ 0 := by
  have h := hL.ne'
  have : shapeFun L L 3 = L - 1 := by
    simp [shapeFun]; field_simp; ring
  rw [this]
  exact sub_ne_zero.mpr h1

example : shapeFun (6000 : ℚ) 6000 3 ≠ 0 := C14_violation (by norm_num) (by norm_num)

end field

/-! ### C09 static equivalence -/

/-- Intensity of the line load at distance `x` from the first node. -/
noncomputable def intensity (q1 q2 L x : ℝ) : ℝ := q1 + (q2 - q1) * x / L

theorem integral_intensity (q1 q2 : ℝ) {L : ℝ} (hL : 0 < L) :
    ∫ x in (0 : ℝ)..L, intensity q1 q2 L x = L * (q1 + q2) / 2 := by
  have h : (fun x => intensity q1 q2 L x) = fun x => q1 + (q2 - q1) / L * x := by
    ext x; unfold intensity; ring
  rw [h, intervalIntegral.integral_add (by simp) (by apply Continuous.intervalIntegrable; fun_prop),
    intervalIntegral.integral_const_mul]
  simp
  field_simp
  ring

theorem integral_moment (q1 q2 : ℝ) {L : ℝ} (hL : 0 < L) :
    ∫ x in (0 : ℝ)..L, x * intensity q1 q2 L x = L ^ 2 * (q1 / 6 + q2 / 3) := by
  have h : (fun x => x * intensity q1 q2 L x) = fun x => q1 * x + (q2 - q1) / L * x ^ 2 := by
    ext x; unfold intensity; ring
  rw [h, intervalIntegral.integral_add (by apply Continuous.intervalIntegrable; fun_prop)
    (by apply Continuous.intervalIntegrable; fun_prop),
    intervalIntegral.integral_const_mul, intervalIntegral.integral_const_mul]
  simp
  field_simp
  ring

/-- Direction of the load in global axes for an element with direction cosines `(c0, c1)`. -/
def loadDir (c0 c1 : ℝ) (l : LineLoad ℝ) : ℝ × ℝ :=
  if l.isLocal then (match l.dir with | .x => (c0, c1) | _ => (-c1, c0))
  else (match l.dir with | .x => (1, 0) | _ => (0, 1))

/-- Static equivalence: nodal forces `F` (global axes: fx, fy, m per node) have the resultant and the
    moment about the first node of the distributed load of direction `e` along the element. -/
def StaticallyEquivalent (F : Fin 6 → ℝ) (L c0 c1 q1 q2 : ℝ) (e : ℝ × ℝ) : Prop :=
  F 0 + F 3 = (∫ x in (0 : ℝ)..L, intensity q1 q2 L x) * e.1 ∧
  F 1 + F 4 = (∫ x in (0 : ℝ)..L, intensity q1 q2 L x) * e.2 ∧
  F 2 + F 5 + (L * c0 * F 4 - L * c1 * F 3)
    = ∫ x in (0 : ℝ)..L, (x * c0 * (intensity q1 q2 L x * e.2) - x * c1 * (intensity q1 q2 L x * e.1))

theorem moment_integral (c0 c1 q1 q2 e1 e2 : ℝ) {L : ℝ} (hL : 0 < L) :
    ∫ x in (0 : ℝ)..L, (x * c0 * (intensity q1 q2 L x * e2) - x * c1 * (intensity q1 q2 L x * e1))
      = L ^ 2 * (q1 / 6 + q2 / 3) * (c0 * e2 - c1 * e1) := by
  have h : (fun x => x * c0 * (intensity q1 q2 L x * e2) - x * c1 * (intensity q1 q2 L x * e1))
      = fun x => (c0 * e2 - c1 * e1) * (x * intensity q1 q2 L x) := by
    ext x; ring
  rw [h, intervalIntegral.integral_const_mul, integral_moment q1 q2 hL]
  ring

/-- C09 for loads perpendicular to the member in local axes: all lengths, intensities, factors and
    orientations. -/
theorem C09_local_partial {L c0 c1 : ℝ} (hL : 0 < L) (hc : c0 ^ 2 + c1 ^ 2 = 1) (l : LineLoad ℝ)
    (hl : l.isLocal = true) (hd : l.dir = .y) :
    StaticallyEquivalent (beamNodalLoads L c0 c1 l) L c0 c1 (l.f * l.q1) (l.f * l.q2) (loadDir c0 c1 l) := by
  unfold StaticallyEquivalent
  rw [integral_intensity _ _ hL, moment_integral _ _ _ _ _ _ hL]
  simp only [loadDir, hl, hd, if_true]
  unfold beamNodalLoads beamFloc
  simp only [hl, hd, if_true]
  simp [fixedEnd, beamT, mulVec, dotProduct, Fin.sum_univ_six, transpose]
  refine ⟨by ring, by ring, ?_⟩
  linear_combination (L ^ 2 * (3 / 20 * (l.f * l.q1) + 7 / 20 * (l.f * l.q2)) -
    L ^ 2 * (l.f * l.q1 / 6 + l.f * l.q2 / 3)) * hc

/-- C09 for loads in global axes with unit factor: all lengths, intensities, orientations, both directions.
    Missing: other factors (`C11_global_square`, `C09_violation_factor`). -/
theorem C09_global_partial {L c0 c1 : ℝ} (hL : 0 < L) (hc : c0 ^ 2 + c1 ^ 2 = 1) (l : LineLoad ℝ)
    (hl : l.isLocal = false) (hf : l.f = 1) :
    StaticallyEquivalent (beamNodalLoads L c0 c1 l) L c0 c1 (l.f * l.q1) (l.f * l.q2) (loadDir c0 c1 l) := by
  unfold StaticallyEquivalent
  rw [integral_intensity _ _ hL, moment_integral _ _ _ _ _ _ hL]
  simp only [loadDir, hl, Bool.false_eq_true, if_false]
  unfold beamNodalLoads beamFloc
  simp only [hl, Bool.false_eq_true, if_false, hf]
  cases l.dir <;>
  · simp [fixedEnd, beamT, mulVec, dotProduct, Fin.sum_univ_six, transpose]
    refine ⟨?_, ?_, ?_⟩
    · first
        | linear_combination (L * (l.q1 + l.q2) / 2) * hc
        | ring
    · first
        | linear_combination (L * (l.q1 + l.q2) / 2) * hc
        | ring
    · first
        | linear_combination (-(c1 * L ^ 2 * (3 / 20 * l.q1 + 7 / 20 * l.q2))) * hc
        | linear_combination ((c0 * L ^ 2 * (3 / 20 * l.q1 + 7 / 20 * l.q2))) * hc

/-- C09 is false for loads along the member axis in local coordinates: the code returns no nodal loads. -/
theorem C09_violation_axial :
    ∃ l : LineLoad ℝ, l.isLocal = true ∧ l.dir = .x ∧
      ¬ StaticallyEquivalent (beamNodalLoads 6 1 0 l) 6 1 0 (l.f * l.q1) (l.f * l.q2) (loadDir 1 0 l) := by
  refine ⟨⟨2, 1, 10, 10, .x, true⟩, rfl, rfl, ?_⟩
  intro h
  have h1 := h.1
  rw [integral_intensity _ _ (by norm_num)] at h1
  simp [beamNodalLoads, beamFloc, loadDir, mulVec, dotProduct] at h1
  norm_num at h1

/-- C09 is false for global loads with a factor other than 0 or 1. -/
theorem C09_violation_factor :
    ∃ l : LineLoad ℝ, l.isLocal = false ∧
      ¬ StaticallyEquivalent (beamNodalLoads 6 1 0 l) 6 1 0 (l.f * l.q1) (l.f * l.q2) (loadDir 1 0 l) := by
  refine ⟨⟨2, 2, -10, -10, .y, false⟩, rfl, ?_⟩
  intro h
  have h1 := h.2.1
  rw [integral_intensity _ _ (by norm_num)] at h1
  simp [beamNodalLoads, beamFloc, loadDir, fixedEnd, beamT, mulVec, dotProduct, Fin.sum_univ_six, transpose] at h1
  norm_num at h1

example : StaticallyEquivalent (beamNodalLoads 5 (3/5) (4/5) ⟨2, 1, -10, -20, .y, false⟩) 5 (3/5) (4/5)
    (1 * -10) (1 * -20) (0, 1) := by
  have := C09_global_partial (L := 5) (c0 := 3/5) (c1 := 4/5) (by norm_num) (by norm_num)
    ⟨2, 1, -10, -20, .y, false⟩ rfl rfl
  simpa [loadDir] using this

end Metku.Fem
