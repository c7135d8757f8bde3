import Verif.Model.SteelGeom
import Verif.Lemmas.SectionGeom
import Mathlib.Analysis.Real.Pi.Bounds

/-!
Properties C38 (edits of a hollow section), C65 (hollow sections): the section properties are those of the shape.
-/
namespace Metku.Steel

open SectionSpec Real MeasureTheory Set

/-! ### C38 -/

/-- Specification: the value of a dimension after a list of assignments. -/
def finalDim (d : Dim) (x : ℝ) : List (Dim × ℝ) → ℝ
  | [] => x
  | e :: l => finalDim d (if e.1 = d then e.2 else x) l

theorem new_dims (H B T : ℝ) : (RHS.new H B T).H = some H ∧ (RHS.new H B T).B = some B ∧ (RHS.new H B T).T = some T := ⟨rfl, rfl, rfl⟩

theorem set_new (H B T v : ℝ) (d : Dim) :
    (RHS.new H B T).set d v = RHS.new (if Dim.H = d then v else H) (if Dim.B = d then v else B) (if Dim.T = d then v else T) := by
  cases d <;> rfl

/-- **C38 (part).** After every sequence of assignments to height, width and thickness, the object (all properties, radius, torsion constant) equals a newly constructed section with the
    final dimensions; the shear area along the height is the share `H/(H + B)` of the area.
    Missing: that the two shear areas add up to the area, see `C38_violation`. -/
theorem C38_partial (H B T : ℝ) (l : List (Dim × ℝ)) :
    (RHS.new H B T).edit l = RHS.new (finalDim .H H l) (finalDim .B B l) (finalDim .T T l) ∧
    (RHS.new H B T).H = some H ∧ (RHS.new H B T).B = some B ∧ (RHS.new H B T).T = some T ∧
    (0 < H → 0 < B → (RHS.new H B T).props.Ashear.2 * (H + B) = (RHS.new H B T).props.A * H) := by
  obtain ⟨n1, n2, n3⟩ := new_dims H B T
  refine ⟨?_, n1, n2, n3, fun hH hB => div_mul_cancel₀ _ (by linarith)⟩
  clear n1 n2 n3
  induction l generalizing H B T with
  | nil => rfl
  | cons e l ih =>
    show ((RHS.new H B T).set e.1 e.2).edit l = _
    rw [set_new, ih]
    have s : ∀ (d : Dim) (x : ℝ), (if d = e.1 then e.2 else x) = if e.1 = d then e.2 else x := by
      intro d x
      by_cases h : d = e.1
      · rw [if_pos h, if_pos h.symm]
      · rw [if_neg h, if_neg (Ne.symm h)]
    simp only [finalDim, s]

/-- A section made narrower and thicker is the section of those dimensions. -/
example : (RHS.new 200 200 8).edit [(.B, 150), (.T, 10), (.B, 100)] = RHS.new 200 100 10 := by
  have := (C38_partial 200 200 8 [(.B, 150), (.T, 10), (.B, 100)]).1
  simpa [finalDim] using this

theorem radius_spec {T : ℝ} (hT : 0 < T) : T < rhsOuterRadius T ∧ 2 * T ≤ rhsOuterRadius T := by
  unfold rhsOuterRadius
  split_ifs <;> constructor <;> linarith

theorem area_pos {H B T : ℝ} (hT : 0 < T) (hH : 2 * rhsOuterRadius T ≤ H) (hB : 2 * rhsOuterRadius T ≤ B) : 0 < (RHS.new H B T).props.A := by
  show 0 < rhsArea H B T (rhsOuterRadius T)
  have := radius_spec hT
  unfold rhsArea
  have h1 : 0 ≤ 2 * (H - 2 * rhsOuterRadius T) * T := mul_nonneg (by linarith) hT.le
  have h2 : 0 ≤ 2 * (B - 2 * rhsOuterRadius T) * T := mul_nonneg (by linarith) hT.le
  have h3 : 0 < π * (rhsOuterRadius T ^ 2 - (rhsOuterRadius T - T) ^ 2) := mul_pos pi_pos (by nlinarith)
  linarith

/-- **C38 is violated**: the constructor computes the shear area along the width correctly, but the assignment of the dimensions at its end overwrites it by half the area, so for every section that is not square the
    two shear areas do not add up to the area; for an upright section (`H > B`) the shear area along the width is too large. -/
theorem C38_violation {H B T : ℝ} (hT : 0 < T) (hH : 2 * rhsOuterRadius T ≤ H) (hB : 2 * rhsOuterRadius T ≤ B) :
    ((RHS.new H B T).props.Ashear.1 + (RHS.new H B T).props.Ashear.2 = (RHS.new H B T).props.A ↔ H = B) ∧
    (B < H → (RHS.new H B T).props.A * B / (H + B) < (RHS.new H B T).props.Ashear.1) := by
  have hA := area_pos hT hH hB
  have hr := radius_spec hT
  have hH0 : 0 < H := by linarith
  have hB0 : 0 < B := by linarith
  have e1 : (RHS.new H B T).props.Ashear.1 = (RHS.new H B T).props.A * B / (B + B) := rfl
  have e2 : (RHS.new H B T).props.Ashear.2 = (RHS.new H B T).props.A * H / (H + B) := rfl
  rw [e1, e2]
  generalize (RHS.new H B T).props.A = A at hA
  constructor
  · constructor
    · intro h
      field_simp at h
      nlinarith
    · rintro rfl
      field_simp
  · intro h
    rw [div_lt_div_iff₀ (by linarith) (by linarith)]
    have := mul_pos hA hB0
    nlinarith

/-- Rectangular section 200 by 100 by 8. -/
example : (RHS.new 200 100 8).props.Ashear.1 + (RHS.new 200 100 8).props.Ashear.2 ≠ (RHS.new 200 100 8).props.A := by
  have := (C38_violation (H := 200) (B := 100) (T := 8) (by norm_num) (by norm_num [rhsOuterRadius]) (by norm_num [rhsOuterRadius])).1
  intro h
  exact absurd (this.1 h) (by norm_num)

/-! ### C65 -/

theorem flipped_hollow (H B T R : ℝ) : flipped (hollow H B T R) = hollow B H T R := by
  ext p
  simp only [flipped, hollow, rounded, mem_sdiff, mem_ofPred_eq]
  rw [add_comm (max (|p.2| - (B / 2 - R)) 0 ^ 2)]

theorem hollow_area {H B T R : ℝ} (hH : 2 * R ≤ H) (hB : 2 * R ≤ B) (hT : 0 ≤ T) (hR : T ≤ R) : planeMoment (hollow H B T R) (fun _ => 1) = rhsArea H B T R := by
  have h := hollow_moment (a := H / 2 - R) (b := B / 2 - R) (r := R) (r' := R - T) (by linarith) (by linarith) (by linarith) (by linarith) (g := fun _ => 1) continuous_const
  rw [hollow]
  rw [h]
  simp only [one_mul]
  rw [K0 (by linarith), K0 (by linarith)]
  simp only [intervalIntegral.integral_const, smul_eq_mul, rhsArea]
  ring

theorem hollow_plastic {H B T R : ℝ} (hH : 2 * R ≤ H) (hB : 2 * R ≤ B) (hT : 0 ≤ T) (hR : T ≤ R) : planeMoment (hollow H B T R) (fun z => |z|) = rhsPlasticModulus H B R T := by
  have h := hollow_moment (a := H / 2 - R) (b := B / 2 - R) (r := R) (r' := R - T) (by linarith) (by linarith) (by linarith) (by linarith) (g := fun x => x) continuous_id
  rw [hollow]
  rw [h]
  rw [K1 (by linarith), K1 (by linarith)]
  simp only [integral_id, rhsPlasticModulus]
  have := pi_ne_zero
  field_simp
  ring

theorem hollow_second {H B T R : ℝ} (hH : 2 * R ≤ H) (hB : 2 * R ≤ B) (hT : 0 ≤ T) (hR : T ≤ R) : planeMoment (hollow H B T R) (fun z => z ^ 2) = rhsSecondMoment H B T R := by
  have h := hollow_moment (a := H / 2 - R) (b := B / 2 - R) (r := R) (r' := R - T) (by linarith) (by linarith) (by linarith) (by linarith) (g := fun x => x ^ 2) (by fun_prop)
  simp only [sq_abs] at h
  rw [hollow]
  rw [h]
  rw [K2 (by linarith), K2 (by linarith)]
  simp only [integral_pow, rhsSecondMoment]
  have := pi_ne_zero
  field_simp
  ring

/-- **C65.** For every rectangular hollow section whose corners fit (`2R ≤ H`, `2R ≤ B`, with the outer radius `R` of EN 10219 chosen by thickness): the area, both second moments of area and both plastic moduli
    of the constructed object are the integrals over the section, the elastic moduli are the second moments divided by half the dimension, the painted area is the length of the outline, and
    the torsion constant is Bredt's `4 Am² T/U` plus `U T³/3` with the area `Am` enclosed by the centre line and its length `U`. -/
theorem C65 {H B T : ℝ} (hT : 0 < T) (hH : 2 * rhsOuterRadius T ≤ H) (hB : 2 * rhsOuterRadius T ≤ B) :
    ∃ R S, (RHS.new H B T).R = some R ∧ (T ≤ 6 → R = 2 * T) ∧ (6 < T → T ≤ 10 → R = 2.5 * T) ∧ (10 < T → R = 3 * T) ∧ S = hollow H B T R ∧
      (RHS.new H B T).props.A = planeMoment S (fun _ => 1) ∧
      (RHS.new H B T).props.I = (planeMoment S (fun z => z ^ 2), planeMoment (flipped S) (fun z => z ^ 2)) ∧
      (RHS.new H B T).props.Wpl = (planeMoment S (fun z => |z|), planeMoment (flipped S) (fun z => |z|)) ∧
      (RHS.new H B T).props.Wel.1 * (H / 2) = planeMoment S (fun z => z ^ 2) ∧ (RHS.new H B T).props.Wel.2 * (B / 2) = planeMoment (flipped S) (fun z => z ^ 2) ∧
      (RHS.new H B T).props.Au = 2 * (H - 2 * R) + 2 * (B - 2 * R) + 2 * π * R ∧
      ∃ It U Am, (RHS.new H B T).It = some It ∧ U = 2 * (H - 2 * R) + 2 * (B - 2 * R) + 2 * π * (R - T / 2) ∧
        Am = planeMoment (rounded (H / 2 - R) (B / 2 - R) (R - T / 2)) (fun _ => 1) ∧ It = 4 * Am ^ 2 * T / U + U * T ^ 3 / 3 := by
  obtain ⟨h1, h2⟩ := radius_spec hT
  have hH0 : H ≠ 0 := by linarith
  have hB0 : B ≠ 0 := by linarith
  refine ⟨rhsOuterRadius T, _, rfl, ?_, ?_, ?_, rfl, ?_, ?_, ?_, ?_, ?_, ?_, ?_⟩
  · intro h; exact if_pos h
  · intro h h'
    rw [rhsOuterRadius, if_neg (not_le.2 h), if_pos h']
    norm_num
  · intro h
    rw [rhsOuterRadius, if_neg (by linarith), if_neg (by linarith)]
  · rw [hollow_area hH hB hT.le h1.le]; rfl
  · rw [flipped_hollow, hollow_second hH hB hT.le h1.le, hollow_second hB hH hT.le h1.le]; rfl
  · rw [flipped_hollow, hollow_plastic hH hB hT.le h1.le, hollow_plastic hB hH hT.le h1.le]; rfl
  · rw [hollow_second hH hB hT.le h1.le]
    show rhsElasticModulus H _ * _ = _
    unfold rhsElasticModulus
    field_simp
  · rw [flipped_hollow, hollow_second hB hH hT.le h1.le]
    show rhsElasticModulus B _ * _ = _
    unfold rhsElasticModulus
    field_simp
  · show rhsPaintArea H B _ = _
    unfold rhsPaintArea
    ring
  · refine ⟨_, _, _, rfl, rfl, rfl, ?_⟩
    have hm := rounded_moment (a := H / 2 - rhsOuterRadius T) (b := B / 2 - rhsOuterRadius T) (r := rhsOuterRadius T - T / 2) (by linarith) (by linarith) (by linarith)
      (g := fun _ => 1) continuous_const
    simp only [one_mul] at hm
    rw [hm, K0 (by linarith)]
    simp only [intervalIntegral.integral_const, smul_eq_mul, rhsTorsion]
    generalize rhsOuterRadius T = R at *
    have hU : 0 < 2 * (H - 2 * R) + 2 * (B - 2 * R) + 2 * π * (R - T / 2) := by
      have : 0 < 2 * π * (R - T / 2) := mul_pos (by positivity) (by linarith)
      linarith
    have e1 : 2 * ((B - T) + (H - T)) - 2 * (R - 1 / 2 * T) * (4 - π) = 2 * (H - 2 * R) + 2 * (B - 2 * R) + 2 * π * (R - T / 2) := by ring
    rw [e1]
    generalize 2 * (H - 2 * R) + 2 * (B - 2 * R) + 2 * π * (R - T / 2) = U at hU
    field_simp
    ring

/-- Square hollow section 100 by 100 by 5: the corner radius is 10. -/
example : (RHS.new 100 100 5).props.A = planeMoment (hollow 100 100 5 10) (fun _ => 1) := by
  obtain ⟨R, S, _, hR, _, _, rfl, hA, _⟩ := C65 (H := 100) (B := 100) (T := 5) (by norm_num) (by norm_num [rhsOuterRadius]) (by norm_num [rhsOuterRadius])
  rw [hA, hR (by norm_num)]
  norm_num

/-- **C65, order.** Under the same hypotheses: area and second moments are positive, the elastic moduli do not exceed the plastic ones, and in an upright section the first axis is the strong one. -/
theorem C65_order {H B T : ℝ} (hT : 0 < T) (hH : 2 * rhsOuterRadius T ≤ H) (hB : 2 * rhsOuterRadius T ≤ B) :
    0 < (RHS.new H B T).props.A ∧ 0 < (RHS.new H B T).props.I.1 ∧ 0 < (RHS.new H B T).props.I.2 ∧
    (RHS.new H B T).props.Wel.1 ≤ (RHS.new H B T).props.Wpl.1 ∧ (RHS.new H B T).props.Wel.2 ≤ (RHS.new H B T).props.Wpl.2 ∧
    (B ≤ H → (RHS.new H B T).props.I.2 ≤ (RHS.new H B T).props.I.1) := by
  obtain ⟨h1, h2⟩ := radius_spec hT
  have key : ∀ {H B : ℝ}, 2 * rhsOuterRadius T ≤ H → 2 * rhsOuterRadius T ≤ B →
      rhsElasticModulus H (rhsSecondMoment H B T (rhsOuterRadius T)) ≤ rhsPlasticModulus H B (rhsOuterRadius T) T := by
    intro H B hH hB
    have := hollow_second_le (a := H / 2 - rhsOuterRadius T) (b := B / 2 - rhsOuterRadius T) (r := rhsOuterRadius T) (r' := rhsOuterRadius T - T) (by linarith) (by linarith) (by linarith) (by linarith)
    simp only [sq_abs] at this
    have e1 := hollow_second hH hB hT.le h1.le
    have e2 := hollow_plastic hH hB hT.le h1.le
    unfold hollow at e1 e2
    rw [e1, e2] at this
    unfold rhsElasticModulus
    rw [div_le_iff₀ (by linarith)]
    linarith
  have form : ∀ H B R : ℝ, rhsSecondMoment H B T R = 2 * (2 * T * (H / 2 - R) ^ 3 / 3 +
      2 * (B / 2 - R) * ((H / 2 - R) ^ 2 * T + (H / 2 - R) * (R ^ 2 - (R - T) ^ 2) + (R ^ 3 - (R - T) ^ 3) / 3) +
      2 * ((H / 2 - R) ^ 2 * π * (R ^ 2 - (R - T) ^ 2) / 4 + 2 * (H / 2 - R) * (R ^ 3 - (R - T) ^ 3) / 3 + π * (R ^ 4 - (R - T) ^ 4) / 16)) := by
    intro H B R
    unfold rhsSecondMoment
    have := pi_ne_zero
    field_simp
    ring
  have p : ∀ n : ℕ, 0 ≤ rhsOuterRadius T ^ n - (rhsOuterRadius T - T) ^ n := fun n => sub_nonneg.2 (pow_le_pow_left₀ (by linarith) (by linarith) n)
  have p4 : 0 < rhsOuterRadius T ^ 4 - (rhsOuterRadius T - T) ^ 4 := sub_pos.2 (pow_lt_pow_left₀ (by linarith) (by linarith) (by norm_num))
  have pos : ∀ {H B : ℝ}, 2 * rhsOuterRadius T ≤ H → 2 * rhsOuterRadius T ≤ B → 0 < rhsSecondMoment H B T (rhsOuterRadius T) := by
    intro H B hH hB
    rw [form]
    have a1 : 0 ≤ H / 2 - rhsOuterRadius T := by linarith
    have b1 : 0 ≤ B / 2 - rhsOuterRadius T := by linarith
    have q2 := p 2
    have q3 := p 3
    generalize rhsOuterRadius T ^ 4 - (rhsOuterRadius T - T) ^ 4 = d4 at p4
    generalize rhsOuterRadius T ^ 3 - (rhsOuterRadius T - T) ^ 3 = d3 at q3
    generalize rhsOuterRadius T ^ 2 - (rhsOuterRadius T - T) ^ 2 = d2 at q2
    generalize H / 2 - rhsOuterRadius T = a at a1
    generalize B / 2 - rhsOuterRadius T = b at b1
    have := pi_pos
    positivity
  refine ⟨area_pos hT hH hB, pos hH hB, pos hB hH, key hH hB, key hB hH, fun hBH => ?_⟩
  show rhsSecondMoment B H T (rhsOuterRadius T) ≤ rhsSecondMoment H B T (rhsOuterRadius T)
  rw [form, form]
  have q2 := p 2
  have q3 := p 3
  generalize rhsOuterRadius T ^ 4 - (rhsOuterRadius T - T) ^ 4 = d4 at p4
  generalize rhsOuterRadius T ^ 3 - (rhsOuterRadius T - T) ^ 3 = d3 at q3
  generalize rhsOuterRadius T ^ 2 - (rhsOuterRadius T - T) ^ 2 = d2 at q2
  obtain ⟨a, ea⟩ : ∃ a, a = H / 2 - rhsOuterRadius T := ⟨_, rfl⟩
  obtain ⟨b, eb⟩ : ∃ b, b = B / 2 - rhsOuterRadius T := ⟨_, rfl⟩
  rw [← ea, ← eb]
  have b1 : 0 ≤ b := by linarith
  have ab : b ≤ a := by linarith
  have a1 : 0 ≤ a := b1.trans ab
  have := pi_pos
  have hd : 0 ≤ (a - b) * (2 * T * (a ^ 2 + a * b + b ^ 2) / 3 + 2 * a * b * T + 2 / 3 * d3 + (a + b) * π / 2 * d2) :=
    mul_nonneg (by linarith) (by positivity)
  linarith

/-- Square hollow section 100 by 100 by 5. -/
example : (RHS.new 100 100 5).props.Wel.1 ≤ (RHS.new 100 100 5).props.Wpl.1 :=
  (C65_order (H := 100) (B := 100) (T := 5) (by norm_num) (by norm_num [rhsOuterRadius]) (by norm_num [rhsOuterRadius])).2.2.2.1

theorem ring_eq (D T : ℝ) : ring D T = hollow D D T (D / 2) := by
  ext p
  have e : ∀ x : ℝ, max |x| 0 = |x| := fun x => max_eq_left (abs_nonneg x)
  simp only [ring, hollow, rounded, mem_sdiff, mem_ofPred_eq, sub_self, sub_zero, e, sq_abs, not_le]

/-- **C65, circular sections.** For every wall up to the radius: area, second moment and plastic modulus are the integrals over the ring, the elastic modulus is the second moment over the
    radius, the torsion constant is the polar second moment, and the elastic modulus does not exceed the plastic one. -/
theorem C65_circular {D T : ℝ} (hD : 0 < D) (hT : 0 ≤ T) (h : 2 * T ≤ D) :
    chsArea D T = planeMoment (ring D T) (fun _ => 1) ∧ chsSecondMoment D T = planeMoment (ring D T) (fun z => z ^ 2) ∧
    chsPlasticModulus D T = planeMoment (ring D T) (fun z => |z|) ∧ chsElasticModulus D T * (D / 2) = planeMoment (ring D T) (fun z => z ^ 2) ∧
    chsTorsion D T = planeMoment (ring D T) (fun z => z ^ 2) + planeMoment (flipped (ring D T)) (fun z => z ^ 2) ∧
    chsElasticModulus D T ≤ chsPlasticModulus D T ∧ chsPaintArea D = 2 * π * (D / 2) ∧ chsShearArea D T * π = 2 * chsArea D T := by
  have hp := pi_ne_zero
  have e2 : planeMoment (ring D T) (fun z => z ^ 2) = chsSecondMoment D T := by
    rw [ring_eq D T, hollow_second (by linarith) (by linarith) hT (by linarith)]
    unfold rhsSecondMoment chsSecondMoment
    field_simp
    ring
  have e1 : planeMoment (ring D T) (fun z => |z|) = chsPlasticModulus D T := by
    rw [ring_eq D T, hollow_plastic (by linarith) (by linarith) hT (by linarith)]
    unfold rhsPlasticModulus chsPlasticModulus
    field_simp
    ring
  refine ⟨?_, e2.symm, e1.symm, ?_, ?_, ?_, ?_, ?_⟩
  · rw [ring_eq D T, hollow_area (by linarith) (by linarith) hT (by linarith)]
    unfold rhsArea chsArea
    ring
  · rw [e2]
    unfold chsElasticModulus
    field_simp
  · have : flipped (ring D T) = ring D T := by rw [ring_eq D T, flipped_hollow]
    rw [this, e2]
    unfold chsTorsion chsSecondMoment
    ring
  · have := hollow_second_le (a := D / 2 - D / 2) (b := D / 2 - D / 2) (r := D / 2) (r' := D / 2 - T) (by linarith) (by linarith) (by linarith) (by linarith)
    simp only [sq_abs] at this
    have e := ring_eq D T
    unfold hollow at e
    rw [← e, e2, e1] at this
    unfold chsElasticModulus
    rw [div_le_iff₀ (by linarith)]
    linarith
  · unfold chsPaintArea
    ring
  · unfold chsShearArea
    field_simp

/-- Pipe 168.3 by 6.3. -/
example : chsPlasticModulus 168.3 6.3 = planeMoment (ring 168.3 6.3) (fun z => |z|) := (C65_circular (by norm_num) (by norm_num) (by norm_num)).2.2.1

end Metku.Steel
