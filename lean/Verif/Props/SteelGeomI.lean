import Verif.Lemmas.SectionI
import Verif.Model.SteelGeom
import Mathlib.Analysis.Real.Pi.Bounds

/-! Properties C66: section properties of rolled I-sections. -/
namespace Metku.Steel

open Metku.SectionSpec Real

variable {h b tf tw r : ℝ}

theorem i_area (hr : 0 ≤ r) (htf : 0 ≤ tf) (htw : 0 ≤ tw) (hb : tw / 2 + r ≤ b / 2) (hh : tf + r ≤ h / 2) :
    planeMoment (iSection h b tf tw r) (fun _ => 1) = 2 * tf * b + (h - 2 * tf) * tw + (4 - π) * r ^ 2 := by
  have k := i_moment hr htf htw hb hh (g := fun _ => 1) continuous_const
  rw [k]
  simp only [one_mul]
  rw [K0 hr]
  simp only [intervalIntegral.integral_const, smul_eq_mul]
  ring

theorem i_plastic (hr : 0 ≤ r) (htf : 0 ≤ tf) (htw : 0 ≤ tw) (hb : tw / 2 + r ≤ b / 2) (hh : tf + r ≤ h / 2) :
    planeMoment (iSection h b tf tw r) (fun z => |z|) =
      tw * h ^ 2 / 4 + (b - tw) * (h - tf) * tf + (4 - π) / 2 * r ^ 2 * (h - 2 * tf) + (3 * π - 10) / 3 * r ^ 3 := by
  have k := i_moment hr htf htw hb hh (g := fun x => x) continuous_id
  rw [k, K1 hr]
  simp only [integral_id]
  ring

theorem i_plasticV (hr : 0 ≤ r) (htf : 0 ≤ tf) (htw : 0 ≤ tw) (hb : tw / 2 + r ≤ b / 2) (hh : tf + r ≤ h / 2) :
    planeMoment (flipped (iSection h b tf tw r)) (fun z => |z|) =
      b ^ 2 * tf / 2 + (h - 2 * tf) / 4 * tw ^ 2 + r ^ 3 * (10 / 3 - π) + (2 - π / 2) * tw * r ^ 2 := by
  have k := i_momentV hr htf htw hb hh (g := fun x => x) continuous_id
  rw [k, K1 hr]
  simp only [integral_id]
  ring

/-- Second moment of the four root fillets about an axis at distance `c` from the corner, towards which (`s = -1`) or away from which (`s = 1`) the fillets extend. -/
noncomputable def filletI (s c r : ℝ) : ℝ := (4 - π) * r ^ 2 * c ^ 2 + s * (20 / 3 - 2 * π) * r ^ 3 * c + (4 - 5 * π / 4) * r ^ 4

theorem i_second (hr : 0 ≤ r) (htf : 0 ≤ tf) (htw : 0 ≤ tw) (hb : tw / 2 + r ≤ b / 2) (hh : tf + r ≤ h / 2) :
    planeMoment (iSection h b tf tw r) (fun z => z ^ 2) = 1 / 12 * (b * h ^ 3 - (b - tw) * (h - 2 * tf) ^ 3) + filletI (-1) (h / 2 - tf) r := by
  have k := i_moment hr htf htw hb hh (g := fun x => x ^ 2) (by fun_prop)
  simp only [sq_abs] at k
  rw [k, K2 hr]
  simp only [integral_pow, filletI]
  norm_num
  ring

theorem i_secondV (hr : 0 ≤ r) (htf : 0 ≤ tf) (htw : 0 ≤ tw) (hb : tw / 2 + r ≤ b / 2) (hh : tf + r ≤ h / 2) :
    planeMoment (flipped (iSection h b tf tw r)) (fun z => z ^ 2) = 1 / 12 * (2 * tf * b ^ 3 + (h - 2 * tf) * tw ^ 3) + filletI 1 (tw / 2) r := by
  have k := i_momentV hr htf htw hb hh (g := fun x => x ^ 2) (by fun_prop)
  simp only [sq_abs] at k
  rw [k, K2 hr]
  simp only [integral_pow, filletI]
  norm_num
  ring

theorem fillet_y {c : ℝ} (hr : 0 ≤ r) (hc : r ≤ c) :
    3 / 100 * r ^ 4 + 2146 / 10000 * r ^ 2 * (2 * c - 4468 / 10000 * r) ^ 2 ≤ filletI (-1) c r ∧
    filletI (-1) c r ≤ (1 + 5 / 10000) * (3 / 100 * r ^ 4 + 2146 / 10000 * r ^ 2 * (2 * c - 4468 / 10000 * r) ^ 2) := by
  have p1 := pi_gt_d6
  have p2 := pi_lt_d6
  obtain ⟨x, hx, rfl⟩ : ∃ x, 0 ≤ x ∧ c = r + x := ⟨c - r, by linarith, by ring⟩
  obtain ⟨q, hq⟩ : ∃ q, q = π - 3.141592 := ⟨_, rfl⟩
  have hq0 : 0 ≤ q := by rw [hq]; linarith
  have hq1 : q ≤ 1 / 1000000 := by rw [hq]; norm_num at p2 ⊢; linarith
  have e : π = q + 3.141592 := by rw [hq]; ring
  have a1 : 0 ≤ r ^ 4 := by positivity
  have a2 : 0 ≤ r ^ 3 * x := by positivity
  have a3 : 0 ≤ r ^ 2 * x ^ 2 := by positivity
  have b1 := mul_nonneg a1 hq0
  have b2 := mul_nonneg a2 hq0
  have b3 := mul_nonneg a3 hq0
  have c1 := mul_le_mul_of_nonneg_left hq1 a1
  have c2 := mul_le_mul_of_nonneg_left hq1 a2
  have c3 := mul_le_mul_of_nonneg_left hq1 a3
  simp only [filletI, e]
  constructor <;> (norm_num; nlinarith)

theorem fillet_z {c : ℝ} (hr : 0 ≤ r) (hc : 0 ≤ c) :
    (1 - 1 / 400) * filletI 1 c r ≤ 3 / 100 * r ^ 4 + 2146 / 10000 * r ^ 2 * (2 * c + 4468 / 10000 * r) ^ 2 ∧
    3 / 100 * r ^ 4 + 2146 / 10000 * r ^ 2 * (2 * c + 4468 / 10000 * r) ^ 2 ≤ (1 + 1 / 400) * filletI 1 c r := by
  have p1 := pi_gt_d6
  have p2 := pi_lt_d6
  obtain ⟨q, hq⟩ : ∃ q, q = π - 3.141592 := ⟨_, rfl⟩
  have hq0 : 0 ≤ q := by rw [hq]; linarith
  have hq1 : q ≤ 1 / 1000000 := by rw [hq]; norm_num at p2 ⊢; linarith
  have e : π = q + 3.141592 := by rw [hq]; ring
  have a1 : 0 ≤ r ^ 4 := by positivity
  have a2 : 0 ≤ r ^ 3 * c := by positivity
  have a3 : 0 ≤ r ^ 2 * c ^ 2 := by positivity
  have b1 := mul_nonneg a1 hq0
  have b2 := mul_nonneg a2 hq0
  have b3 := mul_nonneg a3 hq0
  have c1 := mul_le_mul_of_nonneg_left hq1 a1
  have c2 := mul_le_mul_of_nonneg_left hq1 a2
  have c3 := mul_le_mul_of_nonneg_left hq1 a3
  simp only [filletI, e]
  constructor <;> (norm_num; nlinarith)

theorem filletI_z_nonneg {c : ℝ} (hr : 0 ≤ r) (hc : 0 ≤ c) : 0 ≤ filletI 1 c r := by
  have p2 := pi_lt_d6
  norm_num at p2
  unfold filletI
  have : 0 ≤ 4 - π := by linarith
  have : 0 ≤ 20 / 3 - 2 * π := by linarith
  have : 0 ≤ 4 - 5 * π / 4 := by linarith
  rw [one_mul]
  positivity

theorem core_nonneg (hr : 0 ≤ r) (htf : 0 ≤ tf) (htw : 0 ≤ tw) (hb : tw / 2 + r ≤ b / 2) (hh : tf + r ≤ h / 2) : 0 ≤ b * h ^ 3 - (b - tw) * (h - 2 * tf) ^ 3 := by
  have h1 : (h - 2 * tf) ^ 3 ≤ h ^ 3 := pow_le_pow_left₀ (by linarith) (by linarith) 3
  have h2 : (0:ℝ) ≤ (h - 2 * tf) ^ 3 := pow_nonneg (by linarith) 3
  have h3 := mul_le_mul_of_nonneg_left h1 (show 0 ≤ b by linarith)
  nlinarith [mul_nonneg htw h2]

/-- **C66, integrals.** For every rolled I-section whose parts fit together (fillets between the flanges and on the flange): the area and both plastic moduli of the constructed object are the integrals over
    the section with its four root fillets; the second moment about the strong axis is never larger than the integral and at most 0.05 % smaller; the one about the weak axis is within 0.25 %; the elastic moduli are
    the second moments divided by half the dimension. -/
theorem C66 (hr : 0 ≤ r) (htf : 0 ≤ tf) (htw : 0 ≤ tw) (hb : tw / 2 + r ≤ b / 2) (hh : tf + r ≤ h / 2) :
    ∃ S P, S = iSection h b tf tw r ∧ P = iProps b h tf tw r ∧
      P.A = planeMoment S (fun _ => 1) ∧ P.Wpl = (planeMoment S (fun z => |z|), planeMoment (flipped S) (fun z => |z|)) ∧
      P.I.1 ≤ planeMoment S (fun z => z ^ 2) ∧ planeMoment S (fun z => z ^ 2) ≤ 1.0005 * P.I.1 ∧
      0.9975 * planeMoment (flipped S) (fun z => z ^ 2) ≤ P.I.2 ∧ P.I.2 ≤ 1.0025 * planeMoment (flipped S) (fun z => z ^ 2) ∧
      (0 < h → P.Wel.1 * (h / 2) = P.I.1) ∧ (0 < b → P.Wel.2 * (b / 2) = P.I.2) := by
  obtain ⟨y1, y2⟩ := fillet_y (c := h / 2 - tf) hr (by linarith)
  obtain ⟨z1, z2⟩ := fillet_z (c := tw / 2) hr (by linarith)
  have hcore := core_nonneg hr htf htw hb hh
  have hcz : 0 ≤ 2 * tf * b ^ 3 + (h - 2 * tf) * tw ^ 3 := by
    have := mul_nonneg htf (pow_nonneg (show 0 ≤ b by linarith) 3)
    have := mul_nonneg (show 0 ≤ h - 2 * tf by linarith) (pow_nonneg htw 3)
    linarith
  have ey : 2 * (h / 2 - tf) - 4468 / 10000 * r = h - 2 * tf - 4468 / 10000 * r := by ring
  have ez : 2 * (tw / 2) + 4468 / 10000 * r = tw + 4468 / 10000 * r := by ring
  rw [ey] at y1 y2
  rw [ez] at z1 z2
  refine ⟨_, _, rfl, rfl, ?_, ?_, ?_, ?_, ?_, ?_, ?_, ?_⟩
  · rw [i_area hr htf htw hb hh]; rfl
  · rw [i_plastic hr htf htw hb hh, i_plasticV hr htf htw hb hh]; rfl
  · rw [i_second hr htf htw hb hh]
    simp only [iProps]
    linarith
  · rw [i_second hr htf htw hb hh]
    simp only [iProps]
    norm_num
    linarith
  · rw [i_secondV hr htf htw hb hh]
    simp only [iProps]
    norm_num
    linarith
  · rw [i_secondV hr htf htw hb hh]
    simp only [iProps]
    norm_num
    linarith
  · intro h0
    simp only [iProps]
    field_simp
  · intro h0
    simp only [iProps]
    field_simp

/-- **C66, shear area and moduli.** Under the same hypotheses: the shear area for loads in the web plane is the area of the web plate, the fillets and the part of one flange thickness above web and fillets; it is at least the web
    plate and at most the whole area; the elastic modulus never exceeds the plastic one about either axis. -/
theorem C66_order (hr : 0 ≤ r) (htf : 0 ≤ tf) (htw : 0 ≤ tw) (hb : tw / 2 + r ≤ b / 2) (hh : tf + r ≤ h / 2) (h0 : 0 < h) (b0 : 0 < b) :
    (iProps b h tf tw r).Ashear.2 = (h - 2 * tf) * tw + (4 - π) * r ^ 2 + (tw + 2 * r) * tf ∧
    (h - 2 * tf) * tw ≤ (iProps b h tf tw r).Ashear.2 ∧ (iProps b h tf tw r).Ashear.2 ≤ (iProps b h tf tw r).A ∧
    (iProps b h tf tw r).Wel.1 ≤ (iProps b h tf tw r).Wpl.1 ∧ (iProps b h tf tw r).Wel.2 ≤ (iProps b h tf tw r).Wpl.2 := by
  have p1 := pi_gt_d6
  have p2 := pi_lt_d6
  norm_num at p1 p2
  have hpi : 0 ≤ (4 - π) * r ^ 2 := mul_nonneg (by linarith) (by positivity)
  have e1 : (iProps b h tf tw r).Ashear.2 = (h - 2 * tf) * tw + (4 - π) * r ^ 2 + (tw + 2 * r) * tf := by
    simp only [iProps]
    ring
  refine ⟨e1, ?_, ?_, ?_, ?_⟩
  · rw [e1]
    have : 0 ≤ (tw + 2 * r) * tf := mul_nonneg (by linarith) htf
    linarith
  · simp only [iProps]
    nlinarith [mul_nonneg (show 0 ≤ b - tw - 2 * r by linarith) htf, mul_nonneg b0.le htf]
  · simp only [iProps]
    rw [div_le_iff₀ (by linarith)]
    have k1 : 1 / 12 * (b * h ^ 3 - (b - tw) * (h - 2 * tf) ^ 3) ≤ (tw * h ^ 2 / 4 + (b - tw) * (h - tf) * tf) * (1 / 2 * h) := by
      have a1 : 0 ≤ tw * h ^ 3 := by positivity
      have a2 : 0 ≤ (b - tw) * (tf ^ 2 * (h / 2 - 2 / 3 * tf)) := mul_nonneg (by linarith) (mul_nonneg (by positivity) (by linarith))
      nlinarith
    have k2 : 3 / 100 * r ^ 4 + 2146 / 10000 * r ^ 2 * (h - 2 * tf - 4468 / 10000 * r) ^ 2 ≤ ((4 - π) / 2 * r ^ 2 * (h - 2 * tf) + (3 * π - 10) / 3 * r ^ 3) * (1 / 2 * h) := by
      obtain ⟨x, hx, rfl⟩ : ∃ x, 0 ≤ x ∧ h = 2 * (tf + r + x) := ⟨h / 2 - tf - r, by linarith, by ring⟩
      have f0 : r ^ 2 * ((85840 / 100000) * (r + x) - 192 / 1000 * r) ≤ (4 - π) / 2 * r ^ 2 * (2 * (tf + r + x) - 2 * tf) + (3 * π - 10) / 3 * r ^ 3 := by
        have : 0 ≤ r ^ 2 * (((4 - π) - 85840 / 100000) * (r + x) + ((3 * π - 10) / 3 + 192 / 1000) * r) :=
          mul_nonneg (by positivity) (add_nonneg (mul_nonneg (by linarith) (by linarith)) (mul_nonneg (by linarith) hr))
        nlinarith
      have f1 : 0 ≤ r ^ 2 * ((85840 / 100000) * (r + x) - 192 / 1000 * r) := mul_nonneg (by positivity) (by linarith)
      have f2 := mul_le_mul f0 (show r + x ≤ 1 / 2 * (2 * (tf + r + x)) by linarith) (by linarith) (f1.trans f0)
      have a1 : 0 ≤ r ^ 4 := by positivity
      have a2 : 0 ≤ r ^ 3 * x := by positivity
      nlinarith
    linarith
  · simp only [iProps]
    rw [div_le_iff₀ (by linarith)]
    have k1 : 1 / 12 * (2 * tf * b ^ 3 + (h - 2 * tf) * tw ^ 3) ≤ (b ^ 2 * tf / 2 + (h - 2 * tf) / 4 * tw ^ 2) * (1 / 2 * b) := by
      have a1 : 0 ≤ tf * b ^ 3 := by positivity
      have a2 : 0 ≤ (h - 2 * tf) * (tw ^ 2 * (b / 8 - tw / 12)) := mul_nonneg (by linarith) (mul_nonneg (by positivity) (by linarith))
      nlinarith
    have k2 : 3 / 100 * r ^ 4 + 2146 / 10000 * r ^ 2 * (tw + 4468 / 10000 * r) ^ 2 ≤ (r ^ 3 * (10 / 3 - π) + (2 - π / 2) * tw * r ^ 2) * (1 / 2 * b) := by
      have f0 : r ^ 3 * (191 / 1000) + r ^ 2 * tw * (4292 / 10000) ≤ r ^ 3 * (10 / 3 - π) + (2 - π / 2) * tw * r ^ 2 := by
        have a1 : 0 ≤ r ^ 3 * (10 / 3 - π - 191 / 1000) := mul_nonneg (by positivity) (by linarith)
        have a2 : 0 ≤ r ^ 2 * tw * (2 - π / 2 - 4292 / 10000) := mul_nonneg (by positivity) (by linarith)
        nlinarith
      have f1 : 0 ≤ r ^ 3 * (191 / 1000) + r ^ 2 * tw * (4292 / 10000) := by positivity
      have f2 := mul_le_mul f0 (show tw / 2 + r ≤ 1 / 2 * b by linarith) (by linarith) (f1.trans f0)
      have a1 : 0 ≤ r ^ 4 := by positivity
      have a2 : 0 ≤ r ^ 3 * tw := by positivity
      nlinarith
    linarith

/-- **C66, painted surface: the negation.** The outline of the section consists of two flange faces, four flange edges, four inner flange strips, four quarter circles and two web faces; the surface per length used for the section factor
    in fire is smaller than its length by twice the web thickness, for every section. -/
theorem C66_violation (b h tf tw r : ℝ) :
    (iProps b h tf tw r).Au + 2 * tw = 2 * b + 4 * tf + 4 * ((b - tw) / 2 - r) + 4 * (π * r / 2) + 2 * (h - 2 * tf - 2 * r) ∧
    (0 < tw → (iProps b h tf tw r).Au < 2 * b + 4 * tf + 4 * ((b - tw) / 2 - r) + 4 * (π * r / 2) + 2 * (h - 2 * tf - 2 * r)) := by
  have e : (iProps b h tf tw r).Au + 2 * tw = 2 * b + 4 * tf + 4 * ((b - tw) / 2 - r) + 4 * (π * r / 2) + 2 * (h - 2 * tf - 2 * r) := by
    simp only [iProps]
    ring
  exact ⟨e, fun hw => by linarith⟩

/-- IPE 300 meets the hypotheses. -/
example : (0.9975 : ℝ) * planeMoment (flipped (iSection 300 150 10.7 7.1 15)) (fun z => z ^ 2) ≤ (iProps 150 300 10.7 7.1 15).I.2 := by
  obtain ⟨_, _, rfl, rfl, _, _, _, _, h, _⟩ := C66 (h := 300) (b := 150) (tf := 10.7) (tw := 7.1) (r := 15) (by norm_num) (by norm_num) (by norm_num) (by norm_num) (by norm_num)
  exact h

end Metku.Steel
