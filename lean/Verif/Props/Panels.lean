import Mathlib.Analysis.SpecialFunctions.Integrals.Basic
import Mathlib.Tactic.Linarith
import Mathlib.Tactic.NormNum
import Mathlib.Tactic.FieldSimp
import Mathlib.Tactic.Ring
import Mathlib.Tactic.Positivity
import Verif.Model.Panels

/-! Sandwich panels and slabs of cross laminated timber (C295-C299). -/

namespace Metku.Panels

open Metku Metku.Fire Real intervalIntegral

theorem pdiv_ok {a b : ℝ} (h : b ≠ 0) : pdiv a b = .ok (a / b) := by rw [pdiv, if_neg h]

theorem psqrt_ok {a : ℝ} (h : 0 ≤ a) : psqrt a = .ok (√a) := by rw [psqrt, if_neg (not_lt.2 h)]

/-! ### C295: stiffness of a sandwich panel -/

/-- First moment of a face between `a` and `b` about `z0`, for unit width and modulus. -/
theorem first_moment (a b z0 : ℝ) : ∫ z in a..b, (z - z0) = ((b - z0) ^ 2 - (a - z0) ^ 2) / 2 := by
  rw [integral_comp_sub_right (fun z => z) z0, integral_id]

/-- Second moment. -/
theorem second_moment (a b z0 : ℝ) : ∫ z in a..b, (z - z0) ^ 2 = ((b - z0) ^ 3 - (a - z0) ^ 3) / 3 := by
  rw [integral_comp_sub_right (fun z => z ^ 2) z0, integral_pow]
  norm_num

/-- Bending stiffness of the faces and the sandwich part add up to the stiffness of both faces about the axis in which bending leaves
    no axial force: faces `[0, t1]` and `[t1 + tc, t1 + tc + t2]` of the height. -/
theorem C295_stiffness (P : Panel) (z0 : ℝ) (hE1 : 0 < P.top.E) (hE2 : 0 < P.bottom.E) (ht1 : 0 < P.top.t) (ht2 : 0 < P.bottom.t)
    (hb : 0 < P.width)
    (h0 : P.top.E * (∫ z in (0:ℝ)..P.top.t, (z - z0)) +
      P.bottom.E * (∫ z in (P.top.t + P.core.t)..P.thickness, (z - z0)) = 0) :
    ∃ s, P.EIs = .ok s ∧
      P.EIo + s = P.width * (P.top.E * (∫ z in (0:ℝ)..P.top.t, (z - z0) ^ 2) +
        P.bottom.E * (∫ z in (P.top.t + P.core.t)..P.thickness, (z - z0) ^ 2)) := by
  rw [first_moment, first_moment, Panel.thickness] at h0
  rw [second_moment, second_moment, Panel.thickness]
  have hne : P.top.EA P.width + P.bottom.EA P.width ≠ 0 := by
    simp only [Face.EA, Face.A]; positivity
  refine ⟨P.top.EA P.width * P.bottom.EA P.width / (P.top.EA P.width + P.bottom.EA P.width) * P.d ^ 2, by simp only [Panel.EIs, pdiv_ok hne, bind, Except.bind, pure, Except.pure], ?_⟩
  simp only [Panel.EIo, Face.EI, Face.I, Face.EA, Face.A, Panel.d]
  obtain ⟨E1, E2, t1, t2, tc, b, e1, e2, e3, e4, e5, e6⟩ : ∃ E1 E2 t1 t2 tc b, E1 = P.top.E ∧ E2 = P.bottom.E ∧ t1 = P.top.t ∧
    t2 = P.bottom.t ∧ tc = P.core.t ∧ b = P.width := ⟨_, _, _, _, _, _, rfl, rfl, rfl, rfl, rfl, rfl⟩
  rw [← e1, ← e2, ← e3, ← e4, ← e5] at h0
  rw [← e1] at hE1
  rw [← e2] at hE2
  rw [← e3] at ht1
  rw [← e4] at ht2
  rw [← e6] at hb
  rw [← e1, ← e2, ← e3, ← e4, ← e5, ← e6]
  have hs : 0 < E1 * t1 + E2 * t2 := by positivity
  have hz : z0 = (E1 * t1 ^ 2 / 2 + E2 * t2 * (t1 + tc + t2 / 2)) / (E1 * t1 + E2 * t2) := by
    rw [eq_div_iff hs.ne']; linarith
  have hq : E1 * (t1 * b) * (E2 * (t2 * b)) / (E1 * (t1 * b) + E2 * (t2 * b)) = b * (E1 * t1 * (E2 * t2) / (E1 * t1 + E2 * t2)) := by
    rw [show E1 * (t1 * b) + E2 * (t2 * b) = b * (E1 * t1 + E2 * t2) by ring]
    field_simp
  rw [hq, hz]
  field_simp
  ring

/-- The panel is as thick as its layers, and the shear stiffness exceeds that of the core alone. -/
theorem C295_shear (P : Panel) (hG : 0 < P.core.G) (hb : 0 < P.width) (hc : 0 < P.core.t) (h1 : 0 < P.top.t) (h2 : 0 < P.bottom.t) :
    ∃ s, P.S = .ok s ∧ P.core.G * P.width * P.core.t < s ∧ s < P.core.G * P.width * P.thickness ^ 2 / P.core.t ∧
      s * P.core.t = P.core.G * P.width * (P.thickness - P.top.t / 2 - P.bottom.t / 2) ^ 2 := by
  refine ⟨P.core.G * P.width * P.d ^ 2 / P.core.t, by rw [Panel.S, pdiv_ok hc.ne'], ?_, ?_, ?_⟩
  · rw [lt_div_iff₀ hc]
    have : P.core.t < P.d := by rw [Panel.d]; linarith
    have : P.core.t ^ 2 < P.d ^ 2 := by nlinarith
    have hp : 0 < P.core.G * P.width := by positivity
    nlinarith
  · apply div_lt_div_of_pos_right _ hc
    apply mul_lt_mul_of_pos_left _ (by positivity)
    have : P.d < P.thickness := by rw [Panel.d, Panel.thickness]; linarith
    have : 0 < P.d := by rw [Panel.d]; positivity
    nlinarith
  · rw [div_mul_cancel₀ _ hc.ne', Panel.d, Panel.thickness]
    ring

/-- The named panel has the thickness and length that were asked for; other names fail without a message. -/
theorem C295_named (t L : ℝ) (c : List ℝ) :
    (∃ P, ruukkiPanel "SPA E" t L c = .ok P ∧ P.thickness = t ∧ P.length = L) ∧
    ∀ name, name ≠ "SPA E" → ruukkiPanel name t L c = .error .unboundLocal := by
  refine ⟨⟨_, rfl, ?_, rfl⟩, fun name h => by rw [ruukkiPanel, if_neg h]⟩
  simp only [Panel.thickness]
  ring

example : ∃ (P : Panel) (z0 : ℝ), 0 < P.top.E ∧ 0 < P.bottom.E ∧ 0 < P.top.t ∧ 0 < P.bottom.t ∧ 0 < P.width ∧ 0 < P.core.t ∧ 0 < P.core.G ∧
    P.top.E * (∫ z in (0:ℝ)..P.top.t, (z - z0)) + P.bottom.E * (∫ z in (P.top.t + P.core.t)..P.thickness, (z - z0)) = 0 := by
  refine ⟨⟨⟨1, 280, 360, 2, 0.04⟩, ⟨1, 280, 360, 2, 0.04⟩, ⟨98, 3.7, 0⟩, 1200, 6000, [1000], ⟨5.5, 5.1, 4.59⟩⟩, 50, ?_⟩
  rw [first_moment, first_moment]
  norm_num [Panel.thickness]

/-! ### C296: stiffness of a fastener -/

/-- The ECCS value of the stiffness of the inner face. -/
noncomputable def Spec.kF (tcor t fu d1 : ℝ) : ℝ :=
  if tcor < 0.7 then 6.93 * fu * (tcor * √(tcor * d1)) / (0.26 + 0.8 * t) else 4.2 * fu * (tcor * √(tcor * d1)) / 0.373

/-- The sum of compliances when the fastener does not rotate at the panel: hole, clamping, bending over the support. -/
noncomputable def Spec.parts (p C EI s : ℝ) : ℝ := p + s ^ 2 / (4 * C) + s ^ 3 / (24 * EI)

theorem sqrt_cube {x d : ℝ} (hx : 0 ≤ x) : √(x ^ 3 * d) = x * √(x * d) := by
  rw [show x ^ 3 * d = x ^ 2 * (x * d) by ring, sqrt_mul (by positivity), sqrt_sq hx]

theorem faceStiffness_eq (f : Face) (d1 : ℝ) (hc : 0 ≤ f.tcor) (ht : 0 ≤ f.t) (hd : 0 ≤ d1) :
    faceStiffness f d1 = .ok (Spec.kF f.tcor f.t f.fu d1) := by
  have hr := psqrt_ok (a := f.tcor ^ 3 * d1) (by positivity)
  rw [faceStiffness, Spec.kF]
  by_cases h : f.tcor < 0.7
  · rw [if_pos h, if_pos h, hr]
    simp only [bind, Except.bind]
    rw [pdiv_ok (by positivity), sqrt_cube hc]
  · rw [if_neg h, if_neg h, hr]
    simp only [bind, Except.bind]
    rw [pdiv_ok (by norm_num), sqrt_cube hc]

/-- The stiffness of the inner face grows with its thickness, also across the change of formula. -/
theorem C296_face (f g : Face) (d1 : ℝ) (hd : 0 ≤ d1) (hcoat : 0 ≤ f.tcoat) (hsame : g.tcoat = f.tcoat) (hfu : 0 ≤ f.fu) (hg : g.fu = f.fu)
    (hc : 0 ≤ f.tcor) (h : f.t ≤ g.t) :
    ∃ a b, faceStiffness f d1 = .ok a ∧ faceStiffness g d1 = .ok b ∧ a ≤ b := by
  have hft : f.t = f.tcor + f.tcoat := by rw [Face.tcor]; ring
  have hgt : g.t = g.tcor + f.tcoat := by rw [Face.tcor, hsame]; ring
  have hle : f.tcor ≤ g.tcor := by linarith
  refine ⟨_, _, faceStiffness_eq f d1 hc (by linarith) hd, faceStiffness_eq g d1 (by linarith) (by linarith) hd, ?_⟩
  have hs : √(f.tcor * d1) ≤ √(g.tcor * d1) := sqrt_le_sqrt (mul_le_mul_of_nonneg_right hle hd)
  have hs0 := sqrt_nonneg (f.tcor * d1)
  have hw : f.fu * (f.tcor * √(f.tcor * d1)) ≤ f.fu * (g.tcor * √(g.tcor * d1)) :=
    mul_le_mul_of_nonneg_left (mul_le_mul hle hs hs0 (by linarith)) hfu
  have hw0 : 0 ≤ f.fu * (f.tcor * √(f.tcor * d1)) := by positivity
  rw [Spec.kF, Spec.kF, hg]
  by_cases h1 : f.tcor < 0.7
  · rw [if_pos h1]
    by_cases h2 : g.tcor < 0.7
    · rw [if_pos h2, div_le_div_iff₀ (by linarith) (by linarith), hft, hgt]
      have k1 : f.tcor * (0.26 + 0.8 * (g.tcor + f.tcoat)) ≤ g.tcor * (0.26 + 0.8 * (f.tcor + f.tcoat)) := by nlinarith
      have k2 : √(f.tcor * d1) * (f.tcor * (0.26 + 0.8 * (g.tcor + f.tcoat))) ≤
          √(g.tcor * d1) * (g.tcor * (0.26 + 0.8 * (f.tcor + f.tcoat))) :=
        mul_le_mul hs k1 (by apply mul_nonneg hc; linarith) (sqrt_nonneg _)
      have k3 := mul_le_mul_of_nonneg_left k2 (show 0 ≤ 6.93 * f.fu by positivity)
      linarith
    · rw [if_neg h2]
      rw [not_lt] at h2
      have k1 : f.tcor / (0.26 + 0.8 * f.t) * 6.93 ≤ g.tcor * (4.2 / 0.373) := by
        rw [div_mul_eq_mul_div, div_le_iff₀ (by linarith), hft]
        nlinarith [mul_nonneg hc hcoat, mul_nonneg (show 0 ≤ g.tcor by linarith) hcoat, mul_nonneg hc (show 0 ≤ g.tcor by linarith)]
      have k2 : √(f.tcor * d1) * (f.tcor / (0.26 + 0.8 * f.t) * 6.93) ≤ √(g.tcor * d1) * (g.tcor * (4.2 / 0.373)) :=
        mul_le_mul hs k1 (by
          apply mul_nonneg _ (by norm_num)
          exact div_nonneg hc (by linarith)) (sqrt_nonneg _)
      have k3 := mul_le_mul_of_nonneg_left k2 hfu
      calc 6.93 * f.fu * (f.tcor * √(f.tcor * d1)) / (0.26 + 0.8 * f.t)
          = f.fu * (√(f.tcor * d1) * (f.tcor / (0.26 + 0.8 * f.t) * 6.93)) := by ring
        _ ≤ _ := k3
        _ = _ := by ring
  · rw [if_neg h1, if_neg (by linarith)]
    apply div_le_div_of_nonneg_right _ (by norm_num)
    linarith

theorem kF_pos {tcor t fu d1 : ℝ} (h1 : 0 < tcor) (h2 : 0 < t) (h3 : 0 < fu) (h4 : 0 < d1) : 0 < Spec.kF tcor t fu d1 := by
  have : 0 < √(tcor * d1) := sqrt_pos.2 (by positivity)
  rw [Spec.kF]; split <;> positivity

/-- What the formula amounts to. -/
theorem stiffness_closed (P : Panel) (s : ℝ) (hs : 0 < s) (hd1 : 0 < P.fastener.d1) (hdS : 0 < P.fastener.dS)
    (hfu : 0 < P.bottom.fu) (hc : 0 < P.bottom.tcor) (ht : 0 < P.bottom.t) (hD : 0 < P.thickness) :
    let p := 1 / Spec.kF P.bottom.tcor P.bottom.t P.bottom.fu P.fastener.d1
    let C := 2400 * √(s * P.fastener.d1 ^ 5)
    let EI := 200000 * π * P.fastener.dS ^ 4 / 64
    let D := P.thickness
    let α := D * s / (2 * C) + D * s ^ 2 / (8 * EI)
    let β := D ^ 2 / C + D ^ 2 * (2 * D + 3 * s) / (6 * EI)
    0 < p ∧ 0 < C ∧ 0 < EI ∧
    0 < Spec.parts p C EI s - (p - α) ^ 2 / (p + β) ∧
    P.fastenerStiffness s = .ok (1 / (Spec.parts p C EI s - (p - α) ^ 2 / (p + β))) := by
  intro p C EI D α β
  have hk := kF_pos hc ht hfu hd1
  have hp : 0 < p := by positivity
  have hC : 0 < C := by
    have : 0 < √(s * P.fastener.d1 ^ 5) := sqrt_pos.2 (by positivity)
    positivity
  have hEI : 0 < EI := by have := pi_pos; positivity
  have hα : 0 < α := by positivity
  have hβ : 0 < β := by positivity
  have hpos : 0 < Spec.parts p C EI s - (p - α) ^ 2 / (p + β) := by
    rw [sub_pos, div_lt_iff₀ (by positivity)]
    have key : α ^ 2 ≤ β * (s ^ 2 / (4 * C) + s ^ 3 / (24 * EI)) := by
      have e : β * (s ^ 2 / (4 * C) + s ^ 3 / (24 * EI)) - α ^ 2 =
          D ^ 2 * s ^ 2 * (s / (24 * (C * EI)) + D / (12 * (C * EI)) + s ^ 2 / (192 * EI ^ 2) + D * s / (72 * EI ^ 2)) := by
        simp only [α, β]
        field_simp
        ring
      have : 0 ≤ D ^ 2 * s ^ 2 * (s / (24 * (C * EI)) + D / (12 * (C * EI)) + s ^ 2 / (192 * EI ^ 2) + D * s / (72 * EI ^ 2)) := by positivity
      linarith
    have hγ : 0 < s ^ 2 / (4 * C) + s ^ 3 / (24 * EI) := by positivity
    simp only [Spec.parts]
    nlinarith [mul_pos hp hβ, mul_pos hp hα, mul_pos hp hγ]
  refine ⟨hp, hC, hEI, hpos, ?_⟩
  have hf := faceStiffness_eq P.bottom P.fastener.d1 hc.le ht.le hd1.le
  have hr := psqrt_ok (a := s * P.fastener.d1 ^ 5) (by positivity)
  have hpdef : pdiv 1 (Spec.kF P.bottom.tcor P.bottom.t P.bottom.fu P.fastener.d1) = .ok p := pdiv_ok hk.ne'
  have hEI' : 200000 * π * P.fastener.dS ^ 4 / 64 = EI := rfl
  have hC' : 2400 * √(s * P.fastener.d1 ^ 5) = C := rfl
  simp only [Panel.fastenerStiffness, hr, hf, hpdef, bind, Except.bind]
  rw [hEI', hC', show P.thickness = D from rfl]
  rw [pdiv_ok hC.ne', pdiv_ok hEI.ne']
  dsimp only
  rw [pdiv_ok hC.ne', pdiv_ok hEI.ne']
  dsimp only
  have hden : p + D ^ 2 / C + D ^ 2 * (2 * D + 3 * s) / 6 / EI = p + β := by
    simp only [β]; rw [div_div, add_assoc]
  have hnum : p - 0.5 * D * s / C - D * s ^ 2 / 8 / EI = p - α := by
    simp only [α]; rw [div_div]; field_simp; ring
  rw [hden, hnum, pdiv_ok (by positivity)]
  dsimp only
  rw [pdiv_ok hk.ne', pdiv_ok hC.ne', pdiv_ok hEI.ne']
  dsimp only
  have hsum : (1 - (p - α) / (p + β)) / Spec.kF P.bottom.tcor P.bottom.t P.bottom.fu P.fastener.d1 +
      (s ^ 2 + 2 * (1 - (1 - (p - α) / (p + β))) * D * s) / 4 / C +
      (3 * (1 - (1 - (p - α) / (p + β))) * D * s ^ 2 + s ^ 3) / 24 / EI = Spec.parts p C EI s - (p - α) ^ 2 / (p + β) := by
    have e1 : (1 - (p - α) / (p + β)) / Spec.kF P.bottom.tcor P.bottom.t P.bottom.fu P.fastener.d1 = (1 - (p - α) / (p + β)) * p := by
      simp only [p]; ring
    rw [e1]
    have e2 : ∀ u : ℝ, (1 - u) * p + (s ^ 2 + 2 * (1 - (1 - u)) * D * s) / 4 / C + (3 * (1 - (1 - u)) * D * s ^ 2 + s ^ 3) / 24 / EI =
        Spec.parts p C EI s - u * (p - α) := by
      intro u
      simp only [Spec.parts, α]
      field_simp
      ring
    rw [e2]
    rw [sq, mul_div_assoc, mul_comm ((p - α) / (p + β))]
  rw [hsum, pdiv_ok hpos.ne']

/-- The stiffness of a fastener exists and is positive, and it is at least that of the three compliances of a fastener that cannot rotate in
    the panel, in series. -/
theorem C296_positive (P : Panel) (s : ℝ) (hs : 0 < s) (hd1 : 0 < P.fastener.d1) (hdS : 0 < P.fastener.dS)
    (hfu : 0 < P.bottom.fu) (hc : 0 < P.bottom.tcor) (ht : 0 < P.bottom.t) (hD : 0 < P.thickness) :
    ∃ k, P.fastenerStiffness s = .ok k ∧ 0 < k ∧
      1 / k ≤ Spec.parts (1 / Spec.kF P.bottom.tcor P.bottom.t P.bottom.fu P.fastener.d1) (2400 * √(s * P.fastener.d1 ^ 5))
        (200000 * (π * (P.fastener.dS / 2) ^ 4 / 4)) s := by
  obtain ⟨hp, hC, hEI, hpos, he⟩ := stiffness_closed P s hs hd1 hdS hfu hc ht hD
  refine ⟨_, he, by positivity, ?_⟩
  have e : 200000 * (π * (P.fastener.dS / 2) ^ 4 / 4) = 200000 * π * P.fastener.dS ^ 4 / 64 := by ring
  rw [e, one_div_one_div]
  have : ∀ a b c : ℝ, 0 < c → a - b ^ 2 / c ≤ a := fun a b c h => by
    have : 0 ≤ b ^ 2 / c := by positivity
    linarith
  apply this
  positivity

/-- A stronger inner face makes the fastener stiffer. -/
theorem C296_strength (P Q : Panel) (s : ℝ) (hs : 0 < s) (hd1 : 0 < P.fastener.d1) (hdS : 0 < P.fastener.dS)
    (hfu : 0 < P.bottom.fu) (hc : 0 < P.bottom.tcor) (ht : 0 < P.bottom.t) (hD : 0 < P.thickness)
    (hQ : Q = { P with bottom := Q.bottom }) (hQt : Q.bottom.t = P.bottom.t) (hQc : Q.bottom.tcoat = P.bottom.tcoat)
    (h : P.bottom.fu < Q.bottom.fu) :
    ∃ a b, P.fastenerStiffness s = .ok a ∧ Q.fastenerStiffness s = .ok b ∧ a < b := by
  have f1 : Q.fastener = P.fastener := by rw [hQ]
  have f2 : Q.bottom.tcor = P.bottom.tcor := by rw [Face.tcor, Face.tcor, hQt, hQc]
  have f3 : Q.thickness = P.thickness := by
    rw [Panel.thickness, Panel.thickness, hQt, show Q.top = P.top by rw [hQ], show Q.core = P.core by rw [hQ]]
  obtain ⟨hp, hC, hEI, hpos, he⟩ := stiffness_closed P s hs hd1 hdS hfu hc ht hD
  obtain ⟨hp', -, -, hpos', he'⟩ := stiffness_closed Q s hs (by rwa [f1]) (by rwa [f1]) (hfu.trans h) (by rwa [f2]) (by rwa [hQt]) (by rwa [f3])
  refine ⟨_, _, he, he', ?_⟩
  apply one_div_lt_one_div_of_lt hpos'
  rw [f1, f2, f3, hQt] at *
  have hk := kF_pos hc ht hfu hd1
  have hlt : 1 / Spec.kF P.bottom.tcor P.bottom.t Q.bottom.fu P.fastener.d1 < 1 / Spec.kF P.bottom.tcor P.bottom.t P.bottom.fu P.fastener.d1 := by
    apply one_div_lt_one_div_of_lt hk
    have hr : 0 < P.bottom.tcor * √(P.bottom.tcor * P.fastener.d1) := mul_pos hc (sqrt_pos.2 (by positivity))
    rw [Spec.kF, Spec.kF]
    split
    · apply div_lt_div_of_pos_right _ (by positivity); nlinarith
    · apply div_lt_div_of_pos_right _ (by norm_num); nlinarith
  revert hp hp' hlt
  generalize 1 / Spec.kF P.bottom.tcor P.bottom.t Q.bottom.fu P.fastener.d1 = q
  generalize 1 / Spec.kF P.bottom.tcor P.bottom.t P.bottom.fu P.fastener.d1 = p
  intro hp hq hlt
  have hα : 0 < P.thickness * s / (2 * (2400 * √(s * P.fastener.d1 ^ 5))) + P.thickness * s ^ 2 / (8 * (200000 * π * P.fastener.dS ^ 4 / 64)) := by
    positivity
  have hβ : 0 < P.thickness ^ 2 / (2400 * √(s * P.fastener.d1 ^ 5)) +
      P.thickness ^ 2 * (2 * P.thickness + 3 * s) / (6 * (200000 * π * P.fastener.dS ^ 4 / 64)) := by positivity
  revert hα hβ
  generalize P.thickness * s / (2 * (2400 * √(s * P.fastener.d1 ^ 5))) + P.thickness * s ^ 2 / (8 * (200000 * π * P.fastener.dS ^ 4 / 64)) = α
  generalize P.thickness ^ 2 / (2400 * √(s * P.fastener.d1 ^ 5)) +
      P.thickness ^ 2 * (2 * P.thickness + 3 * s) / (6 * (200000 * π * P.fastener.dS ^ 4 / 64)) = β
  intro hα hβ
  simp only [Spec.parts]
  have e : ∀ x : ℝ, 0 < x → x - (x - α) ^ 2 / (x + β) = 2 * α + β - (α + β) ^ 2 / (x + β) := by
    intro x hx
    have : x + β ≠ 0 := by positivity
    field_simp
    ring
  have e1 := e p hp
  have e2 := e q hq
  have : (α + β) ^ 2 / (p + β) < (α + β) ^ 2 / (q + β) := by
    apply div_lt_div_of_pos_left (by positivity) (by positivity); linarith
  linarith

example : ∃ P : Panel, 0 < P.fastener.d1 ∧ 0 < P.fastener.dS ∧ 0 < P.bottom.fu ∧ 0 < P.bottom.tcor ∧ 0 < P.bottom.t ∧ 0 < P.thickness :=
  ⟨⟨⟨0.6, 280, 360, 210000, 0.04⟩, ⟨0.5, 280, 360, 210000, 0.04⟩, ⟨98.9, 3.7, 0⟩, 1200, 6000, [1000], ⟨5.5, 5.1, 4.59⟩⟩,
    by norm_num, by norm_num, by norm_num, by norm_num [Face.tcor], by norm_num, by norm_num [Panel.thickness]⟩

/-! ### C297: support by a panel -/

/-- The support is half the stiffness of a fastener times the squares of the distances of the screw pairs, for each panel along the member: it
    grows with every pair, and is that of the parts if the pairs are divided among two panels. -/
theorem C297_support (P Q R : Panel) (tsup L n k : ℝ) (hL : L ≠ 0) (hk : P.fastenerStiffness tsup = .ok k)
    (hQ : Q = { P with c := Q.c }) (hR : R = { P with c := R.c }) (hc : P.c = Q.c ++ R.c) :
    ∃ a b c, P.supportStiffness tsup L n = .ok a ∧ Q.supportStiffness tsup L n = .ok b ∧ R.supportStiffness tsup L n = .ok c ∧
      a = b + c ∧ a * (2 * L) = n * k * (P.c.map fun x => x * x).sum := by
  have kQ : Q.fastenerStiffness tsup = .ok k := by rw [← hk, hQ]; rfl
  have kR : R.fastenerStiffness tsup = .ok k := by rw [← hk, hR]; rfl
  refine ⟨0.5 * k * n / L * (List.map (fun ci => ci ^ 2) P.c).sum, 0.5 * k * n / L * (List.map (fun ci => ci ^ 2) Q.c).sum,
    0.5 * k * n / L * (List.map (fun ci => ci ^ 2) R.c).sum,
    by simp only [Panel.supportStiffness, hk, pdiv_ok hL, bind, Except.bind, pure, Except.pure],
    by simp only [Panel.supportStiffness, kQ, pdiv_ok hL, bind, Except.bind, pure, Except.pure],
    by simp only [Panel.supportStiffness, kR, pdiv_ok hL, bind, Except.bind, pure, Except.pure], ?_, ?_⟩
  · rw [hc, List.map_append, List.sum_append, mul_add]
  · simp only [sq]
    field_simp
    ring

/-- Screws added to a panel with a list of its own leave all other panels as they are. -/
theorem C297_own_partial (dflt l : List ℝ) (x : ℝ) (q : Screws) :
    let r := (Screws.own l).append dflt x
    r.2.get r.1 = l ++ [x] ∧ q.get r.1 = q.get dflt := by
  cases q <;> exact ⟨rfl, rfl⟩

/-- Screws added to a panel made without a list are added to every panel made without one, before or after. -/
theorem C297_viol (dflt : List ℝ) (x : ℝ) :
    let r := Screws.shared.append dflt x
    Screws.shared.get r.1 = dflt ++ [x] ∧ Screws.shared.get r.1 ≠ Screws.shared.get dflt := by
  refine ⟨rfl, ?_⟩
  show dflt ++ [x] ≠ dflt
  simp

/-- Strength of a fastener in shear grows with strength and thickness of the inner face. -/
theorem C297_resistance (P Q : Panel) (hd : 0 ≤ P.fastener.d1) (hf : Q.fastener = P.fastener) (hc : 0 ≤ P.bottom.tcor)
    (hcc : P.bottom.tcor ≤ Q.bottom.tcor) (hfu : 0 ≤ P.bottom.fu) (hff : P.bottom.fu ≤ Q.bottom.fu) :
    ∃ a b, P.shearResistance = .ok a ∧ Q.shearResistance = .ok b ∧ a ≤ b ∧
      a * 1.25 = 4.2 * P.bottom.tcor * √(P.bottom.tcor * P.fastener.d1) * P.bottom.fu := by
  have r1 := psqrt_ok (a := P.bottom.tcor ^ 3 * P.fastener.d1) (by positivity)
  have hc' : 0 ≤ Q.bottom.tcor := hc.trans hcc
  have r2 := psqrt_ok (a := Q.bottom.tcor ^ 3 * Q.fastener.d1) (by rw [hf]; positivity)
  refine ⟨4.2 * √(P.bottom.tcor ^ 3 * P.fastener.d1) * P.bottom.fu / 1.25,
    4.2 * √(Q.bottom.tcor ^ 3 * Q.fastener.d1) * Q.bottom.fu / 1.25, by simp only [Panel.shearResistance, r1, bind, Except.bind, pure, Except.pure],
    by simp only [Panel.shearResistance, r2, bind, Except.bind, pure, Except.pure], ?_, ?_⟩
  · apply div_le_div_of_nonneg_right _ (by norm_num)
    rw [hf]
    apply mul_le_mul _ hff hfu (by positivity)
    apply mul_le_mul_of_nonneg_left _ (by norm_num)
    apply sqrt_le_sqrt
    apply mul_le_mul_of_nonneg_right _ hd
    exact pow_le_pow_left₀ hc hcc 3
  · rw [sqrt_cube hc]; ring

example : ∃ P Q : Panel, ∃ k, 0 < P.fastener.d1 ∧ P.fastenerStiffness 8 = .ok k ∧ P.c = Q.c ++ [200] ∧ Q = { P with c := Q.c } := by
  obtain ⟨k, hk, -⟩ := C296_positive ⟨⟨0.6, 280, 360, 210000, 0.04⟩, ⟨0.5, 280, 360, 210000, 0.04⟩, ⟨98.9, 3.7, 0⟩, 1200, 6000, [1000, 200],
    ⟨5.5, 5.1, 4.59⟩⟩ 8 (by norm_num) (by norm_num) (by norm_num) (by norm_num) (by norm_num [Face.tcor]) (by norm_num) (by norm_num [Panel.thickness])
  exact ⟨_, ⟨⟨0.6, 280, 360, 210000, 0.04⟩, ⟨0.5, 280, 360, 210000, 0.04⟩, ⟨98.9, 3.7, 0⟩, 1200, 6000, [1000], ⟨5.5, 5.1, 4.59⟩⟩, k, by norm_num, hk,
    rfl, rfl⟩

/-! ### C298: slabs of cross laminated timber -/

/-- Axial stiffness of layers `(t, E)` of unit width. -/
def Spec.ea (l : List (ℝ × ℝ)) : ℝ := (l.map fun x => x.2 * x.1).sum

/-- Their first moment about the face where the list begins, when that is at height `z`. -/
noncomputable def Spec.moment : ℝ → List (ℝ × ℝ) → ℝ
  | _, [] => 0
  | z, x :: l => x.2 * x.1 * (z + x.1 / 2) + Spec.moment (z + x.1) l

/-- Height. -/
def Spec.height (l : List (ℝ × ℝ)) : ℝ := (l.map Prod.fst).sum

theorem moment_append (z : ℝ) (l m : List (ℝ × ℝ)) :
    Spec.moment z (l ++ m) = Spec.moment z l + Spec.moment (z + Spec.height l) m := by
  induction l generalizing z with
  | nil => simp [Spec.moment, Spec.height]
  | cons x l ih =>
    rw [List.cons_append, Spec.moment, Spec.moment, ih]
    simp only [Spec.height, List.map_cons, List.sum_cons]
    rw [add_assoc (x.2 * x.1 * (z + x.1 / 2)), add_assoc z]

theorem moment_shift (z : ℝ) (l : List (ℝ × ℝ)) : Spec.moment z l = z * Spec.ea l + Spec.moment 0 l := by
  induction l generalizing z with
  | nil => simp [Spec.moment, Spec.ea]
  | cons x l ih =>
    rw [Spec.moment, Spec.moment, ih, ih (0 + x.1)]
    simp only [Spec.ea, List.map_cons, List.sum_cons]
    ring

theorem moment_reverse (l : List (ℝ × ℝ)) :
    Spec.moment 0 l.reverse = Spec.height l * Spec.ea l - Spec.moment 0 l := by
  induction l with
  | nil => simp [Spec.moment, Spec.height, Spec.ea]
  | cons x l ih =>
    have hc : Spec.moment 0 (x :: l) = x.2 * x.1 * (0 + x.1 / 2) + ((0 + x.1) * Spec.ea l + Spec.moment 0 l) := by
      rw [Spec.moment, moment_shift (0 + x.1) l]
    rw [List.reverse_cons, moment_append, ih, hc]
    have hr : Spec.height l.reverse = Spec.height l := by
      rw [Spec.height, Spec.height, List.map_reverse, List.sum_reverse]
    rw [hr]
    simp only [Spec.moment, Spec.height, Spec.ea, List.map_cons, List.sum_cons]
    ring

/-- Layers of a slab as thickness and modulus along the span. -/
noncomputable def Slab.stack (h : Heap) (s : Slab) : List (ℝ × ℝ) :=
  s.layers.map fun i => ((h i).t, if (h i).orientation = 0 then (h i).E0 else (h i).E90)

/-- For a symmetric layup the reported axis is the one about which the axial stiffness has no moment. -/
theorem C298_partial (h : Heap) (s : Slab) (hsym : (s.stack h).reverse = s.stack h) :
    Spec.moment (-s.zgc h) (s.stack h) = 0 := by
  have hr := moment_reverse (s.stack h)
  rw [hsym] at hr
  have hh : Spec.height (s.stack h) = s.hclt h := by
    simp [Spec.height, Slab.stack, Slab.hclt, List.map_map, Function.comp_def]
  rw [moment_shift, Slab.zgc, ← hh]
  linarith

/-- Two layers of equal thickness and different modulus: the reported axis is not that axis. -/
theorem C298_viol (h : Heap) (s : Slab) (i j : ℕ) (hl : s.layers = [i, j]) (ht : (h i).t = (h j).t) (h0 : (h i).t ≠ 0)
    (hi : (h i).orientation = 0) (hj : (h j).orientation = 0) (hE : (h i).E0 ≠ (h j).E0) :
    Spec.moment (-s.zgc h) (s.stack h) ≠ 0 := by
  simp only [Slab.zgc, Slab.hclt, Slab.stack, hl, List.map_cons, List.map_nil, List.sum_cons, List.sum_nil, Spec.moment, hi, hj, if_true, ← ht]
  intro hc
  have : (h i).t ^ 2 * ((h j).E0 - (h i).E0) = 0 := by nlinarith
  rcases mul_eq_zero.1 this with e | e
  · exact h0 (by simpa using e)
  · exact hE (by linarith)

/-- Stiffness of a layer is that of its rectangle about its own axis, with the modulus of the grain along the span; exchanging the directions
    exchanges the stiffnesses. -/
theorem C298_layer (l : Layer) :
    l.EIy = (if l.orientation = 0 then l.E0 else l.E90) * (l.bx * ∫ z in (-(l.t / 2))..(l.t / 2), z ^ 2) ∧
    l.EIz = (if l.orientation = 0 then l.E90 else l.E0) * (l.byy * ∫ z in (-(l.t / 2))..(l.t / 2), z ^ 2) := by
  rw [integral_pow]
  constructor
  · rw [Layer.EIy, Layer.Iy]; congr 1; norm_num; ring
  · rw [Layer.EIz, Layer.Iz]; congr 1; norm_num; ring

/-- Areas of a slab cannot be had, and its bending stiffness has no value. -/
theorem C298_slab_viol (h : Heap) (s : Slab) :
    s.Ay h = .error .attributeError ∧ s.Az h = .error .attributeError ∧ s.EIy h = none := ⟨rfl, rfl, rfl⟩

example : ∃ (h : Heap) (s : Slab), (s.stack h).reverse = s.stack h ∧ s.hclt h = 60 :=
  ⟨fun i => if i = 1 then ⟨20, 11000, 370, 90, 1000, 5000⟩ else ⟨20, 11000, 370, 0, 1000, 5000⟩, ⟨1000, 5000, [0, 1, 2]⟩, by simp [Slab.stack],
    by norm_num [Slab.hclt]⟩

example : ∃ (h : Heap) (s : Slab), s.layers = [0, 1] ∧ (h 0).t = (h 1).t ∧ (h 0).t ≠ 0 ∧ (h 0).orientation = 0 ∧ (h 1).orientation = 0 ∧
    (h 0).E0 ≠ (h 1).E0 :=
  ⟨fun i => if i = 1 then ⟨20, 11000, 370, 0, 1000, 5000⟩ else ⟨20, 9000, 370, 0, 1000, 5000⟩, ⟨1000, 5000, [0, 1]⟩, rfl, rfl, by norm_num, rfl, rfl,
    by norm_num⟩

/-! ### C299: layers of slabs -/

/-- A new slab gives its width and length to its layers and leaves those of slabs that share none with it. -/
theorem C299_partial (h : Heap) (ls ms : List ℕ) (b L b' L' : ℝ) (hd : ∀ i ∈ ls, i ∉ ms) :
    let r := newSlab h ls b L
    let r' := newSlab r.1 ms b' L'
    (∀ i ∈ r.2.layers, (r'.1 i).bx = r.2.b ∧ (r'.1 i).byy = r.2.L) ∧ (∀ i ∈ r'.2.layers, (r'.1 i).bx = r'.2.b ∧ (r'.1 i).byy = r'.2.L) ∧
    (∀ i, (r'.1 i).t = (h i).t) := by
  refine ⟨fun i hi => ?_, fun i hi => ?_, fun i => ?_⟩
  · have hi' : i ∈ ls := hi
    simp [newSlab, hi', hd i hi']
  · have hi' : i ∈ ms := hi
    simp [newSlab, hi']
  · simp only [newSlab]
    split <;> split <;> rfl

/-- A layer used in two slabs of different width has the width of the later one in both. -/
theorem C299_viol (h : Heap) (ls ms : List ℕ) (b L b' L' : ℝ) (i : ℕ) (hi : i ∈ ls) (hi' : i ∈ ms) (hb : b ≠ b') :
    let r := newSlab h ls b L
    let r' := newSlab r.1 ms b' L'
    i ∈ r.2.layers ∧ (r'.1 i).bx ≠ r.2.b ∧ (r'.1 i).bx = b' := by
  refine ⟨hi, ?_, ?_⟩
  · simp [newSlab, hi', Ne.symm hb]
  · simp [newSlab, hi']

/-- With lists of equal length every entry becomes a layer, in order. -/
theorem C299_dict_partial (ts : List ℝ) (mats : List (ℝ × ℝ)) (ors : List ℝ) (h1 : mats.length = ts.length) (h2 : ors.length = ts.length) :
    (layersOfDict ts mats ors).map Layer.t = ts ∧ (layersOfDict ts mats ors).map Layer.orientation = ors ∧
    (layersOfDict ts mats ors).map (fun l => (l.E0, l.E90)) = mats := by
  simp only [layersOfDict, List.map_map, Function.comp_def, Layer.new]
  refine ⟨?_, ?_, ?_⟩
  · exact List.map_fst_zip (by simp [h1, h2])
  · rw [show (fun x : ℝ × (ℝ × ℝ) × ℝ => x.2.2) = (Prod.snd ∘ Prod.snd) from rfl, ← List.map_map, List.map_snd_zip (by simp [h1, h2]),
      List.map_snd_zip (by omega)]
  · rw [show (fun x : ℝ × (ℝ × ℝ) × ℝ => (x.2.1.1, x.2.1.2)) = (Prod.fst ∘ Prod.snd) from rfl, ← List.map_map,
      List.map_snd_zip (by simp [h1, h2]), List.map_fst_zip (by omega)]

/-- With fewer orientations than thicknesses layers are dropped silently. -/
theorem C299_dict_viol (ts : List ℝ) (mats : List (ℝ × ℝ)) (ors : List ℝ) (h : ors.length < ts.length) :
    (layersOfDict ts mats ors).length < ts.length := by
  simp only [layersOfDict, List.length_map, List.length_zip]
  omega

example : ∃ ls ms : List ℕ, ∀ i ∈ ls, i ∉ ms := ⟨[0, 1, 2], [3, 4], by decide⟩

example : ∃ (ts : List ℝ) (mats : List (ℝ × ℝ)) (ors : List ℝ), mats.length = ts.length ∧ ors.length = ts.length ∧ ts.length = 3 :=
  ⟨[20, 20, 20], [(11000, 370), (11000, 370), (11000, 370)], [0, 90, 0], rfl, rfl, rfl⟩

end Metku.Panels
