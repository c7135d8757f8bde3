import Verif.Model.IProfile
import Verif.Props.SteelGeomI
import Verif.Props.Ec3

/-! Properties C315-C319: rolled sections by dimensions, cross-section resistance, materials, units, cold-formed members. -/
namespace Metku.IProf

open Metku Metku.SectionSpec Real

/-- The parts of the section fit together: fillets between the flanges and on the flange. -/
structure Fit (s : ISec) : Prop where
  r : 0 ≤ s.r
  tf : 0 < s.tf
  tw : 0 < s.tw
  b : s.tw / 2 + s.r ≤ s.b / 2
  h : s.tf + s.r ≤ s.h / 2

/-- C315: both descriptions of a rolled section (this one and the class made from a height) agree in area, second moments,
    moduli, torsion and warping constant and shear area; the painted surfaces differ by twice the web thickness. -/
theorem two_descriptions (s : ISec) :
    s.A = (Steel.iProps s.b s.h s.tf s.tw s.r).A ∧
    (s.Iy, s.Iz) = (Steel.iProps s.b s.h s.tf s.tw s.r).I ∧
    (s.Wely, s.Welz) = (Steel.iProps s.b s.h s.tf s.tw s.r).Wel ∧
    (s.Wply, s.Wplz) = (Steel.iProps s.b s.h s.tf s.tw s.r).Wpl ∧
    s.Avz = (Steel.iProps s.b s.h s.tf s.tw s.r).Ashear.2 ∧
    s.It = Steel.iTorsion s.b s.h s.tf s.tw s.r ∧ s.Iw = Steel.iWarping s.b s.h s.tf ∧
    s.P = (Steel.iProps s.b s.h s.tf s.tw s.r).Au + 2 * s.tw := by
  refine ⟨?_, ?_, ?_, ?_, ?_, ?_, ?_, ?_⟩
  · simp only [ISec.A, Steel.iProps]
  · simp only [ISec.Iy, ISec.Iz, Steel.iProps, Prod.mk.injEq]; constructor <;> norm_num
  · simp only [ISec.Wely, ISec.Welz, ISec.Iy, ISec.Iz, Steel.iProps, Prod.mk.injEq]; constructor <;> norm_num
  · simp only [ISec.Wply, ISec.Wplz, Steel.iProps, Prod.mk.injEq]; constructor <;> norm_num
  · simp only [ISec.Avz, ISec.A, Steel.iProps]
  · simp only [ISec.It, Steel.iTorsion]; norm_num; ring
  · simp only [ISec.Iw, Steel.iWarping]; norm_num
  · simp only [ISec.P, Steel.iProps]; ring

/-- C315: area and plastic moduli are the integrals over the section with its four fillets, the second moments are within
    0.05 % and 0.25 % of them, the perimeter is the length of the outline: two outer faces, four edges and four inner
    strips of the flanges, four quarter circles and two web faces. -/
theorem section_integrals (s : ISec) (f : Fit s) :
    ∃ S, S = iSection s.h s.b s.tf s.tw s.r ∧
      s.A = planeMoment S (fun _ => 1) ∧
      s.Wply = planeMoment S (fun z => |z|) ∧ s.Wplz = planeMoment (flipped S) (fun z => |z|) ∧
      s.Iy ≤ planeMoment S (fun z => z ^ 2) ∧ planeMoment S (fun z => z ^ 2) ≤ 1.0005 * s.Iy ∧
      0.9975 * planeMoment (flipped S) (fun z => z ^ 2) ≤ s.Iz ∧
      s.Iz ≤ 1.0025 * planeMoment (flipped S) (fun z => z ^ 2) ∧
      s.Wely * (s.h / 2) = s.Iy ∧ s.Welz * (s.b / 2) = s.Iz ∧
      s.P = 2 * s.b + 4 * s.tf + 4 * ((s.b - s.tw) / 2 - s.r) + 4 * (π * s.r / 2) + 2 * (s.h - 2 * s.tf - 2 * s.r) := by
  obtain ⟨S, P, hS, hP, a1, a2, a3, a4, a5, a6, a7, a8⟩ := Steel.C66 f.r f.tf.le f.tw.le f.b f.h
  obtain ⟨e1, e2, e3, e4, -, -, -, e8⟩ := two_descriptions s
  rw [← hP] at e1 e2 e3 e4
  have h0 : 0 < s.h := by have := f.r; have := f.tf; have := f.h; linarith
  have b0 : 0 < s.b := by have := f.r; have := f.tw; have := f.b; linarith
  rw [← e2] at a3 a4 a5 a6 a7 a8
  rw [← e3] at a7 a8
  rw [← e4] at a2
  refine ⟨S, hS, e1.trans a1, (Prod.mk.inj a2).1, (Prod.mk.inj a2).2, a3, a4, a5, a6, a7 h0, a8 b0, ?_⟩
  have := (Steel.C66_violation s.b s.h s.tf s.tw s.r).1
  rw [e8]
  exact this

/-- C315: the elastic moduli do not exceed the plastic ones, the radii of gyration do not exceed half the height and half
    the width, the shear areas lie between the web plate, respectively the flanges, and the whole area. -/
theorem section_order (s : ISec) (f : Fit s) :
    0 < s.Wely ∧ s.Wely ≤ s.Wply ∧ 0 < s.Welz ∧ s.Welz ≤ s.Wplz ∧ 0 < s.iy ∧ s.iy ≤ s.h / 2 ∧ 0 < s.iz ∧ s.iz ≤ s.b / 2 ∧
    (s.h - 2 * s.tf) * s.tw ≤ s.Avz ∧ s.Avz ≤ s.A ∧ s.Avy = 2 * (s.b * s.tf) ∧ s.Avy ≤ s.A := by
  have h0 : 0 < s.h := by have := f.r; have := f.tf; have := f.h; linarith
  have b0 : 0 < s.b := by have := f.r; have := f.tw; have := f.b; linarith
  obtain ⟨-, o2, o3, o4, o5⟩ := Steel.C66_order f.r f.tf.le f.tw.le f.b f.h h0 b0
  obtain ⟨e1, e2, e3, e4, e5, -, -, -⟩ := two_descriptions s
  rw [← e5] at o2 o3
  rw [← e1] at o3
  rw [← e3, ← e4] at o4 o5
  simp only at o4 o5
  obtain ⟨⟨h, b, tw, tf, r⟩, hs⟩ : ∃ t, t = s := ⟨s, rfl⟩
  subst hs
  obtain ⟨hr, htf, htw, hb, hh⟩ := f
  simp only at *
  have p1 := pi_gt_d6
  have p2 := pi_lt_d6
  norm_num at p1 p2
  have p4 : 0 ≤ 4 - π := by linarith
  have hw : 0 ≤ h - 2 * tf := by linarith
  have hA : 0 < (⟨h, b, tw, tf, r⟩ : ISec).A := by
    simp only [ISec.A]
    have := mul_nonneg p4 (sq_nonneg r)
    have := mul_pos htf b0
    have := mul_nonneg hw htw.le
    linarith
  have hIy : 0 < (⟨h, b, tw, tf, r⟩ : ISec).Iy := by
    simp only [ISec.Iy]
    have k : 0 < b * h ^ 3 - (b - tw) * (h - 2 * tf) ^ 3 := by
      have k1 : (h - 2 * tf) ^ 3 < h ^ 3 := pow_lt_pow_left₀ (by linarith) hw (by norm_num)
      have k2 : 0 ≤ (h - 2 * tf) ^ 3 := pow_nonneg hw 3
      nlinarith [mul_lt_mul_of_pos_left k1 b0, mul_nonneg htw.le k2]
    have : 0 ≤ 0.03 * r ^ 4 := by positivity
    have : 0 ≤ 0.2146 * r ^ 2 * (h - 2 * tf - 0.4468 * r) ^ 2 := by positivity
    norm_num at *
    linarith
  have hIz : 0 < (⟨h, b, tw, tf, r⟩ : ISec).Iz := by
    simp only [ISec.Iz]
    have : 0 < 2 * tf * b ^ 3 := by positivity
    have : 0 ≤ (h - 2 * tf) * tw ^ 3 := mul_nonneg hw (by positivity)
    have : 0 ≤ 0.03 * r ^ 4 := by positivity
    have : 0 ≤ 0.2146 * r ^ 2 * (tw + 0.4468 * r) ^ 2 := by positivity
    norm_num at *
    linarith
  have hWy : (⟨h, b, tw, tf, r⟩ : ISec).Wely * (h / 2) = (⟨h, b, tw, tf, r⟩ : ISec).Iy := by
    simp only [ISec.Wely]; norm_num; field_simp
  have hWz : (⟨h, b, tw, tf, r⟩ : ISec).Welz * (b / 2) = (⟨h, b, tw, tf, r⟩ : ISec).Iz := by
    simp only [ISec.Welz]; norm_num; field_simp
  have ky : (⟨h, b, tw, tf, r⟩ : ISec).Wply ≤ (⟨h, b, tw, tf, r⟩ : ISec).A * (h / 2) := by
    simp only [ISec.Wply, ISec.A]
    have a1 : 0 ≤ h ^ 2 * tw := by positivity
    have a2 : 0 ≤ (b - tw) * tf ^ 2 := mul_nonneg (by linarith) (sq_nonneg _)
    have a3 : 0 ≤ (4 - π) * (r ^ 2 * tf) := mul_nonneg p4 (by positivity)
    have a4 : 0 ≤ (10 - 3 * π) * r ^ 3 := mul_nonneg (by linarith) (by positivity)
    norm_num
    nlinarith
  have kz : (⟨h, b, tw, tf, r⟩ : ISec).Wplz ≤ (⟨h, b, tw, tf, r⟩ : ISec).A * (b / 2) := by
    simp only [ISec.Wplz, ISec.A]
    have a1 : 0 ≤ b ^ 2 * tf := by positivity
    have a2 : 0 ≤ ((h - 2 * tf) * tw) * (b / 2 - tw / 4) := mul_nonneg (mul_nonneg hw htw.le) (by linarith)
    have a3 : 0 ≤ (4 - π) * r ^ 2 * (b / 2 - tw / 2 - r) := mul_nonneg (mul_nonneg p4 (sq_nonneg _)) (by linarith)
    have a4 : 0 ≤ r ^ 3 := by positivity
    norm_num
    nlinarith
  have hy : (⟨h, b, tw, tf, r⟩ : ISec).iy ≤ h / 2 := by
    simp only [ISec.iy]
    apply Real.sqrt_le_iff.mpr ⟨by linarith, _⟩
    rw [div_le_iff₀ hA, ← hWy]
    have := mul_le_mul_of_nonneg_right (o4.trans ky) (show 0 ≤ h / 2 by linarith)
    nlinarith
  have hz : (⟨h, b, tw, tf, r⟩ : ISec).iz ≤ b / 2 := by
    simp only [ISec.iz]
    apply Real.sqrt_le_iff.mpr ⟨by linarith, _⟩
    rw [div_le_iff₀ hA, ← hWz]
    have := mul_le_mul_of_nonneg_right (o5.trans kz) (show 0 ≤ b / 2 by linarith)
    nlinarith
  refine ⟨?_, o4, ?_, o5, Real.sqrt_pos.mpr (div_pos hIy hA), hy, Real.sqrt_pos.mpr (div_pos hIz hA), hz, o2, o3, ?_, ?_⟩
  · simp only [ISec.Wely]; exact div_pos hIy (by norm_num; linarith)
  · simp only [ISec.Welz]; exact div_pos hIz (by norm_num; linarith)
  · simp only [ISec.Avy]; ring
  · simp only [ISec.Avy, ISec.A]
    have := mul_nonneg p4 (sq_nonneg r)
    have := mul_nonneg hw htw.le
    linarith

/-- IPE 300. -/
noncomputable def ipe300 : ISec := ⟨300, 150, 7.1, 10.7, 15⟩

theorem ipe300_fit : Fit ipe300 := by constructor <;> norm_num [ipe300]

example : ipe300.iy ≤ 300 / 2 := (section_order ipe300 ipe300_fit).2.2.2.2.2.1

/-- Dimensions of an entry fit, over the rationals. -/
def fitQ (e : String × ℚ × ℚ × ℚ × ℚ × ℚ) : Prop :=
  0 ≤ e.2.2.2.2.2 ∧ 0 < e.2.2.2.2.1 ∧ 0 < e.2.2.2.1 ∧ e.2.2.2.1 / 2 + e.2.2.2.2.2 ≤ e.2.2.1 / 2 ∧
    e.2.2.2.2.1 + e.2.2.2.2.2 ≤ e.2.1 / 2

/-- Area without fillets, over the rationals. -/
def plateQ (e : String × ℚ × ℚ × ℚ × ℚ × ℚ) : ℚ :=
  2 * e.2.2.2.2.1 * e.2.2.1 + (e.2.1 - 2 * e.2.2.2.2.1) * e.2.2.2.1

instance (e : String × ℚ × ℚ × ℚ × ℚ × ℚ) : Decidable (fitQ e) := by unfold fitQ; infer_instance

theorem fit_entry {e : String × ℚ × ℚ × ℚ × ℚ × ℚ} (h : fitQ e) : Fit (entry e) := by
  obtain ⟨a, b, c, d, f⟩ := h
  constructor
  · exact Rat.cast_nonneg.mpr a
  · exact Rat.cast_pos.mpr b
  · exact Rat.cast_pos.mpr c
  · have := (Rat.cast_le (K := ℝ)).mpr d
    push_cast at this
    exact this
  · have := (Rat.cast_le (K := ℝ)).mpr f
    push_cast at this
    exact this

theorem area_entry (e : String × ℚ × ℚ × ℚ × ℚ × ℚ) :
    (entry e).A = (plateQ e : ℝ) + (4 - π) * ((e.2.2.2.2.2 : ℚ) : ℝ) ^ 2 := by
  simp only [ISec.A, entry, plateQ]
  push_cast
  ring

/-- C315: every section of the catalogue fits together, so that the statements above hold for it, and within each of the four
    series (18 IPE, 24 HEA, 24 HEB, 24 HEM) a later section has a larger area. -/
theorem catalogue_sections :
    (∀ e ∈ catalogue, Fit (entry e)) ∧ (catalogue.map Prod.fst).Nodup ∧ catalogue.length = 90 ∧
    ∀ n ∈ [(0, 18), (18, 24), (42, 24), (66, 24)],
      List.Pairwise (fun e f => (entry e).A < (entry f).A) ((catalogue.drop n.1).take n.2) := by
  refine ⟨?_, by decide +kernel, by decide +kernel, ?_⟩
  · have k : ∀ e ∈ catalogue, fitQ e := by decide +kernel
    exact fun e he => fit_entry (k e he)
  · have k : ∀ n ∈ [(0, 18), (18, 24), (42, 24), (66, 24)],
        List.Pairwise (fun e f => plateQ e < plateQ f ∧ 0 ≤ e.2.2.2.2.2 ∧ e.2.2.2.2.2 ≤ f.2.2.2.2.2)
          ((catalogue.drop n.1).take n.2) := by decide +kernel
    intro n hn
    refine (k n hn).imp ?_
    rintro e f ⟨h1, h2, h3⟩
    rw [area_entry, area_entry]
    have p2 := pi_lt_d6
    norm_num at p2
    have a1 : (plateQ e : ℝ) < plateQ f := by exact_mod_cast h1
    have a2 : ((e.2.2.2.2.2 : ℚ) : ℝ) ^ 2 ≤ ((f.2.2.2.2.2 : ℚ) : ℝ) ^ 2 :=
      pow_le_pow_left₀ (by exact_mod_cast h2) (by exact_mod_cast h3) 2
    have := mul_le_mul_of_nonneg_left a2 (show 0 ≤ 4 - π by linarith)
    linarith

/-- C316: the resistances of a cross-section are strength times the integral that belongs to it; elastic resistances do not
    exceed plastic ones, shear resistance does not exceed 1/√3 of the axial one. -/
theorem section_resistance (s : Section) (f : Fit s.profile) (hf : 0 < s.material.fy) :
    s.NcRd = s.NtRd ∧
    s.NcRd = s.material.fy * planeMoment (iSection s.profile.h s.profile.b s.profile.tf s.profile.tw s.profile.r) (fun _ => 1) ∧
    s.MplyRd = s.material.fy * planeMoment (iSection s.profile.h s.profile.b s.profile.tf s.profile.tw s.profile.r) (fun z => |z|) ∧
    s.MplzRd = s.material.fy *
      planeMoment (flipped (iSection s.profile.h s.profile.b s.profile.tf s.profile.tw s.profile.r)) (fun z => |z|) ∧
    0 < s.MelyRd ∧ s.MelyRd ≤ s.MplyRd ∧ 0 < s.MelzRd ∧ s.MelzRd ≤ s.MplzRd ∧
    s.material.fy * ((s.profile.h - 2 * s.profile.tf) * s.profile.tw) ≤ √3 * s.VzRd ∧ √3 * s.VzRd ≤ s.NcRd ∧
    √3 * s.VyRd = 2 * (s.material.fy * (s.profile.b * s.profile.tf)) ∧ √3 * s.VyRd ≤ s.NcRd := by
  obtain ⟨S, rfl, a1, a2, a3, -⟩ := section_integrals s.profile f
  obtain ⟨b1, b2, b3, b4, -, -, -, -, b9, b10, b11, b12⟩ := section_order s.profile f
  have h3 : √3 ≠ 0 := by positivity
  have r1 : ∀ x : ℝ, x / 1.0 = x := fun x => by norm_num
  simp only [Section.NcRd, Section.NtRd, Section.VyRd, Section.VzRd, Section.MplyRd, Section.MelyRd, Section.MplzRd,
    Section.MelzRd, r1]
  have c : ∀ x : ℝ, √3 * (x / √3) = x := fun x => by field_simp
  rw [c, c]
  refine ⟨mul_comm _ _, by rw [a1, mul_comm], by rw [a2, mul_comm], by rw [a3, mul_comm], mul_pos b1 hf,
    mul_le_mul_of_nonneg_right b2 hf.le, mul_pos b3 hf, mul_le_mul_of_nonneg_right b4 hf.le, ?_, ?_, ?_, ?_⟩
  · rw [mul_comm]; exact mul_le_mul_of_nonneg_right b9 hf.le
  · exact mul_le_mul_of_nonneg_right b10 hf.le
  · rw [b11]; ring
  · exact mul_le_mul_of_nonneg_right b12 hf.le

/-- C316 fails for thick parts: the strength for thicknesses over 40 mm, which a material carries, is never used, so that
    every section with thick flanges is given the strength of thin ones. -/
theorem thick_strength_viol (s : Section) (f : Fit s.profile) (h40 : s.material.fy40 < s.material.fy)
    (_ht : 40 < s.profile.tf) : s.profile.A * s.material.fy40 < s.NcRd := by
  have hA : 0 < s.profile.A := by
    obtain ⟨-, -, -, -, -, -, -, -, -, -, b11, b12⟩ := section_order s.profile f
    have := f.r; have := f.tw; have := f.b
    have : 0 < s.profile.b * s.profile.tf := mul_pos (by linarith) f.tf
    linarith
  simp only [Section.NcRd]
  norm_num
  exact mul_lt_mul_of_pos_left h40 hA

example : ((⟨400, 400, 30, 50, 20⟩ : ISec).A * 335 < Section.NcRd ⟨newMaterial 355 510 (some 335), ⟨400, 400, 30, 50, 20⟩⟩) :=
  thick_strength_viol ⟨newMaterial 355 510 (some 335), ⟨400, 400, 30, 50, 20⟩⟩ (by constructor <;> norm_num)
    (by norm_num [newMaterial]) (by norm_num)

/-- C317: the carbon steels have a modulus of 210000 MPa, an ultimate strength above the yield strength and, when no
    strength for thick parts is given, the same one for them. -/
theorem steel_materials :
    (∀ m ∈ steels, m.E = 210000 ∧ 0 < m.fy ∧ m.fy < m.fu ∧ m.fy40 = m.fy) ∧
    ∀ fy fu f40 E : ℝ, (newMaterial fy fu (some f40) E).fy40 = f40 ∧ (newMaterial fy fu none E).fy40 = fy ∧
      (newMaterial fy fu (some f40) E).E = E := by
  refine ⟨?_, fun _ _ _ _ => ⟨rfl, rfl, rfl⟩⟩
  intro m hm
  simp only [steels, List.mem_cons, List.not_mem_nil, or_false] at hm
  rcases hm with rfl | rfl | rfl | rfl | rfl <;> norm_num [newMaterial]

/-- C317 fails for every stainless steel: the modulus is 200 in the unit in which carbon steel has 210000. -/
theorem stainless_viol : ∀ m ∈ stainless, m.E = 200 ∧ ∀ s ∈ steels, 1000 * m.E < s.E := by
  intro m hm
  simp only [stainless, List.mem_cons, List.not_mem_nil, or_false] at hm
  have hE : m.E = 200 := by rcases hm with rfl | rfl | rfl | rfl <;> rfl
  refine ⟨hE, fun s hs => ?_⟩
  rw [hE, (steel_materials.1 s hs).1]
  norm_num

/-- C318: forces and masses: multiplying with a unit from either side gives the same number, showing it in that unit gives
    back the number, and units convert by the powers of ten in their names. -/
theorem unit_round_trip (x : ℝ) :
    (∀ u ∈ [N, kN, MN, gram, kg], u.show (u.rmul x) = x ∧ u.rmul x = u.mul x ∧
      ∀ y, u.rmul (x + y) = u.rmul x + u.rmul y) ∧
    MN.rmul x = kN.rmul (1000 * x) ∧ kN.rmul x = N.rmul (1000 * x) ∧ kg.rmul x = gram.rmul (1000 * x) := by
  refine ⟨?_, ?_, ?_, ?_⟩
  · intro u hu
    have h0 : u.base ≠ 0 := by
      simp only [List.mem_cons, List.not_mem_nil, or_false] at hu
      rcases hu with rfl | rfl | rfl | rfl | rfl <;> norm_num [N, kN, MN, gram, kg]
    refine ⟨?_, rfl, fun y => ?_⟩
    · simp only [Unit'.show, Unit'.rmul]; field_simp
    · simp only [Unit'.rmul]; ring
  · simp only [Unit'.rmul, MN, kN]; ring
  · simp only [Unit'.rmul, N, kN]; ring
  · simp only [Unit'.rmul, gram, kg]; ring

/-- C318 fails for lengths: a unit multiplies everything it has ever been multiplied with, so the second length converted
    with the same unit is wrong unless the first was 1. -/
theorem length_unit_viol (u : SIUnit) (hm : u.m ≠ 0) (hv : u.value = 1) (x y : ℝ) (hy : y ≠ 0) :
    u.run [x, y] = [x * u.m, x * y * u.m] ∧ (u.run [x, y] = [x * u.m, y * u.m] ↔ x = 1) := by
  have e : u.run [x, y] = [x * u.m, x * y * u.m] := by
    simp only [SIUnit.run, SIUnit.rmul, hv, one_mul]
  refine ⟨e, ?_⟩
  rw [e]
  constructor
  · intro h
    have h1 := (List.cons.inj (List.cons.inj h).2).1
    have h2 : y * u.m ≠ 0 := mul_ne_zero hy hm
    have h3 : (x - 1) * (y * u.m) = 0 := by linear_combination h1
    rcases mul_eq_zero.mp h3 with h | h
    · linarith
    · exact absurd h h2
  · rintro rfl
    simp

example : millimetre.run [100, 200] = [1 / 10, 20] := by
  rw [(length_unit_viol millimetre (by norm_num [millimetre]) rfl 100 200 (by norm_num)).1]
  norm_num [millimetre]

/-- C318: what holds for lengths: the first conversion after the unit was created. -/
theorem length_unit_partial (x : ℝ) : metre.run [x] = [x] ∧ millimetre.run [1000 * x] = metre.run [x] := by
  simp only [SIUnit.run, SIUnit.rmul, metre, millimetre]
  refine ⟨by norm_num, ?_⟩
  congr 1
  ring

/-- C319: a member with a profile that has strength, second moments and imperfection factors: buckling strength is at most
    strength times effective area and at most the elastic buckling force of either axis. -/
theorem cold_member_strength (p : CFProfile) (A fy : ℝ) (I imp : ℝ × ℝ) (L : ℝ) (k : ℝ × ℝ)
    (hA : p.Aeff = some A) (hf : p.fy = some fy) (hI : p.I = some I) (hi : p.imp = some imp)
    (pA : 0 < A) (pf : 0 < fy) (pE : 0 < p.E) (pI : 0 < I.1 ∧ 0 < I.2) (pL : 0 < L) (pk : 0 < k.1 ∧ 0 < k.2)
    (pi1 : 0 ≤ imp.1 ∧ imp.1 ≤ 3) (pi2 : 0 ≤ imp.2 ∧ imp.2 ≤ 3) :
    ∃ N, bucklingStrength p L k = .ok N ∧ 0 < N.1 ∧ 0 < N.2 ∧ N.1 ≤ A * fy ∧ N.2 ≤ A * fy ∧
      N.1 ≤ π ^ 2 * p.E * I.1 / (L * k.1) ^ 2 ∧ N.2 ≤ π ^ 2 * p.E * I.2 / (L * k.2) ^ 2 := by
  have one : ∀ J c a : ℝ, 0 < J → 0 < c → 0 ≤ a → a ≤ 3 →
      0 < A * fy * Ec3.bucklingReduction √(A * fy / (π ^ 2 * p.E * J / (L * c) ^ 2)) a ∧
      A * fy * Ec3.bucklingReduction √(A * fy / (π ^ 2 * p.E * J / (L * c) ^ 2)) a ≤ A * fy ∧
      A * fy * Ec3.bucklingReduction √(A * fy / (π ^ 2 * p.E * J / (L * c) ^ 2)) a ≤ π ^ 2 * p.E * J / (L * c) ^ 2 := by
    intro J c a hJ hc h0 h3
    have hN : 0 < π ^ 2 * p.E * J / (L * c) ^ 2 := by positivity
    generalize π ^ 2 * p.E * J / (L * c) ^ 2 = Ncr at hN
    have hR : 0 < A * fy := by positivity
    obtain ⟨-, ⟨k1, k2⟩, -, k4, -, -⟩ := Ec3.C32 (l := √(A * fy / Ncr)) (Real.sqrt_nonneg _) h0 h3
    rw [Real.sq_sqrt (by positivity)] at k4
    refine ⟨mul_pos hR k1, mul_le_of_le_one_right hR.le k2, ?_⟩
    rw [mul_div_assoc', div_le_one hN] at k4
    linarith
  obtain ⟨a1, a2, a3⟩ := one I.1 k.1 imp.1 pI.1 pk.1 pi1.1 pi1.2
  obtain ⟨b1, b2, b3⟩ := one I.2 k.2 imp.2 pI.2 pk.2 pi2.1 pi2.2
  refine ⟨(A * fy * Ec3.bucklingReduction √(A * fy / (π ^ 2 * p.E * I.1 / (L * k.1) ^ 2)) imp.1,
    A * fy * Ec3.bucklingReduction √(A * fy / (π ^ 2 * p.E * I.2 / (L * k.2) ^ 2)) imp.2), ?_, a1, b1, a2, b2, a3, b3⟩
  simp only [bucklingStrength, slenderness, hA, hf, hI, hi, attr, bind, Except.bind, pure, Except.pure]

/-- C319 fails for the cold-formed sections themselves: they have no attribute `fy`, so slenderness and buckling strength
    of a member with a Z or C section cannot be computed. -/
theorem cold_member_viol (E G Iw It Iz h Aeff L : ℝ) (k : ℝ × ℝ) :
    slenderness (coldProfile E G Iw It Iz h Aeff) L k = .error .attributeError ∧
    bucklingStrength (coldProfile E G Iw It Iz h Aeff) L k = .error .attributeError := ⟨rfl, rfl⟩

/-- C319: the shear stiffness that restrains a purlin fully is 70/h² times the stiffness against warping, twist and lateral
    bending at half the height, is positive and decreases with the length of the purlin. -/
theorem required_stiffness (p : CFProfile) (L : ℝ) (hL : 0 < L) (hE : 0 < p.E) (hG : 0 < p.G) (hw : 0 ≤ p.Iw)
    (ht : 0 < p.It) (hz : 0 < p.Iz) (hh : 0 < p.h) :
    Sreq p L * p.h ^ 2 = 70 * (p.G * p.It + (π / L) ^ 2 * (p.E * (p.Iw + p.Iz * (p.h / 2) ^ 2))) ∧ 0 < Sreq p L ∧
    ∀ L', L < L' → Sreq p L' < Sreq p L := by
  have e : ∀ L : ℝ, 0 < L →
      Sreq p L = 70 * (p.G * p.It + (π / L) ^ 2 * (p.E * (p.Iw + p.Iz * (p.h / 2) ^ 2))) / p.h ^ 2 := by
    intro L hL
    simp only [Sreq]
    congr 1
    rw [show (0.25 : ℝ) = 1 / 4 by norm_num, div_pow]
    ring
  refine ⟨?_, ?_, ?_⟩
  · rw [e L hL]; field_simp
  · rw [e L hL]
    positivity
  · intro L' hL'
    rw [e L hL, e L' (hL.trans hL')]
    have h1 : π / L' < π / L := div_lt_div_of_pos_left pi_pos hL hL'
    have h2 : (π / L') ^ 2 < (π / L) ^ 2 := pow_lt_pow_left₀ h1 (by have := hL.trans hL'; positivity) (by norm_num)
    have h3 : 0 < p.E * (p.Iw + p.Iz * (p.h / 2) ^ 2) := by positivity
    have := mul_lt_mul_of_pos_right h2 h3
    rw [div_lt_div_iff_of_pos_right (by positivity)]
    linarith

/-- A profile with all attributes. -/
noncomputable def fullProfile : CFProfile :=
  ⟨210000, 81000, 1000000000, 1000, 500000, 200, some 600, some 350, some (4000000, 500000), some (0.34, 0.34)⟩

example : ∃ N, bucklingStrength fullProfile 3000 (1, 1) = .ok N ∧ 0 < N.1 ∧ 0 < N.2 ∧ N.1 ≤ 600 * 350 ∧ N.2 ≤ 600 * 350 ∧
    N.1 ≤ π ^ 2 * fullProfile.E * 4000000 / (3000 * 1) ^ 2 ∧ N.2 ≤ π ^ 2 * fullProfile.E * 500000 / (3000 * 1) ^ 2 :=
  cold_member_strength fullProfile 600 350 (4000000, 500000) (0.34, 0.34) 3000 (1, 1) rfl rfl rfl rfl (by norm_num)
    (by norm_num) (by norm_num [fullProfile]) (by norm_num) (by norm_num) (by norm_num) (by norm_num) (by norm_num)

example : Sreq fullProfile 6000 < Sreq fullProfile 3000 :=
  (required_stiffness fullProfile 3000 (by norm_num) (by norm_num [fullProfile]) (by norm_num [fullProfile])
    (by norm_num [fullProfile]) (by norm_num [fullProfile]) (by norm_num [fullProfile]) (by norm_num [fullProfile])).2.2
    6000 (by norm_num)

end Metku.IProf
