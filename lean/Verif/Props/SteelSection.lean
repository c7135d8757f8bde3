import Verif.Props.SteelMember

/-! Properties C67 (section class), C68 (section resistance), C40 and C70 (member design). -/
namespace Metku.Steel

open Real Ec3

/-! ### C67 -/

/-- **C67 (part).** For every profile: with compression the class is the larger of flange class and web class for the stress pattern (pure compression, or compression and bending); with bending alone
    the larger of flange class and web class in bending; it is 1 for tension or no force without bending.
    Missing: tension with bending, bending about the weak axis and webs of hollow sections, see `C67_violation`. -/
theorem C67_partial (P : Profile) {N M : ℝ} :
    (N ≤ -0.0001 → |M| < 0.0001 → sectionClass P N M = max P.webComp P.flangeClass) ∧
    (N ≤ -0.0001 → 0.0001 ≤ |M| → sectionClass P N M = max (P.webCompBend N M) P.flangeClass) ∧
    (|N| < 0.0001 → 0.0001 < |M| → sectionClass P N M = max P.webBend P.flangeClass) ∧
    (0 ≤ N → |M| < 0.0001 → sectionClass P N M = 1) := by
  have d : (0.0001 : ℝ) = 1 / 10 ^ 4 := by norm_num
  rw [d]
  refine ⟨?_, ?_, ?_, ?_⟩
  · intro h1 h2
    have hN : N < 0 := by have : (0:ℝ) < 1 / 10 ^ 4 := by norm_num
                          linarith
    have hN' : ¬ |N| < 1 / 10 ^ 4 := by rw [abs_of_neg hN]; linarith
    rw [sectionClass, if_neg (fun h => by linarith [h.1]), if_neg (fun h => hN' h.1), if_pos (Or.inl hN), if_pos h2]
  · intro h1 h2
    have hN : N < 0 := by have : (0:ℝ) < 1 / 10 ^ 4 := by norm_num
                          linarith
    have hN' : ¬ |N| < 1 / 10 ^ 4 := by rw [abs_of_neg hN]; linarith
    rw [sectionClass, if_neg (fun h => by linarith [h.1]), if_neg (fun h => hN' h.1), if_pos (Or.inl hN), if_neg (not_lt.2 h2)]
  · intro h1 h2
    rw [sectionClass, if_neg (fun h => by linarith [h.2]), if_pos ⟨h1, h2⟩]
  · intro h1 h2
    rw [sectionClass, if_pos ⟨h1, h2⟩]

/-- **C67, I-sections (part).** Rolled I-section (S235 or stronger) in compression and bending of either sign: plastic resistance is used (class 1 or 2) exactly when the flange outstand is within `10 ε tf` and the web within `456 ε tw/(13 α - 1)`, where `α` is
    the compressed share of the web when the axial force is carried by a strip of the web. With positive moment it is in class 3 or better exactly when the flange is within `14 ε tf` and the web is in class 2 or within `42 ε tw/(0.67 + 0.33 ψ)` (`62 ε (1 - ψ) √(-ψ)`
    below -1), where `ψ` is the ratio of the extreme stresses. -/
theorem C67_rolled_partial {H B tf tw r fy N M : ℝ} (htf : 0 < tf) (htw : 0 < tw) (hr : 0 ≤ r) (hh : tf + r < H / 2) (hf : 235 ≤ fy) (hN : N ≤ -0.0001) (hM : 0.0001 ≤ |M|)
    {e c cf alpha : ℝ} (he0 : 0 < e) (he : e ^ 2 = 235 / fy) (hc : c = H - 2 * tf - 2 * r) (hcf : cf = (B - tw - 2 * r) / 2) (ha : alpha = min ((1 + |N| / (c * tw * fy)) / 2) 1) :
    (sectionClass (iProfile H B tf tw r fy) N M ≤ 2 ↔ cf ≤ 10 * e * tf ∧ c ≤ 456 * e / (13 * alpha - 1) * tw) ∧
    (sectionClass (iProfile H B tf tw r fy) N M ≤ 1 ↔ cf ≤ 9 * e * tf ∧ c ≤ 396 * e / (13 * alpha - 1) * tw) ∧
    (∀ psi, 0 < M → psi = (N / (iProps B H tf tw r).A + M / (iProps B H tf tw r).Wel.1) / (N / (iProps B H tf tw r).A - M / (iProps B H tf tw r).Wel.1) →
      0 < (iProps B H tf tw r).A →
      (sectionClass (iProfile H B tf tw r fy) N M ≤ 3 ↔ cf ≤ 14 * e * tf ∧
        (c ≤ 456 * e / (13 * alpha - 1) * tw ∨ (-1 < psi ∧ c ≤ 42 * e / (0.67 + 0.33 * psi) * tw) ∨ (psi ≤ -1 ∧ c ≤ 62 * e * (1 - psi) * √(-psi) * tw)))) := by
  have hN0 : N < 0 := by norm_num at hN; linarith
  have hfy : 0 < fy := by linarith
  have hc0 : 0 < c := by rw [hc]; linarith
  have hcl := (C67_partial (iProfile H B tf tw r fy) (N := N) (M := M)).2.1 hN hM
  rw [hcl]
  have hee : epsilon fy = e := by
    unfold epsilon
    rw [← he, Real.sqrt_sq he0.le]
  have hK : 0 < c * tw * fy := by positivity
  -- the compressed share
  have halpha : (if -N ≥ c * tw * fy then 1 else if -N ≤ -(c * tw * fy) then 0 else 1 / 2 * (1 - N / (c * tw * fy))) = alpha := by
    rw [ha, abs_of_neg hN0]
    split_ifs with g1 g2
    · rw [min_eq_right]
      have : 1 ≤ -N / (c * tw * fy) := by rw [le_div_iff₀ hK]; linarith
      linarith
    · linarith
    · rw [min_eq_left]
      · ring
      · have : -N / (c * tw * fy) ≤ 1 := by rw [div_le_one hK]; linarith
        linarith
  have ha1 : 1 / 2 < alpha := by
    rw [ha, lt_min_iff]
    refine ⟨?_, by norm_num⟩
    have : 0 < |N| / (c * tw * fy) := div_pos (abs_pos.2 hN0.ne) hK
    linarith
  have hflange : (iProfile H B tf tw r fy).flangeClass = outstandCompression (cf / tf) e := by
    show outstandCompression ((1 / 2 * (B - tw) - r) / tf) (epsilon fy) = _
    rw [hee, hcf]
    congr 2
    ring
  obtain ⟨psi0, hpsi0⟩ : ∃ p, p = (if N / (iProps B H tf tw r).A > c / H * |M / (iProps B H tf tw r).Wel.1| then 1 else
      (N / (iProps B H tf tw r).A + M / (iProps B H tf tw r).Wel.1) / (N / (iProps B H tf tw r).A - M / (iProps B H tf tw r).Wel.1)) := ⟨_, rfl⟩
  have hweb : (iProfile H B tf tw r fy).webCompBend N M = internalCompBend (c / tw) e alpha psi0 := by
    show iWebCompBend B H tf tw r fy N M = _
    unfold iWebCompBend
    simp only
    rw [hee, ← hc, halpha, ← hpsi0]
  rw [hflange, hweb]
  obtain ⟨_, _, f1, f2, f3⟩ := ((C31_partial (cf / tf) fy).1 hf).2
  have hcomb := C31_combined_partial (c / tw) fy alpha psi0 hf (by linarith)
  simp only at hcomb
  rw [hee] at f1 f2 f3 hcomb
  obtain ⟨_, _, _, w1, w2, w3⟩ := hcomb
  have v2 : internalCompBend (c / tw) e alpha psi0 ≤ 2 ↔ c ≤ 456 * e / (13 * alpha - 1) * tw := by
    rw [w2, div_le_iff₀ htw]
    constructor
    · rintro (q | ⟨_, q⟩ | ⟨q, _⟩)
      · linarith
      · exact q
      · linarith
    · intro q
      exact Or.inr (Or.inl ⟨ha1, q⟩)
  have v1 : internalCompBend (c / tw) e alpha psi0 ≤ 1 ↔ c ≤ 396 * e / (13 * alpha - 1) * tw := by
    rw [w1, div_le_iff₀ htw]
    constructor
    · rintro (q | ⟨_, q⟩ | ⟨q, _⟩)
      · linarith
      · exact q
      · linarith
    · intro q
      exact Or.inr (Or.inl ⟨ha1, q⟩)
  refine ⟨?_, ?_, ?_⟩
  · rw [max_le_iff, v2, f2, div_le_iff₀ htf]
    exact and_comm
  · rw [max_le_iff, v1, f1, div_le_iff₀ htf]
    exact and_comm
  · intro psi hMp hpsi hA
    have e1 : psi0 = psi := by
      rw [hpsi0, hpsi, if_neg]
      rw [not_lt]
      have q1 : N / (iProps B H tf tw r).A < 0 := div_neg_of_neg_of_pos hN0 hA
      have q2 : 0 ≤ c / H * |M / (iProps B H tf tw r).Wel.1| := mul_nonneg (div_nonneg hc0.le (by linarith)) (abs_nonneg _)
      linarith
    rw [max_le_iff, w3, v2, f3, div_le_iff₀ htf, div_le_iff₀ htw, div_le_iff₀ htw, e1]
    exact and_comm

/-- Rolled section 300 by 150 with flanges of 10 mm, web of 8 mm and radius 15 mm in S235, compressed by 100 kN: class 1. -/
example : sectionClass (iProfile 300 150 10 8 15 235) (-100000) 50000000 ≤ 1 :=
  (C67_rolled_partial (e := 1) (c := 250) (cf := 56) (alpha := min ((1 + |(-100000:ℝ)| / (250 * 8 * 235)) / 2) 1) (by norm_num) (by norm_num) (by norm_num) (by norm_num) (by norm_num) (by norm_num) (by norm_num [abs_of_pos])
    (by norm_num) (by norm_num) (by norm_num) (by norm_num) rfl).2.1.2 (by norm_num [abs_of_pos, min_def])

/-- **C67, hollow sections (part).** Rectangular hollow section (S235 or stronger): in pure compression class 1, 2, 3 is reached exactly when both sides are within 33, 38, 42 `ε T`; in pure bending exactly when the flange is within these limits and the webs within 72, 83, 124 `ε T`.
    Missing: compression and bending, see `C67_violation`. -/
theorem C67_hollow_partial {H B T fy N M e R : ℝ} (hT : 0 < T) (hf : 235 ≤ fy) (he0 : 0 < e) (he : e ^ 2 = 235 / fy) (hR : R = rhsOuterRadius T) :
    (N ≤ -0.0001 → |M| < 0.0001 → ∀ k ∈ [(1, (33:ℝ)), (2, 38), (3, 42)], (sectionClass (rhsProfile H B T fy) N M ≤ k.1 ↔ H - 2 * R ≤ k.2 * e * T ∧ B - 2 * R ≤ k.2 * e * T)) ∧
    (|N| < 0.0001 → 0.0001 < |M| → ∀ k ∈ [(1, (33:ℝ), (72:ℝ)), (2, 38, 83), (3, 42, 124)],
      (sectionClass (rhsProfile H B T fy) N M ≤ k.1 ↔ H - 2 * R ≤ k.2.2 * e * T ∧ B - 2 * R ≤ k.2.1 * e * T)) := by
  have hee : epsilon fy = e := by
    unfold epsilon
    rw [← he, Real.sqrt_sq he0.le]
  obtain ⟨p1, _, p2, _⟩ := C67_partial (rhsProfile H B T fy) (N := N) (M := M)
  subst hR
  have comp : ∀ x, Ladder (33 * e) (38 * e) (42 * e) (x / T) (internalCompression (x / T) e) := by
    intro x
    have := ((C31_partial (x / T) fy).1 hf).1
    rwa [hee] at this
  have bend : ∀ x, Ladder (72 * e) (83 * e) (124 * e) (x / T) (internalBending (x / T) e) := by
    intro x
    have := ((C31_partial (x / T) fy).2 (by linarith)).2.2.1
    rwa [hee] at this
  have flange : (rhsProfile H B T fy).flangeClass = internalCompression ((B - 2 * rhsOuterRadius T) / T) e := by rw [← hee]; rfl
  have webc : (rhsProfile H B T fy).webComp = internalCompression ((H - 2 * rhsOuterRadius T) / T) e := by rw [← hee]; rfl
  have webb : (rhsProfile H B T fy).webBend = internalBending ((H - 2 * rhsOuterRadius T) / T) e := by rw [← hee]; rfl
  obtain ⟨_, _, f1, f2, f3⟩ := comp (B - 2 * rhsOuterRadius T)
  obtain ⟨_, _, c1, c2, c3⟩ := comp (H - 2 * rhsOuterRadius T)
  obtain ⟨_, _, b1, b2, b3⟩ := bend (H - 2 * rhsOuterRadius T)
  rw [div_le_iff₀ hT] at f1 f2 f3 c1 c2 c3 b1 b2 b3
  constructor
  · intro h1 h2 k hk
    rw [p1 h1 h2, max_le_iff, flange, webc]
    simp only [List.mem_cons, List.not_mem_nil, or_false] at hk
    rcases hk with rfl | rfl | rfl
    · rw [c1, f1]
    · rw [c2, f2]
    · rw [c3, f3]
  · intro h1 h2 k hk
    rw [p2 h1 h2, max_le_iff, flange, webb]
    simp only [List.mem_cons, List.not_mem_nil, or_false] at hk
    rcases hk with rfl | rfl | rfl
    · rw [b1, f1]
    · rw [b2, f2]
    · rw [b3, f3]

/-- Hollow section 100 by 100 by 5 in S235: compressed sides of 80 mm against 165 mm. -/
example : sectionClass (rhsProfile 100 100 5 235) (-100000) 0 ≤ 1 :=
  ((C67_hollow_partial (e := 1) (R := 10) (by norm_num) (by norm_num) (by norm_num) (by norm_num) (by norm_num [rhsOuterRadius])).1 (by norm_num) (by norm_num) (1, 33) (by simp)).2 (by norm_num)

/-- **C67 is violated** in three ways. (1) With the smallest tension any profile is in class 1 under any moment, although without it a slender flange puts it in class 4. (2) The webs of a hollow section in compression and bending are never checked: with webs beyond `83 ε T`, slender for every share `α > 1/2` of compression,
    the section stays in class 1 or 2 and keeps its plastic resistance. -/
theorem C67_violation :
    (∀ (P : Profile) (N M : ℝ), 0.0001 ≤ N → sectionClass P N M = 1) ∧
    (∀ (P : Profile) (M : ℝ), P.flangeClass = 4 → 0.0001 < |M| → 4 ≤ sectionClass P 0 M) ∧
    (∀ (H B T fy N M e R : ℝ), 0 < T → 235 ≤ fy → 0 < e → e ^ 2 = 235 / fy → R = rhsOuterRadius T → N ≤ -0.0001 → 0.0001 ≤ |M| → B - 2 * R ≤ 38 * e * T → 83 * e * T < H - 2 * R →
      sectionClass (rhsProfile H B T fy) N M = 2 ∧ ∀ alpha, 1 / 2 < alpha → alpha ≤ 1 → 456 * e / (13 * alpha - 1) * T < H - 2 * R) := by
  have d : (0.0001 : ℝ) = 1 / 10 ^ 4 := by norm_num
  refine ⟨?_, ?_, ?_⟩
  · intro P N M h
    rw [d] at h
    have h0 : (0:ℝ) < 1 / 10 ^ 4 := by norm_num
    have hN : 0 < N := by linarith
    unfold sectionClass
    split_ifs with g1 g2 g3 g4
    · rfl
    · rw [abs_of_pos hN] at g2
      linarith [g2.1]
    · exact absurd ⟨hN.le, g4⟩ g1
    · rcases g3 with g3 | g3
      · linarith
      · exact absurd (by rw [g3, abs_zero]; exact h0) g4
    · rfl
  · intro P M h h2
    rw [(C67_partial P (N := 0) (M := M)).2.2.1 (by norm_num) h2, h]
    exact le_max_right _ _
  · intro H B T fy N M e R hT hf he0 he hR hN hM hB hH
    have hee : epsilon fy = e := by
      unfold epsilon
      rw [← he, Real.sqrt_sq he0.le]
    constructor
    · rw [(C67_partial (rhsProfile H B T fy) (N := N) (M := M)).2.1 hN hM]
      show max 2 (internalCompression ((B - 2 * rhsOuterRadius T) / T) (epsilon fy)) = 2
      apply max_eq_left
      have := ((C31_partial ((B - 2 * rhsOuterRadius T) / T) fy).1 hf).1.2.2.2.1
      rw [this, hee, div_le_iff₀ hT, ← hR]
      exact hB
    · intro alpha h1 h2
      refine lt_of_le_of_lt ?_ hH
      apply mul_le_mul_of_nonneg_right _ hT.le
      rw [div_le_iff₀ (by linarith)]
      nlinarith

/-- Hollow section 400 by 100 by 4 in S235: webs of 384 mm against 332 mm. -/
example : sectionClass (rhsProfile 400 100 4 235) (-100000) 10000000 = 2 :=
  (C67_violation.2.2 400 100 4 235 (-100000) 10000000 1 8 (by norm_num) (by norm_num) (by norm_num) (by norm_num) (by norm_num [rhsOuterRadius]) (by norm_num) (by norm_num [abs_of_pos]) (by norm_num) (by norm_num)).1

/-- **C67, sign of the moment: the negation.** The I-section 1000 by 300 with flanges of 20 mm and a web of 5 mm in S235 under a compressive stress of 1 MPa is in class 4 when bent by 3 MPa one way and in class 3 when bent the other way, although it is symmetric. -/
theorem C67_sign_violation : ∃ P N M, P = iProfile 1000 300 20 5 0 235 ∧ N = -(P.sec.A) ∧ M = 3 * P.sec.Wel.1 ∧ sectionClass P N M = 4 ∧ sectionClass P N (-M) = 3 := by
  refine ⟨_, _, _, rfl, rfl, rfl, ?_⟩
  have hA : (iProfile 1000 300 20 5 0 235).sec.A = 16800 := by
    show (iProps 300 1000 20 5 0).A = _
    norm_num [iProps]
  have hW : (iProfile 1000 300 20 5 0 235).sec.Wel.1 = 6500480 := by
    show (iProps 300 1000 20 5 0).Wel.1 = _
    norm_num [iProps]
  have he : epsilon 235 = 1 := by norm_num [epsilon]
  have hfl : (iProfile 1000 300 20 5 0 235).flangeClass = 1 := by
    show outstandCompression ((1 / 2 * (300 - 5) - 0) / 20) (epsilon 235) = 1
    rw [he]
    norm_num [outstandCompression, fixEps]
  have hA' : (iProps 300 1000 20 5 0).A = 16800 := hA
  have hW' : (iProps 300 1000 20 5 0).Wel.1 = 6500480 := hW
  rw [hA, hW]
  rw [(C67_partial (iProfile 1000 300 20 5 0 235)).2.1 (by norm_num) (by norm_num [abs_of_pos]), (C67_partial (iProfile 1000 300 20 5 0 235)).2.1 (by norm_num) (by norm_num [abs_of_pos]), hfl]
  show max (iWebCompBend 300 1000 20 5 0 235 (-16800) _) 1 = 4 ∧ max (iWebCompBend 300 1000 20 5 0 235 (-16800) _) 1 = 3
  have s2 : (1.4:ℝ) ≤ √2 := Real.le_sqrt_of_sq_le (by norm_num)
  constructor
  · have : iWebCompBend 300 1000 20 5 0 235 (-16800) (3 * 6500480) = 4 := by
      unfold iWebCompBend
      simp only [hA', hW', he]
      norm_num [internalCompBend, fixEps, compBend12, abs_of_pos]
    rw [this]
    rfl
  · have : iWebCompBend 300 1000 20 5 0 235 (-16800) (-(3 * 6500480)) = 3 := by
      unfold iWebCompBend
      simp only [hA', hW', he]
      norm_num [internalCompBend, fixEps, compBend12, abs_of_pos]
      linarith
    rw [this]
    rfl

/-! ### C68 -/

/-- Shear area entering the check for moments about an axis: along the height for `y`, along the width for `z`. -/
def Axis.shearArea (a : Axis) (P : Profile) : ℝ := match a with
  | .y => P.sec.Ashear.2
  | .z => P.sec.Ashear.1

/-- Shear force entering the check for moments about an axis. -/
def Axis.shearForce (a : Axis) (Ved : ℝ × ℝ) : ℝ := match a with
  | .y => Ved.2
  | .z => Ved.1

theorem Axis.of_mk (a : Axis) (p : ℝ × ℝ) : a.of p = match a with
  | .y => p.1
  | .z => p.2 := rfl

theorem gamma_one : gammaM0 = 1 := rfl

/-- The value returned, case by case. -/
theorem sectionResistance_eq (P : Profile) (N : ℝ) (Med Ved : ℝ × ℝ) (a : Axis) (hA : 0 < P.sec.A) (hf : 0 < P.fy) (hV : 0 < a.shearArea P) :
    ∃ u, sectionResistance P N Med Ved a = .ok u ∧ u.n = |N| / (P.sec.A * P.fy) ∧ u.v = √3 * |a.shearForce Ved| / (a.shearArea P * P.fy) ∧
      u.m = |a.of Med| / momentResistance P (sectionClass P N Med.1) a ∧
      u.mn = (if sectionClass P N Med.1 < 3 ∧ axialInteract P.aw u.n (momentResistance P (sectionClass P N Med.1) a) > 0
        then |a.of Med| / axialInteract P.aw u.n (momentResistance P (sectionClass P N Med.1) a) else u.n + u.m) := by
  have h3 : (0:ℝ) < √3 := by positivity
  have hN : compressionResistance P.sec.A P.fy = P.sec.A * P.fy := by rw [compressionResistance, gamma_one, div_one]
  have hS : shearFor P a = a.shearArea P * P.fy / √3 := by
    cases a <;> simp [shearFor, shearResistance, gamma_one, Axis.shearArea]
  have hN0 : P.sec.A * P.fy ≠ 0 := by positivity
  have hS0 : shearFor P a ≠ 0 := by rw [hS]; positivity
  refine ⟨⟨|N| / (P.sec.A * P.fy), |a.shearForce Ved| / shearFor P a, |a.of Med| / momentResistance P (sectionClass P N Med.1) a,
    if sectionClass P N Med.1 < 3 ∧ axialInteract P.aw (|N| / (P.sec.A * P.fy)) (momentResistance P (sectionClass P N Med.1) a) > 0
      then |a.of Med| / axialInteract P.aw (|N| / (P.sec.A * P.fy)) (momentResistance P (sectionClass P N Med.1) a)
      else |N| / (P.sec.A * P.fy) + |a.of Med| / momentResistance P (sectionClass P N Med.1) a⟩, ?_, rfl, ?_, rfl, rfl⟩
  · unfold sectionResistance pyDiv
    simp only [hN, if_neg hN0, bind, Except.bind, pure, Except.pure]
    rw [if_neg hS0]
    simp only [Except.ok.injEq, SecUtil.mk.injEq, true_and]
    refine ⟨rfl, ?_⟩
    split_ifs <;> first | rfl | (exfalso; tauto)
  · rw [hS]
    field_simp

/-- **C68 (part).** For a profile with positive area, strength, shear area and moduli, whose interaction uses the web share `(A - 2 b t)/A` (at most one half): the check of the cross-section returns utilisations, the first three of which are force over resistance,
    and all are at most one exactly when the axial force is at most `A fy`, the shear force at most `Av fy/√3`, and in class 1 and 2 the moment is at most `Wpl fy` and `Wpl fy (1 - n)/(1 - a/2)`, in class 3 and 4 the stresses add up to at most `fy`. -/
theorem C68_partial (P : Profile) {N : ℝ} {Med Ved : ℝ × ℝ} (ax : Axis) {b t a n : ℝ} (hA : 0 < P.sec.A) (hf : 0 < P.fy) (hV : 0 < ax.shearArea P) (hWp : 0 < ax.of P.sec.Wpl)
    (haw : P.aw = a) (ha : a = min ((P.sec.A - 2 * b * t) / P.sec.A) (1 / 2)) (hn : n = |N| / (P.sec.A * P.fy)) :
    ∃ u, sectionResistance P N Med Ved ax = .ok u ∧ u.n = n ∧ u.v = √3 * |ax.shearForce Ved| / (ax.shearArea P * P.fy) ∧
      (sectionClass P N Med.1 ≤ 2 → u.m = |ax.of Med| / (ax.of P.sec.Wpl * P.fy)) ∧ (3 ≤ sectionClass P N Med.1 → u.m = |ax.of Med| / (ax.of P.sec.Wel * P.fy)) ∧
      ((∀ x ∈ u.toList, x ≤ 1) ↔ |N| ≤ P.sec.A * P.fy ∧ √3 * |ax.shearForce Ved| ≤ ax.shearArea P * P.fy ∧
        (sectionClass P N Med.1 ≤ 2 → |ax.of Med| ≤ ax.of P.sec.Wpl * P.fy ∧ |ax.of Med| * (1 - a / 2) ≤ ax.of P.sec.Wpl * P.fy * (1 - n)) ∧
        (3 ≤ sectionClass P N Med.1 → |N| / P.sec.A + |ax.of Med| / ax.of P.sec.Wel ≤ P.fy)) := by
  obtain ⟨u, hu, h1, h2, h3, h4⟩ := sectionResistance_eq P N Med Ved ax hA hf hV
  have ha1 : 0 < 1 - 1 / 2 * a := by
    have : a ≤ 1 / 2 := by rw [ha]; exact min_le_right _ _
    linarith
  have hp : ∀ C ≤ 2, momentResistance P C ax = ax.of P.sec.Wpl * P.fy := by
    intro C hC
    rw [momentResistance, if_pos (by omega), bendingResistance, gamma_one, div_one]
  have hel : ∀ C, 3 ≤ C → momentResistance P C ax = ax.of P.sec.Wel * P.fy := by
    intro C hC
    rw [momentResistance, if_neg (by omega), bendingResistance, gamma_one, div_one]
  refine ⟨u, hu, by rw [h1, hn], h2, fun h => by rw [h3, hp _ h], fun h => by rw [h3, hel _ h], ?_⟩
  have e1 : u.n ≤ 1 ↔ |N| ≤ P.sec.A * P.fy := by rw [h1, div_le_one (by positivity)]
  have e2 : u.v ≤ 1 ↔ √3 * |ax.shearForce Ved| ≤ ax.shearArea P * P.fy := by rw [h2, div_le_one (by positivity)]
  rw [← hn] at h1
  have hn0 : 0 ≤ n := by rw [hn]; positivity
  have key : (∀ x ∈ u.toList, x ≤ 1) ↔ u.n ≤ 1 ∧ u.v ≤ 1 ∧ u.m ≤ 1 ∧ u.mn ≤ 1 := by
    simp [SecUtil.toList]
  rw [key, e2, and_congr_left_iff.2 (fun _ => e1)]
  apply and_congr_right
  intro hN1
  apply and_congr_right
  intro _
  have hn1 : n ≤ 1 := by rw [← h1]; exact e1.2 hN1
  generalize hC : sectionClass P N Med.1 = C at *
  by_cases c2 : C ≤ 2
  · have c3 : ¬ 3 ≤ C := by omega
    have c4 : C < 3 := by omega
    have hpC := hp C c2
    simp only [c2, c3, c4, true_and, forall_const, false_implies, and_true] at h4 ⊢
    rw [hpC] at h3 h4
    set W := ax.of P.sec.Wpl * P.fy with hW
    have hW0 : 0 < W := by positivity
    have hM := abs_nonneg (ax.of Med)
    rw [h3, div_le_one hW0]
    apply and_congr_right
    intro hM1
    rw [h4, h1, haw, axialInteract, if_neg (not_lt.2 hn1)]
    have e3 : |ax.of Med| * (1 - a / 2) ≤ W * (1 - n) ↔ |ax.of Med| ≤ W * ((1 - n) / (1 - 1 / 2 * a)) := by
      rw [mul_div_assoc', le_div_iff₀ ha1]
      constructor <;> intro h <;> linarith
    rw [e3]
    rcases hn1.lt_or_eq with h | h
    · have q : 0 < min ((1 - n) / (1 - 1 / 2 * a)) 1 := lt_min (div_pos (by linarith) ha1) one_pos
      rw [if_pos (by positivity), div_le_one (by positivity)]
      constructor
      · intro h'
        exact h'.trans (mul_le_mul_of_nonneg_left (min_le_left _ _) hW0.le)
      · intro h'
        rcases min_choice ((1 - n) / (1 - 1 / 2 * a)) 1 with q1 | q1 <;> rw [q1]
        · exact h'
        · linarith
    · have q : min ((1 - n) / (1 - 1 / 2 * a)) 1 = 0 := by rw [h]; norm_num
      rw [q, mul_zero, if_neg (lt_irrefl 0), h3, h]
      simp only [sub_self, zero_div, mul_zero]
      constructor
      · intro h'
        have : |ax.of Med| / W ≤ 0 := by linarith
        rwa [div_le_iff₀ hW0, zero_mul] at this
      · intro h'
        have : |ax.of Med| = 0 := le_antisymm h' hM
        rw [this]
        norm_num
  · have c3 : 3 ≤ C := by omega
    have c4 : ¬ C < 3 := by omega
    have heC := hel C c3
    simp only [c2, c3, c4, false_and, if_false, false_implies, forall_const, true_and] at h4 ⊢
    rw [heC] at h3
    rw [h4, h1, h3, hn]
    have e4 : |N| / (P.sec.A * P.fy) + |ax.of Med| / (ax.of P.sec.Wel * P.fy) ≤ 1 ↔ |N| / P.sec.A + |ax.of Med| / ax.of P.sec.Wel ≤ P.fy := by
      rw [← div_div, ← div_div, ← add_div, div_le_one hf]
    rw [e4]
    constructor
    · exact fun h => h.2
    · intro h
      refine ⟨?_, h⟩
      rw [← div_div, div_le_one hf]
      have : 0 ≤ |N| / P.sec.A := by positivity
      linarith

end Metku.Steel
