import Verif.Props.ColdSection

/-!
Effective section and resistance of cold-formed Z and C sections (cf_profs.py).
-/
namespace Metku.CF

open Metku Metku.Cold Metku.Fire
open Metku.Panels (pdiv_ok)

theorem s45_eq : Dim.s45 = Real.sin (Real.pi / 4) := by
  rw [Dim.s45]; congr 1; ring

theorem gr_eq (d : Dim) : d.gr = d.rm - d.rm * Dim.s45 := by
  rw [Dim.gr, show (45 : ℝ) * Real.pi / 180 = Real.pi / 4 by ring, Real.tan_pi_div_four, s45_eq, Dim.rm]
  ring

theorem s45_bounds : 0 < Dim.s45 ∧ Dim.s45 < 1 := by
  rw [s45_eq]
  refine ⟨Real.sin_pos_of_pos_of_lt_pi (by positivity) (by linarith [Real.pi_pos]), ?_⟩
  rw [Real.sin_pi_div_four]
  have : √2 < 2 := by
    rw [show (2 : ℝ) = √(2 ^ 2) by rw [Real.sqrt_sq (by norm_num)]]
    exact Real.sqrt_lt_sqrt (by positivity) (by rw [Real.sqrt_sq (by norm_num)]; norm_num)
  linarith

/-- C301: notional widths.  With rounded corners the notional width of a part is its distance between centre lines
    less the dimension `gr` for each corner it has, it is never less than the straight part, and it is what
    `notional_width` gives for corners of 90 degrees. -/
theorem notional_widths {d : Dim} (h : Formed d) (hr : d.rounded = true) :
    d.bpW + 2 * d.gr = d.h - d.tnom ∧
    (d.bpT + (if 0 < d.ca then 2 else 1) * d.gr = if 0 < d.ca then d.a - d.tnom else d.a - d.tnom / 2) ∧
    (d.bpB + (if 0 < d.cb then 2 else 1) * d.gr = if 0 < d.cb then d.b - d.tnom else d.b - d.tnom / 2) ∧
    (0 < d.ca → d.bpTLip + d.gr = d.ca - d.tnom / 2) ∧ (0 < d.cb → d.bpBLip + d.gr = d.cb - d.tnom / 2) ∧
    0 < d.gr ∧ d.gr < d.r + d.tnom / 2 ∧ d.h - 2 * (d.r + d.tnom) < d.bpW ∧
    notionalWidth d.hw (.seq [d.rm, d.rm]) (.seq [90, 90]) = .ok d.bpW := by
  obtain ⟨s0, s1⟩ := s45_bounds
  have hrm := h.rm_pos
  have e : d.rm = d.r + d.tnom / 2 := by rw [Dim.rm]; ring
  have hg := gr_eq d
  refine ⟨?_, ?_, ?_, ?_, ?_, ?_, ?_, ?_, ?_⟩
  · rw [Dim.bpW, if_pos hr, hg, Dim.hw, e]; ring
  · rw [Dim.bpT, if_pos hr, hg, Dim.cTop, e]
    by_cases hc : 0 < d.ca
    · simp only [if_pos hc]; ring
    · simp only [if_neg hc]; ring
  · rw [Dim.bpB, if_pos hr, hg, Dim.cBottom, e]
    by_cases hc : 0 < d.cb
    · simp only [if_pos hc]; ring
    · simp only [if_neg hc]; ring
  · intro hc
    rw [Dim.bpTLip, if_pos hr, if_pos hc, hg, Dim.caS, if_pos hc, e]; ring
  · intro hc
    rw [Dim.bpBLip, if_pos hr, if_pos hc, hg, Dim.cbS, if_pos hc, e]; ring
  · rw [hg]; nlinarith
  · rw [hg, ← e]; nlinarith
  · rw [Dim.bpW, if_pos hr, Dim.hw]
    have : 0 < d.rm * Dim.s45 := by positivity
    linarith
  · simp only [notionalWidth, notionalTerms, bind, Except.bind]
    rw [if_pos (by simp)]
    simp only [List.zipWith, List.sum_cons, List.sum_nil, Dim.bpW]
    rw [if_pos hr, Dim.s45, add_zero]

example : Formed dimA ∧ dimA.rounded = true := ⟨dimA_formed, rfl⟩

/-- Compressed width and effective width next to the edge with the larger stress, EN 1993-1-5 Table 4.1. -/
noncomputable def tabCompressed (b psi : ℝ) : ℝ := if psi < 0 then b / (1 - psi) else b
noncomputable def tabEdge (beff psi : ℝ) : ℝ :=
  if psi < 0 then 0.4 * beff else if psi < 1 then 2 * beff / (5 - psi) else 0.5 * beff

/-- C302: the web of the effective C section.  A web with reduction factor below one loses a strip of (1-ρ) times its
    compressed width; the strip begins one edge part of Table 4.1 below the notional end of the web; the area falls by
    the strip times the thickness, and nothing else changes. -/
theorem c_effective_web {d : Dim} (h : Formed d) (f : Factors) (hρ : f.rhoW < 1)
    (h1 : d.rm - d.gr ≤ tabEdge (f.rhoW * tabCompressed d.bpW f.psiW) f.psiW)
    (h2 : tabEdge (f.rhoW * tabCompressed d.bpW f.psiW) f.psiW + (1 - f.rhoW) * tabCompressed d.bpW f.psiW ≤
      d.h - 2 * (d.r + d.tnom) + (d.rm - d.gr)) :
    ∃ e e0 z1 z2, (cEffective d f (cCompress d f (points .c d))).prof = .ok e ∧
      (cEffective d { f with rhoW := 1 } (cCompress d f (points .c d))).prof = .ok e0 ∧
      e.area = e0.area - (d.tnom - d.tcoat) * ((1 - f.rhoW) * tabCompressed d.bpW f.psiW) ∧
      (cEffective d f (cCompress d f (points .c d))).pts.web =
        [(0, -(d.h - d.tnom) / 2 + d.rm), (0, z1), (0, z2), (0, (d.h - d.tnom) / 2 - d.rm)] ∧
      z2 - z1 = (1 - f.rhoW) * tabCompressed d.bpW f.psiW ∧
      (d.h - d.tnom) / 2 - d.gr - z2 = tabEdge (f.rhoW * tabCompressed d.bpW f.psiW) f.psiW := by
  have hp1 : (webParts d f).1 = tabCompressed d.bpW f.psiW := by
    rw [webParts, tabCompressed]; split_ifs <;> rfl
  have hp2 : (webParts d f).2 = tabEdge (f.rhoW * tabCompressed d.bpW f.psiW) f.psiW := by
    rw [webParts, tabEdge, tabCompressed]; split_ifs <;> rfl
  have hs : Real.sin (45 * Real.pi / 180) = Dim.s45 := by rw [s45_eq]; congr 1; ring
  have hg := gr_eq d
  obtain ⟨e, he, ha⟩ := cEff_area h f
  obtain ⟨e0, he0, ha0⟩ := cEff_area h { f with rhoW := 1 }
  have hcc : cCompress d { f with rhoW := 1 } (points .c d) = cCompress d f (points .c d) := by
    unfold cCompress cStiffTop cStiffBottom; rfl
  rw [hcc] at he0
  set X := tabCompressed d.bpW f.psiW
  set Y := tabEdge (f.rhoW * X) f.psiW
  have hh := hwC_hw d
  have hw' : d.hw = d.h - 2 * (d.r + d.tnom) := rfl
  refine ⟨e, e0, 0.5 * d.hwC - d.rm + d.rm * Dim.s45 - Y - (X - f.rhoW * X), 0.5 * d.hwC - d.rm + d.rm * Dim.s45 - Y,
    he, he0, ?_, ?_, by ring, by rw [hg, Dim.hwC]; ring⟩
  · have hb0 : bottomPart d { f with rhoW := 1 } = bottomPart d f := rfl
    have ht0 : topPart d { f with rhoW := 1 } = topPart d f := rfl
    have hw0 : webPart d { f with rhoW := 1 } = d.t * d.hw := by
      rw [webPart, if_neg (by simp)]
    have hw1 : webPart d f = d.t * (d.hw - (1 - f.rhoW) * X) := by
      rw [webPart, if_pos hρ]
      simp only [hp1, hp2, hs]
      rw [abs_of_nonneg (by rw [hh]; linarith), abs_of_nonneg (by linarith), hh]
      ring
    rw [ha, ha0, hb0, ht0, hw0, hw1, show d.tnom - d.tcoat = d.t from rfl]
    ring
  · rw [eff_web, compress_web, if_pos hρ]
    simp only [hp1, hp2, hs]
    have hpts : (points .c d).web = webPts d := rfl
    rw [hpts]
    simp only [webPts, setZ, getZ, List.modify, List.getD, Dim.hwC]
    simp
    refine ⟨by ring, by ring⟩

/-- The hypotheses hold for the default section with half of the web ineffective in compression. -/
example : ∃ f : Factors, f.rhoW < 1 ∧
    dimA.rm - dimA.gr ≤ tabEdge (f.rhoW * tabCompressed dimA.bpW f.psiW) f.psiW ∧
    tabEdge (f.rhoW * tabCompressed dimA.bpW f.psiW) f.psiW + (1 - f.rhoW) * tabCompressed dimA.bpW f.psiW ≤
      dimA.h - 2 * (dimA.r + dimA.tnom) + (dimA.rm - dimA.gr) := by
  refine ⟨{ Factors.one with rhoW := 0.5 }, by norm_num, ?_⟩
  obtain ⟨s0, s1⟩ := s45_bounds
  have hg := gr_eq dimA
  have hrm : dimA.rm = 3 := by norm_num [Dim.rm, dimA]
  have hb : dimA.bpW = 112 + (3 * Dim.s45 + 3 * Dim.s45) := by
    norm_num [Dim.bpW, dimA, Dim.hw, Dim.rm]
  simp only [tabEdge, tabCompressed, Factors.one]
  rw [hg, hrm, hb]
  norm_num [dimA]
  refine ⟨by linarith, by linarith⟩

/-- C303: a top flange without lip.  A reduction factor below one takes exactly (1-ρ) of the notional width off. -/
theorem c_free_flange {d : Dim} (h : Formed d) (f : Factors) (ha : d.ca = 0) (hw : Wide d) (hr : d.rounded = true)
    (hρ : f.rhoT < 1) (hρ0 : d.rm - d.gr ≤ f.rhoT * d.bpT) :
    ∃ e e0, (cEffective d f (cCompress d f (points .c d))).prof = .ok e ∧
      (cEffective d { f with rhoT := 1 } (cCompress d { f with rhoT := 1 } (points .c d))).prof = .ok e0 ∧
      e.area = e0.area - (d.tnom - d.tcoat) * ((1 - f.rhoT) * d.bpT) := by
  obtain ⟨e, he, hea⟩ := cEff_area h f
  obtain ⟨e0, he0, hea0⟩ := cEff_area h { f with rhoT := 1 }
  refine ⟨e, e0, he, he0, ?_⟩
  have hb0 : bottomPart d { f with rhoT := 1 } = bottomPart d f := rfl
  have hw0 : webPart d { f with rhoT := 1 } = webPart d f := rfl
  have hn : ¬ 0 < d.ca := by rw [ha]; exact lt_irrefl 0
  have hbc : d.btC = d.a - 0.5 * d.tnom := by rw [Dim.btC, if_pos ha]
  have hnw := (notional_widths h hr).2.1
  rw [if_neg hn, if_neg hn] at hnw
  have w1 := hw.free ha
  have h1 := h.top' ha
  have ht := h.tnom; have hrr := h.r
  have e' : d.rm = d.r + d.tnom / 2 := by rw [Dim.rm]; ring
  have hpos : 0 ≤ (1 - f.rhoT) * d.bpT := by
    refine mul_nonneg (by linarith) ?_
    have h2 := (notional_widths h hr).2.2.2.2.2.2.1
    linarith
  rw [hea, hea0, hb0, hw0, topPart, topPart, if_neg hn, if_pos hρ, if_neg hn, if_neg (by simp), upFree, upFree,
    show d.tnom - d.tcoat = d.t from rfl, abs_of_nonneg (by linarith), abs_of_nonneg (by rw [hbc]; linarith),
    abs_of_nonneg (by rw [hbc]; linarith), abs_of_nonneg (by rw [hbc]; linarith), hbc]
  linear_combination d.t * hnw

/-- C303: a top flange with a lip loses more than the rule says.  For every reduction factor ρ from one half up the
    strip taken off is ρ·bp/2 + gr - b/4 wider than (1-ρ)·bp, because the part next to the web always ends at a quarter
    of the flange; for ρ just below one the area falls by a quarter of the flange. -/
theorem c_lipped_flange_viol {d : Dim} (h : Formed d) (f : Factors) (ha : 0 < d.ca) (hw : Wide d)
    (hr : d.rounded = true) (hρ1 : f.rhoT < 1) (hρ : 1 / 2 ≤ f.rhoT) (hχ : f.chiT = 1) :
    ∃ e e0, (cEffective d f (cCompress d f (points .c d))).prof = .ok e ∧
      (cEffective d { f with rhoT := 1 } (cCompress d { f with rhoT := 1 } (points .c d))).prof = .ok e0 ∧
      e.area = e0.area - (d.tnom - d.tcoat) *
        ((1 - f.rhoT) * d.bpT + (f.rhoT * d.bpT / 2 + d.gr - (d.a - d.tnom) / 4)) ∧
      0 < f.rhoT * d.bpT / 2 + d.gr - (d.a - d.tnom) / 4 ∧
      (2 * f.rhoT - 1) * d.bpT / 4 < f.rhoT * d.bpT / 2 + d.gr - (d.a - d.tnom) / 4 := by
  obtain ⟨e, he, hea⟩ := cEff_area h f
  obtain ⟨e0, he0, hea0⟩ := cEff_area h { f with rhoT := 1 }
  refine ⟨e, e0, he, he0, ?_⟩
  have hb0 : bottomPart d { f with rhoT := 1 } = bottomPart d f := rfl
  have hw0 : webPart d { f with rhoT := 1 } = webPart d f := rfl
  have hbc : d.btC = d.a - d.tnom := by rw [Dim.btC, if_neg ha.ne']
  obtain ⟨-, hnw, -, -, -, hg0, hg1, -, -⟩ := notional_widths h hr
  rw [if_pos ha, if_pos ha] at hnw
  obtain ⟨w1, w2⟩ := hw.lip ha
  have ht := h.tnom; have hrr := h.r
  have e' : d.rm = d.r + d.tnom / 2 := by rw [Dim.rm]; ring
  have hbp : 2 * d.rm ≤ d.bpT := by linarith
  have hhalf : d.bpT / 2 ≤ f.rhoT * d.bpT := by nlinarith
  have hle : f.rhoT * d.bpT < d.bpT := by nlinarith
  refine ⟨?_, by linarith, by linarith⟩
  rw [hea, hea0, hb0, hw0, topPart, topPart]
  simp only [if_pos ha, if_pos hρ1, lt_irrefl, if_false, upLip, hχ, mul_one]
  rw [show d.tnom - d.tcoat = d.t from rfl,
    abs_of_nonneg (show 0 ≤ d.btC - d.rm - (d.bpT + d.gr - 0.5 * d.bpT * f.rhoT) by rw [hbc]; nlinarith),
    abs_of_nonneg (show 0 ≤ d.btC - d.rm - (d.bpT + d.gr - 0.5 * d.bpT) by rw [hbc]; nlinarith),
    abs_of_nonneg (show 0 ≤ d.bpT + d.gr - 0.5 * d.bpT - 0.25 * d.btC by rw [hbc]; linarith), hbc]
  ring

example : Formed dimA ∧ 0 < dimA.ca ∧ Wide dimA ∧ dimA.rounded = true ∧
    (1 : ℝ) / 2 ≤ ({ Factors.one with rhoT := 0.8 } : Factors).rhoT :=
  ⟨dimA_formed, by norm_num [dimA], dimA_wide, rfl, by norm_num⟩

/-- C303: a bottom flange without lip is not reduced at all: its reduction factor has no effect on the area. -/
theorem c_free_bottom_viol {d : Dim} (h : Formed d) (f : Factors) (hb : d.cb = 0) (hr : d.rounded = true) (ρ : ℝ)
    (hρ0 : d.rm - d.gr ≤ ρ * d.bpB) (hρ1 : ρ < 1) :
    ∃ e e0, (cEffective d { f with rhoB := ρ } (cCompress d { f with rhoB := ρ } (points .c d))).prof = .ok e ∧
      (cEffective d { f with rhoB := 1 } (cCompress d { f with rhoB := 1 } (points .c d))).prof = .ok e0 ∧
      e.area = e0.area := by
  obtain ⟨e, he, hea⟩ := cEff_area h { f with rhoB := ρ }
  obtain ⟨e0, he0, hea0⟩ := cEff_area h { f with rhoB := 1 }
  refine ⟨e, e0, he, he0, ?_⟩
  have ht0 : topPart d { f with rhoB := 1 } = topPart d { f with rhoB := ρ } := rfl
  have hw0 : webPart d { f with rhoB := 1 } = webPart d { f with rhoB := ρ } := rfl
  have hn : ¬ 0 < d.cb := by rw [hb]; exact lt_irrefl 0
  have hbc : d.bbC = d.b - 0.5 * d.tnom := by rw [Dim.bbC, if_pos hb]
  have hcB : d.cBottom = d.b - (d.r + d.tnom) := by rw [Dim.cBottom, if_neg hn]
  have hnw := (notional_widths h hr).2.2.1
  rw [if_neg hn, if_neg hn] at hnw
  have h1 := h.bottom' hb
  have ht := h.tnom; have hrr := h.r
  have e' : d.rm = d.r + d.tnom / 2 := by rw [Dim.rm]; ring
  have hpos : ρ * d.bpB ≤ d.bpB := by
    have h2 := (notional_widths h hr).2.2.2.2.2.2.1
    have : 0 ≤ d.bpB := by linarith
    nlinarith
  rw [hea, hea0, ht0, hw0, bottomPart, bottomPart, if_neg hn, if_neg hn, if_pos hρ1, if_neg (by simp), loFree, loFree,
    abs_of_nonpos (by rw [hbc]; linarith), abs_of_nonpos (by rw [hbc, hcB]; linarith),
    abs_of_nonpos (by rw [hcB]; linarith), abs_of_nonpos (by rw [hcB]; linarith)]
  ring

example : Formed ⟨2, 0.04, 120, 60, 60, 0, 0, 2, true⟩ ∧ Wide ⟨2, 0.04, 120, 60, 60, 0, 0, 2, true⟩ := by
  constructor <;> constructor <;> norm_num

/-- C304: the reduction factor of the top lip has no effect on the effective area: the ineffective end of a slender lip
    is counted in full. -/
theorem c_top_lip_viol {d : Dim} (h : Formed d) (f : Factors) (ha : 0 < d.ca) (hw : Wide d) (hr : d.rounded = true)
    (ρ : ℝ) (hρ1 : ρ < 1) (hs : d.rm - d.gr ≤ ρ * d.bpTLip) :
    ∃ e e0, (cEffective d { f with rhoTLip := ρ } (cCompress d { f with rhoTLip := ρ } (points .c d))).prof = .ok e ∧
      (cEffective d { f with rhoTLip := 1 } (cCompress d { f with rhoTLip := 1 } (points .c d))).prof = .ok e0 ∧
      e.area = e0.area := by
  obtain ⟨e, he, hea⟩ := cEff_area h { f with rhoTLip := ρ }
  obtain ⟨e0, he0, hea0⟩ := cEff_area h { f with rhoTLip := 1 }
  refine ⟨e, e0, he, he0, ?_⟩
  have ht0 : bottomPart d { f with rhoTLip := 1 } = bottomPart d { f with rhoTLip := ρ } := rfl
  have hw0 : webPart d { f with rhoTLip := 1 } = webPart d { f with rhoTLip := ρ } := rfl
  have hbl : d.tLip = d.ca - 0.5 * d.tnom := by rw [Dim.tLip, if_neg ha.ne']
  obtain ⟨-, -, -, hnw, -, hg0, hg1, -, -⟩ := notional_widths h hr
  have hn := hnw ha
  obtain ⟨w1, w2⟩ := hw.lip ha
  have ht := h.tnom; have hrr := h.r
  have e' : d.rm = d.r + d.tnom / 2 := by rw [Dim.rm]; ring
  have hb : 0 ≤ d.bpTLip := by linarith
  have : 0 ≤ (1 - ρ) * d.bpTLip := mul_nonneg (by linarith) hb
  rw [hea, hea0, ht0, hw0, topPart, topPart]
  simp only [if_pos ha, if_pos hρ1, lt_irrefl, if_false, upLip]
  rw [abs_of_nonpos (show 0.5 * d.hwC - d.tLip + (1 - ρ) * d.bpTLip - (0.5 * d.hwC - d.rm) ≤ 0 by rw [hbl]; linarith),
    abs_of_nonpos (show 0.5 * d.hwC - d.tLip - (0.5 * d.hwC - d.tLip + (1 - ρ) * d.bpTLip) ≤ 0 by linarith),
    abs_of_nonpos (show 0.5 * d.hwC - 0.5 * d.tLip - (0.5 * d.hwC - d.rm) ≤ 0 by rw [hbl]; linarith),
    abs_of_nonpos (show 0.5 * d.hwC - d.tLip - (0.5 * d.hwC - 0.5 * d.tLip) ≤ 0 by rw [hbl]; linarith)]
  ring

/-- C304: a slender bottom lip makes the section larger: the node that should mark the end of its effective part is
    moved beyond the tip, so the effective area grows by χ·t·2(1-ρ)·bp. -/
theorem c_bottom_lip_viol {d : Dim} (h : Formed d) (f : Factors) (hb : 0 < d.cb) (hr : d.rounded = true)
    (ρ : ℝ) (hρ1 : ρ < 1) :
    ∃ e e0, (cEffective d { f with rhoBLip := ρ } (cCompress d { f with rhoBLip := ρ } (points .c d))).prof = .ok e ∧
      (cEffective d { f with rhoBLip := 1 } (cCompress d { f with rhoBLip := 1 } (points .c d))).prof = .ok e0 ∧
      e.area = e0.area + f.chiB * (d.tnom - d.tcoat) * (2 * ((1 - ρ) * d.bpBLip)) ∧ 0 < d.bpBLip := by
  obtain ⟨e, he, hea⟩ := cEff_area h { f with rhoBLip := ρ }
  obtain ⟨e0, he0, hea0⟩ := cEff_area h { f with rhoBLip := 1 }
  have ht0 : topPart d { f with rhoBLip := 1 } = topPart d { f with rhoBLip := ρ } := rfl
  have hw0 : webPart d { f with rhoBLip := 1 } = webPart d { f with rhoBLip := ρ } := rfl
  have hbl : d.bLip = d.cb - 0.5 * d.tnom := by rw [Dim.bLip, if_neg hb.ne']
  have hcS : d.cbS = d.cb - d.tnom - d.r := by rw [Dim.cbS, if_pos hb]
  obtain ⟨-, -, -, -, hnw, hg0, hg1, -, -⟩ := notional_widths h hr
  have hn := hnw hb
  obtain ⟨h1, h2⟩ := h.bottom hb
  have ht := h.tnom; have hrr := h.r
  have e' : d.rm = d.r + d.tnom / 2 := by rw [Dim.rm]; ring
  have hbp : 0 < d.bpBLip := by linarith
  have : 0 ≤ (1 - ρ) * d.bpBLip := mul_nonneg (by linarith) hbp.le
  refine ⟨e, e0, he, he0, ?_, hbp⟩
  rw [hea, hea0, ht0, hw0, bottomPart, bottomPart]
  simp only [if_pos hb, if_pos hρ1, lt_irrefl, if_false, loLip]
  rw [show d.tnom - d.tcoat = d.t from rfl,
    abs_of_nonneg (show 0 ≤ -0.5 * d.hwC + d.bLip + (1 - ρ) * d.bpBLip - (-0.5 * d.hwC + d.bLip) by linarith),
    abs_of_nonpos (show -0.5 * d.hwC + d.rm - (-0.5 * d.hwC + d.bLip + (1 - ρ) * d.bpBLip) ≤ 0 by rw [hbl]; linarith),
    abs_of_nonpos (show -0.5 * d.hwC + d.bLip - 0.5 * d.cbS - (-0.5 * d.hwC + d.bLip) ≤ 0 by rw [hcS]; linarith),
    abs_of_nonpos (show -0.5 * d.hwC + d.rm - (-0.5 * d.hwC + d.bLip - 0.5 * d.cbS) ≤ 0 by rw [hbl, hcS]; linarith)]
  ring

example : Formed dimA ∧ 0 < dimA.cb ∧ dimA.rounded = true := ⟨dimA_formed, by norm_num [dimA], rfl⟩

/-- C302: a C section all of whose parts are fully effective keeps its gross area. -/
theorem c_effective_full {d : Dim} (h : Formed d) (hw : Wide d) (hr : d.rounded = true) :
    ∃ A, areaGross d (points .c d) false = .ok A ∧
      ∃ p, cAeff d Factors.one (points .c d) = .ok (A, p) := by
  refine ⟨_, gross_area_polygon h hw .c, cCompress d Factors.one (points .c d), ?_⟩
  obtain ⟨e, he, hea⟩ := cEff_area h Factors.one
  obtain ⟨g, hg, hga⟩ := gross_area_closed h .c
  have hpoly := gross_area_polygon h hw .c
  simp only [areaGross, hg, bind, Except.bind, pure, Except.pure] at hpoly
  rw [if_neg (by simp)] at hpoly
  have hpoly := Except.ok.inj hpoly
  simp only [cAeff, he, bind, Except.bind, pure, Except.pure]
  rw [← hpoly, hea]
  congr 2
  rw [hga, sub_zero, mul_one, upper_wide h hw]
  obtain ⟨-, hnT, hnB, -, -, hg0, hg1, -, -⟩ := notional_widths h hr
  have ht := h.tnom; have hrr := h.r
  have e' : d.rm = d.r + d.tnom / 2 := by rw [Dim.rm]; ring
  have hb : bottomPart d Factors.one = d.t * (d.cbS + d.cBottom + chords d + (if 0 < d.cb then chords d else 0)) := by
    rw [bottomPart]
    simp only [Factors.one, lt_irrefl, if_false, mul_one]
    rcases h.cb.lt_or_eq with hb | hb
    · have hbl : d.bLip = d.cb - 0.5 * d.tnom := by rw [Dim.bLip, if_neg hb.ne']
      have hbc : d.bbC = d.b - d.tnom := by rw [Dim.bbC, if_neg hb.ne']
      have hcB : d.cBottom = d.b - 2 * (d.r + d.tnom) := by rw [Dim.cBottom, if_pos hb]
      have hcS : d.cbS = d.cb - d.tnom - d.r := by rw [Dim.cbS, if_pos hb]
      obtain ⟨h1, h2⟩ := h.bottom hb
      rw [if_pos hb, if_pos hb] at hnB
      simp only [if_pos hb, loLip]
      rw [abs_of_nonpos (by rw [hcS]; linarith), abs_of_nonpos (by rw [hcS, hbl]; linarith),
        abs_of_nonpos (by rw [hbc]; linarith), abs_of_nonpos (by rw [hbc, hcB]; linarith), hbl, hcS, hbc, hcB, e']
      ring
    · have hn : ¬ 0 < d.cb := by rw [← hb]; exact lt_irrefl 0
      have hcB : d.cBottom = d.b - (d.r + d.tnom) := by rw [Dim.cBottom, if_neg hn]
      have hcS : d.cbS = 0 := by rw [Dim.cbS, if_neg hn]
      have h1 := h.bottom' hb.symm
      simp only [if_neg hn, loFree]
      rw [abs_of_nonpos (by rw [hcB]; linarith), abs_of_nonpos (by rw [hcB]; linarith), hcS]
      ring
  have hww : webPart d Factors.one = d.t * d.hw := by
    rw [webPart, if_neg (by simp [Factors.one])]
  have htt : topPart d Factors.one = d.t * (d.caS + d.cTop + chords d + (if 0 < d.ca then chords d else 0)) := by
    rw [← upper_wide h hw, topPart]
    simp only [Factors.one, lt_irrefl, if_false, mul_one]
    by_cases ha : 0 < d.ca
    · have hbc : d.btC = d.a - d.tnom := by rw [Dim.btC, if_neg ha.ne']
      obtain ⟨h1, h2⟩ := h.top ha
      obtain ⟨w1, w2⟩ := hw.lip ha
      rw [if_pos ha, if_pos ha] at hnT
      simp only [if_pos ha, upLip]
      rw [abs_of_nonneg (show 0 ≤ d.bpT + d.gr - 0.5 * d.bpT - 0.25 * d.btC by rw [hbc]; linarith),
        abs_of_nonneg (show 0 ≤ d.btC - d.rm - (d.bpT + d.gr - 0.5 * d.bpT) by rw [hbc]; linarith),
        abs_of_nonneg (show 0 ≤ 0.75 * d.btC - 0.25 * d.btC by rw [hbc]; linarith),
        abs_of_nonneg (show 0 ≤ d.btC - d.rm - 0.75 * d.btC by rw [hbc]; linarith)]
      ring
    · simp only [if_neg ha]
  rw [hb, hww, htt]

example : Formed dimA ∧ Wide dimA ∧ dimA.rounded = true := ⟨dimA_formed, dimA_wide, rfl⟩

/-- C304: reading `Aeff` moves nodes of the gross section.  After a slender bottom lip the gross area read from the same
    section is larger than before, by t·2(1-ρ)·bp. -/
theorem c_gross_changes_viol {d : Dim} (h : Formed d) (hw : Wide d) (hr : d.rounded = true) (ha : 0 < d.ca)
    (hb : 0 < d.cb) (ρ : ℝ) (hρ1 : ρ < 1) :
    ∃ A B p, cAeff d { Factors.one with rhoBLip := ρ } (points .c d) = .ok (B, p) ∧
      areaGross d (points .c d) false = .ok A ∧
      areaGross d p false = .ok (A + (d.tnom - d.tcoat) * (2 * ((1 - ρ) * d.bpBLip))) ∧ 0 < d.bpBLip := by
  set f : Factors := { Factors.one with rhoBLip := ρ } with hf
  obtain ⟨e, e0, he, he0, hea, hbp⟩ := c_bottom_lip_viol h Factors.one hb hr ρ hρ1
  obtain ⟨A, hA, q, hq⟩ := c_effective_full h hw hr
  have hone : ({ Factors.one with rhoBLip := 1 } : Factors) = Factors.one := rfl
  rw [hone] at he0
  have hA0 : e0.area = A := by
    simp only [cAeff, he0, bind, Except.bind, pure, Except.pure] at hq
    exact (Prod.mk.inj (Except.ok.inj hq)).1
  refine ⟨A, e.area, cCompress d f (points .c d), ?_, hA, ?_, hbp⟩
  · have he' : (cEffective d f (cCompress d f (points .c d))).prof = .ok e := he
    simp only [cAeff, he', bind, Except.bind, pure, Except.pure]
  · -- with all other factors equal to one the effective model has the nodes and thicknesses of the gross one
    have hpts : (cEffective d f (cCompress d f (points .c d))).pts = cCompress d f (points .c d) := by
      have h1 := eff_upper d f (cCompress d f (points .c d))
      have h2 := eff_lower d f (cCompress d f (points .c d))
      have h3 := eff_web d f (cCompress d f (points .c d))
      rw [if_pos ha] at h1
      rw [if_pos hb] at h2
      rw [if_neg (by simp [hf, Factors.one])] at h3
      cases hE : (cEffective d f (cCompress d f (points .c d))).pts
      cases hP : cCompress d f (points .c d)
      rw [hE] at h1 h2 h3
      rw [hP] at h1 h2 h3
      simp only at h1 h2 h3
      rw [h1, h2, h3]
    have hmap : (fun x : ℝ => x * 1) = id := by funext x; simp
    have htu : (cEffective d f (cCompress d f (points .c d))).tu =
        List.replicate ((cCompress d f (points .c d)).upper.length - 1) d.t := by
      rw [eff_tu]
      simp only [if_pos ha]
      rw [if_neg (by simp [hf, Factors.one]), show f.chiT = 1 from rfl, hmap, List.map_id, List.take_append_drop]
    have htl : (cEffective d f (cCompress d f (points .c d))).tl =
        List.replicate (cCompress d f (points .c d)).lower.length d.t := by
      rw [eff_tl]
      simp only [if_pos hb]
      rw [if_neg (by simp [hf, Factors.one]), show f.chiB = 1 from rfl, hmap, List.map_id, List.take_append_drop]
    have htw : (cEffective d f (cCompress d f (points .c d))).tw =
        List.replicate (cCompress d f (points .c d)).web.length d.t := by
      rw [eff_tw, if_neg (by simp [hf, Factors.one])]
    have hpos : 0 < (cCompress d f (points .c d)).upper.length := by
      rw [compress_upper]
      have : (points .c d).upper = upperPts d := rfl
      rw [this]
      simp only [if_pos ha]
      rw [upperPts]
      simp only [setY, setZ]
      split_ifs <;> simp [inner, cornerPts]
    have hE : (cEffective d f (cCompress d f (points .c d))).prof = grossProf d (cCompress d f (points .c d)) := by
      rw [EffC.prof, grossProf, hpts, htu, htl, htw, List.replicate_append_replicate, List.replicate_append_replicate]
      simp only [newProf]
      have : (cCompress d f (points .c d)).flat.length - 1 = (cCompress d f (points .c d)).lower.length +
          (cCompress d f (points .c d)).web.length + ((cCompress d f (points .c d)).upper.length - 1) := by
        simp only [Pts.flat, List.length_append]; omega
      rw [this]
    have he' : grossProf d (cCompress d f (points .c d)) = .ok e := by rw [← hE]; exact he
    simp only [areaGross, he', bind, Except.bind, pure, Except.pure]
    rw [if_neg (by simp), hea, hA0, show Factors.one.chiB = 1 from rfl]
    congr 1
    ring

/-- C305: the effective section of a Z section cannot be formed when its web is slender, nor when a lipped top flange
    is: the call ends in an exception whatever the rest of the section is. -/
theorem z_effective_viol (d : Dim) (f : Factors) (p : Pts) :
    (f.rhoW < 1 → zEffective d f p = .error .attributeError) ∧
    (¬ f.rhoW < 1 → 0 < d.ca → f.rhoT < 1 → zEffective d f p = .error .nameError) := by
  constructor
  · intro h
    simp only [zEffective, if_pos h, bind, Except.bind, throw, throwThe, MonadExceptOf.throw]
  · intro h ha ht
    simp only [zEffective, if_neg h, if_pos ha, if_pos ht, bind, Except.bind, throw, throwThe, MonadExceptOf.throw,
      pure, Except.pure]

/-- C305: what is left.  Without lips and with an effective web the top flange loses exactly (1-ρ) of its notional
    width; the bottom flange is never reduced, whatever its factor. -/
theorem z_effective_partial {d : Dim} (h : Formed d) (hw : Wide d) (hr : d.rounded = true) (ha : d.ca = 0)
    (hb : d.cb = 0) (f : Factors) (hρw : f.rhoW = 1) (hρ0 : d.rm - d.gr ≤ f.rhoT * d.bpT) :
    ∃ e q A, zEffective d f (points .z d) = .ok (some e) ∧ e.prof = .ok q ∧
      areaGross d (points .z d) false = .ok A ∧ q.area = A - (d.tnom - d.tcoat) * ((1 - f.rhoT) * d.bpT) := by
  have hna : ¬ 0 < d.ca := by rw [ha]; exact lt_irrefl 0
  have hnb : ¬ 0 < d.cb := by rw [hb]; exact lt_irrefl 0
  have hl : ¬ 0 < d.tLip := by rw [Dim.tLip, if_pos ha]; exact lt_irrefl 0
  have hzE : zEffective d f (points .z d) = .ok (some { copyC d.t (points .z d) with
      pts := { (copyC d.t (points .z d)).pts with upper := setY (copyC d.t (points .z d)).pts.upper 4 (f.rhoT * d.bpT + d.gr) }
      tu := (copyC d.t (points .z d)).tu.set 4 0 }) := by
    simp only [zEffective, hρw, lt_irrefl, if_false, if_neg hna, if_neg hnb, bind, Except.bind, pure, Except.pure]
  set E : EffC := { copyC d.t (points .z d) with
      pts := { (copyC d.t (points .z d)).pts with upper := setY (copyC d.t (points .z d)).pts.upper 4 (f.rhoT * d.bpT + d.gr) }
      tu := (copyC d.t (points .z d)).tu.set 4 0 } with hE
  have hu : upperPts d = inner (cornerPts (d.rm, 0.5 * d.hwC - d.rm) d.rm Real.pi (0.5 * Real.pi)) ++
      [(d.rm, 0.5 * d.hwC), (0.5 * d.btC, 0.5 * d.hwC), (d.btC, 0.5 * d.hwC)] := by
    rw [upperPts]; simp only [if_neg hl]
  have hupp : E.pts.upper = inner (cornerPts (d.rm, 0.5 * d.hwC - d.rm) d.rm Real.pi (0.5 * Real.pi)) ++
      [(d.rm, 0.5 * d.hwC), (f.rhoT * d.bpT + d.gr, 0.5 * d.hwC), (d.btC, 0.5 * d.hwC)] := by
    show setY (upperPts d) 4 _ = _
    rw [hu]; rfl
  have htu : E.tu = [d.t, d.t, d.t, d.t, 0] := by
    show (List.replicate ((upperPts d).length - 1) d.t).set 4 0 = _
    rw [hu]; rfl
  have htl : E.tl = List.replicate (lowerPts .z d).length d.t := rfl
  have htw : E.tw = [d.t, d.t, d.t, d.t] := rfl
  obtain ⟨q, hq, hqa⟩ := newProf_seq_area E.pts.flat (E.tl ++ E.tw ++ E.tu) (by
    rw [htu, htl, htw]
    simp only [Pts.flat, List.length_append, hupp]
    simp [hE, copyC, points, webPts, inner, cornerPts])
  refine ⟨E, q, _, hzE, hq, gross_area_polygon h hw .z, ?_⟩
  have hw0 : 0 ≤ d.hw := h.web
  have hh := hwC_hw d
  have hpts : E.pts = ⟨lowerPts .z d, [(0, -0.5 * d.hwC + d.rm), (0, -0.5 * d.hwC + d.rm + 0.25 * d.hw),
    (0, -0.5 * d.hwC + d.rm + 0.75 * d.hw), (0, 0.5 * d.hwC - d.rm)], E.pts.upper⟩ := rfl
  rw [hqa, hpts, htl, htw, htu, flat_area _ _ _ _ _ _ _ _ _ _ _ _ (by rw [List.length_replicate]), lower_area .z h,
    upper_free_area h _ _ _ _ hupp]
  have hbc : d.btC = d.a - 0.5 * d.tnom := by rw [Dim.btC, if_pos ha]
  have hnw := (notional_widths h hr).2.1
  rw [if_neg hna, if_neg hna] at hnw
  have w1 := hw.free ha
  have h1 := h.top' ha
  have ht := h.tnom; have hrr := h.r
  have e' : d.rm = d.r + d.tnom / 2 := by rw [Dim.rm]; ring
  simp only [len_v, upFree, straights, corners, if_neg hna, if_neg hnb, cB_eq]
  rw [abs_of_nonneg (by linarith), abs_of_nonneg (by linarith), abs_of_nonneg (by linarith),
    abs_of_nonneg (by linarith), chords, hh, e', show d.tnom - d.tcoat = d.t from rfl,
    show d.hw = d.h - 2 * (d.r + d.tnom) from rfl]
  linear_combination d.t * hnw

example : Formed ⟨2, 0.04, 120, 60, 60, 0, 0, 2, true⟩ ∧ Wide ⟨2, 0.04, 120, 60, 60, 0, 0, 2, true⟩ := by
  constructor <;> constructor <;> norm_num

/-- C306: history.  Bending leaves the factors of the bottom flange as the last compression left them, so the effective
    section for bending depends on what was computed before; a load name that is not known changes nothing. -/
theorem effective_history_viol (d : Dim) (n1 n2 old : Factors) :
    (effSection d .bendingYPos n2 (effSection d .compression n1 old)).rhoB = n1.rhoB ∧
    (0 < d.cb → (effSection d .bendingYPos n2 (effSection d .compression n1 old)).chiB = n1.chiB ∧
      (effSection d .bendingYPos n2 (effSection d .compression n1 old)).rhoBLip = n1.rhoBLip) ∧
    effSection d .other n2 old = old := by
  refine ⟨rfl, fun h => ?_, rfl⟩
  simp only [effSection, if_pos h, and_self]

/-- C306: on a new section bending leaves the bottom flange in tension fully effective and takes the other factors from
    this call; two compressions in a row give what the second one computes. -/
theorem effective_fresh (d : Dim) (n1 n2 old : Factors) :
    (effSection d .bendingYPos n1 Factors.one).rhoB = 1 ∧ (effSection d .bendingYPos n1 Factors.one).chiB = 1 ∧
    (effSection d .bendingYPos n1 Factors.one).rhoBLip = 1 ∧
    (effSection d .bendingYPos n1 old).rhoT = n1.rhoT ∧ (effSection d .bendingYPos n1 old).rhoW = n1.rhoW ∧
    (effSection d .bendingYPos n1 old).psiW = n1.psiW ∧
    (0 < d.ca → (effSection d .bendingYPos n1 old).chiT = n1.chiT ∧
      (effSection d .bendingYPos n1 old).rhoTLip = n1.rhoTLip) ∧
    (effSection d .compression n1 old).psiW = 1 ∧ (effSection d .compression n1 old).rhoT = n1.rhoT ∧
    (effSection d .compression n1 old).rhoB = n1.rhoB ∧ (effSection d .compression n1 old).rhoW = n1.rhoW ∧
    effSection d .compression n2 (effSection d .compression n1 old) = effSection d .compression n2 old := by
  refine ⟨rfl, rfl, rfl, rfl, rfl, rfl, fun h => ?_, rfl, rfl, rfl, rfl, ?_⟩
  · simp only [effSection, if_pos h, and_self]
  · by_cases ha : 0 < d.ca <;> by_cases hb : 0 < d.cb <;> simp [effSection, ha, hb]

/-- C307: stiffness that holds an edge stiffener.  The stiffness is that of (5.10b): positive, and in compression with
    the flanges of the same size smaller than without compression. -/
theorem edge_stiffness_rule {d : Dim} (h : Formed d) {E nu Ned : ℝ} (hE : 0 < E) (hnu : nu ^ 2 < 1)
    (q1 q2 : OpenProf) (hb1 : q1.centroid.1 ≠ 0) (hh : 0 < d.h - d.tnom) (hsym : d.Sym) :
    ∃ K, edgeStiffness d E nu Ned (some q1) (some q2) = .ok K ∧ 0 < K ∧
      K = E * (d.tnom - d.tcoat) ^ 3 / (4 * (1 - nu ^ 2)) /
        (|q1.centroid.1| ^ 2 * (d.h - d.tnom) + |q1.centroid.1| ^ 3 +
          (if Ned < 0 then |q1.centroid.1| * |q2.centroid.1| * (d.h - d.tnom) / 2 else 0)) := by
  have hb : 0 < |q1.centroid.1| := abs_pos.2 hb1
  have hn : 0 < 1 - nu ^ 2 := by linarith
  have hhw : d.hwC = d.h - d.tnom := rfl
  have ht : 0 < d.t := h.t
  have ht' : d.tnom - d.tcoat = d.t := rfl
  by_cases hN : Ned < 0
  · have hden : 0 < |q1.centroid.1| ^ 2 * d.hwC + |q1.centroid.1| ^ 3 + 0.5 * |q1.centroid.1| * |q2.centroid.1| * d.hwC * 1 := by
      rw [hhw]; positivity
    refine ⟨0.25 * E * d.t ^ 3 / (1 - nu ^ 2) /
      (|q1.centroid.1| ^ 2 * d.hwC + |q1.centroid.1| ^ 3 + 0.5 * |q1.centroid.1| * |q2.centroid.1| * d.hwC * 1), ?_, ?_, ?_⟩
    · simp only [edgeStiffness, kFactor, if_pos hN, if_pos hsym, pdiv_ok hn.ne', bind, Except.bind]
      rw [if_pos (by norm_num)]
      simp only [pdiv_ok hden.ne']
    · positivity
    · rw [if_pos hN, ht', hhw]
      congr 1
      · field_simp; ring
      · ring
  · have hden : 0 < |q1.centroid.1| ^ 2 * d.hwC + |q1.centroid.1| ^ 3 + 0.5 * |q1.centroid.1| * 0 * d.hwC * 0 := by
      rw [hhw]; positivity
    refine ⟨0.25 * E * d.t ^ 3 / (1 - nu ^ 2) /
      (|q1.centroid.1| ^ 2 * d.hwC + |q1.centroid.1| ^ 3 + 0.5 * |q1.centroid.1| * 0 * d.hwC * 0), ?_, ?_, ?_⟩
    · simp only [edgeStiffness, kFactor, if_neg hN, pdiv_ok hn.ne', bind, Except.bind]
      rw [if_neg (by simp)]
      simp only [pdiv_ok hden.ne']
    · positivity
    · rw [if_neg hN, ht', hhw]
      congr 1
      · field_simp; ring
      · ring

/-- C307: with flanges of different size the part of the other flange in compression is weighted by the area of its
    stiffener over that of the stiffener considered. -/
theorem edge_stiffness_unequal {d : Dim} (h : Formed d) {E nu Ned : ℝ} (hE : 0 < E) (hnu : nu ^ 2 < 1)
    (q1 q2 : OpenProf) (hb1 : q1.centroid.1 ≠ 0) (ha1 : 0 < q1.area) (ha2 : 0 < q2.area) (hh : 0 < d.h - d.tnom)
    (hsym : ¬ d.Sym) (hN : Ned < 0) :
    ∃ K, edgeStiffness d E nu Ned (some q1) (some q2) = .ok K ∧ 0 < K ∧
      K = E * (d.tnom - d.tcoat) ^ 3 / (4 * (1 - nu ^ 2)) /
        (|q1.centroid.1| ^ 2 * (d.h - d.tnom) + |q1.centroid.1| ^ 3 +
          |q1.centroid.1| * |q2.centroid.1| * (d.h - d.tnom) / 2 * (q2.area / q1.area)) := by
  have hb : 0 < |q1.centroid.1| := abs_pos.2 hb1
  have hn : 0 < 1 - nu ^ 2 := by linarith
  have hhw : d.hwC = d.h - d.tnom := rfl
  have ht : 0 < d.t := h.t
  have ht' : d.tnom - d.tcoat = d.t := rfl
  have hk : 0 < q2.area / q1.area := div_pos ha2 ha1
  have hden : 0 < |q1.centroid.1| ^ 2 * d.hwC + |q1.centroid.1| ^ 3 +
      0.5 * |q1.centroid.1| * |q2.centroid.1| * d.hwC * (q2.area / q1.area) := by
    rw [hhw]; positivity
  refine ⟨0.25 * E * d.t ^ 3 / (1 - nu ^ 2) / (|q1.centroid.1| ^ 2 * d.hwC + |q1.centroid.1| ^ 3 +
      0.5 * |q1.centroid.1| * |q2.centroid.1| * d.hwC * (q2.area / q1.area)), ?_, ?_, ?_⟩
  · simp only [edgeStiffness, kFactor, if_pos hN, if_neg hsym, pdiv_ok hn.ne', pdiv_ok ha1.ne', bind, Except.bind]
    rw [if_pos hk.ne']
    simp only [pdiv_ok hden.ne']
  · positivity
  · rw [ht', hhw]
    congr 1
    · field_simp; ring
    · ring

/-- C307: the effective area for compression of a section made without a design force uses the stiffness without
    compression, which is larger; and with a design force a section with one lip only cannot be computed. -/
theorem edge_stiffness_viol {d : Dim} (h : Formed d) {E nu : ℝ} (hE : 0 < E) (hnu : nu ^ 2 < 1)
    (q1 q2 : OpenProf) (hb1 : q1.centroid.1 ≠ 0) (hb2 : q2.centroid.1 ≠ 0) (hh : 0 < d.h - d.tnom) (hsym : d.Sym) :
    (∃ K0 K, edgeStiffness d E nu 0 (some q1) (some q2) = .ok K0 ∧
      (∀ Ned < 0, edgeStiffness d E nu Ned (some q1) (some q2) = .ok K) ∧ K < K0) ∧
    (∀ (d' : Dim) (Ned : ℝ), Ned < 0 → ¬ d'.Sym →
      edgeStiffness d' E nu Ned (some q1) none = .error .attributeError) := by
  constructor
  · obtain ⟨K0, h0, p0, e0⟩ := edge_stiffness_rule h (Ned := 0) hE hnu q1 q2 hb1 hh hsym
    obtain ⟨K, h1, p1, e1⟩ := edge_stiffness_rule h (Ned := -1) hE hnu q1 q2 hb1 hh hsym
    refine ⟨K0, K, h0, ?_, ?_⟩
    · intro Ned hN
      obtain ⟨K', h', -, e'⟩ := edge_stiffness_rule h (Ned := Ned) hE hnu q1 q2 hb1 hh hsym
      rw [h', e', e1, if_pos hN, if_pos (by norm_num)]
    · rw [e0, e1, if_neg (lt_irrefl 0), if_pos (by norm_num)]
      have hb : 0 < |q1.centroid.1| := abs_pos.2 hb1
      have hb' : 0 < |q2.centroid.1| := abs_pos.2 hb2
      have hn : 0 < 1 - nu ^ 2 := by linarith
      have ht : 0 < d.tnom - d.tcoat := h.t
      refine div_lt_div_of_pos_left (by positivity) (by positivity) ?_
      have : 0 < |q1.centroid.1| * |q2.centroid.1| * (d.h - d.tnom) / 2 := by positivity
      linarith
  · intro d' Ned hN hs
    simp only [edgeStiffness, kFactor, if_pos hN, if_neg hs, bind, Except.bind]
    rw [pdiv_ok (by linarith : (1 : ℝ) - nu ^ 2 ≠ 0)]

/-- A stiffener with its centroid at y = 50. -/
noncomputable def stiffA : OpenProf := ⟨[(40, 0), (60, 0)], [2], [⟨(40, 0), (60, 0), 2⟩]⟩

example : Formed dimA ∧ dimA.Sym ∧ stiffA.centroid.1 ≠ 0 := by
  refine ⟨dimA_formed, by norm_num [Dim.Sym, dimA], ?_⟩
  have : √((60 - 40 : ℝ) ^ 2 + (0 - 0) ^ 2) = 20 := by
    rw [show ((60 - 40 : ℝ) ^ 2 + (0 - 0) ^ 2) = 20 ^ 2 by norm_num, Real.sqrt_sq (by norm_num)]
  simp [OpenProf.centroid, OpenProf.Sz0, OpenProf.area, stiffA, Seg.firstZ, Seg.area, Seg.length]
  norm_num

example : ∃ d : Dim, Formed d ∧ ¬ d.Sym ∧ 0 < d.h - d.tnom ∧ 0 < stiffA.area := by
  refine ⟨{ dimA with a := dimA.b + 10 }, ?_, ?_, ?_, ?_⟩
  · constructor <;> norm_num [dimA]
  · norm_num [Dim.Sym, dimA]
  · norm_num [dimA]
  · have : √((60 - 40 : ℝ) ^ 2 + (0 - 0) ^ 2) = 20 := by
      rw [show ((60 - 40 : ℝ) ^ 2 + (0 - 0) ^ 2) = 20 ^ 2 by norm_num, Real.sqrt_sq (by norm_num)]
    simp [OpenProf.area, stiffA, Seg.area, Seg.length]
    norm_num

/-- C308: distortional buckling.  The slenderness is the root of yield strength over critical stress, and the
    reduction factor is that of the slenderness. -/
theorem distortional_rule {fyb E K Is As : ℝ} (hf : 0 < fyb) (hE : 0 < E) (hK : 0 < K) (hI : 0 < Is) (hA : 0 < As) :
    ∃ lam chi, distortional fyb E K Is As = .ok (lam, chi) ∧ 0 < lam ∧
      lam ^ 2 * (2 * √(K * E * Is)) = fyb * As ∧ chi = chiD lam := by
  have hs : 0 < √(K * E * Is) := Real.sqrt_pos.2 (by positivity)
  refine ⟨√(fyb / (2 * √(K * E * Is) / As)), chiD (√(fyb / (2 * √(K * E * Is) / As))), ?_, ?_, ?_, rfl⟩
  · simp only [distortional, pdiv_ok hA.ne', bind, Except.bind, pure, Except.pure]
    rw [pdiv_ok (by positivity)]
  · exact Real.sqrt_pos.2 (by positivity)
  · rw [Real.sq_sqrt (by positivity)]
    field_simp

/-- C308: a stiffer support gives a smaller slenderness. -/
theorem distortional_stiffer {fyb E K K' Is As lam chi lam' chi' : ℝ} (hf : 0 < fyb) (hE : 0 < E) (hK : 0 < K)
    (hI : 0 < Is) (hA : 0 < As) (hKK : K ≤ K') (h : distortional fyb E K Is As = .ok (lam, chi))
    (h' : distortional fyb E K' Is As = .ok (lam', chi')) : lam' ≤ lam ∧ chi = chiD lam ∧ chi' = chiD lam' := by
  obtain ⟨l1, c1, e1, p1, q1, r1⟩ := distortional_rule hf hE hK hI hA
  obtain ⟨l2, c2, e2, p2, q2, r2⟩ := distortional_rule hf hE (hK.trans_le hKK) hI hA
  rw [h] at e1
  rw [h'] at e2
  obtain ⟨rfl, rfl⟩ := Prod.mk.inj (Except.ok.inj e1)
  obtain ⟨rfl, rfl⟩ := Prod.mk.inj (Except.ok.inj e2)
  refine ⟨?_, r1, r2⟩
  have hs : √(K * E * Is) ≤ √(K' * E * Is) := Real.sqrt_le_sqrt (by gcongr)
  have hs0 : 0 < √(K * E * Is) := Real.sqrt_pos.2 (by positivity)
  by_contra hlt
  have hlt := not_le.1 hlt
  have : lam ^ 2 < lam' ^ 2 := by nlinarith
  nlinarith

/-- C309: the stress ratio of the web is that of the linear stress distribution with its zero at the centroid of the
    effective section: bottom stress over top stress. -/
theorem stress_ratio_linear (d : Dim) (zgc k : ℝ) (hz : zgc ≠ (d.h - d.tnom) / 2) :
    ∃ psi, stressRatio d zgc = .ok psi ∧
      psi * (k * ((d.h - d.tnom) / 2 - zgc)) = k * (-(d.h - d.tnom) / 2 - zgc) := by
  have hne : 0.5 * d.hwC - zgc ≠ 0 := by
    intro h0
    apply hz
    rw [Dim.hwC] at h0
    linarith
  refine ⟨-(d.hwC / (0.5 * d.hwC - zgc) - 1), ?_, ?_⟩
  · simp only [stressRatio, pdiv_ok hne, bind, Except.bind, pure, Except.pure]
  · have e : (d.h - d.tnom) / 2 - zgc = 0.5 * d.hwC - zgc := by rw [Dim.hwC]; ring
    have e2 : ∀ c X : ℝ, c ≠ 0 → -(X / c - 1) * (k * c) = k * (c - X) := by
      intro c X hc
      rw [neg_mul, sub_mul, show X / c * (k * c) = X / c * c * k by ring, div_mul_cancel₀ _ hc]
      ring
    rw [e, e2 _ _ hne, Dim.hwC]
    ring

/-- C309: between the two flanges the ratio is negative, and a doubly symmetric section in bending has ratio -1. -/
theorem stress_ratio_sign (d : Dim) (zgc : ℝ) (h1 : -(d.h - d.tnom) / 2 < zgc) (h2 : zgc < (d.h - d.tnom) / 2) :
    (∃ psi, stressRatio d zgc = .ok psi ∧ psi < 0) ∧ (zgc = 0 → stressRatio d zgc = .ok (-1)) := by
  obtain ⟨psi, hp, he⟩ := stress_ratio_linear d zgc 1 h2.ne
  refine ⟨⟨psi, hp, ?_⟩, ?_⟩
  · by_contra hn
    have hn := not_lt.1 hn
    nlinarith [mul_nonneg hn (by linarith : (0 : ℝ) ≤ (d.h - d.tnom) / 2 - zgc)]
  · intro h0
    rw [hp]
    congr 1
    rw [h0] at he h1 h2
    have hpos : 0 < (d.h - d.tnom) / 2 := h2
    have : (psi + 1) * ((d.h - d.tnom) / 2) = 0 := by linear_combination he
    rcases mul_eq_zero.1 this with h | h
    · linarith
    · linarith

example : -((120 : ℝ) - 2) / 2 < 5 ∧ (5 : ℝ) < (120 - 2) / 2 := by norm_num

/-- C310: axial resistance.  In tension it is fya·A.  In compression it lies between the basic yield strength on the
    effective area and the increased one on the gross area, and at slenderness ratio one both branches agree. -/
theorem axial_bounds (d : Dim) {fyb fya Ag Aeff : ℝ} (l : Slender) (hf : 0 < fyb) (hfy : fyb ≤ fya) (hA : 0 < Ag)
    (h0 : 0 ≤ Aeff) (hle : Aeff ≤ Ag) (h1 : l.web ≤ 0.673) (h2 : l.top ≤ if 0 < d.ca then 0.65 else 0.673)
    (h3 : l.bottom ≤ if 0 < d.cb then 0.65 else 0.673) :
    (∀ N, 0 ≤ N → axial d N fyb fya Ag Aeff l = fya * Ag) ∧
    (∀ N, N < 0 → fyb * Aeff ≤ axial d N fyb fya Ag Aeff l ∧ axial d N fyb fya Ag Aeff l ≤ fya * Ag) ∧
    (∀ N, N < 0 → l.web = 0.673 → axial d N fyb fya Ag Aeff l = fyb * Aeff ∨ Aeff = Ag ∧
      axial d N fyb fya Ag Aeff l = fyb * Ag) := by
  have hr2 : (if 0 < d.ca then l.top / 0.65 else l.top / 0.673) ≤ 1 := by
    split_ifs at h2 ⊢ <;> rw [div_le_one (by norm_num)] <;> exact h2
  have hr3 : (if 0 < d.cb then l.bottom / 0.65 else l.bottom / 0.673) ≤ 1 := by
    split_ifs at h3 ⊢ <;> rw [div_le_one (by norm_num)] <;> exact h3
  have hr1 : l.web / 0.673 ≤ 1 := by rw [div_le_one (by norm_num)]; exact h1
  have hratio : max (max (l.web / 0.673) (if 0 < d.ca then l.top / 0.65 else l.top / 0.673))
      (if 0 < d.cb then l.bottom / 0.65 else l.bottom / 0.673) ≤ 1 := max_le (max_le hr1 hr2) hr3
  refine ⟨fun N hN => by rw [axial, if_pos hN], fun N hN => ?_, fun N hN hw => ?_⟩
  · rw [axial, if_neg (not_le.2 hN)]
    by_cases ha : Aeff < Ag
    · rw [if_pos ha]
      exact ⟨le_refl _, mul_le_mul hfy hle h0 (hf.le.trans hfy)⟩
    · rw [if_neg ha]
      refine ⟨le_min ?_ ?_, min_le_right _ _⟩
      · have : 0 ≤ 4 * (fya - fyb) * (1 - max (max (l.web / 0.673) (if 0 < d.ca then l.top / 0.65 else l.top / 0.673))
            (if 0 < d.cb then l.bottom / 0.65 else l.bottom / 0.673)) :=
          mul_nonneg (by linarith) (by linarith)
        nlinarith
      · exact mul_le_mul hfy hle h0 (hf.le.trans hfy)
  · by_cases ha : Aeff < Ag
    · left; rw [axial, if_neg (not_le.2 hN), if_pos ha]
    · right
      refine ⟨le_antisymm hle (not_lt.1 ha), ?_⟩
      rw [axial, if_neg (not_le.2 hN), if_neg ha]
      have he : max (max (l.web / 0.673) (if 0 < d.ca then l.top / 0.65 else l.top / 0.673))
          (if 0 < d.cb then l.bottom / 0.65 else l.bottom / 0.673) = 1 := by
        refine le_antisymm hratio (le_trans ?_ (le_max_left _ _))
        refine le_trans ?_ (le_max_left _ _)
        rw [hw]; norm_num
      simp only [he]
      rw [min_eq_left]
      · ring
      · nlinarith

example : (0.5 : ℝ) ≤ 0.673 ∧ (0.5 : ℝ) ≤ if 0 < dimA.ca then 0.65 else 0.673 := by
  constructor <;> norm_num [dimA]

/-- Number of bends of the section. -/
noncomputable def bends (d : Dim) : ℝ := by
  classical exact 2 + (if 0 < d.ca then 1 else 0) + (if 0 < d.cb then 1 else 0)

theorem agross_pos {d : Dim} (hd : Formed d) : 0 < d.Agross := by
  classical
  have hr := hd.rm_pos
  have h1 : 0 ≤ d.cTop := by
    unfold Dim.cTop
    split_ifs with h
    · exact (hd.top h).1
    · exact hd.top' (le_antisymm (not_lt.mp h) hd.ca)
  have h2 : 0 ≤ d.cBottom := by
    unfold Dim.cBottom
    split_ifs with h
    · exact (hd.bottom h).1
    · exact hd.bottom' (le_antisymm (not_lt.mp h) hd.cb)
  have h3 : 0 ≤ d.caS := by
    unfold Dim.caS
    split_ifs with h
    · have := (hd.top h).2; linarith
    · exact le_refl _
  have h4 : 0 ≤ d.cbS := by
    unfold Dim.cbS
    split_ifs with h
    · have := (hd.bottom h).2; linarith
    · exact le_refl _
  have h5 : 0 ≤ d.hw := hd.web
  have h6 : 0 < d.t := hd.t
  unfold Dim.Agross Dim.centerLine
  refine mul_pos h6 ?_
  have h7 : (2 : ℝ) ≤ 2 + (if 0 < d.ca then 1 else 0) + (if 0 < d.cb then 1 else 0) := by split_ifs <;> norm_num
  have : 0 < (2 + (if 0 < d.ca then 1 else 0) + (if 0 < d.cb then 1 else 0)) * Real.pi * d.rm / 2 := by
    have := Real.pi_pos
    positivity
  simp only
  linarith

/-- C320: the average yield strength lies between the basic strength and the mean of basic and ultimate strength, and for a
    section with lips on both flanges it is that of (3.1) with the number of its bends. -/
theorem average_strength (d : Dim) (hd : Formed d) {fyb fu : ℝ} (h : fyb ≤ fu) :
    fyb ≤ avgStrength d fyb fu ∧ avgStrength d fyb fu ≤ (fyb + fu) / 2 ∧
    (0 < d.ca → 0 < d.cb →
      avgStrength d fyb fu = min (fyb + (fu - fyb) * (7 * bends d * d.t ^ 2 / d.Agross)) ((fyb + fu) / 2)) := by
  have hA := agross_pos hd
  have ht : 0 < d.t := hd.t
  refine ⟨?_, ?_, ?_⟩
  · refine le_min ?_ (by norm_num; linarith)
    have : 0 ≤ (fu - fyb) * 7 * 4 * d.t ^ 2 / d.Agross := by
      have : 0 ≤ fu - fyb := by linarith
      positivity
    linarith
  · exact (min_le_right _ _).trans (by norm_num; linarith)
  · intro h1 h2
    have hb : bends d = 4 := by simp only [bends, if_pos h1, if_pos h2]; norm_num
    rw [hb]
    simp only [avgStrength, fya]
    congr 1
    · ring
    · norm_num; ring

/-- C320 fails for every section with fewer than two lips: four bends are counted though there are two or three, and the
    strength is too large unless the bound decides. -/
theorem average_strength_viol (d : Dim) (hd : Formed d) {fyb fu : ℝ} (h : fyb < fu) (hl : d.ca = 0 ∨ d.cb = 0)
    (hb : (fu - fyb) * (7 * bends d * d.t ^ 2 / d.Agross) < (fu - fyb) / 2) :
    min (fyb + (fu - fyb) * (7 * bends d * d.t ^ 2 / d.Agross)) ((fyb + fu) / 2) < avgStrength d fyb fu := by
  have hA := agross_pos hd
  have ht : 0 < d.t := hd.t
  have hn : bends d < 4 := by
    classical
    simp only [bends]
    rcases hl with h | h
    · rw [if_neg (by rw [h]; exact lt_irrefl _)]; split_ifs <;> norm_num
    · rw [if_neg (c := 0 < d.cb) (by rw [h]; exact lt_irrefl _)]; split_ifs <;> norm_num
  rw [min_eq_left (by linarith)]
  refine lt_min ?_ (by norm_num; linarith)
  have hk : 0 < (fu - fyb) * (7 * d.t ^ 2 / d.Agross) := mul_pos (by linarith) (by positivity)
  have := mul_lt_mul_of_pos_left hn hk
  have e1 : (fu - fyb) * (7 * bends d * d.t ^ 2 / d.Agross) = (fu - fyb) * (7 * d.t ^ 2 / d.Agross) * bends d := by ring
  have e2 : (fu - fyb) * 7 * 4 * d.t ^ 2 / d.Agross = (fu - fyb) * (7 * d.t ^ 2 / d.Agross) * 4 := by ring
  rw [e1]
  linarith

/-- A channel without lips. -/
noncomputable def channel : Dim := ⟨2, 0, 100, 50, 50, 0, 0, 2, true⟩

theorem channel_formed : Formed channel := by constructor <;> norm_num [channel]

example : min (350 + (420 - 350) * (7 * bends channel * channel.t ^ 2 / channel.Agross)) ((350 + 420) / 2)
    < avgStrength channel 350 420 := by
  have hA : 112 < channel.Agross := by
    have := Real.pi_pos
    norm_num [Dim.Agross, Dim.centerLine, Dim.t, Dim.hw, Dim.cTop, Dim.cBottom, Dim.caS, Dim.cbS, Dim.rm, channel]
    linarith
  refine average_strength_viol channel channel_formed (by norm_num) (Or.inl rfl) ?_
  have hb : bends channel = 2 := by norm_num [bends, channel]
  have ht : channel.t = 2 := by norm_num [Dim.t, channel]
  rw [hb, ht]
  have : 7 * 2 * 2 ^ 2 / channel.Agross < 1 / 2 := by rw [div_lt_iff₀ (by linarith)]; linarith
  linarith

/-- C310: a more slender section never has more resistance. -/
theorem axial_more_slender (d : Dim) {fyb fya Ag Aeff : ℝ} (l m : Slender) (hfy : fyb ≤ fya) (hA : 0 ≤ Ag)
    (h1 : l.web ≤ m.web) (h2 : l.top ≤ m.top) (h3 : l.bottom ≤ m.bottom) (N : ℝ) :
    axial d N fyb fya Ag Aeff m ≤ axial d N fyb fya Ag Aeff l := by
  unfold axial
  split_ifs <;> try exact le_refl _
  all_goals
    refine min_le_min_right _ (mul_le_mul_of_nonneg_left ?_ hA)
    refine add_le_add_right (mul_le_mul_of_nonneg_left ?_ (by linarith)) _
    refine sub_le_sub_left ?_ _
    refine max_le_max (max_le_max ?_ ?_) ?_ <;> (refine div_le_div_of_nonneg_right ?_ (by norm_num); assumption)

/-- C311: lateral stiffness of a purlin.  For a given rotational stiffness CD the stiffness is that of the section and
    of the sheeting in series: 1/K = 1/KB + h²/CD, so it is below both. -/
theorem purlin_series {d : Dim} {E nu kh afp CD : ℝ} (load : Load) (hE : 0 < E) (hnu : nu ^ 2 < 1)
    (ht : 0 < d.tnom - d.tcoat) (hh : 0 < d.h - d.tnom) (ha : 0 < d.a) (hb : 0 ≤ d.b) (haf : 0 ≤ afp) (hCD : 0 < CD) :
    ∃ kb k, KB d E nu kh afp = .ok kb ∧ K d E nu kh afp CD load = .ok k ∧ 0 < kb ∧ 0 < k ∧
      1 / k = 1 / kb + (d.h - d.tnom) ^ 2 / CD ∧ k < kb ∧ k < CD / (d.h - d.tnom) ^ 2 := by
  have hhw : d.hwC = d.h - d.tnom := rfl
  have ht' : 0 < d.t := ht
  have hn : 0 < 1 - nu ^ 2 := by linarith
  have hafp : 0 < (if afp = 0 then 0.5 * d.a else afp) := by
    split_ifs with h0
    · linarith
    · exact lt_of_le_of_ne haf (Ne.symm h0)
  have hbm : 0 < (if 0 < kh then (if afp = 0 then 0.5 * d.a else afp) else 2 * (if afp = 0 then 0.5 * d.a else afp) + d.b) := by
    by_cases hk : 0 < kh
    · rw [if_pos hk]; exact hafp
    · rw [if_neg hk]; linarith
  set bm := (if 0 < kh then (if afp = 0 then 0.5 * d.a else afp) else 2 * (if afp = 0 then 0.5 * d.a else afp) + d.b) with hbmd
  have hden : 0 < d.hwC ^ 2 * (1 - nu ^ 2) * (d.hwC + bm) := by rw [hhw]; positivity
  have hKB : KB d E nu kh afp = .ok (0.25 * E * d.t ^ 3 / (d.hwC ^ 2 * (1 - nu ^ 2) * (d.hwC + bm))) := by
    simp only [KB]
    rw [← hbmd, pdiv_ok hden.ne']
  have hkb : 0 < 0.25 * E * d.t ^ 3 / (d.hwC ^ 2 * (1 - nu ^ 2) * (d.hwC + bm)) := by positivity
  set kb := 0.25 * E * d.t ^ 3 / (d.hwC ^ 2 * (1 - nu ^ 2) * (d.hwC + bm))
  have hq : 0 < d.hwC ^ 2 / CD := by rw [hhw]; positivity
  have hi : 0 < 1 / kb := by positivity
  have hK : K d E nu kh afp CD load = .ok (1 / (1 / kb + d.hwC ^ 2 / CD)) := by
    simp only [K, hKB, if_pos hCD.ne', bind, Except.bind, pure, Except.pure]
    simp only [pdiv_ok hCD.ne', pdiv_ok hq.ne', pdiv_ok hkb.ne', pdiv_ok (show 1 / kb + d.hwC ^ 2 / CD ≠ 0 by positivity)]
  refine ⟨kb, _, hKB, hK, hkb, by positivity, ?_, ?_, ?_⟩
  · rw [one_div_one_div, hhw]
  · rw [div_lt_iff₀ (by positivity), mul_add, mul_one_div_cancel hkb.ne']
    have : 0 < kb * (d.hwC ^ 2 / CD) := by positivity
    linarith
  · rw [div_lt_iff₀ (by positivity), mul_add, ← hhw]
    have h1 : CD / d.hwC ^ 2 * (d.hwC ^ 2 / CD) = 1 := by
      have : d.hwC ≠ 0 := by rw [hhw]; exact hh.ne'
      field_simp
    rw [h1]
    have : 0 < CD / d.hwC ^ 2 * (1 / kb) := by rw [hhw]; positivity
    linarith

/-- C311: the section part is that of (10.16): E·t³/(4(1-ν²)·h²·(h + bmod)) with the fastener in the middle of the
    flange unless it is given, and the wide lever when the lateral load is not positive; it is then smaller. -/
theorem purlin_section {d : Dim} {E nu afp : ℝ} (hE : 0 < E) (hnu : nu ^ 2 < 1) (ht : 0 < d.tnom - d.tcoat)
    (hh : 0 < d.h - d.tnom) (ha : 0 < d.a) (hb : 0 ≤ d.b) (haf : 0 < afp) {k1 k2 : ℝ} (h1 : 0 < k1) (h2 : k2 ≤ 0) :
    KB d E nu k1 afp = .ok (E * (d.tnom - d.tcoat) ^ 3 /
      (4 * (1 - nu ^ 2) * (d.h - d.tnom) ^ 2 * (d.h - d.tnom + afp))) ∧
    KB d E nu k2 afp = .ok (E * (d.tnom - d.tcoat) ^ 3 /
      (4 * (1 - nu ^ 2) * (d.h - d.tnom) ^ 2 * (d.h - d.tnom + (2 * afp + d.b)))) ∧
    KB d E nu k1 0 = KB d E nu k1 (d.a / 2) ∧ KB d E nu k2 0 = KB d E nu k2 (d.a / 2) := by
  have hhw : d.hwC = d.h - d.tnom := rfl
  have ht' : d.t = d.tnom - d.tcoat := rfl
  have hn : 0 < 1 - nu ^ 2 := by linarith
  have ha2 : ¬ d.a / 2 = 0 := by intro h; linarith
  refine ⟨?_, ?_, ?_, ?_⟩
  · simp only [KB, if_neg haf.ne', if_pos h1]
    rw [pdiv_ok (by rw [hhw]; positivity), hhw, ht']
    congr 1
    field_simp; ring
  · simp only [KB, if_neg haf.ne', if_neg (not_lt.2 h2)]
    rw [pdiv_ok (by rw [hhw]; positivity), hhw, ht']
    congr 1
    field_simp; ring
  · simp only [KB, if_pos h1, if_true, if_neg ha2]
    rw [show 0.5 * d.a = d.a / 2 by ring]
  · simp only [KB, if_neg (not_lt.2 h2), if_true, if_neg ha2]
    rw [show 0.5 * d.a = d.a / 2 by ring]

example : (0 : ℝ) < 210000 ∧ (0.3 : ℝ) ^ 2 < 1 ∧ 0 < dimA.tnom - dimA.tcoat ∧ 0 < dimA.h - dimA.tnom := by
  norm_num [dimA]

/-- C311: a C section under gravity.  `K` and `KB` ask for the load 'gravity', but `kh` of a C section knows it as 'down'
    and treats every other name as uplift, so gravity and uplift give the same coefficient; a Z section in turn fails
    for 'down'. -/
theorem purlin_load_viol (d : Dim) (e zs q : ℝ) (hh : d.h ≠ 0) :
    khC d e zs q .gravity = khC d e zs q .uplift ∧
    khC d e zs q .down = .ok (q * (0.5 * d.h - zs) / d.h + e / d.h) ∧
    (d.btC ≠ 0 → khC d e zs q .gravity ≠ khC d e zs q .down) ∧
    khZ d e zs q .down = .error .unboundLocal := by
  refine ⟨rfl, ?_, ?_, ?_⟩
  · simp only [khC, pdiv_ok hh, bind, Except.bind, pure, Except.pure]
  · intro hb h
    simp only [khC, pdiv_ok hh, bind, Except.bind, pure, Except.pure] at h
    have h := Except.ok.inj h
    have : d.btC / d.h = 0 := by linear_combination -2 * h
    rcases div_eq_zero_iff.1 this with h' | h'
    · exact hb h'
    · exact hh h'
  · simp only [khZ, pdiv_ok hh, bind, Except.bind, throw, throwThe, MonadExceptOf.throw]

example : dimA.h ≠ 0 ∧ dimA.btC ≠ 0 := by
  constructor <;> norm_num [dimA, Dim.btC]

/-- C312: the table of Z purlins.  Whatever is found is a section that can be formed with the given height and
    thickness, equal lips, a top flange wider than the bottom one by 6 or 8 mm, and rounded corners. -/
theorem ruukki_formed {h t : ℝ} {d : Dim} (hh : 60 ≤ h) (hd : ruukkiZ h t = .ok d) :
    Formed d ∧ Wide d ∧ d.h = h ∧ d.tnom = t ∧ d.ca = d.cb ∧ 0 < d.ca ∧ d.rounded = true ∧
      (d.a - d.b = 6 ∨ d.a - d.b = 8) ∧ d.tcoat = 0.04 := by
  unfold ruukkiZ at hd
  cases hs : ruukkiSize h t with
  | error e => rw [hs] at hd; simp [bind, Except.bind] at hd
  | ok s =>
    rw [hs] at hd
    simp only [bind, Except.bind, newDim, pure, Except.pure] at hd
    rw [if_neg (by simp)] at hd
    have hd := (Except.ok.inj hd).symm
    subst hd
    unfold ruukkiSize at hs
    split_ifs at hs <;> cases hs
    all_goals
      subst_vars
      refine ⟨?_, ?_, rfl, rfl, rfl, by norm_num, rfl, by norm_num, rfl⟩ <;> constructor <;> norm_num <;> try linarith

example : ∃ d, ruukkiZ 200 2 = .ok d := by
  refine ⟨⟨2, 0.04, 200, 71, 63, 26, 26, 2, true⟩, ?_⟩
  simp only [ruukkiZ, ruukkiSize, newDim, bind, Except.bind, pure, Except.pure]
  norm_num

/-- C312: a height or thickness outside the table ends in an exception that names a local variable. -/
theorem ruukki_missing_viol {h t : ℝ}
    (hm : (250 < h ∧ h ≠ 300 ∧ h ≠ 350) ∨ (t ≠ 1 ∧ t ≠ 1.2 ∧ t ≠ 1.5 ∧ t ≠ 2 ∧ t ≠ 2.5 ∧ t ≠ 3)) :
    ruukkiZ h t = .error .unboundLocal := by
  have : ruukkiSize h t = .error .unboundLocal := by
    unfold ruukkiSize
    rcases hm with ⟨h1, h2, h3⟩ | ⟨h1, h2, h3, h4, h5, h6⟩
    · rw [if_neg (by linarith), if_neg (by linarith), if_neg h2, if_neg h3]
    · simp only [if_neg h1, if_neg h2, if_neg h3, if_neg h4, if_neg h5, if_neg h6, ite_self]
  rw [ruukkiZ, this]
  rfl

example : (250 : ℝ) < 280 ∧ (280 : ℝ) ≠ 300 ∧ (280 : ℝ) ≠ 350 := by norm_num

/-- C313: the constructor keeps the dimensions; without a radius it takes 1.5 times the nominal thickness; sharp corners
    are accepted exactly when r ≤ 5t and r is at most a tenth of both flange widths between centre lines. -/
theorem constructor_rule {tnom h a b ca cb r tcoat : ℝ} (ht : 0 < tnom - tcoat) (htn : 0 < tnom) (hr : 0 ≤ r)
    (ha : tnom < a) (hb : tnom < b) (corners : Bool) :
    ∃ d, newDim tnom h a b ca cb r tcoat corners = .ok d ∧ d.tnom = tnom ∧ d.h = h ∧ d.a = a ∧ d.b = b ∧ d.ca = ca ∧
      d.cb = cb ∧ d.tcoat = tcoat ∧ d.r = (if r = 0 then 1.5 * tnom else r) ∧ 0 < d.r ∧
      (d.rounded = false ↔ corners = false ∧ d.r ≤ 5 * (tnom - tcoat) ∧
        10 * d.r ≤ (if ca = 0 then a - tnom / 2 else a - tnom) ∧
        10 * d.r ≤ (if cb = 0 then b - tnom / 2 else b - tnom)) := by
  have hrp : 0 < (if r = 0 then 1.5 * tnom else r) := by
    split_ifs with h0
    · positivity
    · exact lt_of_le_of_ne hr (Ne.symm h0)
  set R := if r = 0 then 1.5 * tnom else r with hR
  set T := (if ca = 0 then a - tnom / 2 else a - tnom) with hT
  set B := (if cb = 0 then b - tnom / 2 else b - tnom) with hB
  have hTp : 0 < T := by rw [hT]; split_ifs <;> linarith
  have hBp : 0 < B := by rw [hB]; split_ifs <;> linarith
  cases corners with
  | true =>
    refine ⟨⟨tnom, tcoat, h, a, b, ca, cb, R, true⟩, ?_, rfl, rfl, rfl, rfl, rfl, rfl, rfl, rfl, hrp, by simp⟩
    simp only [newDim, pure, Except.pure]
    rw [if_neg (by simp)]
  | false =>
    have hbT : Dim.bpT ⟨tnom, tcoat, h, a, b, ca, cb, R, false⟩ = T := by
      simp only [Dim.bpT, Dim.btC, hT]
      rw [if_neg (by simp)]
      split_ifs <;> ring
    have hbB : Dim.bpB ⟨tnom, tcoat, h, a, b, ca, cb, R, false⟩ = B := by
      simp only [Dim.bpB, Dim.bbC, hB]
      rw [if_neg (by simp)]
      split_ifs <;> ring
    have ht' : Dim.t ⟨tnom, tcoat, h, a, b, ca, cb, R, false⟩ = tnom - tcoat := rfl
    have k1 : R / (tnom - tcoat) ≤ 5 ↔ R ≤ 5 * (tnom - tcoat) := div_le_iff₀ ht
    have k2 : R / T ≤ 0.1 ↔ 10 * R ≤ T := by rw [div_le_iff₀ hTp]; constructor <;> intro h' <;> linarith
    have k3 : R / B ≤ 0.1 ↔ 10 * R ≤ B := by rw [div_le_iff₀ hBp]; constructor <;> intro h' <;> linarith
    have key : newDim tnom h a b ca cb r tcoat false =
        .ok ⟨tnom, tcoat, h, a, b, ca, cb, R,
          decide ¬ (R ≤ 5 * (tnom - tcoat) ∧ 10 * R ≤ T ∧ 10 * R ≤ B)⟩ := by
      simp only [newDim, pure, Except.pure, bind, Except.bind, if_true]
      rw [← hR]
      simp only [ht', pdiv_ok ht.ne']
      by_cases q1 : R ≤ 5 * (tnom - tcoat)
      · rw [if_pos (k1.2 q1), hbT, hbB]
        simp only [pdiv_ok hTp.ne', pdiv_ok hBp.ne']
        by_cases q2 : 10 * R ≤ T
        · rw [if_pos (k2.2 q2)]
          by_cases q3 : 10 * R ≤ B
          · rw [if_pos (k3.2 q3)]; simp [q1, q2, q3]
          · rw [if_neg (fun h' => q3 (k3.1 h'))]; simp [q1, q2, q3]
        · rw [if_neg (fun h' => q2 (k2.1 h'))]; simp [q1, q2]
      · rw [if_neg (fun h' => q1 (k1.1 h'))]; simp [q1]
    refine ⟨_, key, rfl, rfl, rfl, rfl, rfl, rfl, rfl, rfl, hrp, ?_⟩
    simp

example : (0 : ℝ) < 2 - 0.04 ∧ (0 : ℝ) < 2 ∧ (2 : ℝ) < 60 := by norm_num

/-- C314: the correction for rounded corners.  `area(delta=True)` takes the deduction for rounding off the area of a
    model that has rounded corners already: for every section with a positive radius it is smaller than the area of the
    model, which in turn is smaller than the true one. -/
theorem area_delta_viol {d : Dim} (h : Formed d) (hw : Wide d) (hr : d.rounded = true) (hr0 : 0 < d.r) (k : Kind) :
    ∃ A Ad, areaGross d (points k d) false = .ok A ∧ areaGross d (points k d) true = .ok Ad ∧ Ad < A ∧ A < d.Agross ∧
      Ad = A * (1 - 0.43 * (corners d * d.r) / (d.bpB + d.bpW + d.bpT + (if 0 < d.ca then d.bpTLip else 0) +
        (if 0 < d.cb then d.bpBLip else 0))) := by
  obtain ⟨A, hA, h99, hlt, hag⟩ := gross_area_near h hw k
  obtain ⟨hW, hT, hB, hTL, hBL, hg0, hg1, hww, -⟩ := notional_widths h hr
  have ht := h.tnom
  have hweb := h.web
  have hbT : 0 < d.bpT := by
    by_cases ha : 0 < d.ca
    · rw [if_pos ha, if_pos ha] at hT; linarith [(hw.lip ha).1]
    · rw [if_neg ha, if_neg ha] at hT; linarith [hw.free (le_antisymm (not_lt.1 ha) h.ca)]
  have hbB : 0 < d.bpB := by
    by_cases ha : 0 < d.cb
    · rw [if_pos ha, if_pos ha] at hB; linarith [(h.bottom ha).1]
    · rw [if_neg ha, if_neg ha] at hB; linarith [h.bottom' (le_antisymm (not_lt.1 ha) h.cb)]
  have hl1 : 0 ≤ (if 0 < d.ca then d.bpTLip else 0) := by
    split_ifs with ha
    · linarith [hTL ha, (h.top ha).2]
    · exact le_refl _
  have hl2 : 0 ≤ (if 0 < d.cb then d.bpBLip else 0) := by
    split_ifs with ha
    · linarith [hBL ha, (h.bottom ha).2]
    · exact le_refl _
  set S := d.bpB + d.bpW + d.bpT + (if 0 < d.ca then d.bpTLip else 0) + (if 0 < d.cb then d.bpBLip else 0) with hS
  have hSp : 0 < S := by rw [hS]; linarith
  have hc := corners_pos d
  have hrf : roundingFactor d = .ok (0.43 * (corners d * d.r) / S) := by
    simp only [roundingFactor]
    rw [← hS, pdiv_ok hSp.ne', corners, show d.r * 90 / 90 = d.r by ring]
  obtain ⟨g, hg, hga⟩ := gross_area_closed h k
  have hA' := hA
  simp only [areaGross, hg, bind, Except.bind, pure, Except.pure] at hA'
  rw [if_neg (by simp)] at hA'
  have hgA : g.area = A := by have := Except.ok.inj hA'; linarith
  have hAp : 0 < A := by
    have : 0 ≤ d.Agross := by
      rw [hag]
      have := straights_nonneg h
      have hpi := Real.pi_pos
      have hr1 : 0 < d.r + d.tnom / 2 := by linarith
      have := h.t
      positivity
    linarith
  have hq : 0 < 0.43 * (corners d * d.r) / S := by positivity
  refine ⟨A, A * (1 - 0.43 * (corners d * d.r) / S), hA, ?_, ?_, hlt, rfl⟩
  · simp only [areaGross, hg, hrf, bind, Except.bind, pure, Except.pure, if_true, hgA]
  · nlinarith

example : Formed dimA ∧ Wide dimA ∧ dimA.rounded = true ∧ 0 < dimA.r := ⟨dimA_formed, dimA_wide, rfl, by norm_num [dimA]⟩

end Metku.CF
