import Mathlib.Analysis.Real.Pi.Bounds
import Mathlib.Analysis.SpecialFunctions.Trigonometric.Bounds
import Mathlib.Tactic.Linarith
import Mathlib.Tactic.NormNum
import Mathlib.Tactic.FieldSimp
import Mathlib.Tactic.Ring
import Mathlib.Tactic.Positivity
import Verif.Model.ColdSection
import Verif.Props.Panels

/-!
Cold-formed Z and C sections (cf_profs.py).
-/
namespace Metku.CF

open Metku Metku.Cold Metku.Fire
open Metku.Panels (pdiv_ok)

/-! ### Polygons -/

/-- Distance of two points. -/
noncomputable def len (p q : Pt) : ℝ := √((q.1 - p.1) ^ 2 + (q.2 - p.2) ^ 2)

/-- Sum of thickness times length along a polygon. -/
noncomputable def parea : List Pt → List ℝ → ℝ
  | p :: q :: ps, t :: ts => t * len p q + parea (q :: ps) ts
  | _, _ => 0

theorem newProf_seq_area (nodes : List Pt) : ∀ (ts : List ℝ), nodes.length ≤ ts.length + 1 →
    ∃ p, newProf nodes (.seq ts) = .ok p ∧ p.area = parea nodes ts := by
  have key : ∀ (nodes : List Pt) (ts : List ℝ), nodes.length ≤ ts.length + 1 →
      ∃ r, mkSegs nodes ts = .ok r ∧ (r.map Seg.area).sum = parea nodes ts := by
    intro nodes
    induction nodes with
    | nil => intro ts _; exact ⟨[], by simp [mkSegs], by simp [parea]⟩
    | cons p ps ih =>
      intro ts h
      cases ps with
      | nil => exact ⟨[], by simp [mkSegs], by simp [parea]⟩
      | cons q qs =>
        cases ts with
        | nil => simp at h
        | cons t ts =>
          obtain ⟨r, hr, hs⟩ := ih ts (by simpa using h)
          exact ⟨⟨p, q, t⟩ :: r, by simp only [mkSegs, hr, bind, Except.bind, pure, Except.pure],
            by simp only [List.map_cons, List.sum_cons, hs, parea, Seg.area, Seg.length, len]⟩
  intro ts h
  obtain ⟨r, hr, hs⟩ := key nodes ts h
  exact ⟨⟨nodes, ts, r⟩, by simp only [newProf, hr, bind, Except.bind, pure, Except.pure], hs⟩

theorem newProf_float_area (nodes : List Pt) (t : ℝ) :
    ∃ p, newProf nodes (.float t) = .ok p ∧ p.area = parea nodes (List.replicate (nodes.length - 1) t) := by
  obtain ⟨p, hp, ha⟩ := newProf_seq_area nodes (List.replicate (nodes.length - 1) t)
    (by rw [List.length_replicate]; omega)
  exact ⟨p, hp, ha⟩

theorem parea_append (l : List Pt) : ∀ (tl : List ℝ) (b : Pt) (m : List Pt) (tm : List ℝ), tl.length = l.length →
    parea (l ++ b :: m) (tl ++ tm) = parea (l ++ [b]) tl + parea (b :: m) tm := by
  induction l with
  | nil =>
    intro tl b m tm h
    obtain rfl := List.length_eq_zero_iff.1 h
    simp [parea]
  | cons p ps ih =>
    intro tl b m tm h
    cases tl with
    | nil => simp at h
    | cons t ts =>
      have h' : ts.length = ps.length := by simpa using h
      have := ih ts b m tm h'
      cases ps with
      | nil =>
        simp only [List.nil_append, List.cons_append, parea] at this ⊢
        rw [this]; ring
      | cons q qs =>
        simp only [List.cons_append, parea] at this ⊢
        rw [this]; ring

theorem len_h (a b z : ℝ) : len (a, z) (b, z) = |b - a| := by
  simp only [len, sub_self]
  rw [show (b - a) ^ 2 + (0 : ℝ) ^ 2 = (b - a) ^ 2 by ring, Real.sqrt_sq_eq_abs]

theorem len_v (y a b : ℝ) : len (y, a) (y, b) = |b - a| := by
  simp only [len, sub_self]
  rw [show (0 : ℝ) ^ 2 + (b - a) ^ 2 = (b - a) ^ 2 by ring, Real.sqrt_sq_eq_abs]

theorem len_arc (c : Pt) {r : ℝ} (hr : 0 ≤ r) (φ ψ : ℝ) (h : |ψ - φ| = Real.pi / 8) :
    len (arc c r φ) (arc c r ψ) = 2 * r * Real.sin (Real.pi / 16) := by
  have hs : 0 ≤ Real.sin (Real.pi / 16) :=
    Real.sin_nonneg_of_nonneg_of_le_pi (by positivity) (by linarith [Real.pi_pos])
  have hc : Real.cos (ψ - φ) = 1 - 2 * Real.sin (Real.pi / 16) ^ 2 := by
    rw [← Real.cos_abs, h, show Real.pi / 8 = 2 * (Real.pi / 16) by ring, Real.cos_two_mul]
    have := Real.sin_sq_add_cos_sq (Real.pi / 16)
    linarith
  rw [Real.cos_sub] at hc
  have h1 := Real.sin_sq_add_cos_sq φ
  have h2 := Real.sin_sq_add_cos_sq ψ
  simp only [len, arc]
  rw [show (c.1 + r * Real.cos ψ - (c.1 + r * Real.cos φ)) ^ 2 + (c.2 + r * Real.sin ψ - (c.2 + r * Real.sin φ)) ^ 2
    = (2 * r * Real.sin (Real.pi / 16)) ^ 2 from ?_]
  · exact Real.sqrt_sq (by positivity)
  · have : r ^ 2 * (Real.sin φ ^ 2 + Real.cos φ ^ 2) + r ^ 2 * (Real.sin ψ ^ 2 + Real.cos ψ ^ 2)
      - 2 * r ^ 2 * (Real.cos ψ * Real.cos φ + Real.sin ψ * Real.sin φ) =
        r ^ 2 * 1 + r ^ 2 * 1 - 2 * r ^ 2 * (1 - 2 * Real.sin (Real.pi / 16) ^ 2) := by rw [h1, h2, hc]
    linear_combination this

theorem len_corner (c : Pt) {r : ℝ} (hr : 0 ≤ r) (φ ψ : ℝ) (h : |ψ - φ| = Real.pi / 2) :
    len (arc c r φ) (arc c r (φ + 1 * ((ψ - φ) / 4))) = 2 * r * Real.sin (Real.pi / 16) ∧
    len (arc c r (φ + 1 * ((ψ - φ) / 4))) (arc c r (φ + 2 * ((ψ - φ) / 4))) = 2 * r * Real.sin (Real.pi / 16) ∧
    len (arc c r (φ + 2 * ((ψ - φ) / 4))) (arc c r (φ + 3 * ((ψ - φ) / 4))) = 2 * r * Real.sin (Real.pi / 16) ∧
    len (arc c r (φ + 3 * ((ψ - φ) / 4))) (arc c r ψ) = 2 * r * Real.sin (Real.pi / 16) := by
  have h4 : |(ψ - φ) / 4| = Real.pi / 8 := by rw [abs_div, h]; norm_num; ring
  refine ⟨len_arc c hr _ _ ?_, len_arc c hr _ _ ?_, len_arc c hr _ _ ?_, len_arc c hr _ _ ?_⟩ <;>
    (rw [← h4]; congr 1; ring)

/-- The dimensions of a section that can be formed: the straight parts of web, flanges and lips are not negative. -/
structure Formed (d : Dim) : Prop where
  tnom : 0 < d.tnom
  r : 0 ≤ d.r
  t : 0 < d.tnom - d.tcoat
  ca : 0 ≤ d.ca
  cb : 0 ≤ d.cb
  web : 0 ≤ d.h - 2 * (d.r + d.tnom)
  top : 0 < d.ca → 0 ≤ d.a - 2 * (d.r + d.tnom) ∧ 0 ≤ d.ca - (d.r + d.tnom)
  top' : d.ca = 0 → 0 ≤ d.a - (d.r + d.tnom)
  bottom : 0 < d.cb → 0 ≤ d.b - 2 * (d.r + d.tnom) ∧ 0 ≤ d.cb - (d.r + d.tnom)
  bottom' : d.cb = 0 → 0 ≤ d.b - (d.r + d.tnom)

theorem Formed.rm_pos {d : Dim} (h : Formed d) : 0 < d.rm := by
  have := h.tnom; have := h.r
  unfold Dim.rm; linarith

/-- Length of a corner of four chords. -/
noncomputable def chords (d : Dim) : ℝ := 8 * d.rm * Real.sin (Real.pi / 16)

theorem abs_half_pi {x : ℝ} (h : x = Real.pi / 2 ∨ x = -(Real.pi / 2)) : |x| = Real.pi / 2 := by
  rcases h with h | h <;> rw [h]
  · exact abs_of_pos (by positivity)
  · rw [abs_neg]; exact abs_of_pos (by positivity)

theorem cos_15 : Real.cos (1.5 * Real.pi) = 0 := by
  rw [show (1.5 : ℝ) * Real.pi = Real.pi / 2 + Real.pi by ring, Real.cos_add_pi, Real.cos_pi_div_two, neg_zero]
theorem sin_15 : Real.sin (1.5 * Real.pi) = -1 := by
  rw [show (1.5 : ℝ) * Real.pi = Real.pi / 2 + Real.pi by ring, Real.sin_add_pi, Real.sin_pi_div_two]
theorem cos_05 : Real.cos (0.5 * Real.pi) = 0 := by
  rw [show (0.5 : ℝ) * Real.pi = Real.pi / 2 by ring, Real.cos_pi_div_two]
theorem sin_05 : Real.sin (0.5 * Real.pi) = 1 := by
  rw [show (0.5 : ℝ) * Real.pi = Real.pi / 2 by ring, Real.sin_pi_div_two]
theorem cos_n05 : Real.cos (-0.5 * Real.pi) = 0 := by
  rw [show (-0.5 : ℝ) * Real.pi = -(Real.pi / 2) by ring, Real.cos_neg, Real.cos_pi_div_two]
theorem sin_n05 : Real.sin (-0.5 * Real.pi) = -1 := by
  rw [show (-0.5 : ℝ) * Real.pi = -(Real.pi / 2) by ring, Real.sin_neg, Real.sin_pi_div_two]

theorem Formed.bLip_pos {d : Dim} (h : Formed d) (hb : 0 < d.cb) : 0 < d.bLip := by
  rw [Dim.bLip, if_neg hb.ne']
  have := (h.bottom hb).2; have := h.tnom; have := h.r
  linarith

theorem Formed.tLip_pos {d : Dim} (h : Formed d) (hb : 0 < d.ca) : 0 < d.tLip := by
  rw [Dim.tLip, if_neg hb.ne']
  have := (h.top hb).2; have := h.tnom; have := h.r
  linarith

/-- Corner from the bottom flange to the web of a C section. -/
theorem c_corner_bottom {d : Dim} (h : Formed d) (ts : ℝ) (y : ℝ) (hy : y = d.rm) :
    ts * len (y, -0.5 * d.hwC) (arc (d.rm, -0.5 * d.hwC + d.rm) d.rm (1.5 * Real.pi + 1 * ((Real.pi - 1.5 * Real.pi) / 4))) +
    (ts * len (arc (d.rm, -0.5 * d.hwC + d.rm) d.rm (1.5 * Real.pi + 1 * ((Real.pi - 1.5 * Real.pi) / 4)))
      (arc (d.rm, -0.5 * d.hwC + d.rm) d.rm (1.5 * Real.pi + 2 * ((Real.pi - 1.5 * Real.pi) / 4))) +
    (ts * len (arc (d.rm, -0.5 * d.hwC + d.rm) d.rm (1.5 * Real.pi + 2 * ((Real.pi - 1.5 * Real.pi) / 4)))
      (arc (d.rm, -0.5 * d.hwC + d.rm) d.rm (1.5 * Real.pi + 3 * ((Real.pi - 1.5 * Real.pi) / 4))) +
    ts * len (arc (d.rm, -0.5 * d.hwC + d.rm) d.rm (1.5 * Real.pi + 3 * ((Real.pi - 1.5 * Real.pi) / 4)))
      (0, -0.5 * d.hwC + d.rm))) = ts * chords d := by
  obtain ⟨e1, e2, e3, e4⟩ := len_corner (d.rm, -0.5 * d.hwC + d.rm) h.rm_pos.le (1.5 * Real.pi) Real.pi
    (abs_half_pi (Or.inr (by ring)))
  rw [show ((0, -0.5 * d.hwC + d.rm) : Pt) = arc (d.rm, -0.5 * d.hwC + d.rm) d.rm Real.pi by
      rw [arc, Real.cos_pi, Real.sin_pi]; ext <;> simp,
    show ((y, -0.5 * d.hwC) : Pt) = arc (d.rm, -0.5 * d.hwC + d.rm) d.rm (1.5 * Real.pi) by
      rw [arc, cos_15, sin_15, hy]; ext <;> simp, e1, e2, e3, e4, chords]
  ring

/-- Corner from the bottom flange to the web of a Z section. -/
theorem z_corner_bottom {d : Dim} (h : Formed d) (ts : ℝ) (y : ℝ) (hy : y = -d.rm) :
    ts * len (y, -0.5 * d.hwC) (arc (-d.rm, -0.5 * d.hwC + d.rm) d.rm (1.5 * Real.pi + 1 * ((2 * Real.pi - 1.5 * Real.pi) / 4))) +
    (ts * len (arc (-d.rm, -0.5 * d.hwC + d.rm) d.rm (1.5 * Real.pi + 1 * ((2 * Real.pi - 1.5 * Real.pi) / 4)))
      (arc (-d.rm, -0.5 * d.hwC + d.rm) d.rm (1.5 * Real.pi + 2 * ((2 * Real.pi - 1.5 * Real.pi) / 4))) +
    (ts * len (arc (-d.rm, -0.5 * d.hwC + d.rm) d.rm (1.5 * Real.pi + 2 * ((2 * Real.pi - 1.5 * Real.pi) / 4)))
      (arc (-d.rm, -0.5 * d.hwC + d.rm) d.rm (1.5 * Real.pi + 3 * ((2 * Real.pi - 1.5 * Real.pi) / 4))) +
    ts * len (arc (-d.rm, -0.5 * d.hwC + d.rm) d.rm (1.5 * Real.pi + 3 * ((2 * Real.pi - 1.5 * Real.pi) / 4)))
      (0, -0.5 * d.hwC + d.rm))) = ts * chords d := by
  obtain ⟨e1, e2, e3, e4⟩ := len_corner (-d.rm, -0.5 * d.hwC + d.rm) h.rm_pos.le (1.5 * Real.pi) (2 * Real.pi)
    (abs_half_pi (Or.inl (by ring)))
  rw [show ((0, -0.5 * d.hwC + d.rm) : Pt) = arc (-d.rm, -0.5 * d.hwC + d.rm) d.rm (2 * Real.pi) by
      rw [arc, Real.cos_two_pi, Real.sin_two_pi]; ext <;> simp,
    show ((y, -0.5 * d.hwC) : Pt) = arc (-d.rm, -0.5 * d.hwC + d.rm) d.rm (1.5 * Real.pi) by
      rw [arc, cos_15, sin_15, hy]; ext <;> simp, e1, e2, e3, e4, chords]
  ring

/-- Corner from the lip to the bottom flange of a C section. -/
theorem c_corner_lip {d : Dim} (h : Formed d) (ts : ℝ) :
    ts * len (arc (d.bbC - d.rm, -0.5 * d.hwC + d.rm) d.rm 0)
      (arc (d.bbC - d.rm, -0.5 * d.hwC + d.rm) d.rm (0 + 1 * ((-0.5 * Real.pi - 0) / 4))) +
    ts * len (arc (d.bbC - d.rm, -0.5 * d.hwC + d.rm) d.rm (0 + 1 * ((-0.5 * Real.pi - 0) / 4)))
      (arc (d.bbC - d.rm, -0.5 * d.hwC + d.rm) d.rm (0 + 2 * ((-0.5 * Real.pi - 0) / 4))) +
    ts * len (arc (d.bbC - d.rm, -0.5 * d.hwC + d.rm) d.rm (0 + 2 * ((-0.5 * Real.pi - 0) / 4)))
      (arc (d.bbC - d.rm, -0.5 * d.hwC + d.rm) d.rm (0 + 3 * ((-0.5 * Real.pi - 0) / 4))) +
    ts * len (arc (d.bbC - d.rm, -0.5 * d.hwC + d.rm) d.rm (0 + 3 * ((-0.5 * Real.pi - 0) / 4)))
      (d.bbC - d.rm, -0.5 * d.hwC) = ts * chords d := by
  obtain ⟨e1, e2, e3, e4⟩ := len_corner (d.bbC - d.rm, -0.5 * d.hwC + d.rm) h.rm_pos.le 0 (-0.5 * Real.pi)
    (abs_half_pi (Or.inr (by ring)))
  rw [show ((d.bbC - d.rm, -0.5 * d.hwC) : Pt) = arc (d.bbC - d.rm, -0.5 * d.hwC + d.rm) d.rm (-0.5 * Real.pi) by
      rw [arc, cos_n05, sin_n05]; ext <;> simp, e1, e2, e3, e4, chords]
  ring

theorem c_lip_start (d : Dim) : arc (d.bbC - d.rm, -0.5 * d.hwC + d.rm) d.rm 0 = (d.bbC, -0.5 * d.hwC + d.rm) := by
  rw [arc, Real.cos_zero, Real.sin_zero]; ext <;> simp

/-- Corner from the lip to the bottom flange of a Z section. -/
theorem z_corner_lip {d : Dim} (h : Formed d) (ts : ℝ) :
    ts * len (arc (-d.bbC + d.rm, -0.5 * d.hwC + d.rm) d.rm Real.pi)
      (arc (-d.bbC + d.rm, -0.5 * d.hwC + d.rm) d.rm (Real.pi + 1 * ((1.5 * Real.pi - Real.pi) / 4))) +
    ts * len (arc (-d.bbC + d.rm, -0.5 * d.hwC + d.rm) d.rm (Real.pi + 1 * ((1.5 * Real.pi - Real.pi) / 4)))
      (arc (-d.bbC + d.rm, -0.5 * d.hwC + d.rm) d.rm (Real.pi + 2 * ((1.5 * Real.pi - Real.pi) / 4))) +
    ts * len (arc (-d.bbC + d.rm, -0.5 * d.hwC + d.rm) d.rm (Real.pi + 2 * ((1.5 * Real.pi - Real.pi) / 4)))
      (arc (-d.bbC + d.rm, -0.5 * d.hwC + d.rm) d.rm (Real.pi + 3 * ((1.5 * Real.pi - Real.pi) / 4))) +
    ts * len (arc (-d.bbC + d.rm, -0.5 * d.hwC + d.rm) d.rm (Real.pi + 3 * ((1.5 * Real.pi - Real.pi) / 4)))
      (-d.bbC + d.rm, -0.5 * d.hwC) = ts * chords d := by
  obtain ⟨e1, e2, e3, e4⟩ := len_corner (-d.bbC + d.rm, -0.5 * d.hwC + d.rm) h.rm_pos.le Real.pi (1.5 * Real.pi)
    (abs_half_pi (Or.inl (by ring)))
  rw [show ((-d.bbC + d.rm, -0.5 * d.hwC) : Pt) = arc (-d.bbC + d.rm, -0.5 * d.hwC + d.rm) d.rm (1.5 * Real.pi) by
      rw [arc, cos_15, sin_15]; ext <;> simp, e1, e2, e3, e4, chords]
  ring

theorem z_lip_start (d : Dim) :
    arc (-d.bbC + d.rm, -0.5 * d.hwC + d.rm) d.rm Real.pi = (-d.bbC, -0.5 * d.hwC + d.rm) := by
  rw [arc, Real.cos_pi, Real.sin_pi]; ext <;> simp

theorem lower_area (k : Kind) {d : Dim} (h : Formed d) (ts : ℝ) :
    parea (lowerPts k d ++ [(0, -0.5 * d.hwC + d.rm)]) (List.replicate (lowerPts k d).length ts) =
      ts * (d.cbS + d.cBottom + chords d + (if 0 < d.cb then chords d else 0)) := by
  have ht := h.tnom; have hr := h.r
  rcases h.cb.lt_or_eq with hb | hb
  · have hl := h.bLip_pos hb
    obtain ⟨h1, h2⟩ := h.bottom hb
    have hbl : d.bLip = d.cb - 0.5 * d.tnom := by rw [Dim.bLip, if_neg hb.ne']
    have hbc : d.bbC = d.b - d.tnom := by rw [Dim.bbC, if_neg hb.ne']
    have hcB : d.cBottom = d.b - 2 * (d.r + d.tnom) := by rw [Dim.cBottom, if_pos hb]
    have hcS : d.cbS = d.cb - d.tnom - d.r := by rw [Dim.cbS, if_pos hb]
    rw [if_pos hb]
    cases k with
    | c =>
      simp only [lowerPts, if_pos hl, cornerPts, inner, List.tail, List.dropLast, List.cons_append, List.nil_append,
        List.length_cons, List.length_nil, List.replicate, parea]
      have e1 := c_corner_lip h ts
      have e2 := c_corner_bottom h ts (d.bbC - d.rm - d.cBottom) (by rw [hbc, hcB, Dim.rm]; ring)
      simp only [len_v, len_h]
      rw [c_lip_start] at e1 ⊢
      simp only [len_v]
      rw [abs_of_nonpos (by rw [hcS]; linarith), abs_of_nonpos (by rw [hcS, hbl, Dim.rm]; linarith),
        abs_of_nonpos (by rw [hcB]; linarith), abs_of_nonpos (by rw [hcB]; linarith),
        abs_of_nonpos (by rw [hcB]; linarith)]
      have e3 : d.bLip = d.cbS + d.rm := by rw [hbl, hcS, Dim.rm]; ring
      rw [e3]
      linear_combination e1 + e2
    | z =>
      simp only [lowerPts, if_pos hl, cornerPts, inner, List.tail, List.dropLast, List.cons_append, List.nil_append,
        List.length_cons, List.length_nil, List.replicate, parea]
      have e1 := z_corner_lip h ts
      have e2 := z_corner_bottom h ts (-d.bbC + d.rm + d.cBottom) (by rw [hbc, hcB, Dim.rm]; ring)
      simp only [len_v, len_h]
      rw [z_lip_start] at e1 ⊢
      simp only [len_v]
      rw [abs_of_nonpos (by rw [hcS]; linarith), abs_of_nonpos (by rw [hcS, hbl, Dim.rm]; linarith),
        abs_of_nonneg (by rw [hcB]; linarith), abs_of_nonneg (by rw [hcB]; linarith),
        abs_of_nonneg (by rw [hcB]; linarith)]
      have e3 : d.bLip = d.cbS + d.rm := by rw [hbl, hcS, Dim.rm]; ring
      rw [e3]
      linear_combination e1 + e2
  · have h1 := h.bottom' hb.symm
    have hbl : d.bLip = 0 := by rw [Dim.bLip, if_pos hb.symm]
    have hbc : d.bbC = d.b - 0.5 * d.tnom := by rw [Dim.bbC, if_pos hb.symm]
    have hnb : ¬ 0 < d.cb := by rw [← hb]; exact lt_irrefl 0
    have hcB : d.cBottom = d.b - (d.r + d.tnom) := by rw [Dim.cBottom, if_neg hnb]
    have hcS : d.cbS = 0 := by rw [Dim.cbS, if_neg hnb]
    have hl : ¬ 0 < d.bLip := by rw [hbl]; exact lt_irrefl 0
    rw [if_neg hnb]
    cases k with
    | c =>
      simp only [lowerPts, if_neg hl, cornerPts, inner, List.tail, List.dropLast, List.cons_append, List.nil_append,
        List.length_cons, List.length_nil, List.replicate, parea]
      have e2 := c_corner_bottom h ts (d.bbC - d.cBottom) (by rw [hbc, hcB, Dim.rm]; ring)
      simp only [len_h]
      rw [abs_of_nonpos (by rw [hcB]; linarith), abs_of_nonpos (by rw [hcB]; linarith), hcS]
      linear_combination e2
    | z =>
      simp only [lowerPts, if_neg hl, cornerPts, inner, List.tail, List.dropLast, List.cons_append, List.nil_append,
        List.length_cons, List.length_nil, List.replicate, parea]
      have e2 := z_corner_bottom h ts (-d.bbC + d.cBottom) (by rw [hbc, hcB, Dim.rm]; ring)
      simp only [len_h]
      rw [abs_of_nonneg (by rw [hcB]; linarith), abs_of_nonneg (by rw [hcB]; linarith), hcS]
      linear_combination e2

theorem flat_area (lower : List Pt) (w0 w1 w2 w3 : Pt) (upper : List Pt) (tl : List ℝ) (t0 t1 t2 t3 : ℝ)
    (tu : List ℝ) (hl : tl.length = lower.length) :
    parea (Pts.flat ⟨lower, [w0, w1, w2, w3], upper⟩) (tl ++ [t0, t1, t2, t3] ++ tu) =
      parea (lower ++ [w0]) tl + (t0 * len w0 w1 + t1 * len w1 w2 + t2 * len w2 w3) +
        parea (w3 :: upper) (t3 :: tu) := by
  simp only [Pts.flat, List.append_assoc, List.cons_append, List.nil_append]
  rw [parea_append lower tl w0 _ _ hl]
  simp only [parea]
  ring

/-- Corner from the web to the top flange. -/
theorem corner_top {d : Dim} (h : Formed d) (ts : ℝ) :
    ts * len (0, 0.5 * d.hwC - d.rm) (arc (d.rm, 0.5 * d.hwC - d.rm) d.rm (Real.pi + 1 * ((0.5 * Real.pi - Real.pi) / 4))) +
    ts * len (arc (d.rm, 0.5 * d.hwC - d.rm) d.rm (Real.pi + 1 * ((0.5 * Real.pi - Real.pi) / 4)))
      (arc (d.rm, 0.5 * d.hwC - d.rm) d.rm (Real.pi + 2 * ((0.5 * Real.pi - Real.pi) / 4))) +
    ts * len (arc (d.rm, 0.5 * d.hwC - d.rm) d.rm (Real.pi + 2 * ((0.5 * Real.pi - Real.pi) / 4)))
      (arc (d.rm, 0.5 * d.hwC - d.rm) d.rm (Real.pi + 3 * ((0.5 * Real.pi - Real.pi) / 4))) +
    ts * len (arc (d.rm, 0.5 * d.hwC - d.rm) d.rm (Real.pi + 3 * ((0.5 * Real.pi - Real.pi) / 4)))
      (d.rm, 0.5 * d.hwC) = ts * chords d := by
  obtain ⟨e1, e2, e3, e4⟩ := len_corner (d.rm, 0.5 * d.hwC - d.rm) h.rm_pos.le Real.pi (0.5 * Real.pi)
    (abs_half_pi (Or.inr (by ring)))
  rw [show ((0, 0.5 * d.hwC - d.rm) : Pt) = arc (d.rm, 0.5 * d.hwC - d.rm) d.rm Real.pi by
      rw [arc, Real.cos_pi, Real.sin_pi]; ext <;> simp,
    show ((d.rm, 0.5 * d.hwC) : Pt) = arc (d.rm, 0.5 * d.hwC - d.rm) d.rm (0.5 * Real.pi) by
      rw [arc, cos_05, sin_05]; ext <;> simp, e1, e2, e3, e4, chords]
  ring

/-- Corner from the top flange to its lip. -/
theorem corner_top_lip {d : Dim} (h : Formed d) (ts : ℝ) :
    ts * len (d.btC - d.rm, 0.5 * d.hwC)
      (arc (d.btC - d.rm, 0.5 * d.hwC - d.rm) d.rm (0.5 * Real.pi + 1 * ((0 - 0.5 * Real.pi) / 4))) +
    ts * len (arc (d.btC - d.rm, 0.5 * d.hwC - d.rm) d.rm (0.5 * Real.pi + 1 * ((0 - 0.5 * Real.pi) / 4)))
      (arc (d.btC - d.rm, 0.5 * d.hwC - d.rm) d.rm (0.5 * Real.pi + 2 * ((0 - 0.5 * Real.pi) / 4))) +
    ts * len (arc (d.btC - d.rm, 0.5 * d.hwC - d.rm) d.rm (0.5 * Real.pi + 2 * ((0 - 0.5 * Real.pi) / 4)))
      (arc (d.btC - d.rm, 0.5 * d.hwC - d.rm) d.rm (0.5 * Real.pi + 3 * ((0 - 0.5 * Real.pi) / 4))) +
    ts * len (arc (d.btC - d.rm, 0.5 * d.hwC - d.rm) d.rm (0.5 * Real.pi + 3 * ((0 - 0.5 * Real.pi) / 4)))
      (d.btC, 0.5 * d.hwC - d.rm) = ts * chords d := by
  obtain ⟨e1, e2, e3, e4⟩ := len_corner (d.btC - d.rm, 0.5 * d.hwC - d.rm) h.rm_pos.le (0.5 * Real.pi) 0
    (abs_half_pi (Or.inr (by ring)))
  rw [show ((d.btC, 0.5 * d.hwC - d.rm) : Pt) = arc (d.btC - d.rm, 0.5 * d.hwC - d.rm) d.rm 0 by
      rw [arc, Real.cos_zero, Real.sin_zero]; ext <;> simp,
    show ((d.btC - d.rm, 0.5 * d.hwC) : Pt) = arc (d.btC - d.rm, 0.5 * d.hwC - d.rm) d.rm (0.5 * Real.pi) by
      rw [arc, cos_05, sin_05]; ext <;> simp, e1, e2, e3, e4, chords]
  ring

/-- Upper part with a lip: node 5 at `y5`, node 11 at `z11`, thickness `q` between nodes 4 and 5 and `s` after node 5. -/
noncomputable def upLip (d : Dim) (y5 z11 t q s : ℝ) : ℝ :=
  t * chords d + t * |0.25 * d.btC - d.rm| + q * |y5 - 0.25 * d.btC| +
    s * (|d.btC - d.rm - y5| + chords d + |z11 - (0.5 * d.hwC - d.rm)| + |0.5 * d.hwC - d.tLip - z11|)

theorem upper_lip_area {d : Dim} (h : Formed d) (y5 z11 t q s : ℝ) (l : List Pt)
    (hl : l = inner (cornerPts (d.rm, 0.5 * d.hwC - d.rm) d.rm Real.pi (0.5 * Real.pi)) ++
      ([(d.rm, 0.5 * d.hwC), (0.25 * d.btC, 0.5 * d.hwC), (y5, 0.5 * d.hwC), (d.btC - d.rm, 0.5 * d.hwC)] ++
    inner (cornerPts (d.btC - d.rm, 0.5 * d.hwC - d.rm) d.rm (0.5 * Real.pi) 0) ++
    [(d.btC, 0.5 * d.hwC - d.rm), (d.btC, z11), (d.btC, 0.5 * d.hwC - d.tLip)])) :
    parea ((0, 0.5 * d.hwC - d.rm) :: l) [t, t, t, t, t, q, s, s, s, s, s, s, s] = upLip d y5 z11 t q s := by
  subst hl
  simp only [cornerPts, inner, List.tail, List.dropLast, List.cons_append, List.nil_append, parea, len_v, len_h, upLip]
  have e1 := corner_top h t
  have e2 := corner_top_lip h s
  linear_combination e1 + e2

/-- Upper part without lip: node 4 at `y4`, thickness `q` of the last segment. -/
noncomputable def upFree (d : Dim) (y4 t q : ℝ) : ℝ := t * chords d + t * |y4 - d.rm| + q * |d.btC - y4|

theorem upper_free_area {d : Dim} (h : Formed d) (y4 t q : ℝ) (l : List Pt)
    (hl : l = inner (cornerPts (d.rm, 0.5 * d.hwC - d.rm) d.rm Real.pi (0.5 * Real.pi)) ++
      [(d.rm, 0.5 * d.hwC), (y4, 0.5 * d.hwC), (d.btC, 0.5 * d.hwC)]) :
    parea ((0, 0.5 * d.hwC - d.rm) :: l) [t, t, t, t, t, q] = upFree d y4 t q := by
  subst hl
  simp only [cornerPts, inner, List.tail, List.dropLast, List.cons_append, List.nil_append, parea, len_h, upFree]
  have e1 := corner_top h t
  linear_combination e1

/-- Lower part of a C section with a lip: node 1 at `z1`, node 7 at `y7`. -/
noncomputable def loLip (d : Dim) (y7 z1 t q s : ℝ) : ℝ :=
  s * (|z1 - (-0.5 * d.hwC + d.bLip)| + |-0.5 * d.hwC + d.rm - z1| + chords d + |y7 - (d.bbC - d.rm)|) +
    q * |d.bbC - d.rm - 2 / 3 * d.cBottom - y7| + t * (d.cBottom / 3 + chords d)

theorem lower_lip_area {d : Dim} (h : Formed d) (hb : 0 < d.cb) (y7 z1 t q s : ℝ) (l : List Pt)
    (hl : l = ([(d.bbC, -0.5 * d.hwC + d.bLip), (d.bbC, z1)] ++
      (cornerPts (d.bbC - d.rm, -0.5 * d.hwC + d.rm) d.rm 0 (-0.5 * Real.pi)).dropLast ++
      [(d.bbC - d.rm, -0.5 * d.hwC), (y7, -0.5 * d.hwC), (d.bbC - d.rm - 2 / 3 * d.cBottom, -0.5 * d.hwC),
       (d.bbC - d.rm - d.cBottom, -0.5 * d.hwC)]) ++
      inner (cornerPts (d.rm, -0.5 * d.hwC + d.rm) d.rm (1.5 * Real.pi) Real.pi)) :
    parea (l ++ [(0, -0.5 * d.hwC + d.rm)]) [s, s, s, s, s, s, s, q, t, t, t, t, t] = loLip d y7 z1 t q s := by
  subst hl
  obtain ⟨h1, h2⟩ := h.bottom hb
  have hbc : d.bbC = d.b - d.tnom := by rw [Dim.bbC, if_neg hb.ne']
  have hcB : d.cBottom = d.b - 2 * (d.r + d.tnom) := by rw [Dim.cBottom, if_pos hb]
  simp only [cornerPts, inner, List.tail, List.dropLast, List.cons_append, List.nil_append, parea, loLip]
  have e1 := c_corner_lip h s
  have e2 := c_corner_bottom h t (d.bbC - d.rm - d.cBottom) (by rw [hbc, hcB, Dim.rm]; ring)
  simp only [len_v, len_h]
  rw [c_lip_start] at e1 ⊢
  simp only [len_v]
  rw [abs_of_nonpos (show d.bbC - d.rm - d.cBottom - (d.bbC - d.rm - 2 / 3 * d.cBottom) ≤ 0 by rw [hcB]; linarith)]
  linear_combination e1 + e2

/-- Lower part of a C section without lip: node 1 at `y1`. -/
noncomputable def loFree (d : Dim) (y1 t : ℝ) : ℝ := t * (|y1 - d.bbC| + |d.bbC - d.cBottom - y1| + chords d)

theorem lower_free_area {d : Dim} (h : Formed d) (hb : d.cb = 0) (y1 t : ℝ) (l : List Pt)
    (hl : l = [(d.bbC, -0.5 * d.hwC), (y1, -0.5 * d.hwC), (d.bbC - d.cBottom, -0.5 * d.hwC)] ++
      inner (cornerPts (d.rm, -0.5 * d.hwC + d.rm) d.rm (1.5 * Real.pi) Real.pi)) :
    parea (l ++ [(0, -0.5 * d.hwC + d.rm)]) [t, t, t, t, t, t] = loFree d y1 t := by
  subst hl
  have hbc : d.bbC = d.b - 0.5 * d.tnom := by rw [Dim.bbC, if_pos hb]
  have hcB : d.cBottom = d.b - (d.r + d.tnom) := by rw [Dim.cBottom, if_neg (by rw [hb]; exact lt_irrefl 0)]
  simp only [cornerPts, inner, List.tail, List.dropLast, List.cons_append, List.nil_append, parea, loFree]
  have e2 := c_corner_bottom h t (d.bbC - d.cBottom) (by rw [hbc, hcB, Dim.rm]; ring)
  simp only [len_h]
  linear_combination e2

/-! ### Effective C section in closed form -/

open Classical in
/-- Contribution of the top flange. -/
noncomputable def topPart (d : Dim) (f : Factors) : ℝ :=
  if 0 < d.ca then
    upLip d (d.bpT + d.gr - 0.5 * d.bpT * f.rhoT)
      (if f.rhoTLip < 1 then 0.5 * d.hwC - d.tLip + (1 - f.rhoTLip) * d.bpTLip else 0.5 * d.hwC - 0.5 * d.tLip)
      d.t (if f.rhoT < 1 then 0 else d.t) (d.t * f.chiT)
  else if f.rhoT < 1 then upFree d (f.rhoT * d.bpT + d.gr) d.t 0
  else upFree d (0.5 * d.btC) d.t d.t

open Classical in
/-- Contribution of the bottom flange. -/
noncomputable def bottomPart (d : Dim) (f : Factors) : ℝ :=
  if 0 < d.cb then
    loLip d (d.bpB + d.gr - 0.5 * d.bpB * f.rhoB)
      (if f.rhoBLip < 1 then -0.5 * d.hwC + d.bLip + (1 - f.rhoBLip) * d.bpBLip
        else -0.5 * d.hwC + d.bLip - 0.5 * d.cbS)
      d.t (if f.rhoB < 1 then 0 else d.t) (d.t * f.chiB)
  else if f.rhoB < 1 then loFree d (f.rhoB * d.bpB + d.gr) d.t
  else loFree d (d.bbC - 0.5 * d.cBottom) d.t

open Classical in
/-- Contribution of the web. -/
noncomputable def webPart (d : Dim) (f : Factors) : ℝ :=
  if f.rhoW < 1 then
    let z2 := 0.5 * d.hwC - d.rm + d.rm * Real.sin (45 * Real.pi / 180) - (webParts d f).2
    let z1 := z2 - ((webParts d f).1 - f.rhoW * (webParts d f).1)
    d.t * (|z1 - (-0.5 * d.hwC + d.rm)| + |0.5 * d.hwC - d.rm - z2|)
  else d.t * d.hw

theorem hwC_hw (d : Dim) : d.hwC = d.hw + 2 * d.rm := by rw [Dim.hwC, Dim.hw, Dim.rm]; ring

section Projections
open Classical
variable (d : Dim) (f : Factors) (p : Pts)

theorem eff_upper : (cEffective d f p).pts.upper =
    if 0 < d.ca then p.upper else if f.rhoT < 1 then setY p.upper 4 (f.rhoT * d.bpT + d.gr) else p.upper := by
  unfold cEffective cEffBottom cEffTop cEffWeb copyC
  split_ifs <;> rfl

theorem eff_tu : (cEffective d f p).tu =
    let tu := List.replicate (p.upper.length - 1) d.t
    if 0 < d.ca then
      if f.rhoT < 1 then (tu.take 5 ++ (tu.drop 5).map (· * f.chiT)).set 4 0
      else tu.take 5 ++ (tu.drop 5).map (· * f.chiT)
    else if f.rhoT < 1 then tu.set 4 0 else tu := by
  unfold cEffective cEffBottom cEffTop cEffWeb copyC
  split_ifs <;> rfl

theorem eff_lower : (cEffective d f p).pts.lower =
    if 0 < d.cb then p.lower else if f.rhoB < 1 then setY p.lower 1 (f.rhoB * d.bpB + d.gr) else p.lower := by
  unfold cEffective cEffBottom cEffTop cEffWeb copyC
  split_ifs <;> rfl

theorem eff_tl : (cEffective d f p).tl =
    let tl := List.replicate p.lower.length d.t
    if 0 < d.cb then
      if f.rhoB < 1 then ((tl.take 7).map (· * f.chiB) ++ tl.drop 7).set 7 0
      else (tl.take 7).map (· * f.chiB) ++ tl.drop 7
    else tl := by
  unfold cEffective cEffBottom cEffTop cEffWeb copyC
  split_ifs <;> rfl

theorem eff_web : (cEffective d f p).pts.web =
    if f.rhoW < 1 then
      let w := setZ p.web 2 (getZ p.web 3 + d.rm * Real.sin (45 * Real.pi / 180) - (webParts d f).2)
      setZ w 1 (getZ w 2 - ((webParts d f).1 - f.rhoW * (webParts d f).1))
    else p.web := by
  unfold cEffective cEffBottom cEffTop cEffWeb copyC
  split_ifs <;> rfl

theorem eff_tw : (cEffective d f p).tw =
    if f.rhoW < 1 then (List.replicate p.web.length d.t).set 1 0 else List.replicate p.web.length d.t := by
  unfold cEffective cEffBottom cEffTop cEffWeb copyC
  split_ifs <;> rfl

theorem compress_web : (cCompress d f p).web = p.web := by
  unfold cCompress cStiffTop cStiffBottom
  split_ifs <;> rfl

theorem compress_upper : (cCompress d f p).upper =
    if 0 < d.ca then
      let u := setY p.upper 5 (d.bpT + d.gr - 0.5 * d.bpT * f.rhoT)
      if f.rhoTLip < 1 then setZ u 11 (getZ u 12 + (1 - f.rhoTLip) * d.bpTLip) else u
    else p.upper := by
  unfold cCompress cStiffTop cStiffBottom
  split_ifs <;> rfl

theorem compress_lower : (cCompress d f p).lower =
    if 0 < d.cb then
      let l := setY p.lower 7 (d.bpB + d.gr - 0.5 * d.bpB * f.rhoB)
      if f.rhoBLip < 1 then setZ l 1 (getZ l 0 + (1 - f.rhoBLip) * d.bpBLip) else l
    else p.lower := by
  unfold cCompress cStiffTop cStiffBottom
  split_ifs <;> rfl

end Projections

theorem top_closed {d : Dim} (h : Formed d) (f : Factors) :
    parea ((0, 0.5 * d.hwC - d.rm) :: (cEffective d f (cCompress d f (points .c d))).pts.upper)
      (d.t :: (cEffective d f (cCompress d f (points .c d))).tu) = topPart d f ∧
    (cEffective d f (cCompress d f (points .c d))).pts.upper.length =
      (cEffective d f (cCompress d f (points .c d))).tu.length + 1 := by
  rw [eff_upper, eff_tu, compress_upper, topPart]
  rcases h.ca.lt_or_eq with hb | hb
  · have hl := h.tLip_pos hb
    simp only [if_pos hb]
    have hpts : (points .c d).upper = upperPts d := rfl
    rw [hpts, upperPts]
    simp only [if_pos hl]
    by_cases h1 : f.rhoTLip < 1 <;> by_cases h2 : f.rhoT < 1
    · simp only [if_pos h1, if_pos h2]
      exact ⟨upper_lip_area h _ _ _ _ _ _ rfl, rfl⟩
    · simp only [if_pos h1, if_neg h2]
      exact ⟨upper_lip_area h _ _ _ _ _ _ rfl, rfl⟩
    · simp only [if_neg h1, if_pos h2]
      exact ⟨upper_lip_area h _ _ _ _ _ _ rfl, rfl⟩
    · simp only [if_neg h1, if_neg h2]
      exact ⟨upper_lip_area h _ _ _ _ _ _ rfl, rfl⟩
  · have hnb : ¬ 0 < d.ca := by rw [← hb]; exact lt_irrefl 0
    have hl : ¬ 0 < d.tLip := by rw [Dim.tLip, if_pos hb.symm]; exact lt_irrefl 0
    simp only [if_neg hnb]
    have hpts : (points .c d).upper = upperPts d := rfl
    rw [hpts, upperPts]
    simp only [if_neg hl]
    by_cases h2 : f.rhoT < 1
    · simp only [if_pos h2]
      exact ⟨upper_free_area h _ _ _ _ rfl, rfl⟩
    · simp only [if_neg h2]
      exact ⟨upper_free_area h _ _ _ _ rfl, rfl⟩

theorem bottom_closed {d : Dim} (h : Formed d) (f : Factors) :
    parea ((cEffective d f (cCompress d f (points .c d))).pts.lower ++ [(0, -0.5 * d.hwC + d.rm)])
      (cEffective d f (cCompress d f (points .c d))).tl = bottomPart d f ∧
    (cEffective d f (cCompress d f (points .c d))).tl.length =
      (cEffective d f (cCompress d f (points .c d))).pts.lower.length := by
  rw [eff_lower, eff_tl, compress_lower, bottomPart]
  have hpts : (points .c d).lower = lowerPts .c d := rfl
  rcases h.cb.lt_or_eq with hb | hb
  · have hl := h.bLip_pos hb
    simp only [if_pos hb]
    rw [hpts, lowerPts]
    simp only [if_pos hl]
    by_cases h1 : f.rhoBLip < 1 <;> by_cases h2 : f.rhoB < 1
    · simp only [if_pos h1, if_pos h2]
      exact ⟨lower_lip_area h hb _ _ _ _ _ _ rfl, rfl⟩
    · simp only [if_pos h1, if_neg h2]
      exact ⟨lower_lip_area h hb _ _ _ _ _ _ rfl, rfl⟩
    · simp only [if_neg h1, if_pos h2]
      exact ⟨lower_lip_area h hb _ _ _ _ _ _ rfl, rfl⟩
    · simp only [if_neg h1, if_neg h2]
      exact ⟨lower_lip_area h hb _ _ _ _ _ _ rfl, rfl⟩
  · have hnb : ¬ 0 < d.cb := by rw [← hb]; exact lt_irrefl 0
    have hl : ¬ 0 < d.bLip := by rw [Dim.bLip, if_pos hb.symm]; exact lt_irrefl 0
    simp only [if_neg hnb]
    rw [hpts, lowerPts]
    simp only [if_neg hl]
    by_cases h2 : f.rhoB < 1
    · simp only [if_pos h2]
      exact ⟨lower_free_area h hb.symm _ _ _ rfl, rfl⟩
    · simp only [if_neg h2]
      exact ⟨lower_free_area h hb.symm _ _ _ rfl, rfl⟩

theorem web_closed {d : Dim} (h : Formed d) (f : Factors) : ∃ w1 w2 t1,
    (cEffective d f (cCompress d f (points .c d))).pts.web =
      [(0, -0.5 * d.hwC + d.rm), w1, w2, (0, 0.5 * d.hwC - d.rm)] ∧
    (cEffective d f (cCompress d f (points .c d))).tw = [d.t, t1, d.t, d.t] ∧
    d.t * len (0, -0.5 * d.hwC + d.rm) w1 + t1 * len w1 w2 + d.t * len w2 (0, 0.5 * d.hwC - d.rm) = webPart d f := by
  have hw0 : 0 ≤ d.hw := h.web
  have hh := hwC_hw d
  have hpts : (points .c d).web = webPts d := rfl
  rw [eff_web, eff_tw, compress_web, webPart, hpts]
  by_cases h1 : f.rhoW < 1
  · simp only [if_pos h1]
    refine ⟨_, _, _, rfl, rfl, ?_⟩
    simp only [len_v, getZ, setZ, webPts]
    simp
    ring
  · simp only [if_neg h1]
    refine ⟨_, _, _, rfl, rfl, ?_⟩
    simp only [len_v]
    rw [abs_of_nonneg (by linarith), abs_of_nonneg (by linarith), abs_of_nonneg (by linarith)]
    linear_combination d.t * hh

theorem cEff_area {d : Dim} (h : Formed d) (f : Factors) :
    ∃ e, (cEffective d f (cCompress d f (points .c d))).prof = .ok e ∧
      e.area = bottomPart d f + webPart d f + topPart d f := by
  obtain ⟨hu, hul⟩ := top_closed h f
  obtain ⟨hb, hbl⟩ := bottom_closed h f
  obtain ⟨w1, w2, t1, hw, htw, hwa⟩ := web_closed h f
  set E := cEffective d f (cCompress d f (points .c d)) with hE
  obtain ⟨e, he, ha⟩ := newProf_seq_area E.pts.flat (E.tl ++ E.tw ++ E.tu) (by
    simp only [Pts.flat, List.length_append, hw, htw, hbl, hul, List.length_cons, List.length_nil]
    omega)
  refine ⟨e, he, ?_⟩
  rw [ha, show E.pts = ⟨E.pts.lower, [(0, -0.5 * d.hwC + d.rm), w1, w2, (0, 0.5 * d.hwC - d.rm)], E.pts.upper⟩ by
    rw [← hw], htw, flat_area _ _ _ _ _ _ _ _ _ _ _ _ hbl, hb, hwa, hu]

theorem gross_area_closed {d : Dim} (h : Formed d) (k : Kind) :
    ∃ g, grossProf d (points k d) = .ok g ∧
      g.area = d.t * (d.cbS + d.cBottom + chords d + (if 0 < d.cb then chords d else 0)) + d.t * d.hw +
        (if 0 < d.ca then upLip d (0.75 * d.btC) (0.5 * d.hwC - 0.5 * d.tLip) d.t d.t d.t
          else upFree d (0.5 * d.btC) d.t d.t) := by
  have hw0 : 0 ≤ d.hw := h.web
  have hh := hwC_hw d
  obtain ⟨g, hg, ha⟩ := newProf_float_area (points k d).flat d.t
  refine ⟨g, hg, ?_⟩
  have hlen : ∃ n, (upperPts d).length = n + 1 := by
    unfold upperPts; simp [inner, cornerPts]
  obtain ⟨n, hn⟩ := hlen
  have hrep : List.replicate ((points k d).flat.length - 1) d.t =
      List.replicate (lowerPts k d).length d.t ++ [d.t, d.t, d.t, d.t] ++ List.replicate n d.t := by
    rw [show [d.t, d.t, d.t, d.t] = List.replicate 4 d.t from rfl, List.replicate_append_replicate,
      List.replicate_append_replicate]
    congr 1
    simp only [Pts.flat, points, List.length_append, webPts, List.length_cons, List.length_nil, hn]
    omega
  rw [ha, hrep, show points k d = ⟨lowerPts k d, [(0, -0.5 * d.hwC + d.rm), (0, -0.5 * d.hwC + d.rm + 0.25 * d.hw),
    (0, -0.5 * d.hwC + d.rm + 0.75 * d.hw), (0, 0.5 * d.hwC - d.rm)], upperPts d⟩ from rfl,
    flat_area _ _ _ _ _ _ _ _ _ _ _ _ (by rw [List.length_replicate]), lower_area k h]
  congr 1
  · congr 1
    simp only [len_v]
    rw [abs_of_nonneg (by linarith), abs_of_nonneg (by linarith), abs_of_nonneg (by linarith)]
    linear_combination d.t * hh
  · rcases h.ca.lt_or_eq with hb | hb
    · have hl := h.tLip_pos hb
      have hn' : n = 12 := by
        rw [upperPts] at hn
        simp only [if_pos hl] at hn
        simp [inner, cornerPts] at hn
        omega
      rw [if_pos hb, hn', ← upper_lip_area h _ _ _ _ _ (upperPts d) (by rw [upperPts]; simp only [if_pos hl])]
      rfl
    · have hnb : ¬ 0 < d.ca := by rw [← hb]; exact lt_irrefl 0
      have hl : ¬ 0 < d.tLip := by rw [Dim.tLip, if_pos hb.symm]; exact lt_irrefl 0
      have hn' : n = 5 := by
        rw [upperPts] at hn
        simp only [if_neg hl] at hn
        simp [inner, cornerPts] at hn
        omega
      rw [if_neg hnb, hn', ← upper_free_area h _ _ _ (upperPts d) (by rw [upperPts]; simp only [if_neg hl])]
      rfl

/-! ### Specification -/

/-- Length of the straight parts from the outer dimensions: each corner takes the outer radius `r + tnom` off each of
    the two parts it joins. -/
noncomputable def straights (d : Dim) : ℝ :=
  (if 0 < d.cb then d.cb - (d.r + d.tnom) + (d.b - 2 * (d.r + d.tnom)) else d.b - (d.r + d.tnom)) +
  (d.h - 2 * (d.r + d.tnom)) +
  (if 0 < d.ca then d.ca - (d.r + d.tnom) + (d.a - 2 * (d.r + d.tnom)) else d.a - (d.r + d.tnom))

/-- Number of corners. -/
noncomputable def corners (d : Dim) : ℝ := 2 + (if 0 < d.ca then 1 else 0) + (if 0 < d.cb then 1 else 0)

/-- Top flange and lip wide enough for the additional nodes: the flange is at least four mean radii wide and the lip
    two, both measured to the centre lines; without lip the flange two. -/
structure Wide (d : Dim) : Prop where
  lip : 0 < d.ca → 4 * (d.r + d.tnom / 2) ≤ d.a - d.tnom ∧ 2 * (d.r + d.tnom / 2) ≤ d.ca - d.tnom / 2
  free : d.ca = 0 → 2 * (d.r + d.tnom / 2) ≤ d.a - d.tnom / 2

theorem cB_eq (d : Dim) : d.cbS + d.cBottom =
    if 0 < d.cb then d.cb - (d.r + d.tnom) + (d.b - 2 * (d.r + d.tnom)) else d.b - (d.r + d.tnom) := by
  by_cases h : 0 < d.cb
  · rw [Dim.cbS, Dim.cBottom, if_pos h, if_pos h, if_pos h]; ring
  · rw [Dim.cbS, Dim.cBottom, if_neg h, if_neg h, if_neg h]; ring

theorem cT_eq (d : Dim) : d.caS + d.cTop =
    if 0 < d.ca then d.ca - (d.r + d.tnom) + (d.a - 2 * (d.r + d.tnom)) else d.a - (d.r + d.tnom) := by
  by_cases h : 0 < d.ca
  · rw [Dim.caS, Dim.cTop, if_pos h, if_pos h, if_pos h]; ring
  · rw [Dim.caS, Dim.cTop, if_neg h, if_neg h, if_neg h]; ring

theorem upper_wide {d : Dim} (h : Formed d) (hw : Wide d) (t : ℝ) :
    (if 0 < d.ca then upLip d (0.75 * d.btC) (0.5 * d.hwC - 0.5 * d.tLip) t t t
      else upFree d (0.5 * d.btC) t t) =
    t * (d.caS + d.cTop + chords d + (if 0 < d.ca then chords d else 0)) := by
  have ht := h.tnom; have hr := h.r; have hrm := h.rm_pos
  rw [cT_eq]
  rcases h.ca.lt_or_eq with hb | hb
  · obtain ⟨h1, h2⟩ := h.top hb
    obtain ⟨w1, w2⟩ := hw.lip hb
    have hbc : d.btC = d.a - d.tnom := by rw [Dim.btC, if_neg hb.ne']
    have hbl : d.tLip = d.ca - 0.5 * d.tnom := by rw [Dim.tLip, if_neg hb.ne']
    simp only [if_pos hb, upLip]
    have e : d.rm = d.r + d.tnom / 2 := by rw [Dim.rm]; ring
    rw [abs_of_nonneg (by rw [hbc, e]; linarith), abs_of_nonneg (by rw [hbc]; linarith),
      abs_of_nonneg (by rw [hbc, e]; linarith), abs_of_nonpos (by rw [hbl, e]; linarith),
      abs_of_nonpos (by rw [hbl]; linarith), hbc, hbl, e]
    ring
  · have hnb : ¬ 0 < d.ca := by rw [← hb]; exact lt_irrefl 0
    have h1 := h.top' hb.symm
    have w1 := hw.free hb.symm
    have hbc : d.btC = d.a - 0.5 * d.tnom := by rw [Dim.btC, if_pos hb.symm]
    have e : d.rm = d.r + d.tnom / 2 := by rw [Dim.rm]; ring
    simp only [if_neg hnb, upFree]
    rw [abs_of_nonneg (by rw [hbc, e]; linarith), abs_of_nonneg (by rw [hbc]; linarith), hbc, e]
    ring

/-- C300: the gross area is the thickness times the polygon of the mid-line: straight parts and four chords for every
    corner, for a C and a Z section alike. -/
theorem gross_area_polygon {d : Dim} (h : Formed d) (hw : Wide d) (k : Kind) :
    areaGross d (points k d) false =
      .ok ((d.tnom - d.tcoat) * (straights d + corners d * (8 * (d.r + d.tnom / 2) * Real.sin (Real.pi / 16)))) := by
  obtain ⟨g, hg, ha⟩ := gross_area_closed h k
  rw [upper_wide h hw] at ha
  simp only [areaGross, hg, bind, Except.bind, pure, Except.pure]
  rw [if_neg (by simp), ha]
  congr 1
  rw [cB_eq, cT_eq]
  have e : d.rm = d.r + d.tnom / 2 := by rw [Dim.rm]; ring
  have e2 : d.t = d.tnom - d.tcoat := rfl
  have e3 : d.hw = d.h - 2 * (d.r + d.tnom) := rfl
  rw [straights, corners, chords, e, e2, e3]
  split_ifs <;> ring

theorem sin16_bounds : 0.99 * (Real.pi / 2) < 8 * Real.sin (Real.pi / 16) ∧ 8 * Real.sin (Real.pi / 16) < Real.pi / 2 := by
  have hp := Real.pi_pos
  have h3 := Real.pi_lt_d2
  constructor
  · have := Real.sin_gt_sub_cube (x := Real.pi / 16) (by positivity)
    have h2 : Real.pi ^ 2 < 9.95 := by nlinarith
    have h4 : Real.pi ^ 3 < 9.95 * Real.pi := by nlinarith
    have : 8 * (Real.pi / 16 - (Real.pi / 16) ^ 3 / 6) < 8 * Real.sin (Real.pi / 16) := by linarith
    have h5 : (Real.pi / 16) ^ 3 = Real.pi ^ 3 / 4096 := by ring
    rw [h5] at this
    linarith
  · have := Real.sin_lt (x := Real.pi / 16) (by positivity)
    linarith

theorem Agross_eq (d : Dim) : d.Agross =
    (d.tnom - d.tcoat) * (straights d + corners d * (Real.pi / 2 * (d.r + d.tnom / 2))) := by
  have e : d.rm = d.r + d.tnom / 2 := by rw [Dim.rm]; ring
  have e3 : d.hw = d.h - 2 * (d.r + d.tnom) := rfl
  have h1 := cB_eq d
  have h2 := cT_eq d
  simp only [Dim.Agross, Dim.centerLine, Dim.t, corners, straights, ← h1, ← h2, e, e3]
  ring

theorem corners_pos (d : Dim) : 2 ≤ corners d := by
  unfold corners; split_ifs <;> norm_num

theorem straights_nonneg {d : Dim} (h : Formed d) : 0 ≤ straights d := by
  have hb := h.bottom; have ht := h.top; have hb' := h.bottom'; have ht' := h.top'; have hw := h.web
  unfold straights
  by_cases h1 : 0 < d.ca <;> by_cases h2 : 0 < d.cb
  · rw [if_pos h1, if_pos h2]; linarith [(ht h1).1, (ht h1).2, (hb h2).1, (hb h2).2]
  · rw [if_pos h1, if_neg h2]; linarith [(ht h1).1, (ht h1).2, hb' (le_antisymm (not_lt.1 h2) h.cb)]
  · rw [if_neg h1, if_pos h2]; linarith [ht' (le_antisymm (not_lt.1 h1) h.ca), (hb h2).1, (hb h2).2]
  · rw [if_neg h1, if_neg h2]
    linarith [ht' (le_antisymm (not_lt.1 h1) h.ca), hb' (le_antisymm (not_lt.1 h2) h.cb)]

/-- C300: the two areas the API reports, `Agross()` with true arcs and `A` of the calculation model, differ by less than
    one per cent, and the model never has more area. -/
theorem gross_area_near {d : Dim} (h : Formed d) (hw : Wide d) (k : Kind) :
    ∃ A, areaGross d (points k d) false = .ok A ∧ 0.99 * d.Agross < A ∧ A < d.Agross ∧
      d.Agross = (d.tnom - d.tcoat) * (straights d + corners d * (Real.pi / 2 * (d.r + d.tnom / 2))) := by
  refine ⟨_, gross_area_polygon h hw k, ?_, ?_, Agross_eq d⟩
  · rw [Agross_eq]
    have hc := corners_pos d
    have hr : 0 < d.r + d.tnom / 2 := by have := h.tnom; have := h.r; linarith
    have hs := straights_nonneg h
    have h0 : 0 < corners d * (d.r + d.tnom / 2) := by positivity
    have h1 := mul_lt_mul_of_pos_left sin16_bounds.1 h0
    have : 0.99 * (straights d + corners d * (Real.pi / 2 * (d.r + d.tnom / 2))) <
        straights d + corners d * (8 * (d.r + d.tnom / 2) * Real.sin (Real.pi / 16)) := by nlinarith
    have := mul_lt_mul_of_pos_left this h.t
    linarith
  · rw [Agross_eq]
    have hc := corners_pos d
    have hr : 0 < d.r + d.tnom / 2 := by have := h.tnom; have := h.r; linarith
    have h0 : 0 < corners d * (d.r + d.tnom / 2) := by positivity
    have h1 := mul_lt_mul_of_pos_left sin16_bounds.2 h0
    refine mul_lt_mul_of_pos_left ?_ h.t
    nlinarith

/-- A lipped section of the default size. -/
noncomputable def dimA : Dim := ⟨2, 0.04, 120, 60, 60, 20, 20, 2, true⟩

theorem dimA_formed : Formed dimA := by
  constructor <;> norm_num [dimA]

theorem dimA_wide : Wide dimA := by
  constructor <;> norm_num [dimA]

example : Formed dimA ∧ Wide dimA := ⟨dimA_formed, dimA_wide⟩

/-- C300: with a narrow top flange (less than 3.93 mean radii between the centre lines) the polygon runs back and forth
    and the area reported by `A` is larger than the true one. -/
theorem gross_area_narrow_viol {d : Dim} (h : Formed d) (ha : 0 < d.ca)
    (hn : d.a - d.tnom < 3.93 * (d.r + d.tnom / 2)) (k : Kind) :
    ∃ A, areaGross d (points k d) false = .ok A ∧ d.Agross < A := by
  obtain ⟨g, hg, hga⟩ := gross_area_closed h k
  have hgg : areaGross d (points k d) false = .ok (g.area * (1 - 0)) := by
    simp only [areaGross, hg, bind, Except.bind, pure, Except.pure]
    rw [if_neg (by simp)]
  refine ⟨_, hgg, ?_⟩
  rw [hga, Agross_eq]
  have ht := h.tnom; have hr := h.r; have hrm := h.rm_pos
  obtain ⟨h1, h2⟩ := h.top ha
  have hbc : d.btC = d.a - d.tnom := by rw [Dim.btC, if_neg ha.ne']
  have hbl : d.tLip = d.ca - 0.5 * d.tnom := by rw [Dim.tLip, if_neg ha.ne']
  have e : d.rm = d.r + d.tnom / 2 := by rw [Dim.rm]; ring
  have e3 : d.hw = d.h - 2 * (d.r + d.tnom) := rfl
  have e2 : d.t = d.tnom - d.tcoat := rfl
  simp only [if_pos ha, upLip]
  rw [abs_of_nonpos (show 0.25 * d.btC - d.rm ≤ 0 by rw [hbc, e]; linarith),
    abs_of_nonneg (show 0 ≤ 0.75 * d.btC - 0.25 * d.btC by rw [hbc]; linarith),
    abs_of_nonpos (show d.btC - d.rm - 0.75 * d.btC ≤ 0 by rw [hbc, e]; linarith)]
  have a1 := abs_add_le (0.5 * d.hwC - 0.5 * d.tLip - (0.5 * d.hwC - d.rm))
    (0.5 * d.hwC - d.tLip - (0.5 * d.hwC - 0.5 * d.tLip))
  have a2 : |0.5 * d.hwC - 0.5 * d.tLip - (0.5 * d.hwC - d.rm) + (0.5 * d.hwC - d.tLip - (0.5 * d.hwC - 0.5 * d.tLip))|
      = d.ca - (d.r + d.tnom) := by
    rw [abs_of_nonpos (by rw [hbl, e]; linarith), hbl, e]; ring
  rw [a2] at a1
  set X := |0.5 * d.hwC - 0.5 * d.tLip - (0.5 * d.hwC - d.rm)|
  set Y := |0.5 * d.hwC - d.tLip - (0.5 * d.hwC - 0.5 * d.tLip)|
  have hs := sin16_bounds.1
  have hpi := Real.pi_lt_d2
  have hT : 0 < d.t := h.t
  rw [cB_eq, hbc, straights, corners, chords, if_pos ha, if_pos ha, e, e3, ← e2]
  set S := Real.sin (Real.pi / 16)
  set B := (if 0 < d.cb then d.cb - (d.r + d.tnom) + (d.b - 2 * (d.r + d.tnom)) else d.b - (d.r + d.tnom))
  set R := d.r + d.tnom / 2 with hR
  have hRp : 0 < R := by linarith
  -- corners are short of the arcs by at most 1 per cent of their length
  have hS : (Real.pi / 2 - 8 * S) * R ≤ 0.016 * R := by
    refine mul_le_mul_of_nonneg_right ?_ hRp.le
    linarith
  have hr2 : d.r = R - d.tnom / 2 := by rw [hR]; ring
  by_cases hc : 0 < d.cb
  · simp only [if_pos hc]
    have : (d.a - d.tnom) - 2 * R + 4 * (Real.pi / 2 - 8 * S) * R < 2 * R := by nlinarith
    rw [hr2] at a1 ⊢
    nlinarith
  · simp only [if_neg hc]
    have : (d.a - d.tnom) - 2 * R + 3 * (Real.pi / 2 - 8 * S) * R < 2 * R := by nlinarith
    rw [hr2] at a1 ⊢
    nlinarith

example : Formed ⟨2, 0.04, 60, 13, 30, 9, 9, 4, true⟩ ∧ (13 : ℝ) - 2 < 3.93 * (4 + 2 / 2) := by
  refine ⟨?_, by norm_num⟩
  constructor <;> norm_num

end Metku.CF
