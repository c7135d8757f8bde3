import Verif.Model.TrussJoint
import Verif.Props.RhsJoint

/-!
C228-C231: geometry and design of the joints of roof trusses.
-/
namespace Metku.Truss

open Metku.Steel Metku.Rhs Real

noncomputable section

/-! ### C228: geometry -/

def sub (a b : Pt) : Pt := (a.1 - b.1, a.2 - b.2)

/-- A point of the face of the chord, on the side of the braces: half the height of the chord below its axis, seen from the side to which eccentricities are counted. -/
def OnFace (j : KPoint) (h0 : ℝ) (X : Pt) : Prop := dot (sub X j.node) j.p = -(h0 / 2)

/-- A point of an edge of a brace of height `h` whose axis runs from `x` to `q`: half the height away from the axis, on the side to which `w` points. -/
def OnEdge (x q w : Pt) (h : ℝ) (X : Pt) : Prop :=
  ∃ d n : Pt, ∃ t s : ℝ, dot d d = 1 ∧ dot n n = 1 ∧ dot d n = 0 ∧ 0 < t ∧ q = shift x t d ∧ 0 < dot n w ∧ X = shift (shift x s d) (h / 2) n

theorem perp_unit {top : Bool} {u : Pt} (hu : dot u u = 1) : dot (perp top u) (perp top u) = 1 ∧ dot u (perp top u) = 0 := by
  unfold perp dot at *
  cases top <;> simp <;> constructor <;> linarith

/-- Scalar products by components along a unit vector and its perpendicular. -/
theorem dot_local {top : Bool} {u : Pt} (hu : dot u u = 1) (a b : Pt) : dot a b = dot a u * dot b u + dot a (perp top u) * dot b (perp top u) := by
  unfold perp dot at *
  cases top
  · simp
    linear_combination (-(a.1 * b.1) - a.2 * b.2) * hu
  · simp
    linear_combination (-(a.1 * b.1) - a.2 * b.2) * hu

theorem dot_shift (x v w : Pt) (s : ℝ) (y : Pt) : dot (sub (shift x s v) y) w = dot (sub x y) w + s * dot v w := by
  unfold dot sub shift
  simp only
  ring

theorem braceAngle_spec {vc vb : Pt} (h1 : -1 ≤ dot vc vb) (h2 : dot vc vb ≤ 1) :
    cos (rad (braceAngle vc vb)) = |dot vc vb| ∧ sin (rad (braceAngle vc vb)) = √(1 - dot vc vb ^ 2) := by
  have hpi := pi_pos
  have e : arccos (dot vc vb) * 180 / π * π / 180 = arccos (dot vc vb) := by field_simp
  unfold braceAngle rad
  dsimp only
  split
  · rename_i h
    have h' : π / 2 < arccos (dot vc vb) := by
      rw [gt_iff_lt, lt_div_iff₀ hpi] at h
      linarith
    have hneg : dot vc vb < 0 := by
      by_contra hc
      have := arccos_le_pi_div_two.2 (not_lt.1 hc)
      linarith
    have e' : (180 - arccos (dot vc vb) * 180 / π) * π / 180 = π - arccos (dot vc vb) := by field_simp
    rw [e', cos_pi_sub, sin_pi_sub, cos_arccos h1 h2, sin_arccos, abs_of_neg hneg]
    exact ⟨rfl, rfl⟩
  · rename_i h
    have h' : arccos (dot vc vb) ≤ π / 2 := by
      rw [gt_iff_lt, not_lt, div_le_iff₀ hpi] at h
      linarith
    have hnn : 0 ≤ dot vc vb := by
      rw [← cos_arccos h1 h2]
      exact cos_nonneg_of_mem_Icc ⟨by linarith [arccos_nonneg (dot vc vb)], h'⟩
    rw [e, cos_arccos h1 h2, sin_arccos, abs_of_nonneg hnn]
    exact ⟨rfl, rfl⟩

theorem norm2_shift {x d : Pt} {t : ℝ} (hd : dot d d = 1) (ht : 0 < t) :
    norm2 (x.1 - (shift x t d).1, x.2 - (shift x t d).2) = t ∧ norm2 ((shift x t d).1 - x.1, (shift x t d).2 - x.2) = t := by
  unfold norm2 shift dot at *
  constructor
  · rw [show (x.1 - (x.1 + t * d.1)) ^ 2 + (x.2 - (x.2 + t * d.2)) ^ 2 = t ^ 2 by linear_combination t ^ 2 * hd, sqrt_sq ht.le]
  · rw [show (x.1 + t * d.1 - x.1) ^ 2 + (x.2 + t * d.2 - x.2) ^ 2 = t ^ 2 by linear_combination t ^ 2 * hd, sqrt_sq ht.le]

/-- The angle of a brace with the unit direction `d`. -/
theorem angle_spec {j : KPoint} (hu : dot j.u j.u = 1) {q d : Pt} {t : ℝ} (hd : dot d d = 1) (ht : 0 < t) (hq : q = shift j.xp t d) (hp : dot d j.p < 0) :
    cos (rad (j.angle q)) = |dot d j.u| ∧ sin (rad (j.angle q)) = -dot d j.p := by
  have hx : dot j.u (j.dir q) = -dot d j.u ∨ dot j.u (j.dir q) = dot d j.u := by
    unfold KPoint.dir dirXp
    subst hq
    obtain ⟨e1, e2⟩ := norm2_shift (x := j.xp) hd ht
    cases j.top
    · right
      simp only [Bool.false_eq_true, if_false]
      rw [e2]
      unfold dot shift
      simp only
      field_simp
      ring
    · left
      simp only [if_true]
      rw [e1]
      unfold dot shift
      simp only
      field_simp
      ring
  have hsq : dot d j.u ^ 2 + dot d j.p ^ 2 = 1 := by
    have := dot_local (top := j.top) hu d d
    unfold KPoint.p
    nlinarith
  have hsq' : dot j.u (j.dir q) ^ 2 = dot d j.u ^ 2 := by rcases hx with h | h <;> rw [h]; ring
  have hb : dot j.u (j.dir q) ^ 2 ≤ 1 := by nlinarith [sq_nonneg (dot d j.p)]
  obtain ⟨h1, h2⟩ := braceAngle_spec (vc := j.u) (vb := j.dir q) (by nlinarith) (by nlinarith)
  unfold KPoint.angle
  rw [h1, h2, hsq']
  refine ⟨?_, ?_⟩
  · rcases hx with h | h <;> rw [h]
    exact abs_neg _
  · rw [show 1 - dot d j.u ^ 2 = (-dot d j.p) ^ 2 by linarith, sqrt_sq (by linarith)]

/-- Position along the chord of the point where an edge of a brace meets the chord face. `σ = 1`: the edge on the side of the chord direction. -/
theorem toe {j : KPoint} (hu : dot j.u j.u = 1) (hx : j.xp = j.local) {h0 h σ : ℝ} (hσ : σ = 1 ∨ σ = -1) {d n X : Pt} {s : ℝ} (hd : dot d d = 1) (hn : dot n n = 1) (hdn : dot d n = 0)
    (hp : dot d j.p < 0) (hs : 0 < σ * dot n j.u) (hX : X = shift (shift j.xp s d) (h / 2) n) (hf : OnFace j h0 X) :
    dot (sub X j.xp) j.u = (j.yloc + h0 / 2) * (dot d j.u / -dot d j.p) + σ * (h / 2) / -dot d j.p := by
  have l1 := dot_local (top := j.top) hu d d
  have l2 := dot_local (top := j.top) hu n n
  have l3 := dot_local (top := j.top) hu d n
  rw [hd] at l1
  rw [hn] at l2
  rw [hdn] at l3
  change 1 = dot d j.u * dot d j.u + dot d j.p * dot d j.p at l1
  change 1 = dot n j.u * dot n j.u + dot n j.p * dot n j.p at l2
  change 0 = dot d j.u * dot n j.u + dot d j.p * dot n j.p at l3
  have hxn : dot (sub j.xp j.node) j.p = j.yloc := by
    have := perp_unit (top := j.top) hu
    rw [hx]
    unfold KPoint.local
    rw [dot_shift, dot_shift]
    change dot (sub j.node j.node) j.p + j.xloc * dot j.u (perp j.top j.u) + j.yloc * dot (perp j.top j.u) (perp j.top j.u) = _
    rw [this.1, this.2]
    unfold dot sub
    ring
  have hface : j.yloc + s * dot d j.p + h / 2 * dot n j.p = -(h0 / 2) := by
    have := hf
    unfold OnFace at this
    rw [hX, dot_shift, dot_shift, hxn] at this
    exact this
  have hpos : dot (sub X j.xp) j.u = s * dot d j.u + h / 2 * dot n j.u := by
    rw [hX, dot_shift, dot_shift]
    unfold dot sub
    ring
  rw [hpos]
  generalize dot d j.u = a at *
  generalize dot d j.p = b at *
  generalize dot n j.u = m at *
  generalize dot n j.p = k at *
  have hσ2 : σ * σ = 1 := by rcases hσ with rfl | rfl <;> norm_num
  -- n is the perpendicular of d on the side `σ`
  have hm : m ^ 2 = b ^ 2 := by
    have : b ^ 2 * 1 = b ^ 2 * (m * m + k * k) := by rw [← l2]
    have h2 : b * k = -(a * m) := by linarith
    have h3 : b ^ 2 * (k * k) = (a * m) ^ 2 := by rw [← neg_sq (a * m), ← h2]; ring
    nlinarith
  have hm' : m = -(σ * b) := by
    have h1 : (σ * m) ^ 2 = (-b) ^ 2 := by rw [mul_pow, hm, neg_sq, pow_two σ, hσ2, one_mul]
    have h2 : σ * m = -b := by
      rcases sq_eq_sq_iff_eq_or_eq_neg.1 h1 with h | h
      · exact h
      · linarith
    have : σ * (σ * m) = σ * -b := by rw [h2]
    rw [← mul_assoc, hσ2, one_mul] at this
    linarith
  have hk : k = σ * a := by
    rw [hm'] at l3
    have : b * (k - σ * a) = 0 := by linarith
    rcases mul_eq_zero.1 this with h | h
    · linarith
    · linarith
  rw [hm']
  rw [hk] at hface
  have hs' : s = (j.yloc + h0 / 2 + h / 2 * (σ * a)) / -b := by
    rw [eq_div_iff (by linarith)]
    linarith
  rw [hs']
  have hb : b ≠ 0 := by linarith
  field_simp
  linear_combination (σ * h) * l1

/-- What the code computes as gap, by the directions of the braces. -/
theorem gap_value {j : KPoint} (hu : dot j.u j.u = 1) {h0 h1 h2 : ℝ} {q1 q2 d1 d2 : Pt} {t1 t2 : ℝ} (e1 : dot d1 d1 = 1) (e2 : dot d2 d2 = 1) (k1 : 0 < t1) (k2 : 0 < t2)
    (g1 : q1 = shift j.xp t1 d1) (g2 : q2 = shift j.xp t2 d2) (p1 : dot d1 j.p < 0) (p2 : dot d2 j.p < 0) :
    j.gap h0 h1 h2 q1 q2 = (j.yloc + h0 / 2) * (|dot d1 j.u| / -dot d1 j.p + |dot d2 j.u| / -dot d2 j.p) - h1 / 2 / -dot d1 j.p - h2 / 2 / -dot d2 j.p := by
  obtain ⟨c1, s1⟩ := angle_spec hu e1 k1 g1 p1
  obtain ⟨c2, s2⟩ := angle_spec hu e2 k2 g2 p2
  unfold KPoint.gap
  rw [show rad (j.angle q1 + j.angle q2) = rad (j.angle q1) + rad (j.angle q2) by unfold rad; ring, sin_add, c1, s1, c2, s2]
  generalize |dot d1 j.u| = a1
  generalize |dot d2 j.u| = a2
  have := p1.ne
  have := p2.ne
  generalize dot d1 j.p = b1 at *
  generalize dot d2 j.p = b2 at *
  field_simp
  ring

theorem neg_dot (n u : Pt) : dot n (-u.1, -u.2) = -dot n u := by
  unfold dot
  ring

theorem along_u {x d : Pt} {t : ℝ} (w : Pt) : dot (sub (shift x t d) x) w = t * dot d w := by
  unfold dot sub shift
  simp only
  ring

/-- The gap of a K joint: the intersection of the axes of the braces lies at the eccentricity from the axis of the chord, away from the braces; if the left brace leans to the left and the right brace to the right, the gap is the
distance on the chord face between the edges of the braces that face each other, in whichever order the braces are listed. -/
theorem C228_partial {j : KPoint} (hu : dot j.u j.u = 1) (hx : j.xp = j.local) {h0 h1 h2 : ℝ} {q1 q2 X1 X2 : Pt} (b1 : dot (sub q1 j.xp) j.p < 0) (b2 : dot (sub q2 j.xp) j.p < 0)
    (l1 : dot (sub q1 j.xp) j.u ≤ 0) (l2 : 0 ≤ dot (sub q2 j.xp) j.u) (E1 : OnEdge j.xp q1 j.u h1 X1) (E2 : OnEdge j.xp q2 (-j.u.1, -j.u.2) h2 X2) (F1 : OnFace j h0 X1) (F2 : OnFace j h0 X2) :
    dot (sub j.xp j.node) j.p = j.yloc ∧ j.gap h0 h1 h2 q1 q2 = dot (sub X2 X1) j.u ∧ j.gap h0 h2 h1 q2 q1 = dot (sub X2 X1) j.u := by
  obtain ⟨d1, n1, t1, s1, e1, f1, o1, k1, g1, w1, Y1⟩ := E1
  obtain ⟨d2, n2, t2, s2, e2, f2, o2, k2, g2, w2, Y2⟩ := E2
  rw [neg_dot] at w2
  rw [g1, along_u] at b1 l1
  rw [g2, along_u] at b2 l2
  have p1 : dot d1 j.p < 0 := by nlinarith
  have p2 : dot d2 j.p < 0 := by nlinarith
  have a1 : dot d1 j.u ≤ 0 := by nlinarith
  have a2 : 0 ≤ dot d2 j.u := by nlinarith
  have T1 := toe hu hx (σ := 1) (.inl rfl) e1 f1 o1 p1 (by linarith) Y1 F1
  have T2 := toe hu hx (σ := -1) (.inr rfl) e2 f2 o2 p2 (by linarith) Y2 F2
  have hd : dot (sub X2 X1) j.u = dot (sub X2 j.xp) j.u - dot (sub X1 j.xp) j.u := by
    unfold dot sub
    ring
  refine ⟨?_, ?_, ?_⟩
  · have := perp_unit (top := j.top) hu
    rw [hx]
    unfold KPoint.local
    rw [dot_shift, dot_shift]
    change dot (sub j.node j.node) j.p + j.xloc * dot j.u (perp j.top j.u) + j.yloc * dot (perp j.top j.u) (perp j.top j.u) = _
    rw [this.1, this.2]
    unfold dot sub
    ring
  · rw [gap_value hu e1 e2 k1 k2 g1 g2 p1 p2, hd, T1, T2, abs_of_nonpos a1, abs_of_nonneg a2]
    ring
  · rw [gap_value hu e2 e1 k2 k1 g2 g1 p2 p1, hd, T1, T2, abs_of_nonpos a1, abs_of_nonneg a2]
    ring

/-- The code disagrees if both braces lean to the same side of the perpendicular of the chord (the vertical brace of an N truss under a sloping chord): the computed gap is larger than the distance between the braces. -/
theorem C228_violation_lean {j : KPoint} (hu : dot j.u j.u = 1) (hx : j.xp = j.local) {h0 h1 h2 : ℝ} (he : 0 < j.yloc + h0 / 2) {q1 q2 X1 X2 : Pt} (b1 : dot (sub q1 j.xp) j.p < 0)
    (b2 : dot (sub q2 j.xp) j.p < 0) (l1 : dot (sub q1 j.xp) j.u < 0) (l2 : dot (sub q2 j.xp) j.u < 0) (E1 : OnEdge j.xp q1 j.u h1 X1) (E2 : OnEdge j.xp q2 (-j.u.1, -j.u.2) h2 X2)
    (F1 : OnFace j h0 X1) (F2 : OnFace j h0 X2) : dot (sub X2 X1) j.u < j.gap h0 h1 h2 q1 q2 := by
  obtain ⟨d1, n1, t1, s1, e1, f1, o1, k1, g1, w1, Y1⟩ := E1
  obtain ⟨d2, n2, t2, s2, e2, f2, o2, k2, g2, w2, Y2⟩ := E2
  rw [neg_dot] at w2
  rw [g1, along_u] at b1 l1
  rw [g2, along_u] at b2 l2
  have p1 : dot d1 j.p < 0 := by nlinarith
  have p2 : dot d2 j.p < 0 := by nlinarith
  have a1 : dot d1 j.u < 0 := by nlinarith
  have a2 : dot d2 j.u < 0 := by nlinarith
  have T1 := toe hu hx (σ := 1) (.inl rfl) e1 f1 o1 p1 (by linarith) Y1 F1
  have T2 := toe hu hx (σ := -1) (.inr rfl) e2 f2 o2 p2 (by linarith) Y2 F2
  have hd : dot (sub X2 X1) j.u = dot (sub X2 j.xp) j.u - dot (sub X1 j.xp) j.u := by
    unfold dot sub
    ring
  rw [gap_value hu e1 e2 k1 k2 g1 g2 p1 p2, hd, T1, T2, abs_of_neg a1, abs_of_neg a2]
  have : dot d2 j.u / -dot d2 j.p < 0 := div_neg_of_neg_of_pos a2 (by linarith)
  have h2' : -dot d2 j.u / -dot d2 j.p = -(dot d2 j.u / -dot d2 j.p) := by ring
  have h1' : -dot d1 j.u / -dot d1 j.p = -(dot d1 j.u / -dot d1 j.p) := by ring
  rw [h2', h1']
  generalize dot d2 j.u / -dot d2 j.p = z at *
  have hz := mul_neg_of_pos_of_neg he this
  rw [← sub_pos]
  convert (show 0 < -2 * ((j.yloc + h0 / 2) * z) by linarith) using 1
  ring

/-- The code disagrees at the ridge: both angles are measured from the left chord, so two braces that are mirror images of each other get different angles. -/
theorem C228_violation_ridge {j : KPoint} (hu : dot j.u j.u = 1) (hu1 : 0 < j.u.1) (hu2 : 0 < j.u.2) (ht : j.top = true) {a b : ℝ} (ha : 0 < a) (hb : 0 < b) :
    j.angle (j.xp.1 - a, j.xp.2 - b) ≠ j.angle (j.xp.1 + a, j.xp.2 - b) := by
  have hn : 0 < a ^ 2 + b ^ 2 := by positivity
  have hn' : 0 < √(a ^ 2 + b ^ 2) := sqrt_pos.2 hn
  have hs : √(a ^ 2 + b ^ 2) ^ 2 = a ^ 2 + b ^ 2 := sq_sqrt hn.le
  have key : ∀ c : ℝ, c ^ 2 = a ^ 2 → dot j.u (j.dir (j.xp.1 - c, j.xp.2 - b)) = (j.u.1 * c + j.u.2 * b) / √(a ^ 2 + b ^ 2) ∧
      cos (rad (j.angle (j.xp.1 - c, j.xp.2 - b))) = |(j.u.1 * c + j.u.2 * b) / √(a ^ 2 + b ^ 2)| := by
    intro c hc
    have e : dot j.u (j.dir (j.xp.1 - c, j.xp.2 - b)) = (j.u.1 * c + j.u.2 * b) / √(a ^ 2 + b ^ 2) := by
      unfold KPoint.dir dirXp norm2 dot
      simp only [ht, if_true]
      rw [show (j.xp.1 - (j.xp.1 - c)) ^ 2 + (j.xp.2 - (j.xp.2 - b)) ^ 2 = a ^ 2 + b ^ 2 by rw [← hc]; ring]
      field_simp
      ring
    refine ⟨e, ?_⟩
    have hb : dot j.u (j.dir (j.xp.1 - c, j.xp.2 - b)) ^ 2 ≤ 1 := by
      rw [e, div_pow, hs, div_le_one hn]
      unfold dot at hu
      nlinarith [sq_nonneg (j.u.1 * b - j.u.2 * c)]
    unfold KPoint.angle
    rw [(braceAngle_spec (by nlinarith) (by nlinarith)).1, e]
  intro h
  have k1 := (key a rfl).2
  have k2 := (key (-a) (by ring)).2
  rw [show j.xp.1 - -a = j.xp.1 + a by ring] at k2
  rw [h, k2] at k1
  rw [abs_div, abs_div, div_left_inj' (by positivity), abs_of_pos (show 0 < j.u.1 * a + j.u.2 * b by positivity)] at k1
  have h1 := mul_pos hu1 ha
  have h2 := mul_pos hu2 hb
  rcases abs_cases (j.u.1 * -a + j.u.2 * b) with ⟨k, -⟩ | ⟨k, -⟩ <;> nlinarith

/-- The points of a brace at a joint: the point on the chord face lies on the axis of the brace and on the face, the other one on the axis of the chord, straight above it. -/
theorem C228_face {j : KPoint} (hu : dot j.u j.u = 1) {h0 : ℝ} {q : Pt} (hq : dot (sub q j.xp) j.p ≠ 0) :
    ∃ x c, j.facePoint h0 q = .ok (x, c) ∧ OnFace j h0 x ∧ (∃ t, x = shift j.xp t (sub q j.xp)) ∧ dot (sub c j.node) j.p = 0 ∧ dot (sub x c) j.u = 0 := by
  have pu := perp_unit (top := j.top) hu
  have hpu : dot j.u j.p = 0 := pu.2
  have hpp : dot j.p j.p = 1 := pu.1
  -- the direction is a multiple of `q - xp`
  have hne : 0 < norm2 (sub q j.xp) := by
    unfold norm2
    refine sqrt_pos.2 ?_
    by_contra h
    have h0 : (sub q j.xp).1 ^ 2 + (sub q j.xp).2 ^ 2 = 0 := le_antisymm (not_lt.1 h) (by positivity)
    have e1 : (sub q j.xp).1 = 0 := by nlinarith [sq_nonneg (sub q j.xp).1, sq_nonneg (sub q j.xp).2]
    have e2 : (sub q j.xp).2 = 0 := by nlinarith [sq_nonneg (sub q j.xp).1, sq_nonneg (sub q j.xp).2]
    refine hq ?_
    unfold dot
    rw [e1, e2]
    ring
  obtain ⟨c, hc, hdir⟩ : ∃ c : ℝ, c ≠ 0 ∧ j.dir q = (c * (sub q j.xp).1, c * (sub q j.xp).2) := by
    unfold KPoint.dir dirXp
    cases j.top
    · refine ⟨1 / norm2 (sub q j.xp), by positivity, ?_⟩
      simp only [Bool.false_eq_true, if_false]
      unfold sub
      simp only [Prod.mk.injEq]
      constructor <;> ring
    · refine ⟨-(1 / norm2 (sub q j.xp)), by rw [neg_ne_zero]; positivity, ?_⟩
      simp only [if_true]
      have : norm2 (j.xp.1 - q.1, j.xp.2 - q.2) = norm2 (sub q j.xp) := by
        unfold norm2 sub
        congr 1
        ring
      rw [this]
      unfold sub
      simp only [Prod.mk.injEq]
      constructor <;> ring
  have hnp : (Line.ofDir j.xp (j.dir q)).v.1 * (Line.ofDir (j.face h0) j.u).v.2 ≠ (Line.ofDir j.xp (j.dir q)).v.2 * (Line.ofDir (j.face h0) j.u).v.1 := by
    intro h
    apply hq
    have h' : c * ((sub q j.xp).1 * j.u.2 - (sub q j.xp).2 * j.u.1) = 0 := by
      have : (j.dir q).1 * j.u.2 = (j.dir q).2 * j.u.1 := h
      rw [hdir] at this
      simp only at this
      linarith
    have h2 := (mul_eq_zero.1 h').resolve_left hc
    unfold KPoint.p perp dot
    cases j.top
    · simp
      linarith
    · simp
      linarith
  obtain ⟨t, x, hi, x1, x2, -⟩ := (C87_intersect (Line.ofDir j.xp (j.dir q)) (Line.ofDir (j.face h0) j.u)).2 hnp
  refine ⟨x, ((Line.ofDir j.node j.u).distance x).2, ?_, ?_, ⟨t.1 * c, ?_⟩, ?_, ?_⟩
  · unfold KPoint.facePoint
    rw [hi]
    rfl
  · unfold OnFace
    have : x = shift (j.face h0) t.2 j.u := x2.symm
    rw [this, dot_shift]
    unfold KPoint.face
    rw [dot_shift, hpu, hpp]
    unfold dot sub
    ring
  · rw [← x1]
    unfold Line.at Line.ofDir shift
    simp only [Prod.mk.injEq]
    rw [hdir]
    constructor <;> simp only <;> ring
  · have : ((Line.ofDir j.node j.u).distance x).2 = shift j.node (-(j.u.1 * (j.node.1 - x.1) + j.u.2 * (j.node.2 - x.2))) j.u := rfl
    rw [this, dot_shift, hpu]
    unfold dot sub
    ring
  · have : ((Line.ofDir j.node j.u).distance x).2 = shift j.node (-(j.u.1 * (j.node.1 - x.1) + j.u.2 * (j.node.2 - x.2))) j.u := rfl
    rw [this]
    unfold dot sub shift at *
    simp only
    linear_combination (j.u.1 * (j.node.1 - x.1) + j.u.2 * (j.node.2 - x.2)) * hu

/-- The point of the chord that belongs to the joint: on its axis, nearest to the intersection of the braces, as far from the node as the local coordinate says; the intersection is `|yloc|` away from it. -/
theorem C228_chord {j : KPoint} (hu : dot j.u j.u = 1) (hx : j.xp = j.local) :
    j.onChord = shift j.node j.xloc j.u ∧ norm2 (sub j.xp j.onChord) = |j.yloc| ∧ ∀ s, norm2 (sub j.xp j.onChord) ≤ norm2 (sub j.xp (shift j.node s j.u)) := by
  have pu := perp_unit (top := j.top) hu
  have hpu : dot j.u j.p = 0 := pu.2
  have hpp : dot j.p j.p = 1 := pu.1
  have e : j.onChord = shift j.node j.xloc j.u := by
    have : j.onChord = shift j.node (-(j.u.1 * (j.node.1 - j.xp.1) + j.u.2 * (j.node.2 - j.xp.2))) j.u := rfl
    rw [this, hx]
    unfold KPoint.local
    congr 1
    unfold dot at hu hpu
    unfold shift
    simp only
    linear_combination j.xloc * hu + j.yloc * hpu
  have hn : ∀ s, norm2 (sub j.xp (shift j.node s j.u)) = √((j.xloc - s) ^ 2 + j.yloc ^ 2) := by
    intro s
    unfold norm2
    congr 1
    rw [hx]
    unfold KPoint.local
    unfold dot at hu hpu hpp
    unfold sub shift
    simp only
    linear_combination (j.xloc - s) ^ 2 * hu + j.yloc ^ 2 * hpp + 2 * (j.xloc - s) * j.yloc * hpu
  refine ⟨e, ?_, fun s => ?_⟩
  · rw [e, hn, sub_self, zero_pow two_ne_zero, zero_add, sqrt_sq_eq_abs]
  · rw [e, hn, hn]
    apply sqrt_le_sqrt
    nlinarith [sq_nonneg (j.xloc - s)]

/-- Positive eccentricities lie on the outer side: at a chord drawn from left to right a larger `yloc` raises the intersection of the braces of a top chord and lowers that of a bottom chord. -/
theorem C228_side {j : KPoint} (hr : j.ridge = false) (h1 : 0 < j.u.1) {v w : ℝ} (hvw : v < w) :
    if j.top then (setY v j none).1.xp.2 < (setY w j none).1.xp.2 else (setY w j none).1.xp.2 < (setY v j none).1.xp.2 := by
  unfold setY
  simp only [hr, Bool.false_eq_true, if_false, KPoint.local, KPoint.p, perp, shift]
  cases j.top
  · simp only [Bool.false_eq_true, if_false]
    nlinarith
  · simp only [if_true]
    nlinarith

/-! ### C229: moving the joints -/

/-- An assignment to a coordinate of the first or the second of two joints that know each other as symmetric. -/
inductive Move
  | x (v : ℝ) (second : Bool)
  | y (v : ℝ) (second : Bool)

def KPair.move : Move → KPoint × KPoint → KPoint × KPoint
  | .x v false, (a, b) => ((setX v a (some b)).1, (setX v a (some b)).2.getD b)
  | .x v true, (a, b) => ((setX v b (some a)).2.getD a, (setX v b (some a)).1)
  | .y v false, (a, b) => ((setY v a (some b)).1, (setY v a (some b)).2.getD b)
  | .y v true, (a, b) => ((setY v b (some a)).2.getD a, (setY v b (some a)).1)

/-- Mirror image with respect to the vertical line at `m`. -/
def mirror (m : ℝ) (P : Pt) : Pt := (2 * m - P.1, P.2)

/-- Two joints of the same chord at mirrored nodes; the chord members run from left to right, so their directions are mirrored and reversed. -/
structure Twins (m : ℝ) (a b : KPoint) : Prop where
  node : b.node = mirror m a.node
  u : b.u = (a.u.1, -a.u.2)
  top : b.top = a.top
  ra : a.ridge = false
  rb : b.ridge = false

/-- The intersection points are where the local coordinates say, and mirror images of each other. -/
structure Placed (m : ℝ) (a b : KPoint) : Prop where
  pa : a.xp = a.local
  pb : b.xp = b.local
  sym : b.xp = mirror m a.xp
  y : b.yloc = a.yloc
  x : b.xloc = -a.xloc

theorem local_mirror {m : ℝ} {a b : KPoint} (h : Twins m a b) (hy : b.yloc = a.yloc) (hx : b.xloc = -a.xloc) : b.local = mirror m a.local := by
  unfold KPoint.local KPoint.p shift mirror perp
  rw [h.node, h.u, h.top, hy, hx]
  unfold mirror
  cases a.top <;> simp <;> ring

theorem move_twins {m : ℝ} {a b : KPoint} (h : Twins m a b) (hp : Placed m a b) (o : Move) :
    Twins m (KPair.move o (a, b)).1 (KPair.move o (a, b)).2 ∧ Placed m (KPair.move o (a, b)).1 (KPair.move o (a, b)).2 := by
  have hy := hp.y
  have hx := hp.x
  obtain ⟨h1, h2, h3, ra, rb⟩ := h
  have T : ∀ x y x' y' p q, Twins m { a with xloc := x, yloc := y, xp := p } { b with xloc := x', yloc := y', xp := q } := fun _ _ _ _ _ _ => ⟨h1, h2, h3, ra, rb⟩
  have P : ∀ x y x' y', y' = y → x' = -x → Placed m { a with xloc := x, yloc := y, xp := KPoint.local { a with xloc := x, yloc := y } }
      { b with xloc := x', yloc := y', xp := KPoint.local { b with xloc := x', yloc := y' } } :=
    fun x y x' y' e1 e2 => ⟨rfl, rfl, local_mirror (a := { a with xloc := x, yloc := y }) (b := { b with xloc := x', yloc := y' }) ⟨h1, h2, h3, ra, rb⟩ e1 e2, e1, e2⟩
  rcases o with ⟨v, s⟩ | ⟨v, s⟩ <;> cases s
  · exact ⟨T _ _ _ _ _ _, P v a.yloc (-v) b.yloc hy rfl⟩
  · exact ⟨T _ _ _ _ _ _, P (-v) a.yloc v b.yloc hy (by ring)⟩
  · have e : KPair.move (.y v false) (a, b) = ({ a with yloc := v, xp := KPoint.local { a with yloc := v } }, { b with yloc := v, xp := KPoint.local { b with yloc := v } }) := by
      simp [KPair.move, setY, ra]
    rw [e]
    exact ⟨T _ _ _ _ _ _, P a.xloc v b.xloc v rfl hx⟩
  · have e : KPair.move (.y v true) (a, b) = ({ a with yloc := v, xp := KPoint.local { a with yloc := v } }, { b with yloc := v, xp := KPoint.local { b with yloc := v } }) := by
      simp [KPair.move, setY, rb]
    rw [e]
    exact ⟨T _ _ _ _ _ _, P a.xloc v b.xloc v rfl hx⟩

/-- The last value assigned to a coordinate; a coordinate along the chord given to the second joint counts reversed for the first one. -/
def lastY : List Move → ℝ → ℝ
  | [], d => d
  | .y v _ :: r, _ => lastY r v
  | .x _ _ :: r, d => lastY r d

def lastX : List Move → ℝ → ℝ
  | [], d => d
  | .x v false :: r, _ => lastX r v
  | .x v true :: r, _ => lastX r (-v)
  | .y _ _ :: r, d => lastX r d

theorem move_values {m : ℝ} {a b : KPoint} (h : Twins m a b) (hp : Placed m a b) (o : List Move) :
    (o.foldl (fun s o => KPair.move o s) (a, b)).1.yloc = lastY o a.yloc ∧ (o.foldl (fun s o => KPair.move o s) (a, b)).1.xloc = lastX o a.xloc := by
  induction o generalizing a b with
  | nil => exact ⟨rfl, rfl⟩
  | cons o r ih =>
    obtain ⟨t, q⟩ := move_twins h hp o
    obtain ⟨i1, i2⟩ := ih t q
    have e : (List.foldl (fun s o => KPair.move o s) (a, b) (o :: r)) = List.foldl (fun s o => KPair.move o s) ((KPair.move o (a, b)).1, (KPair.move o (a, b)).2) r := rfl
    rw [e, i1, i2]
    have ra := h.ra
    have rb := h.rb
    rcases o with ⟨v, s⟩ | ⟨v, s⟩ <;> cases s <;> simp [KPair.move, setX, setY, ra, rb, lastX, lastY]

/-- C229 (part): two joints at mirrored nodes of a chord, not at the ridge: whatever is assigned to their coordinates in whatever order through either of them, the intersection points of their braces stay mirror images,
lie at the distances last assigned, across and along the chord, and initially at a quarter of the height of the chord across it. -/
theorem C229_partial {m h0 : ℝ} {node u : Pt} {top : Bool} (hu : dot u u = 1) (o : List Move) :
    ∃ a b, o.foldl (fun s o => KPair.move o s) (newK node top u false h0, newK (mirror m node) top (u.1, -u.2) false h0) = (a, b) ∧ b.xp = mirror m a.xp ∧
      dot (sub a.xp node) (perp top u) = lastY o (h0 / 4) ∧ dot (sub a.xp node) u = lastX o 0 ∧ a.yloc = lastY o (h0 / 4) ∧ a.xloc = lastX o 0 ∧ b.yloc = lastY o (h0 / 4) ∧ b.xloc = -lastX o 0 := by
  set a0 := newK node top u false h0 with ha0
  set b0 := newK (mirror m node) top (u.1, -u.2) false h0 with hb0
  have ea : a0 = { node, top, u, ridge := false, xloc := 0, yloc := 1 / 4 * h0, xp := KPoint.local ⟨node, top, u, false, 0, 1 / 4 * h0, node⟩ } := rfl
  have eb : b0 = { node := mirror m node, top, u := (u.1, -u.2), ridge := false, xloc := 0, yloc := 1 / 4 * h0, xp := KPoint.local ⟨mirror m node, top, (u.1, -u.2), false, 0, 1 / 4 * h0, mirror m node⟩ } := rfl
  have t : Twins m a0 b0 := ⟨rfl, rfl, rfl, rfl, rfl⟩
  have hpl : Placed m a0 b0 := ⟨rfl, rfl, local_mirror (a := a0) (b := b0) t rfl (by rw [ea, eb]; simp), rfl, by rw [ea, eb]; simp⟩
  have main : ∀ (o : List Move) (s : KPoint × KPoint), Twins m s.1 s.2 → Placed m s.1 s.2 → s.1.node = node → s.1.u = u → s.1.top = top →
      let s' := o.foldl (fun s o => KPair.move o s) s
      Twins m s'.1 s'.2 ∧ Placed m s'.1 s'.2 ∧ s'.1.node = node ∧ s'.1.u = u ∧ s'.1.top = top := by
    intro o
    induction o with
    | nil => exact fun s t p a b c => ⟨t, p, a, b, c⟩
    | cons o r ih =>
      intro s t p a b c
      have ra := t.ra
      have rb := t.rb
      refine ih (KPair.move o s) (move_twins t p o).1 (move_twins t p o).2 ?_ ?_ ?_
      all_goals
        obtain ⟨s1, s2⟩ := s
        rcases o with ⟨v, w⟩ | ⟨v, w⟩ <;> cases w <;> simp_all [KPair.move, setX, setY]
  obtain ⟨t', p', n', u', t''⟩ := main o (a0, b0) t hpl rfl rfl rfl
  obtain ⟨y', x'⟩ := move_values t hpl o
  have q0 : a0.yloc = h0 / 4 := by rw [ea]; ring
  have q1 : a0.xloc = 0 := rfl
  rw [q0] at y'
  rw [q1] at x'
  refine ⟨_, _, rfl, p'.sym, ?_, ?_, y', x', by rw [p'.y, y'], by rw [p'.x, x']⟩
  · rw [p'.pa]
    unfold KPoint.local KPoint.p
    rw [dot_shift, dot_shift, n', u', t'', (perp_unit hu).1, (perp_unit hu).2, y']
    unfold dot sub
    ring
  · have hup : dot (perp top u) u = 0 := by
      have := (perp_unit (top := top) hu).2
      unfold dot at *
      linarith
    rw [p'.pa]
    unfold KPoint.local KPoint.p
    rw [dot_shift, dot_shift, n', u', t'', hup, hu, x']
    unfold dot sub
    ring

/-- The code disagrees at the ridge: there the eccentricity is measured vertically, but assigning to the coordinate along the chord the value it has moves the intersection point off the vertical through the ridge, if the chord slopes. -/
theorem C229_violation_ridge {node u : Pt} {h0 : ℝ} (hu : u.2 ≠ 0) (hh : h0 ≠ 0) : let j := newK node true u true h0
    j.xp.1 = node.1 ∧ j.xp.2 = node.2 + h0 / 4 ∧ (setX j.xloc j none).1.xp.1 ≠ node.1 := by
  refine ⟨rfl, ?_, ?_⟩
  · show node.2 + 1 / 4 * h0 = _
    ring
  · show node.1 + 0 * u.1 + 1 / 4 * h0 * (-u.2) ≠ node.1
    intro h
    have : h0 * u.2 = 0 := by linarith
    rcases mul_eq_zero.1 this with h | h
    · exact hh h
    · exact hu h

/-- A joint of a sloping top chord and its twin. -/
example : dot ((4 / 5, 3 / 5) : Pt) (4 / 5, 3 / 5) = 1 ∧ lastY [.y 20 true, .x 5 false, .y 30 false] (100 / 4) = 30 ∧ lastX [.y 20 true, .x 5 true, .y 30 false] 0 = -5 := by
  refine ⟨by unfold dot; norm_num, rfl, rfl⟩

/-- A horizontal bottom chord of height 100 with braces leaning 3:4 to both sides, the joint at mid-height of its chord, braces of height 40: all that C228 asks for, and a gap of 75 − 50. -/
example : let j : KPoint := ⟨(0, 0), false, (1, 0), false, 0, 0, (0, 0)⟩
    dot j.u j.u = 1 ∧ j.xp = j.local ∧ dot (sub (-300, 400) j.xp) j.p < 0 ∧ dot (sub (-300, 400) j.xp) j.u ≤ 0 ∧ dot (sub (300, 400) j.xp) j.p < 0 ∧ 0 ≤ dot (sub (300, 400) j.xp) j.u ∧
    OnEdge j.xp (-300, 400) j.u 40 (-25 / 2, 50) ∧ OnEdge j.xp (300, 400) (-j.u.1, -j.u.2) 40 (25 / 2, 50) ∧ OnFace j 100 (-25 / 2, 50) ∧ OnFace j 100 (25 / 2, 50) := by
  refine ⟨by simp [dot], ?_, ?_, ?_, ?_, ?_, ⟨(-3 / 5, 4 / 5), (4 / 5, 3 / 5), 500, 95 / 2, ?_⟩, ⟨(3 / 5, 4 / 5), (-4 / 5, 3 / 5), 500, 95 / 2, ?_⟩, ?_, ?_⟩ <;>
    norm_num [KPoint.local, shift, KPoint.p, perp, dot, sub, OnFace]

/-- The same with both braces leaning to the left, as C228_violation_lean asks. -/
example : let j : KPoint := ⟨(0, 0), false, (1, 0), false, 0, 0, (0, 0)⟩
    0 < j.yloc + 100 / 2 ∧ dot (sub (-400, 300) j.xp) j.p < 0 ∧ dot (sub (-400, 300) j.xp) j.u < 0 ∧ OnEdge j.xp (-400, 300) (-j.u.1, -j.u.2) 40 (-100, 50) ∧ OnFace j 100 (-100, 50) := by
  refine ⟨by norm_num, ?_, ?_, ⟨(-4 / 5, 3 / 5), (-3 / 5, -4 / 5), 500, 110, ?_⟩, ?_⟩ <;>
    norm_num [KPoint.p, shift, perp, dot, sub, OnFace]

/-! ### C230: design of Y joints -/

/-- The same joint as seen by the joints of rhs_joints.py. -/
def YDes.toY (j : YDes) : YJoint := { j.base with brace := j.brace, angle := j.angle, N1 := j.N1 }

theorem YDes.chordFace_toY (j : YDes) : j.chordFace = j.toY.chordFace := rfl

/-- C230 (part): the utilisation of a Y joint whose brace is narrower than 0.85 times the chord and whose chord face is not in compression is the force of the brace, of either sign, over the resistance of the chord face of Table 7.11. -/
theorem C230_partial (j : YDes) (hr : j.r = 0) (hf : 0 < j.chord.P.fy) (hB : 0 < j.chord.B) (hn : -j.N0 / j.chord.P.sec.A + j.M0 / j.chord.P.sec.Wel.1 ≤ 0) (hb : j.brace.B / j.chord.B < 85 / 100) :
    j.design = .ok (|j.N1| / (RhsSpec.steelFactor j.chord.P.fy * RhsSpec.yFace 1 j.chord.P.fy j.chord.T (j.brace.B / j.chord.B) (j.brace.H / j.chord.B) (j.angle * π / 180))) := by
  unfold YDes.design
  rw [if_pos (show j.beta < 85 / 100 from hb), j.chordFace_toY, (C84_partial j.toY hr hf hn).1 ((div_lt_one hB).1 (lt_trans hb (by norm_num))) hB]
  rfl

/-- The code disagrees under compression in the chord: the chord stress factor is the exponent of the reduction factor, so the returned utilisation is too small whenever the factor is below 1, and for steels up to S355 the chord force
has no influence at all. -/
theorem C230_violation_stress : (∀ j : YDes, j.r = 0 → 0 < j.chord.P.fy → 0 < j.chord.T → 0 < j.chord.B → 0 < j.brace.H → 0 < j.angle → j.angle < 180 → j.brace.B / j.chord.B < 85 / 100 → j.N1 ≠ 0 →
      let k := RhsSpec.kn ((-j.N0 / j.chord.P.sec.A + j.M0 / j.chord.P.sec.Wel.1) / j.chord.P.fy) (j.brace.B / j.chord.B)
      0 < k → k < 1 → ∃ u, j.design = .ok u ∧
        u < |j.N1| / (RhsSpec.steelFactor j.chord.P.fy * RhsSpec.yFace k j.chord.P.fy j.chord.T (j.brace.B / j.chord.B) (j.brace.H / j.chord.B) (j.angle * π / 180))) ∧
    ∀ (j : YDes) (N : ℝ), j.r = 0 → j.chord.P.fy ≤ 355 → ({ j with N0 := N } : YDes).design = j.design := by
  constructor
  · intro j hr hf hT hB hH a1 a2 hb hN k k0 k1
    have hs : 0 < sin (j.angle * π / 180) := sin_rad_pos a1 a2
    have hb1 : j.brace.B / j.chord.B < 1 := lt_trans hb (by norm_num)
    refine ⟨_, by unfold YDes.design; rw [if_pos (show j.beta < 85 / 100 from hb)], ?_⟩
    refine div_lt_div_of_pos_left (abs_pos.2 hN) ?_ (C84_violation.1 j.toY hr hf hT hB hH ((div_lt_one hB).1 hb1) a1 a2 k1)
    have := (steelFactor_range j.chord.P.fy).1
    unfold RhsSpec.yFace
    have : 0 < 1 - j.brace.B / j.chord.B := by linarith
    positivity
  · intro j N hr hf
    unfold YDes.design
    by_cases hb : j.beta < 85 / 100
    · rw [if_pos (show ({ j with N0 := N } : YDes).beta < 85 / 100 from hb), if_pos hb]
      have := C84_violation.2 j.toY N hr hf
      rw [j.chordFace_toY, ← this]
      rfl
    · rw [if_neg (show ¬ ({ j with N0 := N } : YDes).beta < 85 / 100 from hb), if_neg hb]
      rfl

/-- The code disagrees for wide braces: from 0.85 times the width of the chord on, every design raises TypeError. -/
theorem C230_violation_wide (j : YDes) (hb : 85 / 100 ≤ j.brace.B / j.chord.B) : j.design = .error .typeError := by
  unfold YDes.design
  rw [if_neg (show ¬ j.beta < 85 / 100 from not_lt.2 hb)]
  rfl

/-- A brace 60 x 4 under 45 degrees on the chord 100 x 5, the chord in tension; with the chord in compression the factor is 0.7. -/
example : let j : YDes := ⟨exK.chord, (exK.braces 0).sec, 45, 0, 0, -50000, 100000⟩
    (j.r = 0 ∧ 0 < j.chord.P.fy ∧ 0 < j.chord.B ∧ -j.N0 / j.chord.P.sec.A + j.M0 / j.chord.P.sec.Wel.1 ≤ 0 ∧ j.brace.B / j.chord.B < 85 / 100) ∧
    RhsSpec.kn ((-(-1836 * 355 * 9 / 10) / j.chord.P.sec.A + j.M0 / j.chord.P.sec.Wel.1) / j.chord.P.fy) (j.brace.B / j.chord.B) = 7 / 10 := by
  refine ⟨⟨rfl, ?_, ?_, ?_, ?_⟩, ?_⟩ <;> norm_num [exK, exProfile, RhsSpec.kn]

/-! ### C231: design of K joints -/

/-- The same joint as seen by the joints of rhs_joints.py. -/
def KDes.toK (j : KDes) (N0 : ℝ) : KGap := { j.base N0 with braces := fun i => ⟨j.brace i, [j.N i]⟩, angles := j.angle, gap := j.gap, tp := j.tp }

theorem min_ratio {n x y : ℝ} (hx : 0 < x) (hy : 0 < y) (l : ℝ) (hl : 0 ≤ l) : n / min x y ≤ l ↔ n ≤ l * x ∧ n ≤ l * y := by
  rw [div_le_iff₀ (lt_min hx hy), mul_min_of_nonneg _ _ hl, le_min_iff]

/-- C231 (part): a K gap joint with two chord members and one gap element, without plate on the chord face, in the range of validity of the chord stress factor: the utilisation of each brace is the least factor by which the resistances of
Table 7.12 against chord face failure, chord shear, brace failure and, for narrow braces, punching shear would have to be multiplied to carry its force. The chord force is the one of smaller magnitude. -/
theorem C231_partial (j : KDes) {N0a N0b f g : ℝ} {rest : List ℝ} (hN : j.N0s = N0a :: N0b :: rest) (hg : j.gapEl = .one f g) (hr : j.r = 0) (htp : j.tp = 0) (hB : 0 < j.chord.B) (hH : 0 < j.chord.H) (hT : 0 < j.chord.T)
    (hA : 0 < j.chord.P.sec.A) (hf : 0 < j.chord.P.fy) (hbr : ∀ k, 0 < (j.brace k).B ∧ 0 < (j.brace k).H ∧ 0 < (j.brace k).T ∧ 0 < (j.brace k).P.fy ∧ 4 * (j.brace k).T ≤ 2 * (j.brace k).H)
    (ha : ∀ k, 0 < j.angle k ∧ j.angle k < 180) :
    let N0 := if |N0a| < |N0b| then N0a else N0b
    let fy0 := j.chord.P.fy
    let s := (j.brace 0).B + (j.brace 1).B + (j.brace 0).H + (j.brace 1).H
    let F := RhsSpec.steelFactor fy0
    35 / 100 ≤ s / (4 * j.chord.B) → -N0 / j.chord.P.sec.A ≤ fy0 →
    ∃ R, j.design = .ok R ∧ ∀ i, 0 ≤ R i ∧ ∀ l, 0 ≤ l → (R i ≤ l ↔
      |j.N i| ≤ l * (F * RhsSpec.kFace (RhsSpec.kn (-N0 / j.chord.P.sec.A / fy0) (s / (4 * j.chord.B))) fy0 j.chord.T j.chord.B s (j.angle i * π / 180)) ∧
      |j.N i| ≤ l * (F * (fy0 / √3 * RhsSpec.gapArea j.chord.H j.chord.B j.chord.T j.gap / sin (j.angle i * π / 180))) ∧
      |j.N i| ≤ l * (F * RhsSpec.kBrace (j.brace i).P.fy (j.brace i).T (j.brace i).H (j.brace i).B (RhsSpec.effective j.chord.B j.chord.T fy0 (j.brace i).P.fy (j.brace i).T (j.brace i).B)) ∧
      (s / (4 * j.chord.B) ≤ 1 - 2 * j.chord.T / j.chord.B →
        |j.N i| ≤ l * (F * RhsSpec.kPunching fy0 j.chord.T (j.brace i).H (j.brace i).B (RhsSpec.effectivePunching j.chord.B j.chord.T (j.brace i).B) (j.angle i * π / 180)))) := by
  intro N0 fy0 s F hβ hy
  have hc : j.chordForce = .ok N0 := by
    unfold KDes.chordForce
    rw [hN]
  have hv : j.V0gap = .ok (max f g) := by
    unfold KDes.V0gap
    rw [hg]
  refine ⟨_, by simp only [KDes.design, bind, Except.bind, hc, hv]; rfl, ?_⟩
  intro i
  have hb : j.beta = s / (4 * j.chord.B) := by unfold KDes.beta; ring
  obtain ⟨v1, v2, v3⟩ := C79_value (j.toK N0) i hr htp (hbr i).1.le
  obtain ⟨p1, p2, p3⟩ := (C79 (j.toK N0) i (le_of_eq hr.symm) htp hB hT hA hf hbr (ha i)).1 (by have : (j.toK N0).beta = j.beta := rfl; rw [this, hb]; exact hβ)
    (by show -N0 / j.chord.P.sec.A + 0 / j.chord.P.sec.Wel.1 ≤ j.chord.P.fy; rw [zero_div, add_zero]; exact hy)
  have hk : (-N0 / j.chord.P.sec.A + (0 : ℝ) / j.chord.P.sec.Wel.1) / fy0 = -N0 / j.chord.P.sec.A / fy0 := by rw [zero_div, add_zero]
  have e1 : j.chordFace N0 i = F * RhsSpec.kFace (RhsSpec.kn (-N0 / j.chord.P.sec.A / fy0) (s / (4 * j.chord.B))) fy0 j.chord.T j.chord.B s (j.angle i * π / 180) := by
    rw [← hk]
    exact v1
  have e2 : j.chordShear N0 i = F * (fy0 / √3 * RhsSpec.gapArea j.chord.H j.chord.B j.chord.T j.gap / sin (j.angle i * π / 180)) := by
    have := aEta_eq (j.toK N0)
    have ea : j.aEta = RhsSpec.gapArea j.chord.H j.chord.B j.chord.T j.gap := this
    have er : (j.base N0).reduction = F := reduction_eq (j.base N0) hr
    unfold KDes.chordShear
    rw [er, ea]
    simp only [gammaM5, rad]
    ring
  have e3 : j.braceFailure N0 i = _ := v2
  have e4 : j.punching N0 i = _ := v3
  have q1 : 0 < j.chordFace N0 i := p1
  have q3 : 0 < j.braceFailure N0 i := p2
  have q4 : 0 < j.punching N0 i := p3
  have q2 : 0 < j.chordShear N0 i := by
    rw [e2]
    have h1 := (steelFactor_range fy0).1
    have h2 : 0 < sin (j.angle i * π / 180) := sin_rad_pos (ha i).1 (ha i).2
    have h3 : 0 < RhsSpec.gapArea j.chord.H j.chord.B j.chord.T j.gap := by unfold RhsSpec.gapArea; positivity
    have h4 : 0 < F := h1
    have h5 : 0 < fy0 := hf
    positivity
  have hγ : 1 / (j.base N0).gamma = 2 * j.chord.T / j.chord.B := by
    show 1 / (1 / 2 * j.chord.B / j.chord.T) = _
    field_simp
  have q5 : 0 < min (min (j.chordFace N0 i) (j.chordShear N0 i)) (j.braceFailure N0 i) := lt_min (lt_min q1 q2) q3
  by_cases hp : j.beta ≤ 1 - 1 / (j.base N0).gamma
  · rw [if_pos hp]
    refine ⟨div_nonneg (abs_nonneg _) (lt_min q5 q4).le, fun l hl => ?_⟩
    rw [min_ratio q5 q4 l hl, ← div_le_iff₀ q5, min_ratio (lt_min q1 q2) q3 l hl, ← div_le_iff₀ (lt_min q1 q2), min_ratio q1 q2 l hl, ← e1, ← e2]
    rw [hb, hγ] at hp
    rw [e3, e4]
    constructor
    · rintro ⟨⟨⟨a, b⟩, c⟩, d⟩
      exact ⟨a, b, c, fun _ => d⟩
    · rintro ⟨a, b, c, d⟩
      exact ⟨⟨⟨a, b⟩, c⟩, d hp⟩
  · rw [if_neg hp]
    refine ⟨div_nonneg (abs_nonneg _) q5.le, fun l hl => ?_⟩
    rw [min_ratio (lt_min q1 q2) q3 l hl, ← div_le_iff₀ (lt_min q1 q2), min_ratio q1 q2 l hl, ← e1, ← e2]
    rw [hb, hγ] at hp
    rw [e3]
    constructor
    · rintro ⟨⟨a, b⟩, c⟩
      exact ⟨a, b, c, fun h => absurd h hp⟩
    · rintro ⟨a, b, c, -⟩
      exact ⟨⟨a, b⟩, c⟩

/-- The code disagrees about the shear in the gap and about the larger chord force: neither has any influence on the result, however large they are. -/
theorem C231_violation_lost (j : KDes) : (∀ f g f' g', ({ j with gapEl := .one f g } : KDes).design = ({ j with gapEl := .one f' g' } : KDes).design) ∧
    ∀ a a' b : ℝ, |b| < |a| → |b| < |a'| → ({ j with N0s := [a, b] } : KDes).design = ({ j with N0s := [a', b] } : KDes).design := by
  refine ⟨fun _ _ _ _ => rfl, fun a a' b h h' => ?_⟩
  have e : ∀ c, |b| < |c| → ({ j with N0s := [c, b] } : KDes).chordForce = .ok b := by
    intro c hc
    show Except.ok (if |c| < |b| then c else b) = .ok b
    rw [if_neg (not_lt.2 hc.le)]
  simp only [KDes.design, bind, Except.bind, e a h, e a' h']
  rfl

/-- The code disagrees about most joints: without exactly one gap element (every joint unless the structural model has eccentricity elements, and the joints at the ridge then) the design raises AttributeError, at the end of a chord IndexError. -/
theorem C231_violation_raises (j : KDes) : (2 ≤ j.N0s.length → (∀ f g, j.gapEl ≠ .one f g) → j.design = .error .attributeError) ∧ (j.N0s.length < 2 → j.design = .error .indexError) := by
  constructor
  · intro h hg
    rcases hn : j.N0s with _ | ⟨a, _ | ⟨b, r⟩⟩
    · simp [hn] at h
    · simp [hn] at h
    · have hc : ∃ x, j.chordForce = .ok x := ⟨_, by unfold KDes.chordForce; rw [hn]⟩
      obtain ⟨x, hx⟩ := hc
      have hv : j.V0gap = .error .attributeError := by
        unfold KDes.V0gap
        cases hj : j.gapEl with
        | none => rfl
        | one f g => exact absurd hj (hg f g)
        | two => rfl
      simp only [KDes.design, bind, Except.bind, hx, hv]
  · intro h
    have hc : j.chordForce = .error .indexError := by
      unfold KDes.chordForce
      rcases hn : j.N0s with _ | ⟨a, _ | ⟨b, r⟩⟩
      · rfl
      · rfl
      · simp [hn] at h
    simp only [KDes.design, bind, Except.bind, hc]

/-- A gap joint with two braces 60 x 4 under 45 degrees on the chord 100 x 5 in compression. -/
example : let j : KDes := ⟨exK.chord, fun i => (exK.braces i).sec, exK.angles, 20, 0, 0, ![-50000, 50000], [-200000, -100000], .one 1000 (-2000)⟩
    j.N0s = -200000 :: -100000 :: [] ∧ (∀ k, 0 < (j.brace k).B ∧ 0 < (j.brace k).H ∧ 0 < (j.brace k).T ∧ 0 < (j.brace k).P.fy ∧ 4 * (j.brace k).T ≤ 2 * (j.brace k).H) ∧ (∀ k, 0 < j.angle k ∧ j.angle k < 180) ∧
    35 / 100 ≤ ((j.brace 0).B + (j.brace 1).B + (j.brace 0).H + (j.brace 1).H) / (4 * j.chord.B) ∧ -(-100000) / j.chord.P.sec.A ≤ j.chord.P.fy := by
  refine ⟨rfl, fun k => exK_dims k, fun k => ?_, ?_, ?_⟩
  · fin_cases k <;> norm_num [exK]
  · norm_num [exK]
  · norm_num [exK, exProfile]

end

end Metku.Truss
