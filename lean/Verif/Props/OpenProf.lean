import Mathlib.Analysis.SpecialFunctions.Integrals.Basic
import Mathlib.Tactic.LinearCombination
import Verif.Model.OpenProf

/-!
Thin-walled open sections (C243-C246).

The specification is an integral over the wall: the wall consists of straight parts of thickness `t`, a point of
a part is `a + u (b - a)`, and the integrand may depend on the point and on twice the area that the ray from a
pole `P` to the point has swept since the first point of the wall.
-/
namespace Metku.Cold

open Metku

/-! ### Specification -/

/-- Point at the fraction `u` of a straight part. -/
def wallPt (s : Seg) (u : ℝ) : Pt := (s.a.1 + u * (s.b.1 - s.a.1), s.a.2 + u * (s.b.2 - s.a.2))

/-- Twice the signed area of the triangle `P a x`. -/
def swept (P a x : Pt) : ℝ := (a.1 - P.1) * (x.2 - P.2) - (x.1 - P.1) * (a.2 - P.2)

/-- Integral over the wall of `F (point) (area swept about P, starting from w)`. -/
noncomputable def wallInt (P : Pt) (F : Pt → ℝ → ℝ) : ℝ → List Seg → ℝ
  | _, [] => 0
  | w, s :: r => s.t * √((s.b.1 - s.a.1) ^ 2 + (s.b.2 - s.a.2) ^ 2) *
      (∫ u in (0 : ℝ)..1, F (wallPt s u) (w + swept P s.a (wallPt s u))) + wallInt P F (w + swept P s.a s.b) r

/-- Integral over the wall of a function of the point. -/
noncomputable def wallIntegral (f : Pt → ℝ) (l : List Seg) : ℝ := wallInt (0, 0) (fun x _ => f x) 0 l

/-- Mean of the area swept about `P`. -/
noncomputable def meanSwept (P : Pt) (l : List Seg) : ℝ :=
  wallInt P (fun _ w => w) 0 l / wallIntegral (fun _ => 1) l

/-- Warping about `P` (area swept, less its mean) does no work with bending about either axis. -/
def IsShearCentre (P : Pt) (l : List Seg) : Prop :=
  wallInt P (fun x w => (w - meanSwept P l) * x.1) 0 l = 0 ∧
  wallInt P (fun x w => (w - meanSwept P l) * x.2) 0 l = 0

/-- Each part begins where the part before it ends. -/
def Chain : Pt → List Seg → Prop
  | _, [] => True
  | p, s :: r => s.a = p ∧ Chain s.b r

/-- Profiles a user can have: constructed, and then split any number of times. -/
inductive Built : OpenProf → Prop
  | new {nodes t p} : newProf nodes t = .ok p → Built p
  | split {p q n s} : Built p → p.split n s = .ok q → Built q

/-! ### Quadratic integrands -/

/-- A quadratic polynomial of `y`, `z` and the swept area. -/
structure Quad where
  (c0 cy cz cw cyy czz cww cyz cyw czw : ℝ)

/-- Its value. -/
def Quad.eval (q : Quad) (x : Pt) (w : ℝ) : ℝ :=
  q.c0 + q.cy * x.1 + q.cz * x.2 + q.cw * w + q.cyy * x.1 ^ 2 + q.czz * x.2 ^ 2 + q.cww * w ^ 2 +
    q.cyz * (x.1 * x.2) + q.cyw * (x.1 * w) + q.czw * (x.2 * w)

theorem integral_quadratic (a b c : ℝ) : (∫ u in (0 : ℝ)..1, (a + b * u + c * u ^ 2)) = a + b / 2 + c / 3 := by
  rw [intervalIntegral.integral_add, intervalIntegral.integral_add]
  · rw [intervalIntegral.integral_const, intervalIntegral.integral_const_mul, intervalIntegral.integral_const_mul,
      integral_id, integral_pow]
    norm_num
    ring
  all_goals exact Continuous.intervalIntegrable (by fun_prop) _ _

theorem seg_int (q : Quad) (P : Pt) (s : Seg) (w : ℝ) :
    (∫ u in (0 : ℝ)..1, q.eval (wallPt s u) (w + swept P s.a (wallPt s u))) =
      (q.eval s.a w + 4 * q.eval (wallPt s (1 / 2)) (w + swept P s.a s.b / 2) + q.eval s.b (w + swept P s.a s.b)) / 6 := by
  have h : (fun u : ℝ => q.eval (wallPt s u) (w + swept P s.a (wallPt s u))) = fun u =>
      q.eval s.a w + (q.cy * (s.b.1 - s.a.1) + q.cz * (s.b.2 - s.a.2) + q.cw * swept P s.a s.b
        + q.cyy * (2 * s.a.1 * (s.b.1 - s.a.1)) + q.czz * (2 * s.a.2 * (s.b.2 - s.a.2))
        + q.cww * (2 * w * swept P s.a s.b)
        + q.cyz * (s.a.1 * (s.b.2 - s.a.2) + s.a.2 * (s.b.1 - s.a.1))
        + q.cyw * (s.a.1 * swept P s.a s.b + w * (s.b.1 - s.a.1))
        + q.czw * (s.a.2 * swept P s.a s.b + w * (s.b.2 - s.a.2))) * u
      + (q.cyy * (s.b.1 - s.a.1) ^ 2 + q.czz * (s.b.2 - s.a.2) ^ 2 + q.cww * swept P s.a s.b ^ 2
        + q.cyz * ((s.b.1 - s.a.1) * (s.b.2 - s.a.2)) + q.cyw * ((s.b.1 - s.a.1) * swept P s.a s.b)
        + q.czw * ((s.b.2 - s.a.2) * swept P s.a s.b)) * u ^ 2 := by
    funext u
    simp only [Quad.eval, wallPt, swept]
    ring
  rw [h, integral_quadratic]
  simp only [Quad.eval, wallPt]
  ring

/-- Moments of the wall about the pole `P`: values of all monomials. -/
noncomputable def mom (P : Pt) (w : ℝ) (l : List Seg) : Quad where
  c0 := wallInt P (fun _ _ => 1) w l
  cy := wallInt P (fun x _ => x.1) w l
  cz := wallInt P (fun x _ => x.2) w l
  cw := wallInt P (fun _ w => w) w l
  cyy := wallInt P (fun x _ => x.1 ^ 2) w l
  czz := wallInt P (fun x _ => x.2 ^ 2) w l
  cww := wallInt P (fun _ w => w ^ 2) w l
  cyz := wallInt P (fun x _ => x.1 * x.2) w l
  cyw := wallInt P (fun x w => x.1 * w) w l
  czw := wallInt P (fun x w => x.2 * w) w l

theorem eval_mono :
    (fun (_ : Pt) (_ : ℝ) => (1 : ℝ)) = (Quad.mk 1 0 0 0 0 0 0 0 0 0).eval ∧
    (fun (x : Pt) (_ : ℝ) => x.1) = (Quad.mk 0 1 0 0 0 0 0 0 0 0).eval ∧
    (fun (x : Pt) (_ : ℝ) => x.2) = (Quad.mk 0 0 1 0 0 0 0 0 0 0).eval ∧
    (fun (_ : Pt) (w : ℝ) => w) = (Quad.mk 0 0 0 1 0 0 0 0 0 0).eval ∧
    (fun (x : Pt) (_ : ℝ) => x.1 ^ 2) = (Quad.mk 0 0 0 0 1 0 0 0 0 0).eval ∧
    (fun (x : Pt) (_ : ℝ) => x.2 ^ 2) = (Quad.mk 0 0 0 0 0 1 0 0 0 0).eval ∧
    (fun (_ : Pt) (w : ℝ) => w ^ 2) = (Quad.mk 0 0 0 0 0 0 1 0 0 0).eval ∧
    (fun (x : Pt) (_ : ℝ) => x.1 * x.2) = (Quad.mk 0 0 0 0 0 0 0 1 0 0).eval ∧
    (fun (x : Pt) (w : ℝ) => x.1 * w) = (Quad.mk 0 0 0 0 0 0 0 0 1 0).eval ∧
    (fun (x : Pt) (w : ℝ) => x.2 * w) = (Quad.mk 0 0 0 0 0 0 0 0 0 1).eval := by
  refine ⟨?_, ?_, ?_, ?_, ?_, ?_, ?_, ?_, ?_, ?_⟩ <;> (funext x w; simp [Quad.eval])

theorem wallInt_quad (q : Quad) (P : Pt) (w : ℝ) (l : List Seg) :
    wallInt P q.eval w l = q.c0 * (mom P w l).c0 + q.cy * (mom P w l).cy + q.cz * (mom P w l).cz +
      q.cw * (mom P w l).cw + q.cyy * (mom P w l).cyy + q.czz * (mom P w l).czz + q.cww * (mom P w l).cww +
      q.cyz * (mom P w l).cyz + q.cyw * (mom P w l).cyw + q.czw * (mom P w l).czw := by
  obtain ⟨e0, e1, e2, e3, e4, e5, e6, e7, e8, e9⟩ := eval_mono
  unfold mom
  simp only
  rw [e0, e1, e2, e3, e4, e5, e6, e7, e8, e9]
  induction l generalizing w with
  | nil => simp [wallInt]
  | cons s r ih =>
    simp only [wallInt]
    rw [ih (w + swept P s.a s.b)]
    simp only [seg_int]
    simp only [Quad.eval]
    ring

/-! ### Change of pole, motions, reversal -/

/-- The pole plays no part when the integrand does not depend on the swept area. -/
theorem wallInt_pole (P P' : Pt) (f : Pt → ℝ) (w w' : ℝ) (l : List Seg) :
    wallInt P (fun x _ => f x) w l = wallInt P' (fun x _ => f x) w' l := by
  induction l generalizing w w' with
  | nil => rfl
  | cons s r ih =>
    simp only [wallInt]
    rw [ih (w + swept P s.a s.b) (w' + swept P' s.a s.b)]

/-- The area swept about `P` from the area swept about the origin. -/
theorem wallInt_chain (P c : Pt) (F : Pt → ℝ → ℝ) (p : Pt) (l : List Seg) (h : Chain p l) (w : ℝ) :
    wallInt P F (w - P.1 * (p.2 - c.2) + P.2 * (p.1 - c.1)) l =
      wallInt (0, 0) (fun x v => F x (v - P.1 * (x.2 - c.2) + P.2 * (x.1 - c.1))) w l := by
  induction l generalizing p w with
  | nil => rfl
  | cons s r ih =>
    obtain ⟨rfl, hr⟩ := h
    simp only [wallInt]
    have e1 : w - P.1 * (s.a.2 - c.2) + P.2 * (s.a.1 - c.1) + swept P s.a s.b =
        (w + swept (0, 0) s.a s.b) - P.1 * (s.b.2 - c.2) + P.2 * (s.b.1 - c.1) := by
      simp only [swept]; ring
    rw [e1, ih s.b hr]
    congr 3
    funext u
    congr 1
    simp only [swept, wallPt]
    ring

/-- A motion of the plane, with a reflection when `e = -1`. -/
structure Motion where
  (c s a b e : ℝ)
  unit : c ^ 2 + s ^ 2 = 1
  orient : e ^ 2 = 1

/-- Image of a point. -/
def Motion.pt (m : Motion) (x : Pt) : Pt :=
  (m.c * x.1 - m.e * m.s * x.2 + m.a, m.s * x.1 + m.e * m.c * x.2 + m.b)

/-- Image of a straight part. -/
def Motion.seg (m : Motion) (s : Seg) : Seg := ⟨m.pt s.a, m.pt s.b, s.t⟩

theorem Motion.swept (m : Motion) (P a x : Pt) : swept (m.pt P) (m.pt a) (m.pt x) = m.e * swept P a x := by
  simp only [Cold.swept, Motion.pt]
  linear_combination (m.e * ((a.1 - P.1) * (x.2 - P.2) - (x.1 - P.1) * (a.2 - P.2))) * m.unit

theorem Motion.wallPt (m : Motion) (s : Seg) (u : ℝ) : wallPt (m.seg s) u = m.pt (wallPt s u) := by
  simp only [Cold.wallPt, Motion.pt, Motion.seg, Prod.mk.injEq]
  constructor <;> ring

theorem Motion.wallInt (m : Motion) (P : Pt) (F : Pt → ℝ → ℝ) (w : ℝ) (l : List Seg) :
    wallInt (m.pt P) F (m.e * w) (l.map m.seg) = wallInt P (fun x v => F (m.pt x) (m.e * v)) w l := by
  induction l generalizing w with
  | nil => rfl
  | cons s r ih =>
    simp only [List.map_cons, Cold.wallInt, Motion.wallPt]
    have e1 : m.e * w + Cold.swept (m.pt P) (m.seg s).a (m.seg s).b = m.e * (w + Cold.swept P s.a s.b) := by
      simp only [Motion.seg, Motion.swept]; ring
    have e2 : ((m.seg s).b.1 - (m.seg s).a.1) ^ 2 + ((m.seg s).b.2 - (m.seg s).a.2) ^ 2 =
        (s.b.1 - s.a.1) ^ 2 + (s.b.2 - s.a.2) ^ 2 := by
      simp only [Motion.seg, Motion.pt]
      linear_combination ((s.b.1 - s.a.1) ^ 2 + m.e ^ 2 * (s.b.2 - s.a.2) ^ 2) * m.unit +
        (s.b.2 - s.a.2) ^ 2 * m.orient
    rw [e1, ih, e2]
    congr 3
    funext u
    congr 1
    simp only [Motion.seg, Motion.swept]
    ring

/-- A straight part run through backwards. -/
def Seg.flip (s : Seg) : Seg := ⟨s.b, s.a, s.t⟩

/-- Area swept by the whole wall. -/
def sweptAll (P : Pt) (l : List Seg) : ℝ := (l.map fun s => swept P s.a s.b).sum

theorem wallInt_append (P : Pt) (F : Pt → ℝ → ℝ) (w : ℝ) (l r : List Seg) :
    wallInt P F w (l ++ r) = wallInt P F w l + wallInt P F (w + sweptAll P l) r := by
  induction l generalizing w with
  | nil => simp [wallInt, sweptAll]
  | cons s l ih =>
    simp only [List.cons_append, wallInt, ih]
    rw [show w + swept P s.a s.b + sweptAll P l = w + sweptAll P (s :: l) by
      simp only [sweptAll, List.map_cons, List.sum_cons]; ring]
    ring

theorem sweptAll_flip (P : Pt) (l : List Seg) : sweptAll P (l.map Seg.flip).reverse = -sweptAll P l := by
  unfold sweptAll
  rw [List.map_reverse, List.sum_reverse, List.map_map]
  induction l with
  | nil => simp
  | cons s l ih =>
    rw [List.map_cons, List.sum_cons, ih, List.map_cons, List.sum_cons]
    have : swept P s.flip.a s.flip.b = -swept P s.a s.b := by simp only [swept, Seg.flip]; ring
    simp only [Function.comp, this]
    ring

theorem wallInt_flip (P : Pt) (F : Pt → ℝ → ℝ) (w : ℝ) (l : List Seg) :
    wallInt P F w (l.map Seg.flip).reverse = wallInt P F (w - sweptAll P l) l := by
  induction l generalizing w with
  | nil => rfl
  | cons s l ih =>
    rw [List.map_cons, List.reverse_cons, wallInt_append, sweptAll_flip, ih]
    simp only [wallInt]
    have e1 : w - sweptAll P (s :: l) + swept P s.a s.b = w - sweptAll P l := by
      simp only [sweptAll, List.map_cons, List.sum_cons]; ring
    rw [e1]
    have e2 : (∫ u in (0 : ℝ)..1, F (wallPt s.flip u) (w + -sweptAll P l + swept P s.flip.a (wallPt s.flip u))) =
        ∫ u in (0 : ℝ)..1, F (wallPt s u) (w - sweptAll P (s :: l) + swept P s.a (wallPt s u)) := by
      rw [show (fun u : ℝ => F (wallPt s.flip u) (w + -sweptAll P l + swept P s.flip.a (wallPt s.flip u))) =
        fun u => (fun u => F (wallPt s u) (w - sweptAll P (s :: l) + swept P s.a (wallPt s u))) (1 - u) by
          funext u
          have : wallPt s.flip u = wallPt s (1 - u) := by
            simp only [wallPt, Seg.flip, Prod.mk.injEq]; constructor <;> ring
          rw [this]
          congr 1
          simp only [sweptAll, List.map_cons, List.sum_cons, swept, Seg.flip, wallPt]
          ring]
      rw [intervalIntegral.integral_comp_sub_left (fun u => F (wallPt s u) (w - sweptAll P (s :: l) + swept P s.a (wallPt s u))) 1]
      norm_num
    rw [e2, show (s.flip.b.1 - s.flip.a.1) ^ 2 + (s.flip.b.2 - s.flip.a.2) ^ 2 =
      (s.b.1 - s.a.1) ^ 2 + (s.b.2 - s.a.2) ^ 2 by simp only [Seg.flip]; ring]
    simp only [Seg.flip]
    ring

/-- Cutting a straight part in two changes no integral of a quadratic function. -/
theorem wallInt_split (q : Quad) (P : Pt) (w : ℝ) (l : List Seg) (n : ℕ) (g : Seg) (u : ℝ) (h0 : 0 ≤ u) (h1 : u ≤ 1)
    (hg : l[n]? = some g) :
    wallInt P q.eval w (l.take n ++ ⟨g.a, wallPt g u, g.t⟩ :: ⟨wallPt g u, g.b, g.t⟩ :: l.drop (n + 1)) =
      wallInt P q.eval w l := by
  induction l generalizing n w with
  | nil => simp at hg
  | cons s r ih =>
    cases n with
    | succ n =>
      simp only [List.take_succ_cons, List.cons_append, List.drop_succ_cons, wallInt]
      rw [ih _ n (by simpa using hg)]
    | zero =>
      simp only [List.getElem?_cons_zero, Option.some.injEq] at hg
      subst hg
      simp only [List.take_zero, List.nil_append, zero_add, List.drop_succ_cons, List.drop_zero, wallInt, seg_int]
      have e1 : √(((wallPt s u).1 - s.a.1) ^ 2 + ((wallPt s u).2 - s.a.2) ^ 2) =
          u * √((s.b.1 - s.a.1) ^ 2 + (s.b.2 - s.a.2) ^ 2) := by
        rw [show ((wallPt s u).1 - s.a.1) ^ 2 + ((wallPt s u).2 - s.a.2) ^ 2 =
          u ^ 2 * ((s.b.1 - s.a.1) ^ 2 + (s.b.2 - s.a.2) ^ 2) by simp only [wallPt]; ring,
          Real.sqrt_mul (sq_nonneg u), Real.sqrt_sq h0]
      have e2 : √((s.b.1 - (wallPt s u).1) ^ 2 + (s.b.2 - (wallPt s u).2) ^ 2) =
          (1 - u) * √((s.b.1 - s.a.1) ^ 2 + (s.b.2 - s.a.2) ^ 2) := by
        rw [show (s.b.1 - (wallPt s u).1) ^ 2 + (s.b.2 - (wallPt s u).2) ^ 2 =
          (1 - u) ^ 2 * ((s.b.1 - s.a.1) ^ 2 + (s.b.2 - s.a.2) ^ 2) by simp only [wallPt]; ring,
          Real.sqrt_mul (sq_nonneg _), Real.sqrt_sq (by linarith)]
      have e3 : w + swept P s.a (wallPt s u) + swept P (wallPt s u) s.b = w + swept P s.a s.b := by
        simp only [swept, wallPt]; ring
      rw [e1, e2, e3]
      generalize √((s.b.1 - s.a.1) ^ 2 + (s.b.2 - s.a.2) ^ 2) = L
      simp only [Quad.eval, wallPt, swept]
      ring

/-! ### The model in terms of integrals -/

/-- Nodes and parts of a profile agree. -/
def Cons (p : OpenProf) : Prop :=
  ∃ c, Chain c p.segs ∧ (p.nodes = c :: p.segs.map Seg.b ∨ p.nodes = [] ∧ p.segs = [])

theorem mkSegs_cons (c : Pt) (ps : List Pt) (ts : List ℝ) (segs : List Seg) (h : mkSegs (c :: ps) ts = .ok segs) :
    Chain c segs ∧ c :: ps = c :: segs.map Seg.b := by
  induction ps generalizing c ts segs with
  | nil =>
    simp only [mkSegs, Except.ok.injEq] at h
    subst h
    simp [Chain]
  | cons q ps ih =>
    cases ts with
    | nil => simp [mkSegs] at h
    | cons t ts =>
      simp only [mkSegs, bind, Except.bind] at h
      cases hr : mkSegs (q :: ps) ts with
      | error e => rw [hr] at h; cases h
      | ok r =>
        rw [hr] at h
        obtain rfl := Except.ok.inj h
        obtain ⟨h1, h2⟩ := ih q ts r hr
        exact ⟨⟨rfl, h1⟩, by simp only [List.map_cons]; rw [← h2]⟩

theorem newProf_spec {nodes : List Pt} {t : ThickArg} {p : OpenProf} (h : newProf nodes t = .ok p) :
    p.nodes = nodes ∧ (∃ ts, mkSegs nodes ts = .ok p.segs) := by
  cases t with
  | float t =>
    simp only [newProf, bind, Except.bind] at h
    cases hr : mkSegs nodes (List.replicate (nodes.length - 1) t) with
    | error e => rw [hr] at h; cases h
    | ok r => rw [hr] at h; obtain rfl := Except.ok.inj h; exact ⟨rfl, _, hr⟩
  | seq ts =>
    simp only [newProf, bind, Except.bind] at h
    cases hr : mkSegs nodes ts with
    | error e => rw [hr] at h; cases h
    | ok r => rw [hr] at h; obtain rfl := Except.ok.inj h; exact ⟨rfl, _, hr⟩
  | int t =>
    simp only [newProf] at h
    split at h
    · rename_i hl
      obtain rfl := Except.ok.inj h
      refine ⟨rfl, [], ?_⟩
      match nodes, hl with
      | [], _ => rfl
      | [_], _ => rfl
    · cases h

theorem Chain_split (c : Pt) (l : List Seg) (n : ℕ) (g : Seg) (x : Pt) (hg : l[n]? = some g) (h : Chain c l) :
    Chain c (l.take n ++ ⟨g.a, x, g.t⟩ :: ⟨x, g.b, g.t⟩ :: l.drop (n + 1)) ∧
    (l.take n ++ ⟨g.a, x, g.t⟩ :: ⟨x, g.b, g.t⟩ :: l.drop (n + 1)).map Seg.b = (l.map Seg.b).insertIdx n x := by
  induction l generalizing c n with
  | nil => simp at hg
  | cons s r ih =>
    cases n with
    | succ n =>
      obtain ⟨h1, h2⟩ := ih s.b n (by simpa using hg) h.2
      refine ⟨⟨h.1, h1⟩, ?_⟩
      simp only [List.take_succ_cons, List.cons_append, List.drop_succ_cons, List.map_cons, List.insertIdx_succ_cons]
      rw [h2]
    | zero =>
      simp only [List.getElem?_cons_zero, Option.some.injEq] at hg
      subst hg
      exact ⟨⟨h.1, rfl, h.2⟩, by simp⟩

theorem split_spec {p q : OpenProf} {n : ℕ} {u : ℝ} (h : p.split n u = .ok q) :
    ∃ g, p.segs[n]? = some g ∧ q.t = p.t ∧ q.nodes = p.nodes.insertIdx (n + 1) (wallPt g u) ∧
      q.segs = p.segs.take n ++ ⟨g.a, wallPt g u, g.t⟩ :: ⟨wallPt g u, g.b, g.t⟩ :: p.segs.drop (n + 1) := by
  unfold OpenProf.split at h
  cases hg : p.segs[n]? with
  | none => rw [hg] at h; cases h
  | some g => rw [hg] at h; obtain rfl := Except.ok.inj h; exact ⟨g, rfl, rfl, rfl, rfl⟩

theorem Built.cons {p : OpenProf} (h : Built p) : Cons p := by
  induction h with
  | @new nodes t p h =>
    obtain ⟨h1, ts, h2⟩ := newProf_spec h
    cases nodes with
    | nil =>
      have h3 := Except.ok.inj h2
      exact ⟨(0, 0), by rw [← h3]; trivial, Or.inr ⟨h1, h3.symm⟩⟩
    | cons c ps =>
      obtain ⟨h3, h4⟩ := mkSegs_cons c ps ts _ h2
      exact ⟨c, h3, Or.inl (h1.trans h4)⟩
  | @split p q n u _ h ih =>
    obtain ⟨g, hg, -, hn, hs⟩ := split_spec h
    obtain ⟨c, h1, h2⟩ := ih
    obtain ⟨h3, h4⟩ := Chain_split c p.segs n g (wallPt g u) hg h1
    refine ⟨c, by rw [hs]; exact h3, Or.inl ?_⟩
    rcases h2 with h2 | ⟨-, h2⟩
    · rw [hn, h2, List.insertIdx_succ_cons, hs, h4]
    · rw [h2] at hg; simp at hg

theorem sum_wallInt (g : Seg → ℝ) (F : Pt → ℝ → ℝ) (w : ℝ) (l : List Seg)
    (h : ∀ s w, s.t * √((s.b.1 - s.a.1) ^ 2 + (s.b.2 - s.a.2) ^ 2) *
      (∫ u in (0 : ℝ)..1, F (wallPt s u) (w + swept (0, 0) s.a (wallPt s u))) = g s) :
    (l.map g).sum = wallInt (0, 0) F w l := by
  induction l generalizing w with
  | nil => rfl
  | cons s r ih => simp only [List.map_cons, List.sum_cons, wallInt, h, ih (w + swept (0, 0) s.a s.b)]

theorem loop_wallInt (G : Pt → Pt → ℝ → ℝ → ℝ) (F : Pt → ℝ → ℝ) (w : ℝ) (c : Pt) (l : List Seg) (hc : Chain c l)
    (h : ∀ s w, (∫ u in (0 : ℝ)..1, F (wallPt s u) (w + swept (0, 0) s.a (wallPt s u))) =
      G s.a s.b w (w + swept (0, 0) s.a s.b)) :
    OpenProf.loop G (l.map Seg.area) (c :: l.map Seg.b) (OpenProf.sect w (c :: l.map Seg.b)) =
      wallInt (0, 0) F w l := by
  induction l generalizing w c with
  | nil => rfl
  | cons s r ih =>
    obtain ⟨rfl, hr⟩ := hc
    have e : w + s.a.1 * s.b.2 - s.b.1 * s.a.2 = w + swept (0, 0) s.a s.b := by simp only [swept]; ring
    have e2 : OpenProf.sect w (s.a :: s.b :: r.map Seg.b) =
        w :: OpenProf.sect (w + swept (0, 0) s.a s.b) (s.b :: r.map Seg.b) := by
      rw [OpenProf.sect, e]
    have e3 : ∃ ws, OpenProf.sect (w + swept (0, 0) s.a s.b) (s.b :: r.map Seg.b) =
        (w + swept (0, 0) s.a s.b) :: ws := by
      cases r with
      | nil => exact ⟨[], rfl⟩
      | cons s' r => exact ⟨_, rfl⟩
    obtain ⟨ws, e3⟩ := e3
    have := ih (w + swept (0, 0) s.a s.b) s.b hr
    rw [e3] at this
    simp only [List.map_cons]
    rw [e2, e3, OpenProf.loop, this, wallInt, h]
    rfl

/-- Simpson's value of the integral over a part. -/
noncomputable def simpson (q : Quad) (s : Seg) (w : ℝ) : ℝ :=
  (q.eval s.a w + 4 * q.eval (wallPt s (1 / 2)) (w + swept (0, 0) s.a s.b / 2) +
    q.eval s.b (w + swept (0, 0) s.a s.b)) / 6

theorem sum_quad (g : Seg → ℝ) {F : Pt → ℝ → ℝ} {q : Quad} (hF : F = q.eval) (w : ℝ) (l : List Seg)
    (h : ∀ s w, s.t * √((s.b.1 - s.a.1) ^ 2 + (s.b.2 - s.a.2) ^ 2) * simpson q s w = g s) :
    (l.map g).sum = wallInt (0, 0) F w l := by
  subst hF
  refine sum_wallInt g _ w l fun s w => ?_
  rw [seg_int]
  exact h s w

theorem area_mom (p : OpenProf) : p.area = (mom (0, 0) 0 p.segs).c0 := by
  refine sum_quad _ eval_mono.1 _ _ fun s w => ?_
  simp only [simpson, Quad.eval, Seg.area, Seg.length]
  ring

theorem Sz0_mom (p : OpenProf) : p.Sz0 = (mom (0, 0) 0 p.segs).cy := by
  refine sum_quad _ eval_mono.2.1 _ _ fun s w => ?_
  simp only [simpson, Quad.eval, Seg.area, Seg.length, Seg.firstZ, wallPt]
  ring

theorem Sy0_mom (p : OpenProf) : p.Sy0 = (mom (0, 0) 0 p.segs).cz := by
  refine sum_quad _ eval_mono.2.2.1 _ _ fun s w => ?_
  simp only [simpson, Quad.eval, Seg.area, Seg.length, Seg.firstY, wallPt]
  ring

theorem Iz0_mom (p : OpenProf) : p.Iz0 = (mom (0, 0) 0 p.segs).cyy := by
  refine sum_quad _ eval_mono.2.2.2.2.1 _ _ fun s w => ?_
  simp only [simpson, Quad.eval, Seg.area, Seg.length, Seg.secondZ, wallPt]
  ring

theorem Iy0_mom (p : OpenProf) : p.Iy0 = (mom (0, 0) 0 p.segs).czz := by
  refine sum_quad _ eval_mono.2.2.2.2.2.1 _ _ fun s w => ?_
  simp only [simpson, Quad.eval, Seg.area, Seg.length, Seg.secondY, wallPt]
  ring

theorem Iyz0_mom (p : OpenProf) : p.Iyz0 = (mom (0, 0) 0 p.segs).cyz := by
  refine sum_quad _ eval_mono.2.2.2.2.2.2.2.1 _ _ fun s w => ?_
  simp only [simpson, Quad.eval, Seg.area, Seg.length, Seg.product, wallPt]
  ring

theorem sumW_mom (p : OpenProf) (hp : Cons p) (G : Pt → Pt → ℝ → ℝ → ℝ) (F : Pt → ℝ → ℝ)
    {q : Quad} (hF : F = q.eval) (h : ∀ s w, simpson q s w = G s.a s.b w (w + swept (0, 0) s.a s.b)) :
    p.sumW G = wallInt (0, 0) F 0 p.segs := by
  have h : ∀ s w, (∫ u in (0 : ℝ)..1, F (wallPt s u) (w + swept (0, 0) s.a (wallPt s u))) =
      G s.a s.b w (w + swept (0, 0) s.a s.b) := by
    intro s w
    rw [hF, seg_int]
    exact h s w
  obtain ⟨c, hc, hn | ⟨hn, hs⟩⟩ := hp
  · unfold OpenProf.sumW
    rw [hn]
    exact loop_wallInt G F 0 c p.segs hc h
  · unfold OpenProf.sumW
    rw [hn, hs]
    rfl

theorem Iw_mom (p : OpenProf) (hp : Cons p) : p.Iw = (mom (0, 0) 0 p.segs).cw := by
  refine sumW_mom p hp _ _ eval_mono.2.2.2.1 fun s w => ?_
  simp only [simpson, Quad.eval]
  ring

theorem Iyw_mom (p : OpenProf) (hp : Cons p) : p.Iyw = (mom (0, 0) 0 p.segs).cyw -
    (mom (0, 0) 0 p.segs).cy * (mom (0, 0) 0 p.segs).cw / (mom (0, 0) 0 p.segs).c0 := by
  unfold OpenProf.Iyw
  rw [Iw_mom p hp, Sz0_mom, area_mom, sumW_mom p hp _ (fun x w => x.1 * w) eval_mono.2.2.2.2.2.2.2.2.1]
  · rfl
  · intro s w
    simp only [simpson, Quad.eval, wallPt]
    ring

theorem Izw_mom (p : OpenProf) (hp : Cons p) : p.Izw = (mom (0, 0) 0 p.segs).czw -
    (mom (0, 0) 0 p.segs).cz * (mom (0, 0) 0 p.segs).cw / (mom (0, 0) 0 p.segs).c0 := by
  unfold OpenProf.Izw
  rw [Iw_mom p hp, Sy0_mom, area_mom, sumW_mom p hp _ (fun x w => x.2 * w) eval_mono.2.2.2.2.2.2.2.2.2]
  · rfl
  · intro s w
    simp only [simpson, Quad.eval, wallPt]
    ring

theorem Iww_mom (p : OpenProf) (hp : Cons p) : p.Iww = (mom (0, 0) 0 p.segs).cww -
    (mom (0, 0) 0 p.segs).cw ^ 2 / (mom (0, 0) 0 p.segs).c0 := by
  unfold OpenProf.Iww
  rw [Iw_mom p hp, area_mom, sumW_mom p hp _ (fun _ w => w ^ 2) eval_mono.2.2.2.2.2.2.1]
  · rfl
  · intro s w
    simp only [simpson, Quad.eval]
    ring

/-! ### Covariances with the area swept about a pole -/

theorem chain_quad (P : Pt) {c : Pt} {l : List Seg} (h : Chain c l) (F : Pt → ℝ → ℝ) (q : Quad)
    (hF : ∀ x v, F x (v - P.1 * (x.2 - c.2) + P.2 * (x.1 - c.1)) = q.eval x v) :
    wallInt P F 0 l = wallInt (0, 0) q.eval 0 l := by
  have := wallInt_chain P c F c l h 0
  simp only [sub_self, mul_zero, add_zero] at this
  rw [this]
  congr 1
  funext x v
  exact hF x v

theorem integral_swept (P : Pt) {c : Pt} {l : List Seg} (h : Chain c l) :
    wallInt P (fun _ w => w) 0 l = (mom (0, 0) 0 l).cw - P.1 * ((mom (0, 0) 0 l).cz - c.2 * (mom (0, 0) 0 l).c0) +
      P.2 * ((mom (0, 0) 0 l).cy - c.1 * (mom (0, 0) 0 l).c0) := by
  rw [chain_quad P h _ ⟨P.1 * c.2 - P.2 * c.1, P.2, -P.1, 1, 0, 0, 0, 0, 0, 0⟩
    (fun x v => by simp only [Quad.eval]; ring), wallInt_quad]
  ring

theorem wallIntegral_one (l : List Seg) : wallIntegral (fun _ => 1) l = (mom (0, 0) 0 l).c0 := rfl

theorem meanSwept_eq (P : Pt) {c : Pt} {l : List Seg} (h : Chain c l) (hA : (mom (0, 0) 0 l).c0 ≠ 0) :
    meanSwept P l * (mom (0, 0) 0 l).c0 = (mom (0, 0) 0 l).cw -
      P.1 * ((mom (0, 0) 0 l).cz - c.2 * (mom (0, 0) 0 l).c0) +
      P.2 * ((mom (0, 0) 0 l).cy - c.1 * (mom (0, 0) 0 l).c0) := by
  rw [meanSwept, integral_swept P h, wallIntegral_one, div_mul_cancel₀ _ hA]

theorem cov_y (P : Pt) {c : Pt} {l : List Seg} (h : Chain c l) (hA : (mom (0, 0) 0 l).c0 ≠ 0) :
    wallInt P (fun x w => (w - meanSwept P l) * x.1) 0 l =
      ((mom (0, 0) 0 l).cyw - (mom (0, 0) 0 l).cy * (mom (0, 0) 0 l).cw / (mom (0, 0) 0 l).c0) -
      P.1 * ((mom (0, 0) 0 l).cyz - (mom (0, 0) 0 l).cy * (mom (0, 0) 0 l).cz / (mom (0, 0) 0 l).c0) +
      P.2 * ((mom (0, 0) 0 l).cyy - (mom (0, 0) 0 l).cy ^ 2 / (mom (0, 0) 0 l).c0) := by
  have hm := meanSwept_eq P h hA
  rw [chain_quad P h _ ⟨0, P.1 * c.2 - P.2 * c.1 - meanSwept P l, 0, 0, P.2, 0, 0, -P.1, 1, 0⟩
    (fun x v => by simp only [Quad.eval]; ring), wallInt_quad]
  generalize meanSwept P l = m at *
  generalize mom (0, 0) 0 l = M at *
  field_simp
  linear_combination -M.cy * hm

theorem cov_z (P : Pt) {c : Pt} {l : List Seg} (h : Chain c l) (hA : (mom (0, 0) 0 l).c0 ≠ 0) :
    wallInt P (fun x w => (w - meanSwept P l) * x.2) 0 l =
      ((mom (0, 0) 0 l).czw - (mom (0, 0) 0 l).cz * (mom (0, 0) 0 l).cw / (mom (0, 0) 0 l).c0) -
      P.1 * ((mom (0, 0) 0 l).czz - (mom (0, 0) 0 l).cz ^ 2 / (mom (0, 0) 0 l).c0) +
      P.2 * ((mom (0, 0) 0 l).cyz - (mom (0, 0) 0 l).cy * (mom (0, 0) 0 l).cz / (mom (0, 0) 0 l).c0) := by
  have hm := meanSwept_eq P h hA
  rw [chain_quad P h _ ⟨0, 0, P.1 * c.2 - P.2 * c.1 - meanSwept P l, 0, 0, -P.1, 0, P.2, 0, 1⟩
    (fun x v => by simp only [Quad.eval]; ring), wallInt_quad]
  generalize meanSwept P l = m at *
  generalize mom (0, 0) 0 l = M at *
  field_simp
  linear_combination -M.cz * hm

theorem var_swept (P : Pt) {c : Pt} {l : List Seg} (h : Chain c l) (hA : (mom (0, 0) 0 l).c0 ≠ 0) :
    wallInt P (fun _ w => (w - meanSwept P l) ^ 2) 0 l =
      ((mom (0, 0) 0 l).cww - (mom (0, 0) 0 l).cw ^ 2 / (mom (0, 0) 0 l).c0) +
      P.1 ^ 2 * ((mom (0, 0) 0 l).czz - (mom (0, 0) 0 l).cz ^ 2 / (mom (0, 0) 0 l).c0) +
      P.2 ^ 2 * ((mom (0, 0) 0 l).cyy - (mom (0, 0) 0 l).cy ^ 2 / (mom (0, 0) 0 l).c0) -
      2 * P.1 * P.2 * ((mom (0, 0) 0 l).cyz - (mom (0, 0) 0 l).cy * (mom (0, 0) 0 l).cz / (mom (0, 0) 0 l).c0) -
      2 * P.1 * ((mom (0, 0) 0 l).czw - (mom (0, 0) 0 l).cz * (mom (0, 0) 0 l).cw / (mom (0, 0) 0 l).c0) +
      2 * P.2 * ((mom (0, 0) 0 l).cyw - (mom (0, 0) 0 l).cy * (mom (0, 0) 0 l).cw / (mom (0, 0) 0 l).c0) := by
  have hm := meanSwept_eq P h hA
  rw [chain_quad P h _ ⟨(P.1 * c.2 - P.2 * c.1 - meanSwept P l) ^ 2, 2 * P.2 * (P.1 * c.2 - P.2 * c.1 - meanSwept P l),
    -2 * P.1 * (P.1 * c.2 - P.2 * c.1 - meanSwept P l), 2 * (P.1 * c.2 - P.2 * c.1 - meanSwept P l),
    P.2 ^ 2, P.1 ^ 2, 1, -2 * P.1 * P.2, 2 * P.2, -2 * P.1⟩
    (fun x v => by simp only [Quad.eval]; ring), wallInt_quad]
  generalize meanSwept P l = m at *
  generalize mom (0, 0) 0 l = M at *
  have hm' : m = (M.cw - P.1 * (M.cz - c.2 * M.c0) + P.2 * (M.cy - c.1 * M.c0)) / M.c0 := by
    rw [← hm, mul_div_cancel_right₀ _ hA]
  rw [hm']
  field_simp
  ring

/-! ### C243: section properties are integrals over the wall -/

theorem Iy_eq (p : OpenProf) (hA : p.area ≠ 0) : p.Iy = (mom (0, 0) 0 p.segs).czz -
    (mom (0, 0) 0 p.segs).cz ^ 2 / (mom (0, 0) 0 p.segs).c0 := by
  unfold OpenProf.Iy OpenProf.centroid
  rw [area_mom] at *
  rw [Iy0_mom, Sy0_mom]
  field_simp

theorem Iz_eq (p : OpenProf) (hA : p.area ≠ 0) : p.Iz = (mom (0, 0) 0 p.segs).cyy -
    (mom (0, 0) 0 p.segs).cy ^ 2 / (mom (0, 0) 0 p.segs).c0 := by
  unfold OpenProf.Iz OpenProf.centroid
  rw [area_mom] at *
  rw [Iz0_mom, Sz0_mom]
  field_simp

theorem Iyz_eq (p : OpenProf) : p.Iyz = (mom (0, 0) 0 p.segs).cyz -
    (mom (0, 0) 0 p.segs).cy * (mom (0, 0) 0 p.segs).cz / (mom (0, 0) 0 p.segs).c0 := by
  unfold OpenProf.Iyz
  rw [area_mom, Iyz0_mom, Sz0_mom, Sy0_mom, mul_comm]

theorem C243_partial (p : OpenProf) :
    p.area = wallIntegral (fun _ => 1) p.segs ∧
    p.Sy0 = wallIntegral (fun x => x.2) p.segs ∧
    p.Sz0 = wallIntegral (fun x => x.1) p.segs ∧
    p.Iy0 = wallIntegral (fun x => x.2 ^ 2) p.segs ∧
    p.Iz0 = wallIntegral (fun x => x.1 ^ 2) p.segs ∧
    p.Iyz0 = wallIntegral (fun x => x.1 * x.2) p.segs ∧
    (p.area ≠ 0 →
      wallIntegral (fun x => x.1 - p.centroid.1) p.segs = 0 ∧
      wallIntegral (fun x => x.2 - p.centroid.2) p.segs = 0 ∧
      p.Iy = wallIntegral (fun x => (x.2 - p.centroid.2) ^ 2) p.segs ∧
      p.Iz = wallIntegral (fun x => (x.1 - p.centroid.1) ^ 2) p.segs ∧
      p.Iyz = wallIntegral (fun x => (x.1 - p.centroid.1) * (x.2 - p.centroid.2)) p.segs) := by
  refine ⟨area_mom p, Sy0_mom p, Sz0_mom p, Iy0_mom p, Iz0_mom p, Iyz0_mom p, fun hA => ?_⟩
  rw [Iy_eq p hA, Iz_eq p hA, Iyz_eq p]
  have hc : p.centroid = ((mom (0, 0) 0 p.segs).cy / (mom (0, 0) 0 p.segs).c0,
      (mom (0, 0) 0 p.segs).cz / (mom (0, 0) 0 p.segs).c0) := by
    unfold OpenProf.centroid; rw [area_mom, Sy0_mom, Sz0_mom]
  rw [hc]
  rw [area_mom] at hA
  generalize hM : mom (0, 0) 0 p.segs = M at *
  dsimp only
  unfold wallIntegral
  refine ⟨?_, ?_, ?_, ?_, ?_⟩
  · rw [show (fun (x : Pt) (_ : ℝ) => x.1 - M.cy / M.c0) = (Quad.mk (-(M.cy / M.c0)) 1 0 0 0 0 0 0 0 0).eval by
      funext x w; simp only [Quad.eval]; ring, wallInt_quad, hM]
    field_simp; ring
  · rw [show (fun (x : Pt) (_ : ℝ) => x.2 - M.cz / M.c0) = (Quad.mk (-(M.cz / M.c0)) 0 1 0 0 0 0 0 0 0).eval by
      funext x w; simp only [Quad.eval]; ring, wallInt_quad, hM]
    field_simp; ring
  · rw [show (fun (x : Pt) (_ : ℝ) => (x.2 - M.cz / M.c0) ^ 2) =
      (Quad.mk ((M.cz / M.c0) ^ 2) 0 (-2 * (M.cz / M.c0)) 0 0 1 0 0 0 0).eval by
      funext x w; simp only [Quad.eval]; ring, wallInt_quad, hM]
    field_simp; ring
  · rw [show (fun (x : Pt) (_ : ℝ) => (x.1 - M.cy / M.c0) ^ 2) =
      (Quad.mk ((M.cy / M.c0) ^ 2) (-2 * (M.cy / M.c0)) 0 0 1 0 0 0 0 0).eval by
      funext x w; simp only [Quad.eval]; ring, wallInt_quad, hM]
    field_simp; ring
  · rw [show (fun (x : Pt) (_ : ℝ) => (x.1 - M.cy / M.c0) * (x.2 - M.cz / M.c0)) =
      (Quad.mk (M.cy / M.c0 * (M.cz / M.c0)) (-(M.cz / M.c0)) (-(M.cy / M.c0)) 0 0 0 0 1 0 0).eval by
      funext x w; simp only [Quad.eval]; ring, wallInt_quad, hM]
    field_simp; ring

/-- The straight parts between consecutive nodes, each with its thickness. -/
def walls (nodes : List Pt) (ts : List ℝ) : List Seg :=
  List.zipWith (fun x t => ⟨x.1, x.2, t⟩) (nodes.zip nodes.tail) ts

theorem mkSegs_walls (nodes : List Pt) (ts : List ℝ) (h : nodes.length ≤ ts.length + 1) :
    mkSegs nodes ts = .ok (walls nodes ts) := by
  induction nodes generalizing ts with
  | nil => rfl
  | cons c ps ih =>
    cases ps with
    | nil => rfl
    | cons q ps =>
      cases ts with
      | nil => simp at h
      | cons t ts =>
        simp only [List.length_cons] at h ih
        have := ih ts (by omega)
        simp only [mkSegs, bind, Except.bind, this]
        rfl

/-- The profile has the given nodes, and a straight part of the given thickness between each two of them;
    with a single thickness, or with enough thicknesses. -/
theorem C243_constructor_partial (nodes : List Pt) :
    (∀ t : ℝ, ∃ p, newProf nodes (.float t) = .ok p ∧ p.nodes = nodes ∧
      p.segs = walls nodes (List.replicate (nodes.length - 1) t)) ∧
    (∀ ts : List ℝ, nodes.length ≤ ts.length + 1 → ∃ p, newProf nodes (.seq ts) = .ok p ∧ p.nodes = nodes ∧
      p.segs = walls nodes ts) ∧
    (∀ ts : List ℝ, ts.length + 1 < nodes.length → newProf nodes (.seq ts) = .error .indexError) := by
  refine ⟨fun t => ?_, fun ts h => ?_, fun ts h => ?_⟩
  · refine ⟨_, by simp only [newProf, bind, Except.bind]; rw [mkSegs_walls _ _ (by simp; omega)]; rfl, rfl, rfl⟩
  · refine ⟨_, by simp only [newProf, bind, Except.bind]; rw [mkSegs_walls _ _ h]; rfl, rfl, rfl⟩
  · have : mkSegs nodes ts = .error .indexError := by
      induction nodes generalizing ts with
      | nil => simp at h
      | cons c ps ih =>
        cases ps with
        | nil => simp at h
        | cons q ps =>
          cases ts with
          | nil => rfl
          | cons t ts =>
            have := ih ts (by simp only [List.length_cons] at *; omega)
            simp only [mkSegs, bind, Except.bind, this]
    simp only [newProf, bind, Except.bind, this]

/-- A thickness given as an `int` is no thickness: `IndexError` for every section with a wall. -/
theorem C243_violation_int (nodes : List Pt) (t : ℤ) (h : 2 ≤ nodes.length) :
    newProf nodes (.int t) = .error .indexError := by
  simp only [newProf]
  rw [if_neg (by omega)]

theorem walls_length (nodes : List Pt) (ts : List ℝ) : (walls nodes ts).length = min (nodes.length - 1) ts.length := by
  simp only [walls, List.length_zipWith, List.length_zip, List.length_tail]
  omega

theorem torsion_walls (nodes : List Pt) (ts : List ℝ) (h : nodes.length - 1 = ts.length) :
    (List.zipWith (fun a t => a * t ^ 2 / 3) ((walls nodes ts).map Seg.area) ts).sum =
      ((walls nodes ts).map fun s => √((s.b.1 - s.a.1) ^ 2 + (s.b.2 - s.a.2) ^ 2) * s.t ^ 3 / 3).sum := by
  unfold walls
  have : (nodes.zip nodes.tail).length = ts.length := by simp only [List.length_zip, List.length_tail]; omega
  clear h
  generalize nodes.zip nodes.tail = z at *
  induction z generalizing ts with
  | nil => simp
  | cons a z ih =>
    cases ts with
    | nil => simp at this
    | cons t ts =>
      simp only [List.zipWith_cons_cons, List.map_cons, List.sum_cons]
      rw [ih ts (by simpa using this)]
      simp only [Seg.area, Seg.length]
      ring

theorem torsion_new {p : OpenProf} {nodes : List Pt} {ts : List ℝ} (h1 : p.segs = walls nodes ts) (h2 : p.t = ts)
    (h : nodes.length - 1 = ts.length) :
    p.torsion = .ok ((p.segs.map fun s => √((s.b.1 - s.a.1) ^ 2 + (s.b.2 - s.a.2) ^ 2) * s.t ^ 3 / 3).sum) := by
  unfold OpenProf.torsion
  dsimp only
  rw [if_pos (by rw [h1, h2, List.length_map, walls_length]; omega), h1, h2, torsion_walls nodes ts h]

theorem newProf_float {nodes : List Pt} {t : ℝ} {p : OpenProf} (h : newProf nodes (.float t) = .ok p) :
    p.segs = walls nodes (List.replicate (nodes.length - 1) t) ∧ p.t = List.replicate (nodes.length - 1) t ∧
      p.nodes = nodes := by
  simp only [newProf, bind, Except.bind] at h
  rw [mkSegs_walls _ _ (by simp; omega)] at h
  obtain rfl := Except.ok.inj h
  exact ⟨rfl, rfl, rfl⟩

theorem newProf_seq {nodes : List Pt} {ts : List ℝ} (hl : nodes.length ≤ ts.length + 1) {p : OpenProf}
    (h : newProf nodes (.seq ts) = .ok p) : p.segs = walls nodes ts ∧ p.t = ts ∧ p.nodes = nodes := by
  simp only [newProf, bind, Except.bind] at h
  rw [mkSegs_walls _ _ hl] at h
  obtain rfl := Except.ok.inj h
  exact ⟨rfl, rfl, rfl⟩

theorem walls_t (nodes : List Pt) (k : ℕ) (t : ℝ) : ∀ s ∈ walls nodes (List.replicate k t), s.t = t := by
  unfold walls
  generalize nodes.zip nodes.tail = z
  induction z generalizing k with
  | nil => simp
  | cons a z ih =>
    cases k with
    | zero => simp
    | succ k =>
      simp only [List.replicate_succ, List.zipWith_cons_cons, List.mem_cons]
      rintro s (rfl | hs)
      · rfl
      · exact ih k s hs

/-- Torsion constant of a new profile: a third of the sum of `length * t^3`. -/
theorem C243_torsion (nodes : List Pt) (p : OpenProf) :
    (∀ t, newProf nodes (.float t) = .ok p →
      p.torsion = .ok (wallIntegral (fun _ => 1) p.segs * t ^ 2 / 3)) ∧
    (∀ ts : List ℝ, ts.length + 1 = nodes.length → newProf nodes (.seq ts) = .ok p →
      p.torsion = .ok ((p.segs.map fun s => √((s.b.1 - s.a.1) ^ 2 + (s.b.2 - s.a.2) ^ 2) * s.t ^ 3 / 3).sum)) := by
  refine ⟨fun t h => ?_, fun ts hl h => ?_⟩
  · obtain ⟨h1, h2, -⟩ := newProf_float h
    rw [torsion_new h1 h2 (by simp), wallIntegral_one, ← area_mom]
    have ht : ∀ s ∈ p.segs, s.t = t := by rw [h1]; exact walls_t _ _ _
    unfold OpenProf.area
    congr 1
    generalize p.segs = l at ht
    clear h1
    induction l with
    | nil => simp
    | cons s r ih =>
      simp only [List.map_cons, List.sum_cons]
      rw [ih fun s hs => ht s (List.mem_cons_of_mem _ hs), ht s List.mem_cons_self, Seg.area, Seg.length,
        ht s List.mem_cons_self]
      ring
  · obtain ⟨h1, h2, -⟩ := newProf_seq (by omega) h
    exact torsion_new h1 h2 (by omega)

/-! ### C244: splitting a part -/

theorem C244_partial {p q : OpenProf} (hp : Built p) {n : ℕ} {u : ℝ} (h0 : 0 ≤ u) (h1 : u ≤ 1)
    (h : p.split n u = .ok q) :
    q.area = p.area ∧ q.centroid = p.centroid ∧ q.Iy = p.Iy ∧ q.Iz = p.Iz ∧ q.Iyz = p.Iyz ∧
    q.shearCenter = p.shearCenter ∧ q.warping = p.warping := by
  have hq := (Built.split hp h).cons
  have hp := hp.cons
  obtain ⟨g, hg, -, -, hs⟩ := split_spec h
  have hm : mom (0, 0) 0 q.segs = mom (0, 0) 0 p.segs := by
    have key := fun Q : Quad => wallInt_split Q (0, 0) 0 p.segs n g u h0 h1 hg
    rw [← hs] at key
    obtain ⟨e0, e1, e2, e3, e4, e5, e6, e7, e8, e9⟩ := eval_mono
    unfold mom
    rw [e0, e1, e2, e3, e4, e5, e6, e7, e8, e9]
    simp only [key]
  have hA : q.area = p.area := by rw [area_mom, area_mom, hm]
  have hc : q.centroid = p.centroid := by
    unfold OpenProf.centroid; rw [hA, Sz0_mom, Sy0_mom, Sz0_mom, Sy0_mom, hm]
  have hy : q.Iy = p.Iy := by unfold OpenProf.Iy; rw [hA, hc, Iy0_mom, Iy0_mom, hm]
  have hz : q.Iz = p.Iz := by unfold OpenProf.Iz; rw [hA, hc, Iz0_mom, Iz0_mom, hm]
  have hyz : q.Iyz = p.Iyz := by rw [Iyz_eq, Iyz_eq, hm]
  have hyw : q.Iyw = p.Iyw := by rw [Iyw_mom _ hq, Iyw_mom _ hp, hm]
  have hzw : q.Izw = p.Izw := by rw [Izw_mom _ hq, Izw_mom _ hp, hm]
  have hww : q.Iww = p.Iww := by rw [Iww_mom _ hq, Iww_mom _ hp, hm]
  have hsc : q.shearCenter = p.shearCenter := by
    unfold OpenProf.shearCenter; rw [hy, hz, hyz, hyw, hzw]
  exact ⟨hA, hc, hy, hz, hyz, hsc, by unfold OpenProf.warping; rw [hsc, hyw, hzw, hww]⟩

/-- After a split the torsion constant cannot be asked for any more (unless there was a single part). -/
theorem C244_violation_torsion (nodes : List Pt) (h3 : 3 ≤ nodes.length) (t : ℝ) {p q : OpenProf}
    (hp : newProf nodes (.float t) = .ok p) {n : ℕ} {u : ℝ} (h : p.split n u = .ok q) :
    (∃ v, p.torsion = .ok v) ∧ q.torsion = .error .valueError := by
  refine ⟨⟨_, (C243_torsion nodes p).1 t hp⟩, ?_⟩
  obtain ⟨h1, h2, -⟩ := newProf_float hp
  obtain ⟨g, hg, ht, -, hs⟩ := split_spec h
  have hl : p.segs.length = nodes.length - 1 := by rw [h1, walls_length]; simp
  have hn : n < p.segs.length := (List.getElem?_eq_some_iff.1 hg).1
  have hlq : (q.segs.map Seg.area).length = p.segs.length + 1 := by
    rw [hs]
    simp only [List.map_append, List.map_cons, List.length_append, List.length_cons, List.length_map, List.length_take,
      List.length_drop]
    omega
  have htl : q.t.length = p.segs.length := by rw [ht, h2, hl]; simp
  unfold OpenProf.torsion
  dsimp only
  rw [if_neg (by omega)]
  match hq : q.segs.map Seg.area, hqt : q.t, hlq, htl with
  | [], _, hlq, _ => simp at hlq
  | [_], _, hlq, _ => exact absurd hlq (by simp only [List.length_cons, List.length_nil]; omega)
  | _ :: _ :: _, [], _, htl => simp at htl; omega
  | _ :: _ :: _, [_], _, htl => simp at htl; omega
  | _ :: _ :: _, _ :: _ :: _, _, _ => rfl

/-! ### C245: shear centre and warping constant -/

theorem C245_partial {p : OpenProf} (hp : Built p) (hA : p.area ≠ 0) (hd : 1e-8 < p.Iy * p.Iz - p.Iyz ^ 2) (P : Pt) :
    IsShearCentre P p.segs ↔ P = p.shearCenter := by
  have hc := hp.cons
  have hyw := Iyw_mom p hc
  have hzw := Izw_mom p hc
  have hy := Iy_eq p hA
  have hz := Iz_eq p hA
  have hyz := Iyz_eq p
  obtain ⟨c, hch, -⟩ := hc
  have hA' : (mom (0, 0) 0 p.segs).c0 ≠ 0 := by rw [← area_mom]; exact hA
  unfold IsShearCentre
  rw [cov_y P hch hA', cov_z P hch hA', ← hyw, ← hzw, ← hy, ← hz, ← hyz]
  unfold OpenProf.shearCenter
  dsimp only
  rw [if_pos hd, Prod.ext_iff]
  dsimp only
  have hd0 : p.Iy * p.Iz - p.Iyz ^ 2 ≠ 0 := by norm_num at hd; linarith
  rw [eq_div_iff hd0, eq_div_iff hd0]
  constructor
  · rintro ⟨h1, h2⟩
    constructor
    · linear_combination p.Iyz * h1 - p.Iz * h2
    · linear_combination p.Iy * h1 - p.Iyz * h2
  · rintro ⟨h1, h2⟩
    constructor
    · refine mul_left_cancel₀ hd0 ?_
      linear_combination -p.Iyz * h1 + p.Iz * h2
    · refine mul_left_cancel₀ hd0 ?_
      linear_combination -p.Iy * h1 + p.Iyz * h2

theorem wallInt_nonneg (P : Pt) (F : Pt → ℝ → ℝ) (hF : ∀ x w, 0 ≤ F x w) (l : List Seg) (hl : ∀ s ∈ l, 0 ≤ s.t) (w : ℝ) :
    0 ≤ wallInt P F w l := by
  induction l generalizing w with
  | nil => exact le_refl _
  | cons s r ih =>
    simp only [wallInt]
    have h1 := ih (fun s hs => hl s (List.mem_cons_of_mem _ hs)) (w + swept P s.a s.b)
    have h2 : 0 ≤ ∫ u in (0 : ℝ)..1, F (wallPt s u) (w + swept P s.a (wallPt s u)) :=
      intervalIntegral.integral_nonneg (by norm_num) fun u _ => hF _ _
    have h3 := hl s List.mem_cons_self
    positivity

/-- The warping constant is the second moment of the warping about the shear centre. -/
theorem C245_warping_partial {p : OpenProf} (hp : Built p) (hA : p.area ≠ 0) (hd : 1e-8 < p.Iy * p.Iz - p.Iyz ^ 2) :
    p.warping = wallInt p.shearCenter (fun _ w => (w - meanSwept p.shearCenter p.segs) ^ 2) 0 p.segs ∧
    ((∀ s ∈ p.segs, 0 ≤ s.t) → 0 ≤ p.warping) ∧
    (∀ P, (∀ s ∈ p.segs, 0 ≤ s.t) →
      p.warping ≤ wallInt P (fun _ w => (w - meanSwept P p.segs) ^ 2) 0 p.segs) := by
  have hc := hp.cons
  have hyw := Iyw_mom p hc
  have hzw := Izw_mom p hc
  have hww := Iww_mom p hc
  have hy := Iy_eq p hA
  have hz := Iz_eq p hA
  have hyz := Iyz_eq p
  obtain ⟨c, hch, -⟩ := hc
  have hA' : (mom (0, 0) 0 p.segs).c0 ≠ 0 := by rw [← area_mom]; exact hA
  have hS := (C245_partial hp hA hd p.shearCenter).2 rfl
  unfold IsShearCentre at hS
  rw [cov_y _ hch hA', cov_z _ hch hA', ← hyw, ← hzw, ← hy, ← hz, ← hyz] at hS
  obtain ⟨h1, h2⟩ := hS
  have hv : p.warping = wallInt p.shearCenter (fun _ w => (w - meanSwept p.shearCenter p.segs) ^ 2) 0 p.segs := by
    rw [var_swept _ hch hA', ← hyw, ← hzw, ← hy, ← hz, ← hyz, ← hww]
    unfold OpenProf.warping
    linear_combination p.shearCenter.1 * h2 - p.shearCenter.2 * h1
  refine ⟨hv, fun hl => ?_, fun P hl => ?_⟩
  · rw [hv]
    exact wallInt_nonneg _ _ (fun _ _ => sq_nonneg _) _ hl _
  · have hq : 0 ≤ wallIntegral (fun x => ((P.1 - p.shearCenter.1) * (x.2 - p.centroid.2) -
        (P.2 - p.shearCenter.2) * (x.1 - p.centroid.1)) ^ 2) p.segs :=
      wallInt_nonneg _ _ (fun _ _ => sq_nonneg _) _ hl _
    have he : wallIntegral (fun x => ((P.1 - p.shearCenter.1) * (x.2 - p.centroid.2) -
        (P.2 - p.shearCenter.2) * (x.1 - p.centroid.1)) ^ 2) p.segs =
        (P.1 - p.shearCenter.1) ^ 2 * p.Iy + (P.2 - p.shearCenter.2) ^ 2 * p.Iz -
          2 * (P.1 - p.shearCenter.1) * (P.2 - p.shearCenter.2) * p.Iyz := by
      have hcen : p.centroid = ((mom (0, 0) 0 p.segs).cy / (mom (0, 0) 0 p.segs).c0,
          (mom (0, 0) 0 p.segs).cz / (mom (0, 0) 0 p.segs).c0) := by
        unfold OpenProf.centroid; rw [area_mom, Sy0_mom, Sz0_mom]
      rw [hy, hz, hyz, hcen]
      generalize P.1 - p.shearCenter.1 = a
      generalize P.2 - p.shearCenter.2 = b
      generalize hM : mom (0, 0) 0 p.segs = M at *
      dsimp only
      unfold wallIntegral
      rw [show (fun (x : Pt) (_ : ℝ) => (a * (x.2 - M.cz / M.c0) - b * (x.1 - M.cy / M.c0)) ^ 2) =
        (Quad.mk ((b * (M.cy / M.c0) - a * (M.cz / M.c0)) ^ 2) (-2 * b * (b * (M.cy / M.c0) - a * (M.cz / M.c0)))
          (2 * a * (b * (M.cy / M.c0) - a * (M.cz / M.c0))) 0 (b ^ 2) (a ^ 2) 0 (-2 * a * b) 0 0).eval by
        funext x w; simp only [Quad.eval]; ring, wallInt_quad, hM]
      field_simp
      ring
    rw [he] at hq
    rw [var_swept _ hch hA', ← hyw, ← hzw, ← hy, ← hz, ← hyz, ← hww]
    unfold OpenProf.warping
    have : p.Iww + P.1 ^ 2 * p.Iy + P.2 ^ 2 * p.Iz - 2 * P.1 * P.2 * p.Iyz - 2 * P.1 * p.Izw + 2 * P.2 * p.Iyw =
        p.Iww + p.shearCenter.2 * p.Iyw - p.shearCenter.1 * p.Izw +
        ((P.1 - p.shearCenter.1) ^ 2 * p.Iy + (P.2 - p.shearCenter.2) ^ 2 * p.Iz -
          2 * (P.1 - p.shearCenter.1) * (P.2 - p.shearCenter.2) * p.Iyz) := by
      linear_combination (2 * P.2 - p.shearCenter.2) * h1 + (p.shearCenter.1 - 2 * P.1) * h2
    rw [this]
    linarith

/-! ### C246: position, orientation and direction play no part -/

theorem wallIntegral_motion (m : Motion) (f : Pt → ℝ) (l : List Seg) :
    wallIntegral f (l.map m.seg) = wallIntegral (fun x => f (m.pt x)) l := by
  unfold wallIntegral
  rw [wallInt_pole (0, 0) (m.pt (0, 0)) f 0 (m.e * 0), Motion.wallInt]

theorem walls_motion (m : Motion) (nodes : List Pt) (ts : List ℝ) :
    walls (nodes.map m.pt) ts = (walls nodes ts).map m.seg := by
  unfold walls
  rw [← List.map_tail, List.zip_map, List.map_zipWith, List.zipWith_map_left]
  rfl

theorem meanSwept_motion (m : Motion) (P : Pt) (l : List Seg) : meanSwept (m.pt P) (l.map m.seg) = m.e * meanSwept P l := by
  unfold meanSwept
  rw [wallIntegral_motion]
  have := m.wallInt P (fun _ w => w) 0 l
  rw [mul_zero] at this
  rw [this, show (fun (_ : Pt) (v : ℝ) => m.e * v) = (Quad.mk 0 0 0 m.e 0 0 0 0 0 0).eval by
    funext x w; simp only [Quad.eval]; ring, wallInt_quad]
  simp only [mom]
  ring

/-- The warping about any pole has mean zero. -/
theorem mean_zero (P : Pt) (l : List Seg) (hA : wallIntegral (fun _ => 1) l ≠ 0) :
    wallInt P (fun _ w => w - meanSwept P l) 0 l = 0 := by
  rw [show (fun (_ : Pt) (v : ℝ) => v - meanSwept P l) = (Quad.mk (-meanSwept P l) 0 0 1 0 0 0 0 0 0).eval by
    funext x w; simp only [Quad.eval]; ring, wallInt_quad]
  have h : (mom P 0 l).c0 = wallIntegral (fun _ => 1) l := wallInt_pole P (0, 0) (fun _ => 1) 0 0 l
  rw [h]
  unfold meanSwept
  rw [show (mom P 0 l).cw = wallInt P (fun _ w => w) 0 l from rfl]
  field_simp
  ring

theorem shearCentre_motion (m : Motion) (P : Pt) (l : List Seg) (hA : wallIntegral (fun _ => 1) l ≠ 0)
    (h : IsShearCentre P l) : IsShearCentre (m.pt P) (l.map m.seg) := by
  obtain ⟨h1, h2⟩ := h
  have h0 := mean_zero P l hA
  unfold IsShearCentre
  have e := fun F => m.wallInt P F 0 l
  simp only [mul_zero] at e
  rw [e, e, meanSwept_motion]
  generalize meanSwept P l = k at *
  rw [show (fun (x : Pt) (w : ℝ) => (w - k) * x.1) = (Quad.mk 0 (-k) 0 0 0 0 0 0 1 0).eval by
    funext x w; simp only [Quad.eval]; ring, wallInt_quad] at h1
  rw [show (fun (x : Pt) (w : ℝ) => (w - k) * x.2) = (Quad.mk 0 0 (-k) 0 0 0 0 0 0 1).eval by
    funext x w; simp only [Quad.eval]; ring, wallInt_quad] at h2
  rw [show (fun (_ : Pt) (w : ℝ) => w - k) = (Quad.mk (-k) 0 0 1 0 0 0 0 0 0).eval by
    funext x w; simp only [Quad.eval]; ring, wallInt_quad] at h0
  constructor
  · rw [show (fun (x : Pt) (v : ℝ) => (m.e * v - m.e * k) * (m.pt x).1) =
      (Quad.mk (-m.e * k * m.a) (-m.e * k * m.c) (m.e * k * (m.e * m.s)) (m.e * m.a) 0 0 0 0 (m.e * m.c)
        (-m.e * (m.e * m.s))).eval by
      funext x w; simp only [Quad.eval, Motion.pt]; ring, wallInt_quad]
    linear_combination m.e * m.c * h1 - m.e * (m.e * m.s) * h2 + m.e * m.a * h0
  · rw [show (fun (x : Pt) (v : ℝ) => (m.e * v - m.e * k) * (m.pt x).2) =
      (Quad.mk (-m.e * k * m.b) (-m.e * k * m.s) (-m.e * k * (m.e * m.c)) (m.e * m.b) 0 0 0 0 (m.e * m.s)
        (m.e * (m.e * m.c))).eval by
      funext x w; simp only [Quad.eval, Motion.pt]; ring, wallInt_quad]
    linear_combination m.e * m.s * h1 + m.e * (m.e * m.c) * h2 + m.e * m.b * h0

theorem newProf_motion (m : Motion) {nodes : List Pt} {t : ThickArg} {p : OpenProf} (h : newProf nodes t = .ok p) :
    newProf (nodes.map m.pt) t = .ok ⟨nodes.map m.pt, p.t, p.segs.map m.seg⟩ := by
  cases t with
  | float t =>
    obtain ⟨h1, h2, -⟩ := newProf_float h
    simp only [newProf, bind, Except.bind, List.length_map]
    rw [mkSegs_walls _ _ (by simp; omega), walls_motion, h1, h2]
    rfl
  | seq ts =>
    by_cases hl : nodes.length ≤ ts.length + 1
    · obtain ⟨h1, h2, -⟩ := newProf_seq hl h
      simp only [newProf, bind, Except.bind]
      rw [mkSegs_walls _ _ (by simpa using hl), walls_motion, h1, h2]
      rfl
    · rw [(C243_constructor_partial nodes).2.2 ts (by omega)] at h
      cases h
  | int t =>
    simp only [newProf] at h ⊢
    split at h
    · rename_i hl
      obtain rfl := Except.ok.inj h
      rw [if_pos (by simpa using hl)]
      rfl
    · cases h

/-- A section that is moved, turned or mirrored has the moved properties. -/
theorem C246_motion_partial (m : Motion) {nodes : List Pt} {t : ThickArg} {p : OpenProf}
    (h : newProf nodes t = .ok p) (hA : p.area ≠ 0) : ∃ p', newProf (nodes.map m.pt) t = .ok p' ∧
    p'.area = p.area ∧ p'.torsion = p.torsion ∧ p'.centroid = m.pt p.centroid ∧
    p'.Iy = m.c ^ 2 * p.Iy + m.s ^ 2 * p.Iz + 2 * m.e * m.c * m.s * p.Iyz ∧
    p'.Iz = m.s ^ 2 * p.Iy + m.c ^ 2 * p.Iz - 2 * m.e * m.c * m.s * p.Iyz ∧
    p'.Iyz = m.c * m.s * (p.Iz - p.Iy) + m.e * (m.c ^ 2 - m.s ^ 2) * p.Iyz ∧
    (1e-8 < p.Iy * p.Iz - p.Iyz ^ 2 → p'.shearCenter = m.pt p.shearCenter ∧ p'.warping = p.warping) := by
  have h' := newProf_motion m h
  generalize hpp : OpenProf.mk (nodes.map m.pt) p.t (p.segs.map m.seg) = p' at h'
  have hs : p'.segs = p.segs.map m.seg := by rw [← hpp]
  have ht : p'.t = p.t := by rw [← hpp]
  clear hpp
  refine ⟨p', h', ?_⟩
  obtain ⟨hp1, hp2, hp3, hp4, hp5, hp6, -⟩ := C243_partial p
  obtain ⟨hq1, hq2, hq3, hq4, hq5, hq6, -⟩ := C243_partial p'
  rw [hs, wallIntegral_motion] at hq1 hq2 hq3 hq4 hq5 hq6
  simp only [Motion.pt] at hq2 hq3 hq4 hq5 hq6
  have ex := fun q : Quad => wallInt_quad q (0, 0) 0 p.segs
  have hA1 : p'.area = p.area := by rw [hq1, hp1]
  have E2 : p'.Sy0 = m.s * p.Sz0 + m.e * m.c * p.Sy0 + m.b * p.area := by
    rw [hq2]; unfold wallIntegral
    rw [show (fun (x : Pt) (_ : ℝ) => m.s * x.1 + m.e * m.c * x.2 + m.b) =
      (Quad.mk m.b m.s (m.e * m.c) 0 0 0 0 0 0 0).eval by funext x w; simp only [Quad.eval]; ring, ex, Sz0_mom, Sy0_mom,
      area_mom]
    ring
  have E3 : p'.Sz0 = m.c * p.Sz0 - m.e * m.s * p.Sy0 + m.a * p.area := by
    rw [hq3]; unfold wallIntegral
    rw [show (fun (x : Pt) (_ : ℝ) => m.c * x.1 - m.e * m.s * x.2 + m.a) =
      (Quad.mk m.a m.c (-(m.e * m.s)) 0 0 0 0 0 0 0).eval by funext x w; simp only [Quad.eval]; ring, ex, Sz0_mom,
      Sy0_mom, area_mom]
    ring
  have E4 : p'.Iy0 = m.s ^ 2 * p.Iz0 + m.e ^ 2 * m.c ^ 2 * p.Iy0 + 2 * m.e * m.c * m.s * p.Iyz0 +
      2 * m.b * (m.s * p.Sz0 + m.e * m.c * p.Sy0) + m.b ^ 2 * p.area := by
    rw [hq4]; unfold wallIntegral
    rw [show (fun (x : Pt) (_ : ℝ) => (m.s * x.1 + m.e * m.c * x.2 + m.b) ^ 2) =
      (Quad.mk (m.b ^ 2) (2 * m.b * m.s) (2 * m.b * (m.e * m.c)) 0 (m.s ^ 2) ((m.e * m.c) ^ 2) 0
        (2 * m.s * (m.e * m.c)) 0 0).eval by funext x w; simp only [Quad.eval]; ring, ex, Sz0_mom,
      Sy0_mom, area_mom, Iy0_mom, Iz0_mom, Iyz0_mom]
    ring
  have E5 : p'.Iz0 = m.c ^ 2 * p.Iz0 + m.e ^ 2 * m.s ^ 2 * p.Iy0 - 2 * m.e * m.c * m.s * p.Iyz0 +
      2 * m.a * (m.c * p.Sz0 - m.e * m.s * p.Sy0) + m.a ^ 2 * p.area := by
    rw [hq5]; unfold wallIntegral
    rw [show (fun (x : Pt) (_ : ℝ) => (m.c * x.1 - m.e * m.s * x.2 + m.a) ^ 2) =
      (Quad.mk (m.a ^ 2) (2 * m.a * m.c) (-2 * m.a * (m.e * m.s)) 0 (m.c ^ 2) ((m.e * m.s) ^ 2) 0
        (-2 * m.c * (m.e * m.s)) 0 0).eval by funext x w; simp only [Quad.eval]; ring, ex, Sz0_mom,
      Sy0_mom, area_mom, Iy0_mom, Iz0_mom, Iyz0_mom]
    ring
  have E6 : p'.Iyz0 = m.c * m.s * p.Iz0 - m.e ^ 2 * m.c * m.s * p.Iy0 + m.e * (m.c ^ 2 - m.s ^ 2) * p.Iyz0 +
      m.b * (m.c * p.Sz0 - m.e * m.s * p.Sy0) + m.a * (m.s * p.Sz0 + m.e * m.c * p.Sy0) + m.a * m.b * p.area := by
    rw [hq6]; unfold wallIntegral
    rw [show (fun (x : Pt) (_ : ℝ) => (m.c * x.1 - m.e * m.s * x.2 + m.a) * (m.s * x.1 + m.e * m.c * x.2 + m.b)) =
      (Quad.mk (m.a * m.b) (m.c * m.b + m.a * m.s) (m.a * (m.e * m.c) - m.e * m.s * m.b) 0 (m.c * m.s)
        (-(m.e * m.s) * (m.e * m.c)) 0 (m.c * (m.e * m.c) - m.e * m.s * m.s) 0 0).eval by
        funext x w; simp only [Quad.eval]; ring, ex, Sz0_mom, Sy0_mom, area_mom, Iy0_mom, Iz0_mom, Iyz0_mom]
    ring
  have hcen : p'.centroid = m.pt p.centroid := by
    unfold OpenProf.centroid Motion.pt
    rw [E2, E3, hA1, Prod.mk.injEq]
    constructor <;> field_simp
  have hIy : p'.Iy = m.c ^ 2 * p.Iy + m.s ^ 2 * p.Iz + 2 * m.e * m.c * m.s * p.Iyz := by
    unfold OpenProf.Iy OpenProf.Iz OpenProf.Iyz OpenProf.centroid
    rw [E4, E2, hA1, m.orient]
    field_simp
    linear_combination -m.c ^ 2 * p.Sy0 ^ 2 * m.orient
  have hIz : p'.Iz = m.s ^ 2 * p.Iy + m.c ^ 2 * p.Iz - 2 * m.e * m.c * m.s * p.Iyz := by
    unfold OpenProf.Iy OpenProf.Iz OpenProf.Iyz OpenProf.centroid
    rw [E5, E3, hA1, m.orient]
    field_simp
    linear_combination -m.s ^ 2 * p.Sy0 ^ 2 * m.orient
  have hIyz : p'.Iyz = m.c * m.s * (p.Iz - p.Iy) + m.e * (m.c ^ 2 - m.s ^ 2) * p.Iyz := by
    unfold OpenProf.Iy OpenProf.Iz OpenProf.Iyz OpenProf.centroid
    rw [E6, E3, E2, hA1, m.orient]
    field_simp
    linear_combination m.s * m.c * p.Sy0 ^ 2 * m.orient
  refine ⟨hA1, ?_, hcen, hIy, hIz, hIyz, fun hd => ?_⟩
  · unfold OpenProf.torsion
    have : p'.segs.map Seg.area = p.segs.map Seg.area := by
      rw [hs, List.map_map]
      refine List.map_congr_left fun s _ => ?_
      simp only [Function.comp, Seg.area, Seg.length, Motion.seg, Motion.pt]
      congr 2
      linear_combination ((s.b.1 - s.a.1) ^ 2 + m.e ^ 2 * (s.b.2 - s.a.2) ^ 2) * m.unit +
        (s.b.2 - s.a.2) ^ 2 * m.orient
    rw [this, ht]
  · have hd' : p'.Iy * p'.Iz - p'.Iyz ^ 2 = p.Iy * p.Iz - p.Iyz ^ 2 := by
      rw [hIy, hIz, hIyz]
      have h2 : (m.c ^ 2 + m.s ^ 2) ^ 2 = 1 := by rw [m.unit]; norm_num
      linear_combination (p.Iy * p.Iz - m.e ^ 2 * p.Iyz ^ 2) * h2 - p.Iyz ^ 2 * m.orient
    have hb := Built.new h
    have hb' := Built.new h'
    have hA' : p'.area ≠ 0 := by rw [hA1]; exact hA
    have hsc := shearCentre_motion m p.shearCenter p.segs (by rw [← hp1]; exact hA) ((C245_partial hb hA hd _).2 rfl)
    rw [← hs] at hsc
    have hsc := (C245_partial hb' hA' (by rw [hd']; exact hd) _).1 hsc
    refine ⟨hsc.symm, ?_⟩
    rw [(C245_warping_partial hb' hA' (by rw [hd']; exact hd)).1, (C245_warping_partial hb hA hd).1, ← hsc, hs, meanSwept_motion]
    have := m.wallInt p.shearCenter (fun _ w => (w - m.e * meanSwept p.shearCenter p.segs) ^ 2) 0 p.segs
    rw [mul_zero] at this
    rw [this]
    congr 1
    funext x v
    linear_combination (v - meanSwept p.shearCenter p.segs) ^ 2 * m.orient

theorem walls_snoc (l : List Pt) (x y : Pt) (t : ℝ) :
    walls (l ++ [x, y]) (List.replicate (l.length + 1) t) =
      walls (l ++ [x]) (List.replicate l.length t) ++ [⟨x, y, t⟩] := by
  induction l with
  | nil => rfl
  | cons a l ih =>
    cases l with
    | nil => rfl
    | cons b l =>
      have e1 : ∀ (r : List Pt) (k : ℕ), walls (a :: b :: r) (List.replicate (k + 1) t) =
          ⟨a, b, t⟩ :: walls (b :: r) (List.replicate k t) := fun r k => rfl
      simp only [List.cons_append, List.length_cons] at ih ⊢
      rw [e1, e1, ih, List.cons_append]

theorem walls_reverse (nodes : List Pt) (t : ℝ) :
    walls nodes.reverse (List.replicate (nodes.length - 1) t) =
      ((walls nodes (List.replicate (nodes.length - 1) t)).map Seg.flip).reverse := by
  induction nodes with
  | nil => rfl
  | cons a l ih =>
    cases l with
    | nil => rfl
    | cons b l =>
      have e := walls_snoc l.reverse b a t
      have e1 : walls (a :: b :: l) (List.replicate (l.length + 1) t) =
          ⟨a, b, t⟩ :: walls (b :: l) (List.replicate l.length t) := rfl
      simp only [List.reverse_cons, List.length_cons, Nat.add_sub_cancel, List.append_assoc, List.cons_append,
        List.nil_append, List.length_reverse] at e ih ⊢
      rw [e, e1, ih, List.map_cons, List.reverse_cons]
      rfl

/-- Two sections with the same walls in opposite order and direction. -/
theorem reverse_core {p p' : OpenProf} (hb : Built p) (hb' : Built p') (hs' : p'.segs = (p.segs.map Seg.flip).reverse) (hA : p.area ≠ 0) :
    (∀ f, wallIntegral f p'.segs = wallIntegral f p.segs) ∧
    p'.area = p.area ∧ p'.centroid = p.centroid ∧
    p'.Iy = p.Iy ∧ p'.Iz = p.Iz ∧ p'.Iyz = p.Iyz ∧
    (1e-8 < p.Iy * p.Iz - p.Iyz ^ 2 → p'.shearCenter = p.shearCenter ∧ p'.warping = p.warping) := by
  have hi : ∀ f, wallIntegral f p'.segs = wallIntegral f p.segs := fun f => by
    unfold wallIntegral
    rw [hs', wallInt_flip]
    exact wallInt_pole _ _ _ _ _ _
  obtain ⟨hp1, hp2, hp3, hp4, hp5, hp6, -⟩ := C243_partial p
  obtain ⟨hq1, hq2, hq3, hq4, hq5, hq6, -⟩ := C243_partial p'
  rw [hi] at hq1 hq2 hq3 hq4 hq5 hq6
  have hA1 : p'.area = p.area := by rw [hq1, hp1]
  have hcen : p'.centroid = p.centroid := by unfold OpenProf.centroid; rw [hq2, hq3, hA1, hp2, hp3]
  have hIy : p'.Iy = p.Iy := by unfold OpenProf.Iy; rw [hcen, hA1, hq4, hp4]
  have hIz : p'.Iz = p.Iz := by unfold OpenProf.Iz; rw [hcen, hA1, hq5, hp5]
  have hIyz : p'.Iyz = p.Iyz := by unfold OpenProf.Iyz; rw [hA1, hq2, hp2, hq3, hp3, hq6, hp6]
  refine ⟨hi, hA1, hcen, hIy, hIz, hIyz, fun hd => ?_⟩
  · have hA' : p'.area ≠ 0 := by rw [hA1]; exact hA
    have hA0 : wallIntegral (fun _ => 1) p.segs ≠ 0 := by rw [← hp1]; exact hA
    have hd' : 1e-8 < p'.Iy * p'.Iz - p'.Iyz ^ 2 := by rw [hIy, hIz, hIyz]; exact hd
    have shift : ∀ (P : Pt) (q : Quad) (k : ℝ), wallInt P q.eval (0 - k) p.segs =
        wallInt P (fun x w => q.eval x (w - k)) 0 p.segs := by
      intro P q k
      generalize (0 : ℝ) = w0
      generalize p.segs = l
      induction l generalizing w0 with
      | nil => rfl
      | cons s r ih =>
        simp only [wallInt]
        rw [show w0 - k + swept P s.a s.b = w0 + swept P s.a s.b - k by ring, ih]
        congr 3
        funext u
        congr 1
        ring
    have hm : ∀ P, meanSwept P p'.segs = meanSwept P p.segs - sweptAll P p.segs := by
      intro P
      unfold meanSwept
      rw [hi, hs', wallInt_flip, eval_mono.2.2.2.1, shift]
      rw [show (fun (x : Pt) (w : ℝ) => (Quad.mk 0 0 0 1 0 0 0 0 0 0).eval x (w - sweptAll P p.segs)) =
        (Quad.mk (-sweptAll P p.segs) 0 0 1 0 0 0 0 0 0).eval by funext x w; simp only [Quad.eval]; ring,
        wallInt_quad, wallInt_quad]
      have : (mom P 0 p.segs).c0 = wallIntegral (fun _ => 1) p.segs := wallInt_pole P (0, 0) (fun _ => 1) 0 0 _
      rw [this]
      field_simp
      ring
    have hsc : IsShearCentre p.shearCenter p'.segs := by
      have := (C245_partial hb hA hd _).2 rfl
      unfold IsShearCentre at this ⊢
      rw [hm]
      rw [hs', wallInt_flip, wallInt_flip]
      generalize hk : sweptAll p.shearCenter p.segs = k
      generalize hmm : meanSwept p.shearCenter p.segs = mm at *
      rw [show (fun (x : Pt) (w : ℝ) => (w - (mm - k)) * x.1) = (Quad.mk 0 (-(mm - k)) 0 0 0 0 0 0 1 0).eval by
        funext x w; simp only [Quad.eval]; ring, shift]
      rw [show (fun (x : Pt) (w : ℝ) => (w - (mm - k)) * x.2) = (Quad.mk 0 0 (-(mm - k)) 0 0 0 0 0 0 1).eval by
        funext x w; simp only [Quad.eval]; ring, shift]
      constructor
      · refine Eq.trans ?_ this.1; congr 1; funext x w; simp only [Quad.eval]; ring
      · refine Eq.trans ?_ this.2; congr 1; funext x w; simp only [Quad.eval]; ring
    have hsc := (C245_partial hb' hA' hd' _).1 hsc
    refine ⟨hsc.symm, ?_⟩
    rw [(C245_warping_partial hb' hA' hd').1, (C245_warping_partial hb hA hd).1, ← hsc, hm, hs', wallInt_flip]
    generalize hk : sweptAll p.shearCenter p.segs = k
    generalize hmm : meanSwept p.shearCenter p.segs = mm at *
    rw [show (fun (_ : Pt) (w : ℝ) => (w - (mm - k)) ^ 2) =
      (Quad.mk ((mm - k) ^ 2) 0 0 (-2 * (mm - k)) 0 0 1 0 0 0).eval by
      funext x w; simp only [Quad.eval]; ring, shift]
    congr 1
    funext x w
    simp only [Quad.eval]
    ring

/-- The same section with its nodes listed in the opposite order. -/
theorem C246_reverse_partial {nodes : List Pt} {t : ℝ} {p : OpenProf} (h : newProf nodes (.float t) = .ok p)
    (hA : p.area ≠ 0) : ∃ p', newProf nodes.reverse (.float t) = .ok p' ∧
    p'.area = p.area ∧ p'.torsion = p.torsion ∧ p'.centroid = p.centroid ∧
    p'.Iy = p.Iy ∧ p'.Iz = p.Iz ∧ p'.Iyz = p.Iyz ∧
    (1e-8 < p.Iy * p.Iz - p.Iyz ^ 2 → p'.shearCenter = p.shearCenter ∧ p'.warping = p.warping) := by
  obtain ⟨p', h', -, -⟩ := (C243_constructor_partial nodes.reverse).1 t
  obtain ⟨hs, -, -⟩ := newProf_float h
  obtain ⟨hs', -, -⟩ := newProf_float h'
  rw [List.length_reverse, walls_reverse, ← hs] at hs'
  obtain ⟨hi, h1, h2⟩ := reverse_core (Built.new h) (Built.new h') hs' hA
  exact ⟨p', h', h1, by rw [(C243_torsion _ p').1 t h', (C243_torsion _ p).1 t h, hi], h2⟩

theorem walls_snoc_seq (l : List Pt) (x y : Pt) (ts : List ℝ) (t : ℝ) (h : ts.length = l.length) :
    walls (l ++ [x, y]) (ts ++ [t]) = walls (l ++ [x]) ts ++ [⟨x, y, t⟩] := by
  induction l generalizing ts with
  | nil =>
    obtain rfl := List.length_eq_zero_iff.1 h
    rfl
  | cons a l ih =>
    cases ts with
    | nil => simp at h
    | cons u ts =>
      have h' : ts.length = l.length := by simpa using h
      have := ih ts h'
      cases l with
      | nil =>
        obtain rfl := List.length_eq_zero_iff.1 h'
        rfl
      | cons b l =>
        have e1 : ∀ (r : List Pt) (v : List ℝ), walls (a :: b :: r) (u :: v) = ⟨a, b, u⟩ :: walls (b :: r) v := fun r v => rfl
        simp only [List.cons_append] at this ⊢
        rw [e1, e1, this, List.cons_append]

theorem walls_reverse_seq (nodes : List Pt) (ts : List ℝ) (h : ts.length + 1 = nodes.length) :
    walls nodes.reverse ts.reverse = ((walls nodes ts).map Seg.flip).reverse := by
  induction nodes generalizing ts with
  | nil => simp at h
  | cons a l ih =>
    cases l with
    | nil =>
      have : ts = [] := by simpa using h
      subst this
      rfl
    | cons b l =>
      cases ts with
      | nil => simp at h
      | cons u ts =>
        have h' : ts.length + 1 = (b :: l).length := by simpa using h
        have e := walls_snoc_seq l.reverse b a ts.reverse u (by simpa using h')
        have e1 : walls (a :: b :: l) (u :: ts) = ⟨a, b, u⟩ :: walls (b :: l) ts := rfl
        have ih' := ih ts h'
        simp only [List.reverse_cons, List.append_assoc, List.cons_append, List.nil_append] at e ih' ⊢
        rw [e, e1, ih', List.map_cons, List.reverse_cons]
        rfl

/-- The same section of several thicknesses with its nodes and thicknesses listed in the opposite order. -/
theorem C246_reverse_seq {nodes : List Pt} {ts : List ℝ} {p : OpenProf} (h : newProf nodes (.seq ts) = .ok p) (hl : ts.length + 1 = nodes.length)
    (hA : p.area ≠ 0) : ∃ p', newProf nodes.reverse (.seq ts.reverse) = .ok p' ∧
    p'.area = p.area ∧ p'.torsion = p.torsion ∧ p'.centroid = p.centroid ∧
    p'.Iy = p.Iy ∧ p'.Iz = p.Iz ∧ p'.Iyz = p.Iyz ∧
    (1e-8 < p.Iy * p.Iz - p.Iyz ^ 2 → p'.shearCenter = p.shearCenter ∧ p'.warping = p.warping) := by
  have hl' : ts.reverse.length + 1 = nodes.reverse.length := by simpa using hl
  obtain ⟨p', h', -, -⟩ := (C243_constructor_partial nodes.reverse).2.1 ts.reverse hl'.ge
  obtain ⟨hs, -, -⟩ := newProf_seq hl.ge h
  obtain ⟨hs', -, -⟩ := newProf_seq hl'.ge h'
  rw [walls_reverse_seq _ _ hl, ← hs] at hs'
  obtain ⟨hi, h1, h2⟩ := reverse_core (Built.new h) (Built.new h') hs' hA
  refine ⟨p', h', h1, ?_, h2⟩
  rw [(C243_torsion _ p').2 _ hl' h', (C243_torsion _ p).2 _ hl h, hs', List.map_reverse, List.sum_reverse, List.map_map]
  congr 2
  refine List.map_congr_left fun s _ => ?_
  simp only [Function.comp, Seg.flip]
  congr 3
  ring

/-- A symmetric section of several thicknesses: the centroid and the shear centre are points of symmetry. -/
theorem C246_symmetric_seq (m : Motion) {nodes : List Pt} {ts : List ℝ} {p : OpenProf}
    (h : newProf nodes (.seq ts) = .ok p) (hl : ts.length + 1 = nodes.length) (hA : p.area ≠ 0) (hm : nodes.map m.pt = nodes.reverse) (ht : ts.reverse = ts) :
    m.pt p.centroid = p.centroid ∧ (1e-8 < p.Iy * p.Iz - p.Iyz ^ 2 → m.pt p.shearCenter = p.shearCenter) := by
  obtain ⟨p1, h1, -, -, hc, -, -, -, hs⟩ := C246_motion_partial m h hA
  obtain ⟨p2, h2, -, -, hc2, -, -, -, hs2⟩ := C246_reverse_seq h hl hA
  rw [hm] at h1
  rw [ht] at h2
  obtain rfl := Except.ok.inj (h1.symm.trans h2)
  exact ⟨hc.symm.trans hc2, fun hd => (hs hd).1.symm.trans (hs2 hd).1⟩

/-- A symmetric section: the centroid and the shear centre are points of symmetry. -/
theorem C246_symmetric_partial (m : Motion) {nodes : List Pt} {t : ℝ} {p : OpenProf}
    (h : newProf nodes (.float t) = .ok p) (hA : p.area ≠ 0) (hm : nodes.map m.pt = nodes.reverse) :
    m.pt p.centroid = p.centroid ∧ (1e-8 < p.Iy * p.Iz - p.Iyz ^ 2 → m.pt p.shearCenter = p.shearCenter) := by
  obtain ⟨p1, h1, -, -, hc, -, -, -, hs⟩ := C246_motion_partial m h hA
  obtain ⟨p2, h2, -, -, hc2, -, -, -, hs2⟩ := C246_reverse_partial h hA
  rw [hm] at h1
  obtain rfl := Except.ok.inj (h1.symm.trans h2)
  exact ⟨hc.symm.trans hc2, fun hd => (hs hd).1.symm.trans (hs2 hd).1⟩

/-! ### Sections whose shear centre is not computed -/

/-- Scaling of a point, and of a part with its thickness. -/
def scalePt (k : ℝ) (x : Pt) : Pt := (k * x.1, k * x.2)

theorem wallIntegral_scale (k : ℝ) (hk : 0 ≤ k) (f : Pt → ℝ) (l : List Seg) :
    wallIntegral f (l.map fun s => ⟨scalePt k s.a, scalePt k s.b, k * s.t⟩) =
      k ^ 2 * wallIntegral (fun x => f (scalePt k x)) l := by
  unfold wallIntegral
  generalize hw : (0 : ℝ) = w
  rw [show wallInt (w, w) (fun x _ => f (scalePt k x)) w l = wallInt (0, 0) (fun x _ => f (scalePt k x)) 0 l from
    wallInt_pole _ _ _ _ _ _]
  rw [wallInt_pole (w, w) (0, 0) f w 0]
  clear hw
  generalize (0 : ℝ) = w1
  rw [wallInt_pole (w1, w1) (0, 0) (fun x => f (scalePt k x)) w1 w]
  rw [wallInt_pole (w1, w1) (0, 0) f w1 w]
  induction l generalizing w with
  | nil => simp [wallInt]
  | cons s r ih =>
    simp only [List.map_cons, wallInt]
    rw [wallInt_pole (0, 0) (0, 0) f (w + swept (0, 0) (scalePt k s.a) (scalePt k s.b)) (w + swept (0, 0) s.a s.b), ih]
    have e1 : √(((scalePt k s.b).1 - (scalePt k s.a).1) ^ 2 + ((scalePt k s.b).2 - (scalePt k s.a).2) ^ 2) =
        k * √((s.b.1 - s.a.1) ^ 2 + (s.b.2 - s.a.2) ^ 2) := by
      rw [show ((scalePt k s.b).1 - (scalePt k s.a).1) ^ 2 + ((scalePt k s.b).2 - (scalePt k s.a).2) ^ 2 =
        k ^ 2 * ((s.b.1 - s.a.1) ^ 2 + (s.b.2 - s.a.2) ^ 2) by simp only [scalePt]; ring,
        Real.sqrt_mul (sq_nonneg _), Real.sqrt_sq hk]
    have e2 : ∀ u, wallPt ⟨scalePt k s.a, scalePt k s.b, k * s.t⟩ u = scalePt k (wallPt s u) := by
      intro u
      simp only [wallPt, scalePt, Prod.mk.injEq]
      constructor <;> ring
    rw [e1]
    simp only [e2]
    ring

theorem walls_scale (k : ℝ) (nodes : List Pt) (n : ℕ) (t : ℝ) :
    walls (nodes.map (scalePt k)) (List.replicate n (k * t)) =
      (walls nodes (List.replicate n t)).map fun s => ⟨scalePt k s.a, scalePt k s.b, k * s.t⟩ := by
  unfold walls
  rw [← List.map_tail, List.zip_map, List.map_zipWith, List.zipWith_map_left]
  rw [show List.replicate n (k * t) = (List.replicate n t).map (fun t => k * t) by simp, List.zipWith_map_right]
  rfl

/-- With another unit of length every section has its shear centre at the origin of the coordinates: the
    determinant is compared with the number `1e-8`. -/
theorem C245_violation_units {nodes : List Pt} {t : ℝ} {p : OpenProf} (h : newProf nodes (.float t) = .ok p)
    (hA : p.area ≠ 0) : ∃ k : ℝ, 0 < k ∧ ∃ p', newProf (nodes.map (scalePt k)) (.float (k * t)) = .ok p' ∧
      p'.area = k ^ 2 * p.area ∧ p'.Iy = k ^ 4 * p.Iy ∧ p'.Iz = k ^ 4 * p.Iz ∧ p'.Iyz = k ^ 4 * p.Iyz ∧
      p'.shearCenter = (0, 0) := by
  set d := |p.Iy * p.Iz - p.Iyz ^ 2| with hd
  have hd0 : 0 ≤ d := abs_nonneg _
  refine ⟨1 / (1 + 1e8 * d), by positivity, ?_⟩
  generalize hk : 1 / (1 + 1e8 * d) = k
  have hk0 : 0 < k := by rw [← hk]; positivity
  have hk1 : k ≤ 1 := by rw [← hk, div_le_one (by positivity)]; norm_num; positivity
  have hkd : k * d ≤ 1e-8 := by
    rw [← hk, one_div, inv_mul_le_iff₀ (by positivity)]
    norm_num
    linarith
  obtain ⟨p', h', -, -⟩ := (C243_constructor_partial (nodes.map (scalePt k))).1 (k * t)
  refine ⟨p', h', ?_⟩
  obtain ⟨hs, -, -⟩ := newProf_float h
  obtain ⟨hs', -, -⟩ := newProf_float h'
  rw [List.length_map, walls_scale, ← hs] at hs'
  obtain ⟨hp1, hp2, hp3, hp4, hp5, hp6, -⟩ := C243_partial p
  obtain ⟨hq1, hq2, hq3, hq4, hq5, hq6, -⟩ := C243_partial p'
  rw [hs', wallIntegral_scale k hk0.le] at hq1 hq2 hq3 hq4 hq5 hq6
  simp only [scalePt] at hq2 hq3 hq4 hq5 hq6
  have hA1 : p'.area = k ^ 2 * p.area := by rw [hq1, hp1]
  have ex := fun q : Quad => wallInt_quad q (0, 0) 0 p.segs
  have E2 : p'.Sy0 = k ^ 3 * p.Sy0 := by
    rw [hq2]; unfold wallIntegral
    rw [show (fun (x : Pt) (_ : ℝ) => k * x.2) = (Quad.mk 0 0 k 0 0 0 0 0 0 0).eval by
      funext x w; simp only [Quad.eval]; ring, ex, Sy0_mom]
    ring
  have E3 : p'.Sz0 = k ^ 3 * p.Sz0 := by
    rw [hq3]; unfold wallIntegral
    rw [show (fun (x : Pt) (_ : ℝ) => k * x.1) = (Quad.mk 0 k 0 0 0 0 0 0 0 0).eval by
      funext x w; simp only [Quad.eval]; ring, ex, Sz0_mom]
    ring
  have E4 : p'.Iy0 = k ^ 4 * p.Iy0 := by
    rw [hq4]; unfold wallIntegral
    rw [show (fun (x : Pt) (_ : ℝ) => (k * x.2) ^ 2) = (Quad.mk 0 0 0 0 0 (k ^ 2) 0 0 0 0).eval by
      funext x w; simp only [Quad.eval]; ring, ex, Iy0_mom]
    ring
  have E5 : p'.Iz0 = k ^ 4 * p.Iz0 := by
    rw [hq5]; unfold wallIntegral
    rw [show (fun (x : Pt) (_ : ℝ) => (k * x.1) ^ 2) = (Quad.mk 0 0 0 0 (k ^ 2) 0 0 0 0 0).eval by
      funext x w; simp only [Quad.eval]; ring, ex, Iz0_mom]
    ring
  have E6 : p'.Iyz0 = k ^ 4 * p.Iyz0 := by
    rw [hq6]; unfold wallIntegral
    rw [show (fun (x : Pt) (_ : ℝ) => k * x.1 * (k * x.2)) = (Quad.mk 0 0 0 0 0 0 0 (k ^ 2) 0 0).eval by
      funext x w; simp only [Quad.eval]; ring, ex, Iyz0_mom]
    ring
  have hIy : p'.Iy = k ^ 4 * p.Iy := by
    unfold OpenProf.Iy OpenProf.centroid; rw [E2, E4, hA1]; field_simp
  have hIz : p'.Iz = k ^ 4 * p.Iz := by
    unfold OpenProf.Iz OpenProf.centroid; rw [E3, E5, hA1]; field_simp
  have hIyz : p'.Iyz = k ^ 4 * p.Iyz := by
    unfold OpenProf.Iyz; rw [E2, E3, E6, hA1]; field_simp
  refine ⟨hA1, hIy, hIz, hIyz, ?_⟩
  unfold OpenProf.shearCenter
  dsimp only
  rw [if_neg]
  rw [hIy, hIz, hIyz, not_lt]
  have h7 : k ^ 7 ≤ 1 := pow_le_one₀ hk0.le hk1
  calc k ^ 4 * p.Iy * (k ^ 4 * p.Iz) - (k ^ 4 * p.Iyz) ^ 2 = k ^ 8 * (p.Iy * p.Iz - p.Iyz ^ 2) := by ring
    _ ≤ k ^ 8 * d := by gcongr; exact le_abs_self _
    _ = k ^ 7 * (k * d) := by ring
    _ ≤ 1 * (k * d) := by gcongr
    _ ≤ 1e-8 := by linarith

/-- A flat plate: the shear centre is given as the origin, wherever the plate is, and unless the plate points at
    the origin this is no shear centre and the warping constant is positive, although the plate does not warp
    about a point on it. -/
theorem C245_violation_plate (a b : Pt) (t : ℝ) (ht : 0 < t) (hab : a ≠ b) {p : OpenProf}
    (h : newProf [a, b] (.float t) = .ok p) :
    p.shearCenter = (0, 0) ∧ p.warping = p.area * (a.1 * b.2 - b.1 * a.2) ^ 2 / 12 ∧
    IsShearCentre a p.segs ∧ wallInt a (fun _ w => (w - meanSwept a p.segs) ^ 2) 0 p.segs = 0 ∧
    (a.1 * b.2 - b.1 * a.2 ≠ 0 → ¬ IsShearCentre (0, 0) p.segs ∧ 0 < p.warping) := by
  obtain ⟨hs, -, hn⟩ := newProf_float h
  have hs : p.segs = [⟨a, b, t⟩] := hs
  have hc := (Built.new h).cons
  set L := √((b.1 - a.1) ^ 2 + (b.2 - a.2) ^ 2) with hL
  have hLp : 0 < L := by
    apply Real.sqrt_pos.2
    by_contra hh
    have h1 : (b.1 - a.1) ^ 2 = 0 := by nlinarith [sq_nonneg (b.1 - a.1), sq_nonneg (b.2 - a.2)]
    have h2 : (b.2 - a.2) ^ 2 = 0 := by nlinarith [sq_nonneg (b.1 - a.1), sq_nonneg (b.2 - a.2)]
    rw [sq_eq_zero_iff] at h1 h2
    exact hab (Prod.ext (by linarith) (by linarith))
  have hAe : p.area = t * L := by simp [OpenProf.area, hs, Seg.area, Seg.length, hL]
  have hA : p.area ≠ 0 := by rw [hAe]; positivity
  have q0 : ∀ (q : Quad) (P : Pt), wallInt P q.eval 0 p.segs = t * L *
      ((q.eval a 0 + 4 * q.eval (wallPt ⟨a, b, t⟩ (1 / 2)) (swept P a b / 2) + q.eval b (swept P a b)) / 6) := by
    intro q P
    rw [hs]
    simp only [wallInt, seg_int]
    simp only [zero_add, add_zero, hL]
  obtain ⟨e0, e1, e2, e3, e4, e5, e6, e7, e8, e9⟩ := eval_mono
  have hmom : mom (0, 0) 0 p.segs = ⟨t * L, t * L * (a.1 + b.1) / 2, t * L * (a.2 + b.2) / 2,
      t * L * (a.1 * b.2 - b.1 * a.2) / 2, t * L * (a.1 ^ 2 + a.1 * b.1 + b.1 ^ 2) / 3,
      t * L * (a.2 ^ 2 + a.2 * b.2 + b.2 ^ 2) / 3, t * L * (a.1 * b.2 - b.1 * a.2) ^ 2 / 3,
      t * L * (2 * a.1 * a.2 + 2 * b.1 * b.2 + a.1 * b.2 + b.1 * a.2) / 6,
      t * L * (a.1 * b.2 - b.1 * a.2) * (a.1 + 2 * b.1) / 6,
      t * L * (a.1 * b.2 - b.1 * a.2) * (a.2 + 2 * b.2) / 6⟩ := by
    unfold mom
    rw [e0, e1, e2, e3, e4, e5, e6, e7, e8, e9]
    simp only [q0, Quad.eval, wallPt, swept, Quad.mk.injEq]
    refine ⟨?_, ?_, ?_, ?_, ?_, ?_, ?_, ?_, ?_, ?_⟩ <;> ring
  have hIy := Iy_eq p hA
  have hIz := Iz_eq p hA
  have hIyz := Iyz_eq p
  have hyw := Iyw_mom p hc
  have hzw := Izw_mom p hc
  have hww := Iww_mom p hc
  rw [hmom] at hIy hIz hIyz hyw hzw hww
  dsimp only at hIy hIz hIyz hyw hzw hww
  have htL : t * L ≠ 0 := by positivity
  have hIy : p.Iy = t * L * (b.2 - a.2) ^ 2 / 12 := by rw [hIy]; field_simp; ring
  have hIz : p.Iz = t * L * (b.1 - a.1) ^ 2 / 12 := by rw [hIz]; field_simp; ring
  have hIyz : p.Iyz = t * L * ((b.1 - a.1) * (b.2 - a.2)) / 12 := by rw [hIyz]; field_simp; ring
  have hyw : p.Iyw = t * L * ((a.1 * b.2 - b.1 * a.2) * (b.1 - a.1)) / 12 := by rw [hyw]; field_simp; ring
  have hzw : p.Izw = t * L * ((a.1 * b.2 - b.1 * a.2) * (b.2 - a.2)) / 12 := by rw [hzw]; field_simp; ring
  have hww : p.Iww = t * L * (a.1 * b.2 - b.1 * a.2) ^ 2 / 12 := by rw [hww]; field_simp; ring
  have hsc : p.shearCenter = (0, 0) := by
    unfold OpenProf.shearCenter
    dsimp only
    rw [if_neg]
    rw [hIy, hIz, hIyz, not_lt]
    ring_nf
    norm_num
  have hw : p.warping = p.area * (a.1 * b.2 - b.1 * a.2) ^ 2 / 12 := by
    unfold OpenProf.warping
    rw [hsc, hww, hAe]
    simp
  have sw : swept a a b = 0 := by simp [swept]
  have hm : meanSwept a p.segs = 0 := by
    unfold meanSwept
    rw [e3, q0, sw]
    simp [Quad.eval]
  have hcA : (mom (0, 0) 0 p.segs).c0 ≠ 0 := by rw [hmom]; exact htL
  refine ⟨hsc, hw, ⟨?_, ?_⟩, ?_, fun hx => ⟨?_, ?_⟩⟩
  · rw [hm, show (fun (x : Pt) (w : ℝ) => (w - 0) * x.1) = (Quad.mk 0 0 0 0 0 0 0 0 1 0).eval by
      funext x w; simp only [Quad.eval]; ring, q0, sw]
    simp [Quad.eval]
  · rw [hm, show (fun (x : Pt) (w : ℝ) => (w - 0) * x.2) = (Quad.mk 0 0 0 0 0 0 0 0 0 1).eval by
      funext x w; simp only [Quad.eval]; ring, q0, sw]
    simp [Quad.eval]
  · rw [hm, show (fun (_ : Pt) (w : ℝ) => (w - 0) ^ 2) = (Quad.mk 0 0 0 0 0 0 1 0 0 0).eval by
      funext x w; simp only [Quad.eval]; ring, q0, sw]
    simp [Quad.eval]
  · rintro ⟨h1, h2⟩
    obtain ⟨c, hch, -⟩ := hc
    rw [cov_y _ hch hcA, ← Iyw_mom p (Built.new h).cons, hyw] at h1
    rw [cov_z _ hch hcA, ← Izw_mom p (Built.new h).cons, hzw] at h2
    simp only [zero_mul, sub_zero, add_zero, div_eq_zero_iff, mul_eq_zero] at h1 h2
    have hx' : (a.1 * b.2 - b.1 * a.2) ≠ 0 := hx
    have ht' := ht.ne'
    have hL' := hLp.ne'
    have k1 : b.1 - a.1 = 0 := by
      rcases h1 with ((h1 | h1) | h1 | h1) | h1
      · exact absurd h1 ht'
      · exact absurd h1 hL'
      · exact absurd h1 hx'
      · exact h1
      · norm_num at h1
    have k2 : b.2 - a.2 = 0 := by
      rcases h2 with ((h1 | h1) | h1 | h1) | h1
      · exact absurd h1 ht'
      · exact absurd h1 hL'
      · exact absurd h1 hx'
      · exact h1
      · norm_num at h1
    exact hab (Prod.ext (by linarith) (by linarith))
  · rw [hw, hAe]
    positivity

/-- The code disagrees with C246 for flat plates: the shear centre does not move with a plate that is shifted, and the warping constant changes unless the triangle of the plate and the origin keeps its area. -/
theorem C246_plate_viol (m : Motion) (a b : Pt) (t : ℝ) (ht : 0 < t) (hab : a ≠ b) {p : OpenProf} (h : newProf [a, b] (.float t) = .ok p) :
    ∃ p', newProf [m.pt a, m.pt b] (.float t) = .ok p' ∧ ((m.a, m.b) ≠ ((0 : ℝ), (0 : ℝ)) → p'.shearCenter ≠ m.pt p.shearCenter) ∧
      ((a.1 * b.2 - b.1 * a.2) ^ 2 ≠ ((m.pt a).1 * (m.pt b).2 - (m.pt b).1 * (m.pt a).2) ^ 2 → p'.warping ≠ p.warping) := by
  have hA : p.area ≠ 0 := by
    obtain ⟨hs, -, -⟩ := newProf_float h
    have hs : p.segs = [⟨a, b, t⟩] := hs
    simp only [OpenProf.area, hs, Seg.area, Seg.length, List.map_cons, List.map_nil, List.sum_cons, List.sum_nil, add_zero]
    refine mul_ne_zero ht.ne' ?_
    refine (Real.sqrt_pos.2 ?_).ne'
    by_contra hc
    have h1 : b.1 - a.1 = 0 := by nlinarith [sq_nonneg (b.1 - a.1), sq_nonneg (b.2 - a.2)]
    have h2 : b.2 - a.2 = 0 := by nlinarith [sq_nonneg (b.1 - a.1), sq_nonneg (b.2 - a.2)]
    exact hab (Prod.ext (by linarith) (by linarith))
  obtain ⟨p', h', hA', -⟩ := C246_motion_partial m h hA
  have hab' : m.pt a ≠ m.pt b := by
    intro e
    have e1 := congrArg Prod.fst e
    have e2 := congrArg Prod.snd e
    simp only [Motion.pt] at e1 e2
    have u := m.unit
    have o := m.orient
    refine hab (Prod.ext ?_ ?_)
    · linear_combination m.c * e1 + m.s * e2 - (a.1 - b.1) * u
    · linear_combination m.e * m.c * e2 - m.e * m.s * e1 - (a.2 - b.2) * (m.c ^ 2 + m.s ^ 2) * o - (a.2 - b.2) * u
  obtain ⟨s1, w1, -⟩ := C245_violation_plate a b t ht hab h
  obtain ⟨s2, w2, -⟩ := C245_violation_plate _ _ t ht hab' h'
  refine ⟨p', h', fun hm => ?_, fun hne he => hne ?_⟩
  · rw [s1, s2]
    intro e
    apply hm
    rw [e]
    simp [Motion.pt]
  · rw [w1, w2, hA'] at he
    have := mul_left_cancel₀ hA (show p.area * ((m.pt a).1 * (m.pt b).2 - (m.pt b).1 * (m.pt a).2) ^ 2 = p.area * (a.1 * b.2 - b.1 * a.2) ^ 2 by linarith)
    exact this.symm

/-! ### Examples -/

/-- A channel, open to the right: flanges of 20, web of 60, thickness 3/2. -/
def exNodes : List Pt := [(20, 30), (0, 30), (0, -30), (20, -30)]

/-- Mirror image with respect to the horizontal axis. -/
def exMirror : Motion := ⟨1, 0, 0, 0, -1, by norm_num, by norm_num⟩

theorem exSegs {p : OpenProf} (h : newProf exNodes (.float (3 / 2)) = .ok p) :
    p.segs = [⟨(20, 30), (0, 30), 3 / 2⟩, ⟨(0, 30), (0, -30), 3 / 2⟩, ⟨(0, -30), (20, -30), 3 / 2⟩] :=
  (newProf_float h).1

theorem exVals {p : OpenProf} (h : newProf exNodes (.float (3 / 2)) = .ok p) :
    p.area = 150 ∧ p.Iy = 81000 ∧ p.Iz = 5600 ∧ p.Iyz = 0 := by
  have hs := exSegs h
  have l1 : √(400 : ℝ) = 20 := by rw [show (400 : ℝ) = 20 ^ 2 by norm_num]; exact Real.sqrt_sq (by norm_num)
  have l2 : √(3600 : ℝ) = 60 := by rw [show (3600 : ℝ) = 60 ^ 2 by norm_num]; exact Real.sqrt_sq (by norm_num)
  have hA : p.area = 150 := by
    simp only [OpenProf.area, hs, Seg.area, Seg.length, List.map_cons, List.map_nil, List.sum_cons, List.sum_nil]
    norm_num [l1, l2]
  have hSz : p.Sz0 = 600 := by
    simp only [OpenProf.Sz0, hs, Seg.firstZ, Seg.area, Seg.length, List.map_cons, List.map_nil, List.sum_cons, List.sum_nil]
    norm_num [l1, l2]
  have hSy : p.Sy0 = 0 := by
    simp only [OpenProf.Sy0, hs, Seg.firstY, Seg.area, Seg.length, List.map_cons, List.map_nil, List.sum_cons, List.sum_nil]
    norm_num [l1, l2]
  refine ⟨hA, ?_, ?_, ?_⟩
  · rw [OpenProf.Iy, OpenProf.centroid, hA, hSy]
    simp only [OpenProf.Iy0, hs, Seg.secondY, Seg.area, Seg.length, List.map_cons, List.map_nil, List.sum_cons, List.sum_nil]
    norm_num [l1, l2]
  · rw [OpenProf.Iz, OpenProf.centroid, hA, hSz]
    simp only [OpenProf.Iz0, hs, Seg.secondZ, Seg.area, Seg.length, List.map_cons, List.map_nil, List.sum_cons, List.sum_nil]
    norm_num [l1, l2]
  · rw [OpenProf.Iyz, hA, hSz, hSy]
    simp only [OpenProf.Iyz0, hs, Seg.product, Seg.area, Seg.length, List.map_cons, List.map_nil, List.sum_cons, List.sum_nil]
    norm_num [l1, l2]

/-- The hypotheses of C243-C246 hold for the channel, also after a split; its shear centre is on the axis of symmetry. -/
example : ∃ p q, newProf exNodes (.float (3 / 2)) = .ok p ∧ p.split 1 (1 / 4) = .ok q ∧ Built q ∧ q.area = 150 ∧
    1e-8 < p.Iy * p.Iz - p.Iyz ^ 2 ∧ q.torsion = .error .valueError ∧ p.shearCenter.2 = 0 ∧
    q.shearCenter = p.shearCenter := by
  obtain ⟨p, h, -, -⟩ := (C243_constructor_partial exNodes).1 (3 / 2)
  obtain ⟨hA, hy, hz, hyz⟩ := exVals h
  obtain ⟨q, hq⟩ : ∃ q, p.split 1 (1 / 4) = .ok q := by
    unfold OpenProf.split
    rw [exSegs h]
    exact ⟨_, rfl⟩
  have hA0 : p.area ≠ 0 := by rw [hA]; norm_num
  have hd : 1e-8 < p.Iy * p.Iz - p.Iyz ^ 2 := by rw [hy, hz, hyz]; norm_num
  have h4 := C244_partial (Built.new h) (by norm_num) (by norm_num) hq
  have hsym := (C246_symmetric_partial exMirror h hA0 (by simp [exNodes, exMirror, Motion.pt])).2 hd
  refine ⟨p, q, h, hq, .split (.new h) hq, h4.1.trans hA, hd,
    (C244_violation_torsion exNodes (by simp [exNodes]) _ h hq).2, ?_, h4.2.2.2.2.2.1⟩
  have := congrArg Prod.snd hsym
  simp only [exMirror, Motion.pt] at this
  linarith

/-- The channel with a web of thickness 2 and flanges of thickness 1: the hypotheses of the theorems for several thicknesses hold. -/
example : ∃ p p', newProf exNodes (.seq [1, 2, 1]) = .ok p ∧ newProf exNodes.reverse (.seq [1, 2, 1]) = .ok p' ∧ p.area = 160 ∧
    p'.torsion = p.torsion ∧ p'.shearCenter = p.shearCenter ∧ p'.warping = p.warping ∧ p.centroid.2 = 0 ∧ p.shearCenter.2 = 0 := by
  have hl : ([1, 2, 1] : List ℝ).length + 1 = exNodes.length := rfl
  obtain ⟨p, h, -, -⟩ := (C243_constructor_partial exNodes).2.1 [1, 2, 1] hl.ge
  have hs : p.segs = [⟨(20, 30), (0, 30), 1⟩, ⟨(0, 30), (0, -30), 2⟩, ⟨(0, -30), (20, -30), 1⟩] := (newProf_seq hl.ge h).1
  have l1 : √(400 : ℝ) = 20 := by rw [show (400 : ℝ) = 20 ^ 2 by norm_num]; exact Real.sqrt_sq (by norm_num)
  have l2 : √(3600 : ℝ) = 60 := by rw [show (3600 : ℝ) = 60 ^ 2 by norm_num]; exact Real.sqrt_sq (by norm_num)
  have hA : p.area = 160 := by
    simp only [OpenProf.area, hs, Seg.area, Seg.length, List.map_cons, List.map_nil, List.sum_cons, List.sum_nil]
    norm_num [l1, l2]
  have hSz : p.Sz0 = 400 := by
    simp only [OpenProf.Sz0, hs, Seg.firstZ, Seg.area, Seg.length, List.map_cons, List.map_nil, List.sum_cons, List.sum_nil]
    norm_num [l1, l2]
  have hSy : p.Sy0 = 0 := by
    simp only [OpenProf.Sy0, hs, Seg.firstY, Seg.area, Seg.length, List.map_cons, List.map_nil, List.sum_cons, List.sum_nil]
    norm_num [l1, l2]
  have hy : p.Iy = 72000 := by
    rw [OpenProf.Iy, OpenProf.centroid, hA, hSy]
    simp only [OpenProf.Iy0, hs, Seg.secondY, Seg.area, Seg.length, List.map_cons, List.map_nil, List.sum_cons, List.sum_nil]
    norm_num [l1, l2]
  have hz : p.Iz = 13000 / 3 := by
    rw [OpenProf.Iz, OpenProf.centroid, hA, hSz]
    simp only [OpenProf.Iz0, hs, Seg.secondZ, Seg.area, Seg.length, List.map_cons, List.map_nil, List.sum_cons, List.sum_nil]
    norm_num [l1, l2]
  have hyz : p.Iyz = 0 := by
    rw [OpenProf.Iyz, hA, hSz, hSy]
    simp only [OpenProf.Iyz0, hs, Seg.product, Seg.area, Seg.length, List.map_cons, List.map_nil, List.sum_cons, List.sum_nil]
    norm_num [l1, l2]
  have hA0 : p.area ≠ 0 := by rw [hA]; norm_num
  have hd : 1e-8 < p.Iy * p.Iz - p.Iyz ^ 2 := by rw [hy, hz, hyz]; norm_num
  obtain ⟨p', h', -, ht, -, -, -, -, hc⟩ := C246_reverse_seq h hl hA0
  have hsym := C246_symmetric_seq exMirror h hl hA0 (by simp [exNodes, exMirror, Motion.pt]) rfl
  have c1 := congrArg Prod.snd hsym.1
  have c2 := congrArg Prod.snd (hsym.2 hd)
  simp only [exMirror, Motion.pt] at c1 c2
  exact ⟨p, p', h, h', hA, ht, (hc hd).1, (hc hd).2, by linarith, by linarith⟩

/-- A plate through the origin that is lifted by 10. -/
example : ∃ p p', newProf [((0 : ℝ), (0 : ℝ)), (10, 0)] (.float 1) = .ok p ∧ newProf [((0 : ℝ), (10 : ℝ)), (10, 10)] (.float 1) = .ok p' ∧ p'.warping ≠ p.warping := by
  obtain ⟨p, h, -, -⟩ := (C243_constructor_partial [((0 : ℝ), (0 : ℝ)), (10, 0)]).1 1
  obtain ⟨p', h', -, hw⟩ := C246_plate_viol ⟨1, 0, 0, 10, 1, by norm_num, by norm_num⟩ (0, 0) (10, 0) 1 (by norm_num) (by simp) h
  simp only [Motion.pt] at h' hw
  refine ⟨p, p', h, ?_, hw (by norm_num)⟩
  rw [← h']
  norm_num

/-- A plate beside the origin. -/
example : ∃ p, newProf [((0 : ℝ), (10 : ℝ)), (10, 10)] (.float 1) = .ok p ∧ p.shearCenter = (0, 0) ∧ 0 < p.warping := by
  obtain ⟨p, h, -, -⟩ := (C243_constructor_partial [((0 : ℝ), (10 : ℝ)), (10, 10)]).1 1
  have := C245_violation_plate _ _ _ (by norm_num) (by simp) h
  exact ⟨p, h, this.1, (this.2.2.2.2 (by norm_num)).2⟩

end Metku.Cold
