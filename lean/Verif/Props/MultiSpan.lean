import Verif.Model.MultiSpan
import Mathlib.Analysis.Complex.Norm
import Mathlib.Tactic.Linarith
import Mathlib.Tactic.Positivity
import Mathlib.Tactic.NormNum
import Mathlib.Tactic.FieldSimp
import Mathlib.Tactic.Ring

/-!
Properties C364-C367: members with several spans.
-/
set_option linter.unusedSimpArgs false
set_option linter.unusedVariables false

namespace Metku.MSpan

open Metku

/-! ## Specification -/

/-- Length of the polyline through the nodes. -/
noncomputable def path : List Pt → ℝ
  | a :: b :: r => dist a b + path (b :: r)
  | _ => 0

/-- The nodes lie on a half-line from the first one, in order: node `i` is `p + t_i u` with increasing `t_i`. -/
def Straight (p u : Pt) (ts : List ℝ) (nodes : List Pt) : Prop :=
  u ≠ (0, 0) ∧ ts.head? = some 0 ∧ ts.Pairwise (· < ·) ∧ nodes = ts.map (fun t => (p.1 + t * u.1, p.2 + t * u.2))

/-! ## Helper lemmas -/

theorem dist_complex (p q : Pt) : dist p q = ‖(⟨q.1 - p.1, q.2 - p.2⟩ : ℂ)‖ := by
  rw [Complex.norm_eq_sqrt_sq_add_sq]; rfl

theorem dist_nonneg (p q : Pt) : 0 ≤ dist p q := Real.sqrt_nonneg _

theorem dist_self (p : Pt) : dist p p = 0 := by simp [dist]

theorem dist_triangle (p q r : Pt) : dist p r ≤ dist p q + dist q r := by
  rw [dist_complex, dist_complex, dist_complex]
  have : (⟨r.1 - p.1, r.2 - p.2⟩ : ℂ) = ⟨q.1 - p.1, q.2 - p.2⟩ + ⟨r.1 - q.1, r.2 - q.2⟩ := by
    apply Complex.ext <;> simp
  rw [this]
  exact norm_add_le _ _

theorem dist_zero {p q : Pt} (h : dist p q = 0) : q = p := by
  rw [dist_complex, norm_eq_zero] at h
  have h1 := congrArg Complex.re h
  have h2 := congrArg Complex.im h
  simp only [Complex.zero_re, Complex.zero_im] at h1 h2
  exact Prod.ext (by linarith) (by linarith)

theorem dist_line (p u : Pt) (a b : ℝ) : dist (p.1 + a * u.1, p.2 + a * u.2) (p.1 + b * u.1, p.2 + b * u.2) = |b - a| * dist (0, 0) u := by
  unfold dist
  have : (p.1 + b * u.1 - (p.1 + a * u.1)) ^ 2 + (p.2 + b * u.2 - (p.2 + a * u.2)) ^ 2 = (b - a) ^ 2 * ((u.1 - 0) ^ 2 + (u.2 - 0) ^ 2) := by ring
  simp only
  rw [this, Real.sqrt_mul (sq_nonneg _), Real.sqrt_sq_eq_abs]

/-- Spans from numbers of elements and nodes. -/
def spansOf (ns : List ℕ) (nodes : List Pt) : List Span :=
  List.zipWith (fun n (pq : Pt × Pt) => ⟨pq.1, pq.2, n⟩) ns (List.zip nodes.dropLast nodes.tail)

theorem mkSpans_eq (nodes : List Pt) (nel : Nel) : mkSpans nodes nel = spansOf (nel.per nodes) nodes := rfl

theorem spansOf_cons (n : ℕ) (ns : List ℕ) (a b : Pt) (r : List Pt) : spansOf (n :: ns) (a :: b :: r) = ⟨a, b, n⟩ :: spansOf ns (b :: r) := by
  simp [spansOf, List.dropLast]

theorem spansOf_path (ns : List ℕ) (nodes : List Pt) (h : ns.length = nodes.length - 1) : ((spansOf ns nodes).map (fun s => dist s.p s.q)).sum = path nodes := by
  induction nodes generalizing ns with
  | nil => cases ns <;> simp [spansOf, path]
  | cons a nodes ih =>
    cases nodes with
    | nil => cases ns <;> simp [spansOf, path]
    | cons b r =>
      cases ns with
      | nil => simp at h
      | cons n ns =>
        rw [spansOf_cons, List.map_cons, List.sum_cons, ih ns (by simpa using h)]
        rfl

theorem spansOf_ne (ns : List ℕ) (nodes : List Pt) (h : ns.length = nodes.length - 1) (h2 : 2 ≤ nodes.length) : spansOf ns nodes ≠ [] := by
  match nodes, ns, h2 with
  | a :: b :: r, n :: ns, _ => rw [spansOf_cons]; simp
  | a :: b :: r, [], _ => simp at h

theorem path_nonneg : ∀ l : List Pt, 0 ≤ path l
  | [] => le_refl _
  | [_] => le_refl _
  | a :: b :: r => add_nonneg (dist_nonneg a b) (path_nonneg (b :: r))

theorem path_ge (l : List Pt) (p q : Pt) (hp : l.head? = some p) (hq : l.getLast? = some q) : dist p q ≤ path l := by
  induction l generalizing p with
  | nil => simp at hp
  | cons a l ih =>
    simp only [List.head?_cons, Option.some.injEq] at hp
    subst hp
    cases l with
    | nil =>
      simp only [List.getLast?_singleton, Option.some.injEq] at hq
      subst hq
      rw [dist_self]; exact le_refl _
    | cons b r =>
      have := ih b rfl (by simpa [List.getLast?_cons_cons] using hq)
      show dist a q ≤ dist a b + path (b :: r)
      linarith [dist_triangle a b q]

theorem point_zero (s : Span) : s.point 0 = s.p := by simp [Span.point]

theorem point_one (s : Span) : s.point 1 = s.q := by
  unfold Span.point dir
  by_cases h : dist s.p s.q = 0
  · have := dist_zero h
    simp [h, this]
  · refine Prod.ext ?_ ?_ <;> simp only [mul_one] <;> field_simp <;> ring

theorem points_length (s : Span) : s.points.length = s.nel + 1 := by simp [Span.points]

theorem points_last (s : Span) (h : 1 ≤ s.nel) : s.points.getLast? = some s.q := by
  have hn : (s.nel : ℝ) ≠ 0 := by exact_mod_cast Nat.one_le_iff_ne_zero.1 h
  unfold Span.points
  rw [List.range_succ, List.map_append, List.map_cons, List.map_nil, List.getLast?_concat, div_self hn, point_one]

theorem points_head (s : Span) (h : 1 ≤ s.nel) : s.points.dropLast.head? = some s.p := by
  obtain ⟨k, hk⟩ := Nat.exists_eq_add_of_le h
  unfold Span.points
  rw [List.range_succ, List.map_append, List.map_cons, List.map_nil, List.dropLast_concat, hk, Nat.add_comm 1 k, List.range_succ_eq_map]
  simp [point_zero]

/-! ## C364: length and weight -/

/-- **C364** (partial). The length of a member with several spans is at most the sum of the lengths of its spans; for non-negative area and density
its weight is at most the sum of their weights. -/
theorem length_le (nodes : List Pt) (nel : Nel) (A density : ℝ) (hA : 0 ≤ A) (hd : 0 ≤ density) (hn : (nel.per nodes).length = nodes.length - 1) (h2 : nodes ≠ []) :
    ∃ L W, length nodes = .ok L ∧ weight A density nodes = .ok W ∧ L ≤ ((mkSpans nodes nel).map (fun s => dist s.p s.q)).sum ∧
      W ≤ ((mkSpans nodes nel).map (fun s => s.weight A density)).sum := by
  obtain ⟨p, hp⟩ : ∃ p, nodes.head? = some p := ⟨nodes.head h2, List.head?_eq_some_head h2⟩
  obtain ⟨q, hq⟩ : ∃ q, nodes.getLast? = some q := ⟨nodes.getLast h2, List.getLast?_eq_some_getLast h2⟩
  have hL : length nodes = .ok (dist p q) := by simp [length, hp, hq]
  have hle := path_ge nodes p q hp hq
  have hs : ((mkSpans nodes nel).map (fun s => s.weight A density)).sum = A * path nodes * density := by
    rw [← spansOf_path _ _ hn, ← mkSpans_eq, show (fun s : Span => s.weight A density) = fun s => A * density * dist s.p s.q from
      funext fun s => by unfold Span.weight; ring, List.sum_map_mul_left]
    ring
  refine ⟨dist p q, A * dist p q * density, hL, by simp [weight, hL], ?_, ?_⟩
  · rw [mkSpans_eq, spansOf_path _ _ hn]; exact hle
  · rw [hs]
    exact mul_le_mul_of_nonneg_right (mul_le_mul_of_nonneg_left hle hA) hd

theorem path_line (p u : Pt) (ts : List ℝ) (t0 : ℝ) (h0 : ts.head? = some t0) (hm : ts.Pairwise (· < ·)) (tn : ℝ) (hl : ts.getLast? = some tn) :
    t0 ≤ tn ∧ path (ts.map (fun t => (p.1 + t * u.1, p.2 + t * u.2))) = (tn - t0) * dist (0, 0) u := by
  induction ts generalizing t0 with
  | nil => simp at h0
  | cons a ts ih =>
    simp only [List.head?_cons, Option.some.injEq] at h0
    subst h0
    cases ts with
    | nil =>
      simp only [List.getLast?_singleton, Option.some.injEq] at hl
      subst hl
      simp [path]
    | cons b r =>
      obtain ⟨i1, i2⟩ := ih b rfl (List.pairwise_cons.1 hm).2 (by simpa [List.getLast?_cons_cons] using hl)
      have hab : a < b := (List.pairwise_cons.1 hm).1 b (by simp)
      refine ⟨by linarith, ?_⟩
      rw [List.map_cons] at i2
      rw [List.map_cons, List.map_cons]
      unfold path
      rw [i2, dist_line, abs_of_pos (by linarith)]
      ring

theorem straight_length {p u : Pt} {ts : List ℝ} {nodes : List Pt} (h : Straight p u ts nodes) :
    ∃ tn, ts.getLast? = some tn ∧ nodes.head? = some p ∧ nodes.getLast? = some (p.1 + tn * u.1, p.2 + tn * u.2) ∧ 0 ≤ tn ∧
      length nodes = .ok (tn * dist (0, 0) u) ∧ path nodes = tn * dist (0, 0) u := by
  obtain ⟨hu, h0, hm, rfl⟩ := h
  have hne : ts ≠ [] := by intro h; simp [h] at h0
  have hl : ts.getLast? = some (ts.getLast hne) := List.getLast?_eq_some_getLast hne
  obtain ⟨h1, h2⟩ := path_line p u ts 0 h0 hm _ hl
  have hh : (ts.map (fun t => (p.1 + t * u.1, p.2 + t * u.2))).head? = some p := by
    rw [List.head?_map, h0]; simp
  have hll : (ts.map (fun t => (p.1 + t * u.1, p.2 + t * u.2))).getLast? = some (p.1 + ts.getLast hne * u.1, p.2 + ts.getLast hne * u.2) := by
    rw [List.getLast?_map, hl]; rfl
  refine ⟨_, hl, hh, hll, h1, ?_, by rw [h2, sub_zero]⟩
  unfold length
  rw [hh, hll]
  have := dist_line p u 0 (ts.getLast hne)
  simp only [zero_mul, add_zero, sub_zero] at this
  rw [abs_of_nonneg h1] at this
  rw [← this]

/-- **C364** (partial). For a straight member length and weight are the sums over the spans. -/
theorem straight_partial (p u : Pt) (ts : List ℝ) (nodes : List Pt) (h : Straight p u ts nodes) (nel : Nel) (A density : ℝ)
    (hn : (nel.per nodes).length = nodes.length - 1) :
    length nodes = .ok ((mkSpans nodes nel).map (fun s => dist s.p s.q)).sum ∧
    weight A density nodes = .ok ((mkSpans nodes nel).map (fun s => s.weight A density)).sum := by
  obtain ⟨tn, -, -, -, -, h1, h2⟩ := straight_length h
  have hs : ((mkSpans nodes nel).map (fun s => s.weight A density)).sum = A * path nodes * density := by
    rw [← spansOf_path _ _ hn, ← mkSpans_eq, show (fun s : Span => s.weight A density) = fun s => A * density * dist s.p s.q from
      funext fun s => by unfold Span.weight; ring, List.sum_map_mul_left]
    ring
  refine ⟨by rw [mkSpans_eq, spansOf_path _ _ hn, h1, h2], ?_⟩
  rw [hs, h2]
  simp [weight, h1]

example : Straight (0, 0) (0, 1) [0, 2, 5] [(0, 0), (0, 2), (0, 5)] := by
  refine ⟨by simp, rfl, by norm_num, by norm_num⟩

/-- **C364** (negation): a member with a bend is shorter and lighter than its spans. -/
theorem bend_viol : ∃ nodes nel, length nodes = .ok 5 ∧ ((mkSpans nodes nel).map (fun s => dist s.p s.q)).sum = 7 := by
  refine ⟨[(0, 0), (3, 0), (3, 4)], .all 2, ?_, ?_⟩
  · have h5 : √((3 : ℝ) ^ 2 + 4 ^ 2) = 5 := by
      rw [show (3 : ℝ) ^ 2 + 4 ^ 2 = 5 ^ 2 by norm_num]; exact Real.sqrt_sq (by norm_num)
    simp [length, dist, h5]
  · have h3 : √((3 : ℝ) ^ 2) = 3 := Real.sqrt_sq (by norm_num)
    have h4 : √((4 : ℝ) ^ 2) = 4 := Real.sqrt_sq (by norm_num)
    simp [mkSpans, Nel.per, dist, h3, h4, List.replicate, List.dropLast]
    norm_num

/-! ## C365: points of the finite element model -/

theorem flat_length (spans : List Span) : (spans.flatMap (fun s => s.points.dropLast)).length = (spans.map (fun s => s.nel)).sum := by
  induction spans with
  | nil => rfl
  | cons s r ih => simp [List.flatMap_cons, ih, points_length, List.length_dropLast]

theorem spansOf_last (ns : List ℕ) (nodes : List Pt) (h : ns.length = nodes.length - 1) (h2 : 2 ≤ nodes.length) :
    ∃ s, (spansOf ns nodes).getLast? = some s ∧ some s.q = nodes.getLast? := by
  induction nodes generalizing ns with
  | nil => simp at h2
  | cons a nodes ih =>
    match nodes, ns with
    | [], _ => simp at h2
    | b :: r, [] => simp at h
    | [b], [n] => exact ⟨⟨a, b, n⟩, by rw [spansOf_cons]; simp [spansOf], rfl⟩
    | [b], n :: m :: ns => simp at h
    | b :: c :: r, n :: ns =>
      obtain ⟨s, h1, h3⟩ := ih ns (by simpa using h) (by simp)
      refine ⟨s, ?_, by rw [h3, List.getLast?_cons_cons (a := a)]⟩
      rw [spansOf_cons]
      cases hs : spansOf ns (b :: c :: r) with
      | nil => rw [hs] at h1; simp at h1
      | cons x xs => rw [List.getLast?_cons_cons, ← hs]; exact h1

theorem flat_head (ns : List ℕ) (nodes : List Pt) (h : ns.length = nodes.length - 1) (h2 : 2 ≤ nodes.length) (hp : ∀ n ∈ ns, 1 ≤ n) :
    ((spansOf ns nodes).flatMap (fun s => s.points.dropLast)).head? = nodes.head? := by
  match nodes, ns, h2 with
  | a :: b :: r, n :: ns, _ =>
    rw [spansOf_cons, List.flatMap_cons]
    have := points_head ⟨a, b, n⟩ (hp n (by simp))
    cases hd : (Span.points ⟨a, b, n⟩).dropLast with
    | nil => rw [hd] at this; simp at this
    | cons x xs => rw [hd] at this; simpa using this
  | a :: b :: r, [], _ => simp at h

theorem flat_nodes (ns : List ℕ) (nodes : List Pt) (h : ns.length = nodes.length - 1) (hp : ∀ n ∈ ns, 1 ≤ n) (x : Pt) (hx : x ∈ nodes.dropLast) :
    x ∈ (spansOf ns nodes).flatMap (fun s => s.points.dropLast) := by
  induction nodes generalizing ns with
  | nil => simp at hx
  | cons a nodes ih =>
    match nodes, ns with
    | [], _ => simp at hx
    | b :: r, [] => simp at h
    | b :: r, n :: ns =>
      rw [spansOf_cons, List.flatMap_cons, List.mem_append]
      rw [List.dropLast_cons_cons, List.mem_cons] at hx
      rcases hx with rfl | hx
      · exact Or.inl (List.mem_of_mem_head? (points_head ⟨x, b, n⟩ (hp n (by simp))))
      · exact Or.inr (ih ns (by simpa using h) (fun m hm => hp m (by simp [hm])) hx)

/-- **C365** (partial). With a number of elements for every span, the points of the model of the member are one more than its elements, start at
its first node, end at its last one, and all its nodes are among them. -/
theorem points_partial (nodes : List Pt) (nel : Nel) (h2 : 2 ≤ nodes.length) (hn : (nel.per nodes).length = nodes.length - 1) (hp : ∀ n ∈ nel.per nodes, 1 ≤ n) :
    ∃ pts, points (mkSpans nodes nel) = .ok pts ∧ pts.length = ((mkSpans nodes nel).map (fun s => s.nel)).sum + 1 ∧
      pts.head? = nodes.head? ∧ pts.getLast? = nodes.getLast? ∧ ∀ x ∈ nodes, x ∈ pts := by
  obtain ⟨s, h1, h3⟩ := spansOf_last (nel.per nodes) nodes hn h2
  have hs : s ∈ spansOf (nel.per nodes) nodes := List.mem_of_getLast? h1
  have hnel : 1 ≤ s.nel := by
    obtain ⟨i, hi⟩ := List.mem_iff_getElem?.1 hs
    unfold spansOf at hi
    rw [List.getElem?_zipWith] at hi
    cases hni : (nel.per nodes)[i]? with
    | none => rw [hni] at hi; simp at hi
    | some k =>
      rw [hni] at hi
      cases hz : (List.zip nodes.dropLast nodes.tail)[i]? with
      | none => rw [hz] at hi; simp at hi
      | some pq =>
        rw [hz] at hi
        simp only [Option.some.injEq] at hi
        rw [← hi]
        exact hp k (List.mem_of_getElem? hni)
  have hlast := points_last s hnel
  have hhd := flat_head (nel.per nodes) nodes hn h2 hp
  refine ⟨(mkSpans nodes nel).flatMap (fun s => s.points.dropLast) ++ [s.q], ?_, ?_, ?_, ?_, ?_⟩
  · unfold points
    rw [mkSpans_eq, h1]
    simp only [hlast]
  · rw [List.length_append, flat_length]; rfl
  · rw [← hhd, mkSpans_eq]
    cases hf : (spansOf (nel.per nodes) nodes).flatMap (fun s => s.points.dropLast) with
    | nil =>
      rw [hf] at hhd
      cases nodes with
      | nil => simp at h2
      | cons a r => simp at hhd
    | cons x xs => simp
  · rw [List.getLast?_concat, h3]
  · intro x hx
    have hne : nodes ≠ [] := by intro h; simp [h] at h2
    rw [← List.dropLast_append_getLast hne, List.mem_append, List.mem_singleton] at hx
    rw [List.mem_append, List.mem_singleton]
    rcases hx with hx | hx
    · exact Or.inl (flat_nodes _ _ hn hp x hx)
    · right
      rw [List.getLast?_eq_some_getLast hne, Option.some.injEq] at h3
      rw [hx, h3]

/-- **C365** (partial). A single number of elements serves all spans. -/
theorem points_all_partial (nodes : List Pt) (n : ℕ) (hn : 1 ≤ n) (h2 : 2 ≤ nodes.length) :
    ∃ pts, points (mkSpans nodes (.all n)) = .ok pts ∧ pts.length = ((mkSpans nodes (.all n)).map (fun s => s.nel)).sum + 1 ∧
      pts.head? = nodes.head? ∧ pts.getLast? = nodes.getLast? ∧ ∀ x ∈ nodes, x ∈ pts :=
  points_partial nodes (.all n) h2 (by simp [Nel.per]) (by intro k hk; rw [List.eq_of_mem_replicate hk]; exact hn)

example : ∃ (nodes : List Pt) (nel : Nel), 2 ≤ nodes.length ∧ (nel.per nodes).length = nodes.length - 1 ∧ ∀ n ∈ nel.per nodes, 1 ≤ n :=
  ⟨[(0, 0), (0, 4), (0, 6)], .list [4, 2], by simp, by simp [Nel.per], by simp [Nel.per]⟩

/-- **C365** (negation): a list of numbers of elements that is too short leaves out the spans at the end, without an error. -/
theorem short_list_viol (a b c : Pt) (n : ℕ) (hn : 1 ≤ n) (hbc : b ≠ c) :
    ∃ pts, points (mkSpans [a, b, c] (.list [n])) = .ok pts ∧ pts.getLast? = some b ∧ pts.getLast? ≠ [a, b, c].getLast? := by
  have hm : mkSpans [a, b, c] (.list [n]) = [⟨a, b, n⟩] := by simp [mkSpans, Nel.per, List.dropLast]
  have hl := points_last ⟨a, b, n⟩ hn
  refine ⟨[(⟨a, b, n⟩ : Span)].flatMap (fun s => s.points.dropLast) ++ [b], ?_, ?_, ?_⟩
  · rw [hm]
    unfold points
    simp only [List.getLast?_singleton, hl]
  · rw [List.getLast?_concat]
  · rw [List.getLast?_concat]
    simpa using hbc

/-- **C365** (partial). On a straight member local and global coordinates are inverse to each other from the first node on; the
local coordinates 0 and 1 are the first and the last node. -/
theorem local_partial (p u : Pt) (ts : List ℝ) (nodes : List Pt) (h : Straight p u ts nodes) (nel : Nel) (h2 : 2 ≤ nodes.length)
    (hn : (nel.per nodes).length = nodes.length - 1) (t : ℝ) (ht : 0 ≤ t) :
    (∃ x, localToGlobal nodes (mkSpans nodes nel) t = .ok x ∧ globalToLocal nodes x = .ok t) ∧
    localToGlobal nodes (mkSpans nodes nel) 0 = .ok p ∧ (∀ q, nodes.getLast? = some q → localToGlobal nodes (mkSpans nodes nel) 1 = .ok q) := by
  obtain ⟨tn, htl, hh, hl, h0, hL, -⟩ := straight_length h
  obtain ⟨hu, hts, hm, hnodes⟩ := h
  have hdu : 0 < dist (0, 0) u := by
    refine lt_of_le_of_ne (dist_nonneg _ _) (fun h => hu (dist_zero h.symm))
  match ts, nodes, hts, hnodes with
  | a :: b :: r, nodes, hts, hnodes =>
    simp only [List.head?_cons, Option.some.injEq] at hts
    subst hts
    subst hnodes
    have hb : 0 < b := (List.pairwise_cons.1 hm).1 b (by simp)
    have htn : 0 < tn := by
      have : tn ∈ b :: r := by
        rw [List.getLast?_cons_cons] at htl
        exact List.mem_of_getLast? htl
      exact (List.pairwise_cons.1 hm).1 tn this
    obtain ⟨n, ns, hns⟩ : ∃ n ns, nel.per ((0 :: b :: r).map (fun t => (p.1 + t * u.1, p.2 + t * u.2))) = n :: ns := by
      cases hper : nel.per ((0 :: b :: r).map (fun t => (p.1 + t * u.1, p.2 + t * u.2))) with
      | nil => rw [hper] at hn; simp at hn
      | cons n ns => exact ⟨n, ns, rfl⟩
    have hspan : (mkSpans ((0 :: b :: r).map (fun t => (p.1 + t * u.1, p.2 + t * u.2))) nel).head? =
        some ⟨(p.1 + 0 * u.1, p.2 + 0 * u.2), (p.1 + b * u.1, p.2 + b * u.2), n⟩ := by
      rw [mkSpans_eq, hns]
      simp only [List.map_cons]
      rw [spansOf_cons]; rfl
    have hdir : dir (p.1 + 0 * u.1, p.2 + 0 * u.2) (p.1 + b * u.1, p.2 + b * u.2) = (u.1 / dist (0, 0) u, u.2 / dist (0, 0) u) := by
      unfold dir
      rw [dist_line, sub_zero, abs_of_pos hb]
      refine Prod.ext ?_ ?_ <;> simp only [zero_mul, add_zero, add_sub_cancel_left] <;> field_simp
    have key : ∀ t, localToGlobal ((0 :: b :: r).map (fun t => (p.1 + t * u.1, p.2 + t * u.2))) (mkSpans ((0 :: b :: r).map (fun t => (p.1 + t * u.1, p.2 + t * u.2))) nel) t =
        .ok (p.1 + (tn * t) * u.1, p.2 + (tn * t) * u.2) := by
      intro t
      unfold localToGlobal
      rw [hh, hspan, hL]
      simp only [hdir]
      congr 1
      refine Prod.ext ?_ ?_ <;> simp only <;> field_simp
    refine ⟨⟨_, key t, ?_⟩, ?_, ?_⟩
    · unfold globalToLocal
      rw [hh, hL]
      simp only
      have := dist_line p u 0 (tn * t)
      simp only [zero_mul, add_zero, sub_zero] at this
      rw [this, abs_of_nonneg (by positivity)]
      congr 1
      field_simp
    · rw [key]; simp
    · intro q hq
      rw [key, mul_one]
      rw [hl, Option.some.injEq] at hq
      rw [hq]
  | [a], nodes, hts, hnodes => subst hnodes; simp at h2

/-- **C365** (negation): in a member with a bend the local coordinate 1 is not the last node. -/
theorem local_bend_viol : ∃ nodes nel x, localToGlobal nodes (mkSpans nodes nel) 1 = .ok x ∧ nodes.getLast? ≠ some x := by
  refine ⟨[(0, 0), (3, 0), (3, 4)], .all 2, (5, 0), ?_, by simp⟩
  have h5 : √((3 : ℝ) ^ 2 + 4 ^ 2) = 5 := by
    rw [show (3 : ℝ) ^ 2 + 4 ^ 2 = 5 ^ 2 by norm_num]; exact Real.sqrt_sq (by norm_num)
  have h3 : √((3 : ℝ) ^ 2) = 3 := Real.sqrt_sq (by norm_num)
  simp [localToGlobal, length, mkSpans, Nel.per, dist, dir, h5, h3, List.replicate, List.dropLast]

/-- **C365** (negation): a point before the first node gets the local coordinate of its mirror image. -/
theorem before_viol (nodes : List Pt) (p x : Pt) (L : ℝ) (hp : nodes.head? = some p) (hL : length nodes = .ok L) :
    globalToLocal nodes (2 * p.1 - x.1, 2 * p.2 - x.2) = globalToLocal nodes x := by
  unfold globalToLocal
  rw [hp, hL]
  simp only
  congr 2
  unfold dist
  congr 1
  ring

/-! ## C366: section, buckling lengths, elements -/

variable {P : Type}

/-- Every span has the section and the factors of the member, and all its elements exist and have the section. -/
def Agree (m : M P) : Prop :=
  ∀ s ∈ m.spans, s.sec = m.sec ∧ s.lcr = m.lcr ∧ ∀ i ∈ s.elems, ∃ e, m.store[i]? = some e ∧ e.sec = m.sec

theorem modify_sec (st : List (El P)) (a i : ℕ) (f : El P → El P) (e : El P) (h : st[i]? = some e) :
    (st.modify a f)[i]? = some (if a = i then f e else e) := by
  rw [List.getElem?_modify, h]
  split_ifs <;> rfl

theorem setElems_keep (ids : List ℕ) (p : P) (st : List (El P)) (i : ℕ) (e : El P) (h : st[i]? = some e) :
    ∃ e', (setElems st ids p)[i]? = some e' ∧ (e.sec = p ∨ i ∈ ids → e'.sec = p) ∧ (i ∉ ids → e' = e) := by
  induction ids generalizing st e with
  | nil => exact ⟨e, h, by simp, by simp⟩
  | cons a ids ih =>
    have h1 := modify_sec st a i (fun e => { e with sec := p }) e h
    obtain ⟨e', h2, h3, h4⟩ := ih (st.modify a (fun e => { e with sec := p })) _ h1
    refine ⟨e', h2, ?_, ?_⟩
    · rintro (hs | hs)
      · apply h3; left; split_ifs
        · rfl
        · exact hs
      · rcases List.mem_cons.1 hs with rfl | hs
        · apply h3; left; simp
        · exact h3 (Or.inr hs)
    · intro hn
      rw [List.mem_cons, not_or] at hn
      rw [h4 hn.2, if_neg (fun h => hn.1 h.symm)]

theorem setSection_store (m : M P) (p : P) : (m.setSection p).store = setElems m.store (m.spans.flatMap (fun s => s.elems)) p := by
  show m.spans.foldl _ m.store = _
  generalize m.store = st
  induction m.spans generalizing st with
  | nil => rfl
  | cons s r ih =>
    rw [List.foldl_cons, ih, List.flatMap_cons]
    unfold setElems
    rw [List.foldl_append]

theorem gen_fold (spans : List (SpanS P)) (g : List (El P) × List (SpanS P)) :
    (spans.foldl genSpan g).1 = g.1 ++ spans.flatMap (fun s => List.replicate s.nel ⟨s.sec, []⟩) ∧
    ∃ new, (spans.foldl genSpan g).2 = g.2 ++ new ∧ new.map (fun s => (s.sec, s.lcr, s.nel)) = spans.map (fun s => (s.sec, s.lcr, s.nel)) ∧
      new.flatMap (fun s => s.elems) = List.range' g.1.length (spans.map (fun s => s.nel)).sum ∧ (∀ s ∈ new, s.elems.length = s.nel) ∧
      ∀ s ∈ new, ∀ i ∈ s.elems, (spans.foldl genSpan g).1[i]? = some ⟨s.sec, []⟩ := by
  induction spans generalizing g with
  | nil => exact ⟨by simp, [], by simp⟩
  | cons s r ih =>
    obtain ⟨h1, new, h2, h3, h4, h6, h5⟩ := ih (genSpan g s)
    refine ⟨?_, ({ s with elems := List.range' g.1.length s.nel } : SpanS P) :: new, ?_, ?_, ?_, ?_, ?_⟩
    · rw [List.foldl_cons, h1]; simp [genSpan]
    · rw [List.foldl_cons, h2]; simp [genSpan]
    · rw [List.map_cons, List.map_cons, h3]
    · rw [List.flatMap_cons, h4, List.map_cons, List.sum_cons]
      simp only [genSpan, List.length_append, List.length_replicate]
      rw [List.range'_append_1]
    · intro t ht
      rcases List.mem_cons.1 ht with rfl | ht
      · simp
      · exact h6 t ht
    · intro t ht i hi
      rw [List.foldl_cons]
      rcases List.mem_cons.1 ht with rfl | ht
      · simp only [List.mem_range'_1] at hi
        rw [h1]
        simp only [genSpan]
        rw [List.getElem?_append_left (by simp; omega), List.getElem?_append_right hi.1, List.getElem?_replicate, if_pos (by omega)]
      · exact h5 t ht i hi

theorem setReleases_get (st : List (El P)) (ids : List ℕ) (h : Bool × Bool) (i : ℕ) (e : El P) (he : st[i]? = some e) :
    (setReleases st ids h)[i]? = some { e with releases := if h.2 ∧ ids.getLast? = some i then [5] else if h.1 ∧ ids.head? = some i then [2] else e.releases } := by
  obtain ⟨a, b⟩ := h
  unfold setReleases
  cases hd : ids.head? with
  | none =>
    have hl : ids.getLast? = none := by rw [List.head?_eq_none_iff] at hd; simp [hd]
    simp [hl, he]
  | some j =>
    cases hl : ids.getLast? with
    | none => rw [List.getLast?_eq_none_iff] at hl; rw [hl] at hd; simp at hd
    | some k =>
      have h1 := modify_sec st j i (fun e => { e with releases := [2] }) e he
      have h2 := modify_sec st k i (fun e => { e with releases := [5] }) e he
      have h3 := modify_sec _ k i (fun e => { e with releases := [5] }) _ h1
      cases a <;> cases b
      · simpa using he
      · simp only [Bool.false_eq_true, if_false, if_true, false_and, true_and, Option.some.injEq, h2]
        split_ifs <;> rfl
      · simp only [Bool.false_eq_true, if_false, if_true, false_and, true_and, Option.some.injEq, h1]
        split_ifs <;> rfl
      · simp only [Bool.false_eq_true, if_false, if_true, false_and, true_and, Option.some.injEq, h3]
        split_ifs <;> rfl

theorem agree_step (m : M P) (h : Agree m) (o : Op P) : Agree (m.step o) := by
  cases o with
  | «section» p =>
    intro s hs
    obtain ⟨t, ht, rfl⟩ := List.mem_map.1 hs
    obtain ⟨-, h2, h3⟩ := h t ht
    refine ⟨rfl, h2, fun i hi => ?_⟩
    obtain ⟨e, he, -⟩ := h3 i hi
    obtain ⟨e', h4, h5, -⟩ := setElems_keep (m.spans.flatMap (fun s => s.elems)) p m.store i e he
    show ∃ e, (m.setSection p).store[i]? = some e ∧ e.sec = p
    rw [setSection_store]
    exact ⟨e', h4, h5 (Or.inr (List.mem_flatMap.2 ⟨t, ht, hi⟩))⟩
  | lcr v =>
    intro s hs
    obtain ⟨t, ht, rfl⟩ := List.mem_map.1 hs
    obtain ⟨h1, h2, h3⟩ := h t ht
    exact ⟨h1, rfl, h3⟩
  | clear =>
    intro s hs
    obtain ⟨t, ht, rfl⟩ := List.mem_map.1 hs
    obtain ⟨h1, h2, h3⟩ := h t ht
    exact ⟨h1, h2, by simp⟩
  | generate =>
    obtain ⟨-, new, h2, h3, h4, h6, h5⟩ := gen_fold m.clearFem.spans (m.store, [])
    intro s hs
    have hs' : s ∈ new := by
      have : s ∈ (m.clearFem.spans.foldl genSpan (m.store, [])).2 := hs
      rwa [h2, List.nil_append] at this
    have hx : (s.sec, s.lcr, s.nel) ∈ m.clearFem.spans.map (fun s => (s.sec, s.lcr, s.nel)) := by
      rw [← h3]; exact List.mem_map_of_mem hs'
    obtain ⟨t, ht, hte⟩ := List.mem_map.1 hx
    obtain ⟨t', ht', rfl⟩ := List.mem_map.1 ht
    simp only [Prod.mk.injEq] at hte
    obtain ⟨h1, h2', -⟩ := h t' ht'
    refine ⟨hte.1.symm.trans h1, hte.2.1.symm.trans h2', fun i hi => ?_⟩
    have := setReleases_get _ ((m.clearFem.spans.foldl genSpan (m.store, [])).2.flatMap (fun s => s.elems)) m.hinges i _ (h5 s hs' i hi)
    exact ⟨_, this, hte.1.symm.trans h1⟩

/-- **C366** (partial). Whatever section and buckling length factors are set, whenever the finite element model is made or removed: all spans have the
section and the factors of the member, and their elements have its section. -/
theorem spans_agree_partial (p : P) (lcr : ℝ × ℝ) (hinges : Bool × Bool) (nels : List ℕ) (ops : List (Op P)) :
    Agree (ops.foldl M.step (M.make p lcr hinges nels)) := by
  have h0 : Agree (M.make p lcr hinges nels) := by
    intro s hs
    obtain ⟨n, -, rfl⟩ := List.mem_map.1 hs
    exact ⟨rfl, rfl, by simp⟩
  generalize M.make p lcr hinges nels = m at h0
  induction ops generalizing m with
  | nil => exact h0
  | cons o r ih => exact ih _ (agree_step m h0 o)

/-- **C366**. The section and the factors of the member are the ones set last. -/
theorem set_last (m : M P) (p : P) (v : ℝ × ℝ) : (m.setSection p).sec = p ∧ (m.setSection p).lcr = m.lcr ∧ (m.setLcr v).lcr = v ∧ (m.setLcr v).sec = m.sec ∧
    (m.generate).sec = m.sec ∧ m.generate.lcr = m.lcr ∧ m.clearFem.sec = m.sec ∧ m.clearFem.lcr = m.lcr ∧
    (m.setSection p).spans.map (fun s => (s.nel, s.elems)) = m.spans.map (fun s => (s.nel, s.elems)) ∧
    m.generate.spans.map (fun s => s.nel) = m.spans.map (fun s => s.nel) := by
  refine ⟨rfl, rfl, rfl, rfl, rfl, rfl, rfl, rfl, ?_, ?_⟩
  · simp [M.setSection]
  · obtain ⟨-, new, h2, h3, -⟩ := gen_fold m.clearFem.spans (m.store, [])
    show (m.clearFem.spans.foldl genSpan (m.store, [])).2.map _ = _
    rw [h2, List.nil_append]
    have := congrArg (List.map (fun x : P × (ℝ × ℝ) × ℕ => x.2.2)) h3
    simpa [M.clearFem, List.map_map, Function.comp_def] using this

/-- **C366** (partial). Making the model gives the member new elements, as many as its spans have together, in their order; with two or more elements the
first one is released for a hinge at the first end, the last one for a hinge at the second end, and the others are not released. -/
theorem generate_partial (m : M P) :
    let N := (m.spans.map (fun s => s.nel)).sum
    m.generate.elems = List.range' m.store.length N ∧ m.generate.spans.flatMap (fun s => s.elems) = m.generate.elems ∧
    (∀ s ∈ m.generate.spans, s.elems.length = s.nel) ∧ (∀ i < m.store.length, m.generate.store[i]? = m.store[i]?) ∧
    (2 ≤ N → ∀ k < N, ∃ e, m.generate.store[m.store.length + k]? = some e ∧
      e.releases = (if m.hinges.1 ∧ k = 0 then [2] else []) ++ (if m.hinges.2 ∧ k + 1 = N then [5] else [])) := by
  intro N
  obtain ⟨h1, new, h2, h3, h4, h6, h5⟩ := gen_fold m.clearFem.spans (m.store, [])
  have hN : (m.clearFem.spans.map (fun s => s.nel)).sum = N := by simp [M.clearFem, N, List.map_map, Function.comp_def]
  rw [hN] at h4
  rw [List.nil_append] at h2
  have he : m.generate.elems = List.range' m.store.length N := by
    show (m.clearFem.spans.foldl genSpan (m.store, [])).2.flatMap _ = _
    rw [h2, h4]
  refine ⟨he, rfl, ?_, ?_, ?_⟩
  · intro s hs
    apply h6
    rw [← h2]; exact hs
  · intro i hi
    have hg : (m.clearFem.spans.foldl genSpan (m.store, [])).1[i]? = some m.store[i] := by
      rw [h1, List.getElem?_append_left hi, List.getElem?_eq_getElem hi]
    have := setReleases_get _ m.generate.elems m.hinges i _ hg
    show (setReleases _ m.generate.elems m.hinges)[i]? = _
    rw [this, List.getElem?_eq_getElem hi, he]
    have a1 : (List.range' m.store.length N).getLast? ≠ some i := by
      intro h; have := List.mem_of_getLast? h; rw [List.mem_range'_1] at this; omega
    have a2 : (List.range' m.store.length N).head? ≠ some i := by
      intro h; have := List.mem_of_mem_head? h; rw [List.mem_range'_1] at this; omega
    simp [a1, a2]
  · intro h2N k hk
    have hmem : m.store.length + k ∈ new.flatMap (fun s => s.elems) := by
      rw [h4, List.mem_range'_1]; exact ⟨by simp, by simpa using hk⟩
    obtain ⟨s, hs, hi⟩ := List.mem_flatMap.1 hmem
    have := setReleases_get _ m.generate.elems m.hinges _ _ (h5 s hs _ hi)
    refine ⟨_, this, ?_⟩
    simp only
    have a1 : m.generate.elems.getLast? = some (m.store.length + k) ↔ k + 1 = N := by
      rw [he, List.getLast?_range', if_neg (by omega), Option.some.injEq]; omega
    have a2 : m.generate.elems.head? = some (m.store.length + k) ↔ k = 0 := by
      rw [he, List.head?_range', if_neg (by omega), Option.some.injEq]; omega
    simp only [a1, a2]
    by_cases c1 : k = 0
    · have c2 : ¬ k + 1 = N := by omega
      have c3 : ¬ 1 = N := by omega
      simp [c1, c3]
    · simp [c1]

example : ∃ m : M ℕ, m.hinges = (true, true) ∧ 2 ≤ (m.spans.map (fun s => s.nel)).sum ∧ m.generate.elems = [0, 1, 2] ∧
    m.generate.store.map (fun e => e.releases) = [[2], [], [5]] :=
  ⟨M.make 7 (1, 1) (true, true) [2, 1], rfl, by simp [M.make], by simp [M.make, M.generate, M.clearFem, genSpan, List.range'], rfl⟩

/-- **C366** (negation): a member of one element with hinges at both ends is not released at the first end. -/
theorem one_element_viol (p : P) (lcr : ℝ × ℝ) :
    (M.make p lcr (true, true) [1]).generate.store.map (fun e => e.releases) = [[5]] := rfl

/-! ## C367: design -/

theorem fold_max (f : ℕ → ℝ) (l : List ℕ) (r : ℝ) :
    r ≤ l.foldl (fun r i => max r (f i)) r ∧ (∀ i ∈ l, f i ≤ l.foldl (fun r i => max r (f i)) r) ∧
    (l.foldl (fun r i => max r (f i)) r = r ∨ ∃ i ∈ l, l.foldl (fun r i => max r (f i)) r = f i) := by
  induction l generalizing r with
  | nil => exact ⟨le_refl _, by simp, Or.inl rfl⟩
  | cons a l ih =>
    obtain ⟨h1, h2, h3⟩ := ih (max r (f a))
    refine ⟨le_trans (le_max_left _ _) h1, ?_, ?_⟩
    · intro i hi
      rcases List.mem_cons.1 hi with rfl | hi
      · exact le_trans (le_max_right _ _) h1
      · exact h2 i hi
    · rcases h3 with h3 | ⟨i, hi, h3⟩
      · rw [List.foldl_cons, h3]
        rcases max_choice r (f a) with h | h
        · exact Or.inl h
        · exact Or.inr ⟨a, by simp, h⟩
      · exact Or.inr ⟨i, by simp [hi], h3⟩

theorem rmax_spec (E : Env P) (n : ℕ) (p : P) (l : ℕ) :
    0 ≤ rmax E n p l ∧ (∀ i < n, E.util i p l ≤ rmax E n p l) ∧ (rmax E n p l = 0 ∨ ∃ i < n, rmax E n p l = E.util i p l) := by
  obtain ⟨h1, h2, h3⟩ := fold_max (fun i => E.util i p l) (List.range n) 0
  refine ⟨h1, fun i hi => h2 i (List.mem_range.2 hi), ?_⟩
  rcases h3 with h3 | ⟨i, hi, h3⟩
  · exact Or.inl h3
  · exact Or.inr ⟨i, List.mem_range.1 hi, h3⟩

/-- **C367** (partial). Design records for the load case the largest utilization of the spans (zero if none is positive), keeps those of the other load cases,
and the verdict says whether no span exceeds one. -/
theorem design_partial (E : Env P) (n : ℕ) (d : D P) (l : ℕ) :
    (∃ r, (l, r) ∈ (design E n d l).util ∧ 0 ≤ r ∧ (∀ i < n, E.util i d.sec l ≤ r) ∧ (r = 0 ∨ ∃ i < n, r = E.util i d.sec l) ∧
      ∀ r', (l, r') ∈ (design E n d l).util → r' = r) ∧
    (∀ k r, k ≠ l → ((k, r) ∈ (design E n d l).util ↔ (k, r) ∈ d.util)) ∧ (design E n d l).sec = d.sec ∧ (design E n d l).allow = d.allow ∧
    ((design E n d l).check = true ↔ ∀ i < n, E.util i d.sec l ≤ 1) := by
  obtain ⟨h1, h2, h3⟩ := rmax_spec E n d.sec l
  refine ⟨⟨rmax E n d.sec l, by simp [design], h1, h2, h3, ?_⟩, ?_, rfl, rfl, ?_⟩
  · intro r' h
    simpa [design] using h
  · intro k r hk
    simp [design, hk]
  · simp only [design, Bool.not_eq_true', decide_eq_false_iff_not, not_lt, gt_iff_lt]
    constructor
    · exact fun h i hi => le_trans (h2 i hi) h
    · intro h
      rcases h3 with h3 | ⟨i, hi, h3⟩
      · rw [h3]; norm_num
      · rw [h3]; exact h i hi

/-- **C367** (negation): the allowable utilization of the member does not enter the verdict. -/
theorem allowable_viol (E : Env P) (n : ℕ) (d : D P) (l : ℕ) (a : ℝ) : (design E n { d with allow := a } l).check = (design E n d l).check := rfl

/-- **C367** (negation): after several load cases the verdict is that of the last one: the member is reported adequate although it fails in the first. -/
theorem last_case_viol : ∃ (E : Env ℕ) (n : ℕ) (d : D ℕ), E.util 0 d.sec 1 = 2 ∧ ([1, 2].foldl (design E n) d).check = true := by
  refine ⟨⟨fun _ _ l => if l = 1 then 2 else 0, fun _ => 1⟩, 1, ⟨0, [], true, 1⟩, by simp, ?_⟩
  simp [design, rmax, List.range_succ]

theorem loads_sec (E : Env P) (n : ℕ) (loads : List ℕ) (d : D P) : (loads.foldl (design E n) d).sec = d.sec ∧ (loads.foldl (design E n) d).allow = d.allow ∧
    ∀ x, x ∈ (loads.foldl (design E n) d).util ↔ (x.1 ∈ loads ∧ x.2 = rmax E n d.sec x.1) ∨ (x.1 ∉ loads ∧ x ∈ d.util) := by
  induction loads generalizing d with
  | nil => simp
  | cons a r ih =>
    obtain ⟨h1, h2, h3⟩ := ih (design E n d a)
    refine ⟨h1, h2, fun x => ?_⟩
    rw [List.foldl_cons, h3]
    obtain ⟨k, v⟩ := x
    show (k ∈ r ∧ v = rmax E n d.sec k) ∨ (k ∉ r ∧ (k, v) ∈ (a, rmax E n d.sec a) :: d.util.filter _) ↔ _
    by_cases hk : k ∈ r
    · simp [hk]
    · by_cases hka : k = a
      · subst hka; simp [hk]
      · simp [hk, hka]

/-- The section serves all load cases in all spans. -/
def Fits (E : Env P) (n : ℕ) (loads : List ℕ) (allow : ℝ) (p : P) : Prop := ∀ l ∈ loads, ∀ i < n, E.util i p l ≤ allow

theorem fits_iff (E : Env P) (n : ℕ) (loads : List ℕ) (d : D P) (p : P) (hk : ∀ x ∈ d.util, x.1 ∈ loads) (ha : 0 ≤ d.allow) :
    ((loads.foldl (design E n) { d with sec := p }).util.all (fun x => decide (x.2 ≤ d.allow)) = true) ↔ Fits E n loads d.allow p := by
  obtain ⟨-, -, h3⟩ := loads_sec E n loads { d with sec := p }
  simp only [List.all_eq_true, decide_eq_true_eq]
  constructor
  · intro h l hl i hi
    have := h (l, rmax E n p l) ((h3 _).2 (Or.inl ⟨hl, rfl⟩))
    exact le_trans ((rmax_spec E n p l).2.1 i hi) this
  · intro h x hx
    rcases (h3 x).1 hx with ⟨h1, h2⟩ | ⟨h1, h2⟩
    · rw [h2]
      rcases (rmax_spec E n p x.1).2.2 with h | ⟨i, hi, h4⟩
      · show rmax E n p x.1 ≤ _
        rw [h]; exact ha
      · show rmax E n p x.1 ≤ _
        rw [h4]; exact h x.1 h1 i hi
    · exact absurd (hk x h2) h1

theorem loads_keys (E : Env P) (n : ℕ) (loads : List ℕ) (d : D P) (hk : ∀ x ∈ d.util, x.1 ∈ loads) : ∀ x ∈ (loads.foldl (design E n) d).util, x.1 ∈ loads := by
  intro x hx
  rcases ((loads_sec E n loads d).2.2 x).1 hx with ⟨h1, -⟩ | ⟨h1, h2⟩
  · exact h1
  · exact hk x h2

/-- **C367** (partial). If some profile of the list has an allowed class and serves all load cases in all spans, the member gets the first such profile. -/
theorem optimum_first_partial (E : Env P) (n : ℕ) (loads : List ℕ) (cls : ℕ) (mu : ℝ) (pre : List P) (p : P) (post : List P) (d : D P)
    (hk : ∀ x ∈ d.util, x.1 ∈ loads) (ha : 0 ≤ d.allow) (hpre : ∀ q ∈ pre, cls < E.cls q ∨ ¬ Fits E n loads d.allow q)
    (hp : E.cls p ≤ cls) (hf : Fits E n loads d.allow p) :
    (optimum E n loads cls mu (pre ++ p :: post) d).sec = p ∧
    ∀ x ∈ (optimum E n loads cls mu (pre ++ p :: post) d).util, x.2 ≤ d.allow := by
  unfold optimum
  induction pre generalizing d with
  | nil =>
    have := (fits_iff E n loads d p hk ha).2 hf
    simp only [List.nil_append, search, if_neg (show ¬ E.cls p > cls by omega), this, if_true]
    refine ⟨(loads_sec E n loads _).1, ?_⟩
    simpa using this
  | cons q pre ih =>
    simp only [List.cons_append, search]
    by_cases hq : E.cls q > cls
    · rw [if_pos hq]
      exact ih { d with sec := q } hk ha (fun x hx => hpre x (by simp [hx])) hf
    · have hnf : ¬ Fits E n loads d.allow q := (hpre q (by simp)).resolve_left (by omega)
      rw [if_neg hq, if_neg (fun h => hnf ((fits_iff E n loads d q hk ha).1 h))]
      have hal := (loads_sec E n loads { d with sec := q }).2.1
      have := ih (loads.foldl (design E n) { d with sec := q }) (loads_keys E n loads _ hk) (by rw [hal]; exact ha)
        (fun x hx => by rw [hal]; exact hpre x (by simp [hx])) (by rw [hal]; exact hf)
      rwa [hal] at this

example : ∃ (E : Env ℕ) (d : D ℕ), (∀ x ∈ d.util, x.1 ∈ [1, 2]) ∧ 0 ≤ d.allow ∧ (∀ q ∈ [100], 2 < E.cls q ∨ ¬ Fits E 2 [1, 2] d.allow q) ∧ E.cls 200 ≤ 2 ∧
    Fits E 2 [1, 2] d.allow 200 := by
  refine ⟨⟨fun _ p _ => 150 / p, fun _ => 1⟩, ⟨100, [], true, 1⟩, by simp, by norm_num, ?_, by simp, ?_⟩
  · intro q hq
    right
    rw [List.mem_singleton.1 hq]
    intro h
    have := h 1 (by simp) 0 (by norm_num)
    norm_num at this
  · intro l hl i hi
    norm_num

/-- **C367** (negation): if no profile serves, the member is left with the last profile of the list, even one whose class is not allowed. -/
theorem optimum_none_viol (E : Env P) (n : ℕ) (loads : List ℕ) (cls : ℕ) (mu : ℝ) (ps : List P) (p : P) (d : D P)
    (hk : ∀ x ∈ d.util, x.1 ∈ loads) (ha : 0 ≤ d.allow) (hno : ∀ q ∈ ps ++ [p], cls < E.cls q ∨ ¬ Fits E n loads d.allow q) :
    (optimum E n loads cls mu (ps ++ [p]) d).sec = p := by
  unfold optimum
  induction ps generalizing d with
  | nil =>
    simp only [List.nil_append, search]
    split_ifs
    · rfl
    · exact (loads_sec E n loads _).1
    · exact (loads_sec E n loads _).1
  | cons q ps ih =>
    simp only [List.cons_append, search]
    by_cases hq : E.cls q > cls
    · rw [if_pos hq]
      exact ih { d with sec := q } hk ha (fun x hx => hno x (by simp at hx ⊢; tauto))
    · have hnf : ¬ Fits E n loads d.allow q := (hno q (by simp)).resolve_left (by omega)
      rw [if_neg hq, if_neg (fun h => hnf ((fits_iff E n loads d q hk ha).1 h))]
      have hal := (loads_sec E n loads { d with sec := q }).2.1
      exact ih (loads.foldl (design E n) { d with sec := q }) (loads_keys E n loads _ hk) (by rw [hal]; exact ha)
        (fun x hx => by rw [hal]; exact hno x (by simp at hx ⊢; tauto))

/-- **C367** (negation): the required utilization passed to the search has no influence. -/
theorem max_utility_viol (E : Env P) (n : ℕ) (loads : List ℕ) (cls : ℕ) (a b : ℝ) (ps : List P) (d : D P) :
    optimum E n loads cls a ps d = optimum E n loads cls b ps d := rfl

end Metku.MSpan
