import Verif.Props.FrameAdd

/-! The FEM nodes of a generated frame. -/
namespace Metku.Frame2D

open Metku.FrameSpec

set_option linter.unusedSectionVars false

variable {K : Type} [Field K] [LinearOrder K] [IsStrictOrderedRing K] [FloorRing K]

/-- Distinct values in the order of their first occurrence. -/
def firsts {α : Type} [DecidableEq α] (acc l : List α) : List α := l.foldl (fun a x => if x ∈ a then a else a ++ [x]) acc

theorem firsts_cons {α : Type} [DecidableEq α] (acc : List α) (x : α) (l : List α) :
    firsts acc (x :: l) = firsts (if x ∈ acc then acc else acc ++ [x]) l := rfl

theorem mem_firsts {α : Type} [DecidableEq α] : ∀ {l acc : List α} {x : α}, x ∈ firsts acc l ↔ x ∈ acc ∨ x ∈ l
  | [], acc, x => by simp [firsts]
  | y :: l, acc, x => by
    rw [firsts_cons, mem_firsts]
    by_cases hy : y ∈ acc
    · rw [if_pos hy, List.mem_cons]
      constructor
      · rintro (h | h)
        · exact Or.inl h
        · exact Or.inr (Or.inr h)
      · rintro (h | h | h)
        · exact Or.inl h
        · subst h; exact Or.inl hy
        · exact Or.inr h
    · rw [if_neg hy, List.mem_append, List.mem_singleton, List.mem_cons, or_assoc]

theorem nodup_firsts {α : Type} [DecidableEq α] : ∀ {l acc : List α}, acc.Nodup → (firsts acc l).Nodup
  | [], _, h => h
  | y :: l, acc, h => by
    rw [firsts_cons]
    apply nodup_firsts
    by_cases hy : y ∈ acc
    · rw [if_pos hy]; exact h
    · rw [if_neg hy, List.nodup_append]
      refine ⟨h, by simp, ?_⟩
      intro a ha b hb
      rw [List.mem_singleton.mp hb]
      rintro rfl
      exact hy ha

theorem firsts_prefix {α : Type} [DecidableEq α] : ∀ (l acc : List α), ∃ t, firsts acc l = acc ++ t ∧ t.Sublist l
  | [], acc => ⟨[], by simp [firsts], List.Sublist.refl _⟩
  | y :: l, acc => by
    rw [firsts_cons]
    by_cases hy : y ∈ acc
    · rw [if_pos hy]
      obtain ⟨t, h, s⟩ := firsts_prefix l acc
      exact ⟨t, h, s.cons y⟩
    · rw [if_neg hy]
      obtain ⟨t, h, s⟩ := firsts_prefix l (acc ++ [y])
      exact ⟨y :: t, by rw [h]; simp, s.cons_cons y⟩

theorem firsts_last {α : Type} [DecidableEq α] {z : α} : ∀ {l acc : List α}, z ∉ acc → z ∈ l → l.Pairwise (fun x y => x = z → y = z) →
    (firsts acc l).getLast? = some z
  | [], _, _, h, _ => by cases h
  | y :: l, acc, hz, hm, hp => by
    rw [firsts_cons]
    rw [List.pairwise_cons] at hp
    by_cases hyz : y = z
    · subst hyz
      rw [if_neg hz]
      have all : ∀ x ∈ l, x = y := fun x hx => hp.1 x hx rfl
      have : firsts (acc ++ [y]) l = acc ++ [y] := by
        clear hp hm
        induction l with
        | nil => rfl
        | cons a l ih =>
          rw [firsts_cons, if_pos (by rw [all a List.mem_cons_self]; simp)]
          exact ih (fun x hx => all x (List.mem_cons_of_mem _ hx))
      rw [this]
      simp
    · have hm' : z ∈ l := by
        rcases List.mem_cons.mp hm with h | h
        · exact absurd h.symm hyz
        · exact h
      refine firsts_last ?_ hm' hp.2
      by_cases hy : y ∈ acc
      · rw [if_pos hy]; exact hz
      · rw [if_neg hy]
        simp only [List.mem_append, List.mem_singleton, not_or]
        exact ⟨hz, fun h => hyz h.symm⟩

theorem firsts_map {α β : Type} [DecidableEq α] [DecidableEq β] {f : α → β} : ∀ {l acc : List α}, (∀ x ∈ acc ++ l, ∀ y ∈ acc ++ l, f x = f y → x = y) →
    firsts (acc.map f) (l.map f) = (firsts acc l).map f
  | [], _, _ => rfl
  | y :: l, acc, h => by
    have hy : f y ∈ acc.map f ↔ y ∈ acc := by
      constructor
      · intro hm
        obtain ⟨x, hx, e⟩ := List.mem_map.mp hm
        have := h x (List.mem_append_left _ hx) y (by simp) e
        rw [← this]; exact hx
      · exact fun hm => List.mem_map_of_mem hm
    rw [List.map_cons, firsts_cons, firsts_cons]
    by_cases hm : y ∈ acc
    · rw [if_pos hm, if_pos (hy.mpr hm)]
      apply firsts_map
      intro a ha b hb
      apply h
      · rcases List.mem_append.mp ha with k | k
        · exact List.mem_append_left _ k
        · exact List.mem_append_right _ (List.mem_cons_of_mem _ k)
      · rcases List.mem_append.mp hb with k | k
        · exact List.mem_append_left _ k
        · exact List.mem_append_right _ (List.mem_cons_of_mem _ k)
    · rw [if_neg hm, if_neg (fun k => hm (hy.mp k))]
      have : acc.map f ++ [f y] = (acc ++ [y]).map f := by simp
      rw [this]
      apply firsts_map
      intro a ha b hb
      apply h
      · simpa using ha
      · simpa using hb

/-! ### `add_nodes` -/

theorem noteNode_foldl (l acc : List ℕ) : l.foldl noteNode acc = firsts acc l := rfl

theorem nodeAt_spec {g : Fem K} (p : Pt K) :
    (∃ c, (g.nodeAt p).2.coords = g.coords ++ c) ∧ p ∈ (g.nodeAt p).2.coords ∧ (g.nodeAt p).1 = (g.nodeAt p).2.coords.idxOf p
    ∧ (g.coords.Nodup → (g.nodeAt p).2.coords.Nodup) ∧ (g.place = g.coords → (g.nodeAt p).2.place = (g.nodeAt p).2.coords)
    ∧ (∀ q ∈ (g.nodeAt p).2.coords, q ∈ g.coords ∨ q = p)
    ∧ (g.nodeAt p).2 = { g with coords := (g.nodeAt p).2.coords, place := (g.nodeAt p).2.place } := by
  unfold Fem.nodeAt
  by_cases h : p ∈ g.coords
  · rw [if_pos h]
    exact ⟨⟨[], by simp⟩, h, rfl, fun h => h, fun h => h, fun q hq => Or.inl hq, rfl⟩
  · rw [if_neg h]
    refine ⟨⟨[p], rfl⟩, by simp [Fem.addNode], ?_, ?_, ?_, ?_, rfl⟩
    · simp only [Fem.addNode]
      rw [List.idxOf_append_of_notMem h]
      simp
    · intro hn
      simp only [Fem.addNode]
      rw [List.nodup_append]
      refine ⟨hn, by simp, ?_⟩
      intro a ha b hb
      rw [List.mem_singleton.mp hb]
      rintro rfl
      exact h ha
    · intro e
      simp only [Fem.addNode]
      rw [e]
    · intro q hq
      simp only [Fem.addNode, List.mem_append, List.mem_singleton] at hq
      exact hq

theorem idxOf_prefix {α : Type} [BEq α] [LawfulBEq α] {l c : List α} {x : α} (h : x ∈ l) : (l ++ c).idxOf x = l.idxOf x :=
  List.idxOf_append_of_mem h

theorem addNodesLoop_spec : ∀ (l : List (Pt K)) (ns : List ℕ) (i : Option ℕ) (g : Fem K),
    (∃ c, (addNodesLoop l ns i g).2.2.coords = g.coords ++ c)
    ∧ (∀ p ∈ l, p ∈ (addNodesLoop l ns i g).2.2.coords)
    ∧ (addNodesLoop l ns i g).1 = firsts ns (l.map (addNodesLoop l ns i g).2.2.coords.idxOf)
    ∧ (addNodesLoop l ns i g).2.1 = (l.map (fun p => some ((addNodesLoop l ns i g).2.2.coords.idxOf p))).getLastD i
    ∧ (g.coords.Nodup → (addNodesLoop l ns i g).2.2.coords.Nodup)
    ∧ (g.place = g.coords → (addNodesLoop l ns i g).2.2.place = (addNodesLoop l ns i g).2.2.coords)
    ∧ (∀ q ∈ (addNodesLoop l ns i g).2.2.coords, q ∈ g.coords ∨ q ∈ l)
    ∧ (addNodesLoop l ns i g).2.2 = { g with coords := (addNodesLoop l ns i g).2.2.coords, place := (addNodesLoop l ns i g).2.2.place }
  | [], ns, i, g => by
    simp only [addNodesLoop, List.map_nil]
    exact ⟨⟨[], by simp⟩, by simp, rfl, rfl, fun h => h, fun h => h, fun q hq => Or.inl hq, trivial⟩
  | p :: l, ns, i, g => by
    obtain ⟨⟨c, hc⟩, hp, hi, hn, hpl, hq, hg⟩ := nodeAt_spec (g := g) p
    obtain ⟨⟨c', hc'⟩, hl, h1, h2, hn', hpl', hq', hg'⟩ := addNodesLoop_spec l (noteNode ns (g.nodeAt p).1) (some (g.nodeAt p).1) (g.nodeAt p).2
    have e : addNodesLoop (p :: l) ns i g = addNodesLoop l (noteNode ns (g.nodeAt p).1) (some (g.nodeAt p).1) (g.nodeAt p).2 := rfl
    rw [e]
    set r := addNodesLoop l (noteNode ns (g.nodeAt p).1) (some (g.nodeAt p).1) (g.nodeAt p).2 with hr
    have hidx : r.2.2.coords.idxOf p = (g.nodeAt p).1 := by rw [hc', idxOf_prefix hp, hi]
    refine ⟨⟨c ++ c', by rw [hc', hc, List.append_assoc]⟩, ?_, ?_, ?_, fun h => hn' (hn h), fun h => hpl' (hpl h), ?_, ?_⟩
    · intro q hq1
      rcases List.mem_cons.mp hq1 with h | h
      · rw [h, hc']; exact List.mem_append_left _ hp
      · exact hl q h
    · rw [List.map_cons, hidx, firsts_cons]
      exact h1
    · rw [h2, List.map_cons, hidx, List.getLastD_cons]
    · intro q hq1
      rcases hq' q hq1 with h | h
      · rcases hq q h with h | h
        · exact Or.inl h
        · exact Or.inr (by rw [h]; exact List.mem_cons_self)
      · exact Or.inr (List.mem_cons_of_mem _ h)
    · rw [hg', hg]

/-! ### The nodal coordinates of a member -/

theorem locs_bounds {n : ℕ} (hn : 0 < n) {t : K} (h : t ∈ locs n) : 0 ≤ t ∧ t ≤ 1 := by
  obtain ⟨i, hi, rfl⟩ := List.mem_map.mp h
  have hi' : i ≤ n := by have := List.mem_range.mp hi; omega
  have np : (0 : K) < n := by exact_mod_cast hn
  have h0 : (0 : K) ≤ (i : K) / n := by positivity
  have h1 : (i : K) / n ≤ 1 := by rw [div_le_one np]; exact_mod_cast hi'
  have r0 : roundTo prec (0 : K) = 0 := roundTo_of_decimals ⟨0, by simp⟩
  have r1 : roundTo prec (1 : K) = 1 := roundTo_of_decimals ⟨1000, by unfold prec; norm_num⟩
  exact ⟨by rw [← r0]; exact roundTo_mono _ h0, by rw [← r1]; exact roundTo_mono _ h1⟩

theorem zero_mem_locs (n : ℕ) : (0 : K) ∈ locs n := by
  refine List.mem_map.mpr ⟨0, by simp, ?_⟩
  exact roundTo_of_decimals (x := ((0 : ℕ) : K) / n) ⟨0, by simp⟩ |>.trans (by simp)

theorem one_mem_locs {n : ℕ} (hn : 0 < n) : (1 : K) ∈ locs n := by
  have np : (n : K) ≠ 0 := by exact_mod_cast hn.ne'
  refine List.mem_map.mpr ⟨n, by simp, ?_⟩
  rw [div_self np]
  exact roundTo_of_decimals ⟨1000, by unfold prec; norm_num⟩

theorem toGlobal_on (m : Member K) {t : K} (h : 0 ≤ t ∧ t ≤ 1) : OnSegment m.start m.stop (m.toGlobal t) := ⟨t, h.1, h.2, rfl, rfl⟩

theorem toGlobal_zero (m : Member K) : m.toGlobal 0 = m.start := by unfold Member.toGlobal; simp
theorem toGlobal_one (m : Member K) : m.toGlobal 1 = m.stop := by unfold Member.toGlobal; simp

/-- The unrounded coordinates, in order. -/
def rawNodal (m : Member K) : List (Pt K) := sortFrom m.start (m.added ++ (locs m.num).map m.toGlobal)

/-- The coordinates of the nodes that the member asks for. -/
def nodalOf (m : Member K) : List (Pt K) := (rawNodal m).map (roundPt prec)

theorem mem_rawNodal {m : Member K} {p : Pt K} : p ∈ rawNodal m ↔ p ∈ m.added ∨ ∃ t ∈ locs m.num, m.toGlobal t = p := by
  unfold rawNodal sortFrom
  rw [List.mem_insertionSort, List.mem_append, List.mem_map]

theorem rawNodal_sorted (m : Member K) : (rawNodal m).Pairwise (fun a b => dist2 m.start a ≤ dist2 m.start b) := by
  have : Std.Total (fun a b : Pt K => dist2 m.start a ≤ dist2 m.start b) := ⟨fun a b => le_total _ _⟩
  have : IsTrans (Pt K) (fun a b : Pt K => dist2 m.start a ≤ dist2 m.start b) := ⟨fun a b c h1 h2 => le_trans h1 h2⟩
  exact List.pairwise_insertionSort _ _

theorem dist2_param {a b p : Pt K} {t : K} (h1 : p.1 = a.1 + t * (b.1 - a.1)) (h2 : p.2 = a.2 + t * (b.2 - a.2)) :
    dist2 a p = t ^ 2 * dist2 a b := by
  unfold dist2
  rw [h1, h2]
  ring

theorem dist2_pos {a b : Pt K} (h : a ≠ b) : 0 < dist2 a b := by
  unfold dist2
  by_contra hn
  apply h
  have h1 : (b.1 - a.1) ^ 2 = 0 := by nlinarith [sq_nonneg (b.1 - a.1), sq_nonneg (b.2 - a.2)]
  have h2 : (b.2 - a.2) ^ 2 = 0 := by nlinarith [sq_nonneg (b.1 - a.1), sq_nonneg (b.2 - a.2)]
  refine Prod.ext ?_ ?_
  · have := pow_eq_zero_iff (two_ne_zero) |>.mp h1; linarith
  · have := pow_eq_zero_iff (two_ne_zero) |>.mp h2; linarith

/-- The points on the member are in the order of their parameters. -/
theorem param_le {a b p q : Pt K} {s t : K} (hab : a ≠ b) (_hs : 0 ≤ s) (ht : 0 ≤ t) (h : dist2 a p ≤ dist2 a q)
    (p1 : p.1 = a.1 + s * (b.1 - a.1)) (p2 : p.2 = a.2 + s * (b.2 - a.2)) (q1 : q.1 = a.1 + t * (b.1 - a.1)) (q2 : q.2 = a.2 + t * (b.2 - a.2)) : s ≤ t := by
  rw [dist2_param p1 p2, dist2_param q1 q2] at h
  have hp := dist2_pos hab
  have : s ^ 2 ≤ t ^ 2 := le_of_mul_le_mul_right h hp
  exact abs_le_of_sq_le_sq' this ht |>.2

/-- Rounding keeps the direction. -/
theorem round_dir {d x y : K} (h : 0 ≤ d * (y - x)) (n : ℕ) : 0 ≤ d * (roundTo n y - roundTo n x) := by
  rcases lt_trichotomy d 0 with hd | hd | hd
  · have : y ≤ x := by nlinarith
    have := roundTo_mono n this
    nlinarith
  · rw [hd, zero_mul]
  · have : x ≤ y := by nlinarith
    have := roundTo_mono n this
    nlinarith

/-- Where a number between two others is rounded when these are rounded alike. -/
theorem round_squeeze {n : ℕ} {x y z : K} (h : (x ≤ y ∧ y ≤ z) ∨ (z ≤ y ∧ y ≤ x)) (e : roundTo n x = roundTo n z) : roundTo n y = roundTo n z := by
  rcases h with ⟨h1, h2⟩ | ⟨h1, h2⟩
  · exact le_antisymm (roundTo_mono n h2) (by rw [← e]; exact roundTo_mono n h1)
  · exact le_antisymm (by rw [← e]; exact roundTo_mono n h2) (roundTo_mono n h1)

/-- All nodes of the member lie on it before they are rounded. -/
def Straight (m : Member K) : Prop := ∀ p ∈ m.added, OnSegment m.start m.stop p

theorem straight_raw {m : Member K} (hn : 0 < m.num) (hs : Straight m) {p : Pt K} (h : p ∈ rawNodal m) : OnSegment m.start m.stop p := by
  rcases mem_rawNodal.mp h with h | ⟨t, ht, rfl⟩
  · exact hs p h
  · exact toGlobal_on m (locs_bounds hn ht)

theorem raw_head {m : Member K} : (rawNodal m).head? = some m.start := by
  have hm : m.start ∈ rawNodal m := mem_rawNodal.mpr (Or.inr ⟨0, zero_mem_locs _, toGlobal_zero m⟩)
  have hs := rawNodal_sorted m
  cases hl : rawNodal m with
  | nil => rw [hl] at hm; cases hm
  | cons a l =>
    rw [hl] at hm hs
    rw [List.pairwise_cons] at hs
    have ha : dist2 m.start a ≤ dist2 m.start m.start := by
      rcases List.mem_cons.mp hm with h | h
      · rw [← h]
      · exact hs.1 _ h
    have h0 : dist2 m.start m.start = 0 := by unfold dist2; ring
    by_contra hne
    have hne' : m.start ≠ a := fun h => hne (by rw [List.head?_cons, h])
    have := dist2_pos hne'
    linarith

/-- The distinct rounded coordinates of a member lead from its start to its end. -/
theorem nodal_path {m : Member K} (d1 : DecimalPt prec m.start) (d2 : DecimalPt prec m.stop) (ne : m.start ≠ m.stop) (hn : 0 < m.num) (hs : Straight m) :
    Path (1 / 2 / 10 ^ prec) m.start m.stop (firsts [] (nodalOf m)) := by
  have hraw := rawNodal_sorted m
  have on : ∀ p ∈ rawNodal m, OnSegment m.start m.stop p := fun p hp => straight_raw hn hs hp
  have r1 := roundPt_of_decimals d1
  have r2 := roundPt_of_decimals d2
  obtain ⟨tl, htl, hsub⟩ := firsts_prefix (nodalOf m) []
  rw [List.nil_append] at htl
  have hpw : (rawNodal m).Pairwise (fun p q => 0 ≤ (m.stop.1 - m.start.1) * (q.1 - p.1) ∧ 0 ≤ (m.stop.2 - m.start.2) * (q.2 - p.2)) := by
    refine hraw.imp_of_mem ?_
    intro p q hp hq hpq
    obtain ⟨s, s0, _, p1, p2⟩ := on p hp
    obtain ⟨t, t0, _, q1, q2⟩ := on q hq
    have hst := param_le ne s0 t0 hpq p1 p2 q1 q2
    rw [p1, p2, q1, q2]
    constructor
    · have : (m.stop.1 - m.start.1) * (m.start.1 + t * (m.stop.1 - m.start.1) - (m.start.1 + s * (m.stop.1 - m.start.1))) = (t - s) * (m.stop.1 - m.start.1) ^ 2 := by ring
      rw [this]
      exact mul_nonneg (sub_nonneg.mpr hst) (sq_nonneg _)
    · have : (m.stop.2 - m.start.2) * (m.start.2 + t * (m.stop.2 - m.start.2) - (m.start.2 + s * (m.stop.2 - m.start.2))) = (t - s) * (m.stop.2 - m.start.2) ^ 2 := by ring
      rw [this]
      exact mul_nonneg (sub_nonneg.mpr hst) (sq_nonneg _)
  have between : ∀ {a b x t : K}, 0 ≤ t → t ≤ 1 → x = a + t * (b - a) → (a ≤ x ∧ x ≤ b) ∨ (b ≤ x ∧ x ≤ a) := by
    intro a b x t h0 h1 hx
    rcases le_total a b with h | h
    · left; constructor <;> nlinarith
    · right; constructor <;> nlinarith
  refine ⟨?_, ?_, nodup_firsts List.nodup_nil, ?_, ?_⟩
  · have h := raw_head (m := m)
    cases hl : rawNodal m with
    | nil => rw [hl] at h; cases h
    | cons a l =>
      rw [hl, List.head?_cons] at h
      obtain rfl := Option.some.inj h
      unfold nodalOf
      rw [hl, List.map_cons, firsts_cons, if_neg (by simp), r1]
      obtain ⟨t, ht, _⟩ := firsts_prefix (l.map (roundPt prec)) ([] ++ [m.start])
      rw [ht]
      rfl
  · refine firsts_last (by simp) ?_ ?_
    · refine List.mem_map.mpr ⟨m.stop, mem_rawNodal.mpr (Or.inr ⟨1, one_mem_locs hn, toGlobal_one m⟩), r2⟩
    · unfold nodalOf
      rw [List.pairwise_map]
      refine hraw.imp_of_mem ?_
      intro p q hp hq hpq hps
      obtain ⟨s, s0, s1, p1, p2⟩ := on p hp
      obtain ⟨t, t0, t1, q1, q2⟩ := on q hq
      have hst := param_le ne s0 t0 hpq p1 p2 q1 q2
      have e1 : roundTo prec p.1 = roundTo prec m.stop.1 := (congrArg Prod.fst hps).trans (roundTo_of_decimals d2.1).symm
      have e2 : roundTo prec p.2 = roundTo prec m.stop.2 := (congrArg Prod.snd hps).trans (roundTo_of_decimals d2.2).symm
      have b1 : (p.1 ≤ q.1 ∧ q.1 ≤ m.stop.1) ∨ (m.stop.1 ≤ q.1 ∧ q.1 ≤ p.1) := by
        rw [p1, q1]
        rcases le_total m.start.1 m.stop.1 with h | h
        · left; constructor <;> nlinarith
        · right; constructor <;> nlinarith
      have b2 : (p.2 ≤ q.2 ∧ q.2 ≤ m.stop.2) ∨ (m.stop.2 ≤ q.2 ∧ q.2 ≤ p.2) := by
        rw [p2, q2]
        rcases le_total m.start.2 m.stop.2 with h | h
        · left; constructor <;> nlinarith
        · right; constructor <;> nlinarith
      refine Prod.ext ?_ ?_
      · exact (round_squeeze b1 e1).trans (roundTo_of_decimals d2.1)
      · exact (round_squeeze b2 e2).trans (roundTo_of_decimals d2.2)
  · rw [htl]
    refine List.Pairwise.sublist hsub ?_
    unfold nodalOf
    rw [List.pairwise_map]
    exact hpw.imp (fun h => ⟨round_dir h.1 _, round_dir h.2 _⟩)
  · intro p hp
    rcases mem_firsts.mp hp with h | h
    · cases h
    · obtain ⟨q, hq, rfl⟩ := List.mem_map.mp h
      exact ⟨q, on q hq, roundTo_near _ _, roundTo_near _ _⟩

/-! ### Elements -/

theorem pairs_length : ∀ (l : List ℕ) (i : ℕ), (pairs i l).length = l.length - 1
  | [], i => rfl
  | [_], i => rfl
  | a :: b :: l, i => by
    rw [pairs, List.length_cons, pairs_length (b :: l)]
    simp

theorem pairs_get : ∀ (l : List ℕ) (i j a b : ℕ), l[j]? = some a → l[j + 1]? = some b → (pairs i l)[j]? = some (i + j, a, b)
  | [], _, _, _, _, h, _ => by simp at h
  | [_], _, _, _, _, _, h => by simp at h
  | x :: y :: l, i, 0, a, b, h1, h2 => by
    simp only [List.getElem?_cons_zero, List.getElem?_cons_succ, Option.some.injEq] at h1 h2
    rw [pairs, List.getElem?_cons_zero, h1, h2]
    rfl
  | x :: y :: l, i, j + 1, a, b, h1, h2 => by
    rw [List.getElem?_cons_succ] at h1 h2
    rw [pairs, List.getElem?_cons_succ, pairs_get (y :: l) (i + 1) j a b h1 h2]
    congr 2
    omega

/-- The element number `j` of a member that is not a bar. -/
def elemAt (m : Member K) (nodes : List ℕ) (t : ℕ × ℕ × ℕ) : Elem K :=
  { n1 := t.2.1, n2 := t.2.2, kind := m.elemKind nodes.length t.1, release := m.releases nodes.length t.1 }

/-- What generating one member does. -/
structure Made (m m' : Member K) (g g' : Fem K) : Prop where
  member : m' = { m with nodal := nodalOf m, nodes := m'.nodes, n1 := m'.nodes.head?, n2 := m'.n2, elems := m'.elems, built := true }
  nodes : m'.nodes = firsts [] ((nodalOf m).map g'.coords.idxOf)
  n2 : m'.n2 = lastNode (((nodalOf m).map (fun p => some (g'.coords.idxOf p))).getLastD none)
  mem : ∀ p ∈ nodalOf m, p ∈ g'.coords
  grow : ∃ c, g'.coords = g.coords ++ c
  nodup : g.coords.Nodup → g'.coords.Nodup
  place : g.place = g.coords → g'.place = g'.coords
  only : ∀ q ∈ g'.coords, q ∈ g.coords ∨ q ∈ nodalOf m
  rest : g'.supports = g.supports ∧ g'.pointLoads = g.pointLoads ∧ g'.lineLoads = g.lineLoads ∧ g'.cases = g.cases
  bar : m.mtype = .bar → ∃ a b l, m'.nodes = a :: b :: l ∧ m'.elems = [g.elems.length] ∧ g'.elems = g.elems ++ [{ n1 := a, n2 := b, kind := .rod }]
  chain : m.mtype ≠ .bar → m'.elems = (List.range (m'.nodes.length - 1)).map (fun i => g.elems.length + i) ∧ g'.elems = g.elems ++ (pairs 0 m'.nodes).map (elemAt m m'.nodes)

theorem generate_made {m m' : Member K} {g g' : Fem K} (hm : Ready m) (h : m.generate g = .ok (m', g')) : Made m m' g g' := by
  have hr : m.refresh g = m := by unfold Member.refresh; rw [hm.n1, hm.n2]
  have hc : m.calcNodal 0 = .ok { m with nodal := rawNodal m } := by
    unfold Member.calcNodal
    simp only [lt_self_iff_false, if_false]
    rw [if_neg hm.num.ne']
    rfl
  have h1 : m.recalc g = .ok ({ m with nodal := rawNodal m }, g) := by
    unfold Member.recalc
    rw [hr, hc]
    simp only [bind, Except.bind]
    rw [hm.built]
    rfl
  unfold Member.generate at h
  rw [h1] at h
  simp only [bind, Except.bind, hm.built] at h
  have hnodes := hm.nodes
  have helems := hm.elems
  rcases m with ⟨start, stop, added, nodal, num, mtype, sj1, sj2, hi1, hi2, tap, uw, sw, nodes, n1, n2, elems, built⟩
  simp only at hnodes helems h
  subst hnodes helems
  obtain ⟨⟨c, hc'⟩, hl, e1, e2, hn, hpl, hq, hg⟩ := addNodesLoop_spec (nodalOf ⟨start, stop, added, nodal, num, mtype, sj1, sj2, hi1, hi2, tap, uw, sw, [], n1, n2, [], built⟩) [] none g
  set L := nodalOf ⟨start, stop, added, nodal, num, mtype, sj1, sj2, hi1, hi2, tap, uw, sw, [], n1, n2, [], built⟩ with hL
  have hLr : (rawNodal ⟨start, stop, added, nodal, num, mtype, sj1, sj2, hi1, hi2, tap, uw, sw, [], n1, n2, [], built⟩).map (roundPt prec) = L := rfl
  rw [hLr] at h
  simp only [Member.addNodes] at h
  set r := addNodesLoop L [] none g with hrr
  have hge : r.2.2.elems = g.elems := by rw [hg]
  cases mtype with
  | bar =>
    simp only [Bool.false_eq_true, if_false, Member.generateElements] at h
    cases hrn : r.1 with
    | nil => rw [hrn] at h; cases h
    | cons a t =>
      cases t with
      | nil => rw [hrn] at h; cases h
      | cons b l =>
        rw [hrn] at h
        simp only [List.nil_append] at h
        obtain ⟨rfl, rfl⟩ := Prod.mk.inj (Except.ok.inj h)
        refine ⟨rfl, ?_, e2 ▸ rfl, hl, ⟨c, hc'⟩, hn, hpl, hq, ?_, ?_, fun h => absurd rfl h⟩
        · simp only
          rw [← hrn]
          exact e1
        · rw [hg]; exact ⟨rfl, rfl, rfl, rfl⟩
        · intro _
          exact ⟨a, b, l, rfl, by simp only; rw [hge], by simp only; rw [hge]⟩
  | _ =>
    simp only [Bool.false_eq_true, if_false, Member.generateElements] at h
    split_ifs at h with ht
    simp only [List.nil_append] at h
    obtain ⟨rfl, rfl⟩ := Prod.mk.inj (Except.ok.inj h)
    refine ⟨rfl, e1, e2 ▸ rfl, hl, ⟨c, hc'⟩, hn, hpl, hq, ?_, (fun h => by cases h), ?_⟩
    · rw [hg]; exact ⟨rfl, rfl, rfl, rfl⟩
    · intro _
      refine ⟨?_, ?_⟩
      · simp only
        rw [pairs_length, hge]
      · simp only
        rw [hge]
        rfl

/-- The FEM model only grows. -/
def Fem.Grew (g g' : Fem K) : Prop := (∃ c, g'.coords = g.coords ++ c) ∧ ∃ e, g'.elems = g.elems ++ e

theorem Fem.Grew.refl (g : Fem K) : g.Grew g := ⟨⟨[], by simp⟩, ⟨[], by simp⟩⟩

theorem Fem.Grew.trans {a b c : Fem K} (h1 : a.Grew b) (h2 : b.Grew c) : a.Grew c := by
  obtain ⟨⟨x, hx⟩, ⟨y, hy⟩⟩ := h1
  obtain ⟨⟨x', hx'⟩, ⟨y', hy'⟩⟩ := h2
  exact ⟨⟨x ++ x', by rw [hx', hx, List.append_assoc]⟩, ⟨y ++ y', by rw [hy', hy, List.append_assoc]⟩⟩

theorem Made.grew {m m' : Member K} {g g' : Fem K} (h : Made m m' g g') : g.Grew g' := by
  refine ⟨h.grow, ?_⟩
  by_cases hb : m.mtype = .bar
  · obtain ⟨a, b, l, _, _, h3⟩ := h.bar hb
    exact ⟨_, h3⟩
  · exact ⟨_, (h.chain hb).2⟩

/-- Every member of the result is made at some moment, and the model only grows around it. -/
theorem generateMembers_spec : ∀ {l l' : List (Member K)} {g g' : Fem K}, (∀ m ∈ l, Ready m) → generateMembers l g = .ok (l', g') →
    l.length = l'.length ∧ g.Grew g' ∧ (g.coords.Nodup → g'.coords.Nodup) ∧ (g.place = g.coords → g'.place = g'.coords)
    ∧ (g'.supports = g.supports ∧ g'.pointLoads = g.pointLoads ∧ g'.lineLoads = g.lineLoads ∧ g'.cases = g.cases)
    ∧ (∀ q ∈ g'.coords, q ∈ g.coords ∨ ∃ m ∈ l, q ∈ nodalOf m)
    ∧ ∀ (i : ℕ) (m : Member K), l[i]? = some m → ∃ m' g1 g2, l'[i]? = some m' ∧ Made m m' g1 g2 ∧ g.Grew g1 ∧ g2.Grew g'
  | [], l', g, g', _, h => by
    obtain ⟨rfl, rfl⟩ := Prod.mk.inj (Except.ok.inj h)
    exact ⟨rfl, Fem.Grew.refl _, fun h => h, fun h => h, ⟨rfl, rfl, rfl, rfl⟩, fun q hq => Or.inl hq, fun i m hm => by simp at hm⟩
  | m :: l, l', g, g', hr, h => by
    unfold generateMembers at h
    simp only [bind, Except.bind] at h
    cases hm : m.generate g with
    | error e => rw [hm] at h; cases h
    | ok r =>
      rw [hm] at h
      simp only at h
      cases hl : generateMembers l r.2 with
      | error e => rw [hl] at h; cases h
      | ok q =>
        rw [hl] at h
        obtain ⟨rfl, rfl⟩ := Prod.mk.inj (Except.ok.inj h)
        have md := generate_made (hr m List.mem_cons_self) hm
        obtain ⟨k1, k2, k3, k4, k5, k6, k7⟩ := generateMembers_spec (fun x hx => hr x (List.mem_cons_of_mem _ hx)) hl
        refine ⟨by simp [k1], md.grew.trans k2, fun h => k3 (md.nodup h), fun h => k4 (md.place h), ?_, ?_, ?_⟩
        · obtain ⟨a1, a2, a3, a4⟩ := md.rest
          obtain ⟨b1, b2, b3, b4⟩ := k5
          exact ⟨b1.trans a1, b2.trans a2, b3.trans a3, b4.trans a4⟩
        · intro x hx
          rcases k6 x hx with h | ⟨y, hy, hxy⟩
          · rcases md.only x h with h | h
            · exact Or.inl h
            · exact Or.inr ⟨m, List.mem_cons_self, h⟩
          · exact Or.inr ⟨y, List.mem_cons_of_mem _ hy, hxy⟩
        · intro i x hx
          cases i with
          | zero =>
            obtain rfl := Option.some.inj hx
            exact ⟨r.1, g, r.2, rfl, md, Fem.Grew.refl _, k2⟩
          | succ i =>
            obtain ⟨m', g1, g2, a1, a2, a3, a4⟩ := k7 i x hx
            exact ⟨m', g1, g2, a1, a2, md.grew.trans a3, a4⟩

end Metku.Frame2D
