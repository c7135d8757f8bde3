import Verif.Props.PlaneTruss

/-!
Roof trusses whose ends differ: the bottom chord starts at a distance from the left eaves and ends at the right eaves. The code disagrees with C223 and C225 for them.
-/
namespace Metku.Truss

open Metku.Steel Metku.Rhs

noncomputable section

theorem topPoints_value {p v : Pt} (hv : v.1 ≠ 0) (l : List Pt) : topPoints p v l = .ok (l.map fun X => (X.1, p.2 + (X.1 - p.1) * (v.2 / v.1))) := by
  induction l with
  | nil => rfl
  | cons X l ih =>
    rw [topPoints, topPoint_value hv, ih]
    rfl

theorem linspace_ends (k : ℕ) : ∃ M : List ℝ, linspace (k + 2) = 0 :: (M ++ [1]) ∧ M.length = k := by
  refine ⟨(List.range k).map fun i : ℕ => ((i + 1 : ℕ) : ℝ) / ((k + 2 : ℕ) - 1), ?_, by simp⟩
  unfold linspace
  rw [List.range_succ, List.map_append, List.range_succ_eq_map, List.map_cons, List.map_map, List.map_singleton, List.cons_append]
  have e : ((k + 1 : ℕ) : ℝ) / (((k + 2 : ℕ) : ℝ) - 1) = 1 := by
    rw [show (((k + 2 : ℕ) : ℝ) - 1) = ((k + 1 : ℕ) : ℝ) by push_cast; ring]
    exact div_self (by positivity)
  rw [e]
  simp [Function.comp_def]

theorem lastOf_snoc (X0 : Pt) (A : List Pt) (Y : Pt) : lastOf X0 (A ++ [Y]) = Y := by
  unfold lastOf
  simp

/-- Nodes of an N truss with an offset at the left end only. -/
theorem uneven_nodes {T : Sloped} (hs : 0 < T.span) (h1 : 0 < T.dx1) (h2 : T.dx2 = 0) (hr : T.right = T.left) (k : ℕ) (up edge : Bool) :
    ∃ l b : List Pt, l.length = 2 * k + 3 ∧ b.length = 2 * k + 2 ∧ l.head? = some (0, 0) ∧
      ∃ g, T.generate .N (k + 2) up edge = .ok g ∧ g.top = l ++ [(T.span, 0), (T.span, 0)] ∧ g.bot = b ++ [(T.span, -T.left)] ∧
        g.topChord = chord (refs .top g.top) ∧ g.botChord = chord (refs .bot g.bot) ∧ g.braces = nBraces T (k + 2) up edge (refs .top g.top) (refs .bot g.bot) := by
  obtain ⟨M, hM, hl⟩ := linspace_ends k
  have hb : nBot T (k + 2) = ((T.dx1, -T.left) :: (along (T.dx1, -T.left) (vec (T.dx1, -T.left) (1 / 2 * T.span, -T.left)) M ++ [(1 / 2 * T.span, -T.left)])) ++
      (along (1 / 2 * T.span, -T.left) (vec (1 / 2 * T.span, -T.left) (T.span, -T.left)) M ++ [(T.span, -T.left)]) := by
    unfold nBot
    simp only [if_pos h1, hM, along, vec, Sloped.ycoord, h2, List.map_cons, List.map_append, List.map_nil, List.tail_cons]
    norm_num
  have hv1 : (vec (0, 0) T.xmid).1 ≠ 0 := by
    simp only [vec, Sloped.xmid]
    linarith
  have hv2 : (vec T.xmid T.xend).1 ≠ 0 := by
    simp only [vec, Sloped.xmid, Sloped.xend]
    linarith
  have hn : (T.dx1 = 0) = False := eq_false h1.ne'
  generalize hB1 : along (T.dx1, -T.left) (vec (T.dx1, -T.left) (1 / 2 * T.span, -T.left)) M = B1 at hb
  generalize hB2 : along (1 / 2 * T.span, -T.left) (vec (1 / 2 * T.span, -T.left) (T.span, -T.left)) M = B2 at hb
  have l1 : B1.length = k := by rw [← hB1, along, List.length_map, hl]
  have l2 : B2.length = k := by rw [← hB2, along, List.length_map, hl]
  have ht : (nBot T (k + 2)).take (k + 2) = (T.dx1, -T.left) :: (B1 ++ [(1 / 2 * T.span, -T.left)]) := by
    rw [hb]
    exact List.take_left' (by simp [l1])
  have hd : (nBot T (k + 2)).drop (k + 2) = B2 ++ [(T.span, -T.left)] := by
    rw [hb]
    exact List.drop_left' (by simp [l1])
  let F : Pt → Pt := fun X => (X.1, 0 + (X.1 - 0) * ((vec (0, 0) T.xmid).2 / (vec (0, 0) T.xmid).1))
  let p : Pt := F (1 / 2 * T.span, -T.left)
  let G : Pt → Pt := fun X => (X.1, p.2 + (X.1 - p.1) * ((vec T.xmid T.xend).2 / (vec T.xmid T.xend).1))
  have hG : G (T.span, -T.left) = (T.span, 0) := by
    simp only [G, p, F, vec, Sloped.xmid, Sloped.xend, hr]
    have := mul_inv_cancel₀ hs.ne'
    have h0 := hs.ne'
    refine Prod.ext rfl ?_
    field_simp
    linear_combination (T.mid - T.left) * this
  have htop : nTop T (k + 2) (nBot T (k + 2)) =
      .ok ((0, 0) :: (F (T.dx1, -T.left) :: (B1.map F ++ [p])) ++ (B2.map G ++ [(T.span, 0)]) ++ [T.xend]) := by
    unfold nTop
    simp only [hn, if_false]
    rw [ht, hd, topPoints_value hv1]
    simp only [bind, Except.bind]
    rw [List.map_cons, List.map_append, List.map_singleton, ← List.cons_append, lastOf_snoc, topPoints_value hv2]
    simp only [List.map_append, List.map_singleton]
    rw [← hG]
  generalize hX : ((0, 0) :: (F (T.dx1, -T.left) :: (B1.map F ++ [p])) ++ (B2.map G ++ [(T.span, 0)]) ++ [T.xend] : List Pt) = X at htop
  have hg : T.generate .N (k + 2) up edge = .ok ⟨X, nBot T (k + 2), chord (refs .top X), chord (refs .bot (nBot T (k + 2))),
      nBraces T (k + 2) up edge (refs .top X) (refs .bot (nBot T (k + 2)))⟩ := by
    unfold Sloped.generate
    simp only [htop, bind, Except.bind]
  refine ⟨(0, 0) :: (F (T.dx1, -T.left) :: (B1.map F ++ [p])) ++ B2.map G, (T.dx1, -T.left) :: (B1 ++ [(1 / 2 * T.span, -T.left)]) ++ B2, ?_, ?_, rfl,
    _, hg, ?_, ?_, rfl, rfl, rfl⟩
  · simp [l1, l2]
    omega
  · simp [l1, l2]
    omega
  · dsimp only
    rw [← hX]
    simp [Sloped.xend, hr]
  · dsimp only
    rw [hb]
    simp

theorem refs_getElem? (f : ℕ → Ref) (l : List Pt) {i : ℕ} (h : i < l.length) : (refs f l)[i]? = some (f i) := by
  unfold refs
  rw [List.getElem?_map, List.getElem?_range h]
  rfl

theorem refs_length (f : ℕ → Ref) (l : List Pt) : (refs f l).length = l.length := by
  simp [refs]

/-- The code disagrees with C223: an N truss whose bottom chord starts at a distance from the left eaves and ends at the right eaves has two nodes at one place, so its top chord has a member without length, and two of
its braces lie on one another. -/
theorem uneven_web_viol {L1 L2 dx h1 h2 s : ℝ} {T : Sloped} (h : Sloped.new L1 L2 dx 0 h1 h2 s = .ok T) (hL : 0 < L1 + L2) (hd : 0 < dx) {n : ℕ} (hn : 2 ≤ n) (up edge : Bool) :
    ∃ g, T.generate .N n up edge = .ok g ∧ (∃ m ∈ g.topChord, m.1 ≠ m.2 ∧ g.pos m.1 = g.pos m.2) ∧
      ∃ a ∈ g.braces, ∃ b ∈ g.braces, a ≠ b ∧ g.pos a.1 = g.pos b.1 ∧ g.pos a.2 = g.pos b.2 := by
  obtain ⟨a, b, c, d, e, -⟩ := C221_partial h
  obtain ⟨k, rfl⟩ := Nat.exists_eq_add_of_le' hn
  obtain ⟨l, bl, hl, hbl, -, g, hg, gt, gb, gc, -, gr⟩ := uneven_nodes (T := T) (by rw [Sloped.span, a, b]; exact hL) (by rw [c]; exact hd) d e k up edge
  have lt : g.top.length = 2 * k + 5 := by rw [gt]; simp [hl]
  have lb : g.bot.length = 2 * k + 3 := by rw [gb]; simp [hbl]
  have p1 : g.pos (.top (2 * k + 3)) = (T.span, 0) := by
    show g.top.getD _ _ = _
    rw [gt, List.getD_eq_getElem?_getD, List.getElem?_append_right hl.le, hl]
    simp
  have p2 : g.pos (.top (2 * k + 4)) = (T.span, 0) := by
    show g.top.getD _ _ = _
    rw [gt, List.getD_eq_getElem?_getD, List.getElem?_append_right (by omega), hl, show 2 * k + 4 - (2 * k + 3) = 1 by omega]
    simp
  have hne : T.dx1 ≠ 0 := by rw [c]; exact hd.ne'
  refine ⟨g, hg, ⟨(.top (2 * k + 3), .top (2 * k + 4)), ?_, by simp, p1.trans p2.symm⟩,
    (.top (2 * k + 3), .bot (2 * k + 2)), ?_, (.top (2 * k + 4), .bot (2 * k + 2)), ?_, by simp, p1.trans p2.symm, rfl⟩
  · rw [gc, chord]
    refine List.mem_of_getElem? (i := 2 * k + 3) (List.getElem?_zip_eq_some.2 ⟨refs_getElem? _ _ (by omega), ?_⟩)
    rw [List.getElem?_tail, refs_getElem? _ _ (by omega)]
  · rw [gr, nBraces, if_neg hne]
    refine List.mem_append_left _ (List.mem_append_left _ (List.mem_of_getElem? (i := 2 * k + 2) (List.getElem?_zip_eq_some.2 ⟨?_, refs_getElem? _ _ (by omega)⟩)))
    rw [List.getElem?_dropLast, List.length_tail, refs_length, if_pos (by omega), List.getElem?_tail, refs_getElem? _ _ (by omega)]
  · rw [gr, nBraces, if_neg hne]
    refine List.mem_append_right _ (List.mem_of_getElem? (i := k + 1) (List.getElem?_zip_eq_some.2 ⟨?_, ?_⟩))
    · rw [List.getElem?_drop, refs_getElem? _ _ (by omega), show k + 2 + 1 + (k + 1) = 2 * k + 4 by omega]
    · rw [List.getElem?_drop, refs_getElem? _ _ (by omega), show k + 2 - 1 + (k + 1) = 2 * k + 2 by omega]

theorem uneven_supports {T : Sloped} (h1 : 0 < T.dx1) (h2 : T.dx2 = 0) {g : Gen} {k : ℕ} (lt : g.top.length = 2 * k + 5) (lb : g.bot.length = 2 * k + 3) :
    T.supports g = .ok [⟨.top 0, true, true⟩, ⟨.bot (2 * k + 2), false, true⟩] := by
  unfold Sloped.supports
  have e1 : idx (refs .top g.top) 0 = .ok (.top 0) := by
    rw [idx, refs_getElem? _ _ (by omega)]
  have e2 : lastIdx (refs .bot g.bot) = .ok (.bot (2 * k + 2)) := by
    rw [lastIdx, List.getLast?_eq_getElem?, refs_length, refs_getElem? _ _ (by omega), lb]
    rfl
  have q2 : ¬0 < T.dx2 := by rw [h2]; exact lt_irrefl 0
  simp only [if_pos h1, if_neg q2, e1, e2, bind, Except.bind]

/-- The code disagrees with C225: the supports of such a truss are at different levels. -/
theorem uneven_supports_viol {L1 L2 dx h1 h2 s : ℝ} {T : Sloped} (h : Sloped.new L1 L2 dx 0 h1 h2 s = .ok T) (hL : 0 < L1 + L2) (hd : 0 < dx) (hl : 0 < T.left) {n : ℕ} (hn : 2 ≤ n) (up edge : Bool) :
    ∃ g l r, T.generate .N n up edge = .ok g ∧ T.supports g = .ok [l, r] ∧ g.pos l.node = (0, 0) ∧ g.pos r.node = (L1 + L2, -T.left) ∧ (g.pos l.node).2 ≠ (g.pos r.node).2 := by
  obtain ⟨a, b, c, d, e, -⟩ := C221_partial h
  obtain ⟨k, rfl⟩ := Nat.exists_eq_add_of_le' hn
  obtain ⟨tl, bl, htl, hbl, hh, g, hg, gt, gb, -⟩ := uneven_nodes (T := T) (by rw [Sloped.span, a, b]; exact hL) (by rw [c]; exact hd) d e k up edge
  have lt : g.top.length = 2 * k + 5 := by rw [gt]; simp [htl]
  have lb : g.bot.length = 2 * k + 3 := by rw [gb]; simp [hbl]
  have p0 : g.pos (.top 0) = (0, 0) := by
    show g.top.getD _ _ = _
    rw [gt, List.getD_eq_getElem?_getD, List.getElem?_append_left (by omega)]
    cases tl with
    | nil => simp at htl
    | cons x tl => simpa using hh
  have p1 : g.pos (.bot (2 * k + 2)) = (L1 + L2, -T.left) := by
    show g.bot.getD _ _ = _
    rw [gb, List.getD_eq_getElem?_getD, List.getElem?_append_right hbl.le, hbl, Sloped.span, a, b]
    simp
  refine ⟨g, ⟨.top 0, true, true⟩, ⟨.bot (2 * k + 2), false, true⟩, hg, ?_, p0, p1, ?_⟩
  · exact uneven_supports (by rw [c]; exact hd) d lt lb
  · rw [p0, p1]
    dsimp only
    linarith

theorem refs_some {f : ℕ → Ref} {l : List Pt} {i : ℕ} {r : Ref} (h : (refs f l)[i]? = some r) : i < l.length ∧ r = f i := by
  have hi : i < l.length := by
    by_contra hc
    rw [List.getElem?_eq_none (by rw [refs_length]; omega)] at h
    cases h
  rw [refs_getElem? _ _ hi] at h
  exact ⟨hi, (Option.some.inj h).symm⟩

theorem mem_zip_idx {α β : Type} {A : List α} {B : List β} {m : α × β} (h : m ∈ A.zip B) : ∃ i : ℕ, A[i]? = some m.1 ∧ B[i]? = some m.2 := by
  obtain ⟨i, hi⟩ := List.getElem?_of_mem h
  exact ⟨i, List.getElem?_zip_eq_some.1 hi⟩

/-- The code disagrees with C224: such a truss is a mechanism as a pin-jointed structure, the last node of its top chord moves sideways. -/
theorem uneven_mechanism_viol {L1 L2 dx h1 h2 s : ℝ} {T : Sloped} (h : Sloped.new L1 L2 dx 0 h1 h2 s = .ok T) (hL : 0 < L1 + L2) (hd : 0 < dx) {n : ℕ} (hn : 2 ≤ n) (up edge : Bool) :
    ∃ g sup u, T.generate .N n up edge = .ok g ∧ T.supports g = .ok sup ∧ Mechanism g sup u ∧ ∃ a, g.IsNode a ∧ u a ≠ (0, 0) := by
  obtain ⟨a, b, c, d, e, -⟩ := C221_partial h
  obtain ⟨k, rfl⟩ := Nat.exists_eq_add_of_le' hn
  obtain ⟨l, bl, hl, hbl, -, g, hg, gt, gb, gc, gd, gr⟩ := uneven_nodes (T := T) (by rw [Sloped.span, a, b]; exact hL) (by rw [c]; exact hd) d e k up edge
  have lt : g.top.length = 2 * k + 5 := by rw [gt]; simp [hl]
  have lb : g.bot.length = 2 * k + 3 := by rw [gb]; simp [hbl]
  have p1 : (g.pos (.top (2 * k + 3))).1 = T.span := by
    show (g.top.getD _ _).1 = _
    rw [gt, List.getD_eq_getElem?_getD, List.getElem?_append_right hl.le, hl]
    simp
  have p2 : (g.pos (.top (2 * k + 4))).1 = T.span := by
    show (g.top.getD _ _).1 = _
    rw [gt, List.getD_eq_getElem?_getD, List.getElem?_append_right (by omega), hl, show 2 * k + 4 - (2 * k + 3) = 1 by omega]
    simp
  have p3 : (g.pos (.bot (2 * k + 2))).1 = T.span := by
    show (g.bot.getD _ _).1 = _
    rw [gb, List.getD_eq_getElem?_getD, List.getElem?_append_right hbl.le, hbl]
    simp
  have hne : T.dx1 ≠ 0 := by rw [c]; exact hd.ne'
  have key : ∀ m ∈ g.members, m.1 = .top (2 * k + 4) ∨ m.2 = .top (2 * k + 4) → (g.pos m.1).1 = (g.pos m.2).1 := by
    rintro ⟨x, y⟩ hm hq
    dsimp only at hq ⊢
    rcases List.mem_append.1 hm with hm | hm
    · rcases List.mem_append.1 hm with hm | hm
      · rw [gc, chord] at hm
        obtain ⟨i, hx, hy⟩ := mem_zip_idx hm
        rw [List.getElem?_tail] at hy
        obtain ⟨hi, rfl⟩ := refs_some hx
        obtain ⟨hj, rfl⟩ := refs_some hy
        obtain rfl : i = 2 * k + 3 := by
          rcases hq with hq | hq
          · have := Ref.top.inj hq
            omega
          · have := Ref.top.inj hq
            omega
        exact p1.trans p2.symm
      · rw [gd, chord] at hm
        obtain ⟨i, hx, hy⟩ := mem_zip_idx hm
        rw [List.getElem?_tail] at hy
        obtain ⟨hi, rfl⟩ := refs_some hx
        obtain ⟨hj, rfl⟩ := refs_some hy
        simp at hq
    · rw [gr, nBraces, if_neg hne] at hm
      rcases List.mem_append.1 hm with hm | hm
      · rcases List.mem_append.1 hm with hm | hm
        · obtain ⟨i, hx, hy⟩ := mem_zip_idx hm
          obtain ⟨hj, rfl⟩ := refs_some hy
          rw [List.getElem?_dropLast, List.length_tail, refs_length] at hx
          split_ifs at hx with hi
          rw [List.getElem?_tail] at hx
          obtain ⟨hi', rfl⟩ := refs_some hx
          rcases hq with hq | hq
          · have := Ref.top.inj hq
            omega
          · cases hq
        · obtain ⟨i, hx, hy⟩ := mem_zip_idx hm
          rw [List.getElem?_take] at hx hy
          split_ifs at hx hy with hi
          obtain ⟨hj, rfl⟩ := refs_some hy
          obtain ⟨hi', rfl⟩ := refs_some hx
          rcases hq with hq | hq
          · have := Ref.top.inj hq
            omega
          · cases hq
      · obtain ⟨i, hx, hy⟩ := mem_zip_idx hm
        rw [List.getElem?_drop] at hx hy
        obtain ⟨hj, rfl⟩ := refs_some hy
        obtain ⟨hi', rfl⟩ := refs_some hx
        rcases hq with hq | hq
        · have hi := Ref.top.inj hq
          rw [hi, show k + 2 - 1 + i = 2 * k + 2 by omega]
          exact p2.trans p3.symm
        · cases hq
  refine ⟨g, _, fun r => if r = .top (2 * k + 4) then (1, 0) else (0, 0), hg, uneven_supports (by rw [c]; exact hd) d lt lb, ⟨?_, ?_⟩, .top (2 * k + 4), ?_, by simp⟩
  · intro m hm
    by_cases hq : m.1 = .top (2 * k + 4) ∨ m.2 = .top (2 * k + 4)
    · rw [key m hm hq]
      dsimp only
      split_ifs <;> simp
    · rw [not_or] at hq
      simp [hq.1, hq.2]
  · intro s hs
    simp only [List.mem_cons, List.not_mem_nil, or_false] at hs
    rcases hs with rfl | rfl <;> simp
  · show _ < g.top.length
    omega

/-- A truss of 20 m with an offset of 1 m at the left end only. -/
example : ∃ T, Sloped.new 10 10 1 0 1 2 0 = .ok T ∧ 0 < T.left ∧ ∃ g, T.generate .N 4 true true = .ok g ∧ ∃ m ∈ g.topChord, m.1 ≠ m.2 ∧ g.pos m.1 = g.pos m.2 := by
  have h : Sloped.new 10 10 1 0 1 2 0 = .ok ⟨10, 10, Real.arctan ((2 - 1) / 10) * 180 / Real.pi, 1, 0, 1, 2, 1⟩ := by
    unfold Sloped.new pyDiv
    rw [if_neg (by norm_num), if_neg (by norm_num), if_neg (by norm_num)]
    simp only [bind, Except.bind]
    unfold Sloped.check
    rw [if_neg (by norm_num), if_neg (by norm_num)]
  obtain ⟨g, hg, hm, -⟩ := uneven_web_viol h (by norm_num) (by norm_num) (n := 4) (by norm_num) true true
  exact ⟨_, h, by norm_num, g, hg, hm⟩

end

end Metku.Truss
