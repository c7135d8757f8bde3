import Verif.Props.PlaneTrussHold

/-!
Properties of roof trusses: dimensions (C221), the shape of the chords (C222), braces (C223), stability and static determinacy (C224).

The specification of this file does not use the model: `RoofShape` speaks about coordinates only, `Mechanism` about the elongations of members.
-/
namespace Metku.Truss

open Metku.Steel Metku.Rhs

noncomputable section

/-! ### C221: dimensions -/

/-- The third dimension of a truss follows from the two that are given. -/
theorem C221_partial {L1 L2 dx1 dx2 h1 h2 s : ℝ} {T : Sloped} (h : Sloped.new L1 L2 dx1 dx2 h1 h2 s = .ok T) :
    T.L1 = L1 ∧ T.L2 = L2 ∧ T.dx1 = dx1 ∧ T.dx2 = dx2 ∧ T.right = T.left ∧ T.left ≤ T.mid ∧ T.mid = T.left + L1 * Real.tan (T.slope * Real.pi / 180) ∧
    (h1 ≠ 0 → T.left = h1) ∧ (h1 = 0 → T.slope = s ∧ T.mid = h2) ∧ (h1 ≠ 0 → h2 = 0 → T.slope = s) ∧ (h1 ≠ 0 → h2 ≠ 0 → T.mid = h2) := by
  unfold Sloped.new at h
  have chk : ∀ {q : Sloped}, q.check = .ok T → q = T ∧ q.left ≤ q.mid := by
    intro q hq
    unfold Sloped.check at hq
    split_ifs at hq with c1 c2
    exact ⟨Except.ok.inj hq, not_lt.1 c1⟩
  split_ifs at h with c1 c2
  · obtain ⟨rfl, hm⟩ := chk h
    refine ⟨rfl, rfl, rfl, rfl, rfl, hm, ?_, fun k => absurd c1 k, fun _ => ⟨rfl, rfl⟩, fun k => absurd c1 k, fun k => absurd c1 k⟩
    dsimp only [slopeHeight]
    ring
  · obtain ⟨rfl, hm⟩ := chk h
    exact ⟨rfl, rfl, rfl, rfl, rfl, hm, rfl, fun _ => rfl, fun k => absurd k c1, fun _ _ => rfl, fun _ k => absurd c2 k⟩
  · unfold pyDiv at h
    split_ifs at h with c3
    · simp only [bind, Except.bind] at h
      cases h
    · simp only [bind, Except.bind] at h
      obtain ⟨rfl, hm⟩ := chk h
      refine ⟨rfl, rfl, rfl, rfl, rfl, hm, ?_, fun _ => rfl, fun k => absurd k c1, fun _ k => absurd k c2, fun _ _ => rfl⟩
      dsimp only
      rw [show Real.arctan ((h2 - h1) / L1) * 180 / Real.pi * Real.pi / 180 = Real.arctan ((h2 - h1) / L1) by
        have := Real.pi_ne_zero
        field_simp, Real.tan_arctan, mul_div_cancel₀ _ c3]
      ring

/-- A truss 20 m long, 1 m high at the supports and 2 m at the ridge. -/
example : ∃ T, Sloped.new 10 10 0.5 0.5 1 2 0 = .ok T ∧ T.left = 1 ∧ T.mid = 2 := by
  refine ⟨⟨10, 10, Real.arctan ((2 - 1) / 10) * 180 / Real.pi, 0.5, 0.5, 1, 2, 1⟩, ?_, rfl, rfl⟩
  unfold Sloped.new pyDiv
  rw [if_neg (by norm_num), if_neg (by norm_num), if_neg (by norm_num)]
  simp only [bind, Except.bind]
  unfold Sloped.check
  rw [if_neg (by norm_num), if_neg (by norm_num)]

/-- The code disagrees with "two of the three dimensions": a triangular truss (height zero at the supports, given together with the height of the ridge) gets a height that was not given. -/
theorem C221_violation {L1 L2 dx1 dx2 h2 : ℝ} (_h2 : 0 < h2) : ∃ T, Sloped.new L1 L2 dx1 dx2 0 h2 0 = .ok T ∧ T.left = h2 ∧ T.mid = h2 := by
  refine ⟨⟨L1, L2, 0, dx1, dx2, h2, h2, h2⟩, ?_, rfl, rfl⟩
  unfold Sloped.new slopeHeight
  rw [if_pos rfl]
  simp [Sloped.check]

/-! ### C222: shape of the chords -/

/-- A truss over the span `2 L` with eaves at height zero, the ridge at `L` and height `rise`, and the bottom chord at depth `h` between `dx` and `2 L - dx`. -/
structure RoofShape (L dx h rise : ℝ) (g : Gen) : Prop where
  topHead : g.top.head? = some (0, 0)
  topLast : g.top.getLast? = some (2 * L, 0)
  ridge : (L, rise) ∈ g.top
  onRoof : ∀ P ∈ g.top, (0 ≤ P.1 ∧ P.1 ≤ L ∧ P.2 = rise * P.1 / L) ∨ (L ≤ P.1 ∧ P.1 ≤ 2 * L ∧ P.2 = rise * (2 * L - P.1) / L)
  botHead : g.bot.head? = some (dx, -h)
  botLast : g.bot.getLast? = some (2 * L - dx, -h)
  onBottom : ∀ P ∈ g.bot, dx ≤ P.1 ∧ P.1 ≤ 2 * L - dx ∧ P.2 = -h
  topOrder : g.top.Pairwise fun P Q => P.1 < Q.1
  botOrder : g.bot.Pairwise fun P Q => P.1 < Q.1
  topMirror : g.top.reverse = g.top.map fun P => (2 * L - P.1, P.2)
  botMirror : g.bot.reverse = g.bot.map fun P => (2 * L - P.1, P.2)
  topChord : g.topChord = (List.range (g.top.length - 1)).map fun i => (Ref.top i, Ref.top (i + 1))
  botChord : g.botChord = (List.range (g.bot.length - 1)).map fun i => (Ref.bot i, Ref.bot (i + 1))

theorem lt_of_step {x : ℕ → ℝ} {N : ℕ} (h : ∀ i, i + 1 < N → x i < x (i + 1)) : ∀ {i j : ℕ}, i < j → j < N → x i < x j := by
  intro i j hij
  induction j with
  | zero => omega
  | succ j ih =>
    intro hj
    rcases Nat.eq_or_lt_of_le (Nat.lt_succ_iff.1 hij) with rfl | h'
    · exact h i hj
    · exact (ih h' (by omega)).trans (h j hj)

theorem le_of_step {x : ℕ → ℝ} {N : ℕ} (h : ∀ i, i + 1 < N → x i < x (i + 1)) {i j : ℕ} (hij : i ≤ j) (hj : j < N) : x i ≤ x j := by
  rcases Nat.eq_or_lt_of_le hij with rfl | h'
  · exact le_rfl
  · exact (lt_of_step h h' hj).le

theorem tab_reverse {α : Type} (n : ℕ) (f : ℕ → α) : (tab n f).reverse = tab n fun i => f (n - 1 - i) := by
  apply List.ext_getElem
  · simp [tab]
  · intro i h1 h2
    simp [tab]

theorem tab_pairwise {α : Type} {n : ℕ} {f : ℕ → α} {R : α → α → Prop} (h : ∀ i j, i < j → j < n → R (f i) (f j)) : (tab n f).Pairwise R := by
  rw [List.pairwise_iff_getElem]
  intro i j hi hj hij
  rw [tab_length] at hi hj
  simpa [tab] using h i j hij hj

theorem tab_head {α : Type} {n : ℕ} {f : ℕ → α} (h : 0 < n) : (tab n f).head? = some (f 0) := by
  rw [List.head?_eq_getElem?, tab_getElem? _ _ h]

theorem shape_mk {T : Sloped} (hT : Sym T) {Nt Nb r : ℕ} {xt xb : ℕ → ℝ} (h : Nums T Nt Nb r xt xb) (W : List (Ref × Ref)) :
    RoofShape T.L1 T.dx1 T.left (T.mid - T.left) (mk T Nt Nb xt xb W) := by
  have ht := h.ht
  have hb := h.hb
  have hL := hT.pos
  have bl : xb (Nb - 1) = 2 * T.L1 - T.dx1 := by
    have := h.bs 0 (by omega)
    rwa [Nat.sub_zero, h.b0] at this
  have xt0 : ∀ i < Nt, 0 ≤ xt i := fun i hi => h.t0 ▸ le_of_step h.tm (Nat.zero_le i) hi
  have xtl : ∀ i < Nt, xt i ≤ 2 * T.L1 := fun i hi => h.tl ▸ le_of_step h.tm (Nat.le_sub_one_of_lt hi) (by omega)
  have roofm : ∀ x, roof T (2 * T.L1 - x) = roof T x := by
    intro x
    rcases le_total x T.L1 with k | k
    · rw [roof_left k, roof_right hT (by linarith)]
      ring
    · rw [roof_right hT k, roof_left (by linarith)]
  refine ⟨?_, ?_, ?_, ?_, ?_, ?_, ?_, ?_, ?_, ?_, ?_, ?_, ?_⟩
  · unfold mk
    rw [tab_head (by omega), h.t0, roof_zero hT]
  · unfold mk
    rw [tab_getLast? _ _ (by omega), h.tl, roof_end hT]
  · unfold mk
    refine mem_tab.2 ⟨r, h.hr, ?_⟩
    rw [h.tr, roof_left le_rfl, div_self hL.ne', mul_one]
  · intro P hP
    obtain ⟨i, hi, rfl⟩ := mem_tab.1 hP
    dsimp only
    rcases le_total (xt i) T.L1 with k | k
    · exact .inl ⟨xt0 i hi, k, by rw [roof_left k]; ring⟩
    · exact .inr ⟨k, xtl i hi, by rw [roof_right hT k]; ring⟩
  · unfold mk
    rw [tab_head (by omega), h.b0]
  · unfold mk
    rw [tab_getLast? _ _ (by omega), bl]
  · intro P hP
    obtain ⟨i, hi, rfl⟩ := mem_tab.1 hP
    exact ⟨h.b0 ▸ le_of_step h.bm (Nat.zero_le i) hi, bl ▸ le_of_step h.bm (Nat.le_sub_one_of_lt hi) (by omega), rfl⟩
  · exact tab_pairwise fun i j hij hj => lt_of_step h.tm hij hj
  · exact tab_pairwise fun i j hij hj => lt_of_step h.bm hij hj
  · unfold mk
    dsimp only
    rw [tab_reverse, tab_map]
    refine tab_congr fun i hi => ?_
    rw [h.ts i hi, roofm]
  · unfold mk
    dsimp only
    rw [tab_reverse, tab_map]
    refine tab_congr fun i hi => ?_
    rw [h.bs i hi]
  · unfold mk
    dsimp only
    rw [tab_length]
    rfl
  · unfold mk
    dsimp only
    rw [tab_length]
    rfl

/-- What all symmetric trusses have in common. -/
theorem gen_all {T : Sloped} (hT : Sym T) {top : Topology} (ht : top ≠ .other) {n : ℕ} (hn : 2 ≤ n) (up edge : Bool) :
    ∃ Nt Nb r xt xb W, T.generate top n up edge = .ok (mk T Nt Nb xt xb W) ∧ Nums T Nt Nb r xt xb ∧ Web Nt Nb (decide (0 < T.dx1) || edge) W ∧
      (T.dx1 = 0 → if up then Linked W (.top 1) (.bot 0) ∧ ¬ Linked W (.top 0) (.bot 1) else Linked W (.top 0) (.bot 1) ∧ ¬ Linked W (.top 1) (.bot 0)) ∧
      (top = .N ∨ top = .KT → ∀ j < Nb, (T.dx1 = 0 → 0 < j ∧ j + 1 < Nb) → ∃ i < Nt, xt i = xb j ∧ Linked W (.top i) (.bot j)) ∧
      Hold Nt Nb (decide (0 < T.dx1) || edge) W ∧ AtRidge top (decide (T.dx1 = 0) && up) r W := by
  rcases lt_or_eq_of_le hT.dx0 with hd | hd
  · have hc : (decide (0 < T.dx1) || edge) = true := by simp [hd]
    rw [hc]
    cases top with
    | K => exact ⟨_, _, _, _, _, _, gen_K hT hd (by omega) up edge, nums_K hT hd (by omega), web_K n (by omega), fun h => absurd h hd.ne', fun h => by simp at h, hold_K n (by omega),
        fun _ => ⟨n - 1, linked_K.2 (by omega), linked_K.2 (by omega)⟩, fun h => by simp at h⟩
    | N =>
      refine ⟨_, _, _, _, _, _, gen_N hT hd hn up edge, nums_N hT hd hn, web_N n hn, fun h => absurd h hd.ne', fun _ j hj _ => ⟨j + 1, by omega, ?_, (linked_N hn).2 (by omega)⟩, hold_N n hn,
        fun h => by simp at h, fun _ _ i j h1 h2 => by rw [linked_N hn] at h1 h2; omega⟩
      unfold nXt nXb
      rw [if_neg (by omega), if_pos (by omega)]
      push_cast
      ring
    | KT =>
      refine ⟨_, _, _, _, _, _, gen_T hT hd (by omega) up edge, nums_T hT hd (by omega), web_T n (by omega), fun h => absurd h hd.ne', fun _ j hj _ => ⟨2 * j + 1, by omega, ?_, linked_T.2 (by omega)⟩, hold_T n (by omega),
        fun _ => ⟨n - 1, linked_T.2 (by omega), linked_T.2 (by omega)⟩, fun h => by simp at h⟩
      unfold tXt kXb
      rw [if_neg (by omega), if_pos (by omega)]
      push_cast
      ring
    | other => exact absurd rfl ht
  · have hd := hd.symm
    have hc : (decide (0 < T.dx1) || edge) = edge := by simp [hd]
    rw [hc]
    cases top with
    | K =>
      cases up
      · refine ⟨_, _, _, _, _, _, gen_Kd hT hd hn edge, nums_Kd hT hd hn, web_Kd n (by omega) edge, fun _ => ?_, fun h => by simp at h, hold_Kd n (by omega) edge,
          fun _ => ⟨n, linked_Kd.2 (.inl (by omega)), linked_Kd.2 (.inl (by omega))⟩, fun h => by simp at h⟩
        simp only [Bool.false_eq_true, if_false, linked_Kd]
        refine ⟨.inl ⟨by omega, by omega, by simp⟩, ?_⟩
        rintro (h | ⟨-, h⟩)
        · omega
        · omega
      · refine ⟨_, _, _, _, _, _, gen_Ku hT hd (by omega) edge, nums_Ku hT hd (by omega), web_Ku n edge, fun _ => ?_, fun h => by simp at h, hold_Ku n edge,
          fun _ => ⟨n, linked_Ku.2 (.inl (by omega)), linked_Ku.2 (.inl (by omega))⟩, fun h => by simp at h⟩
        simp only [if_true, linked_Ku]
        refine ⟨.inl ⟨by omega, by omega, by simp⟩, ?_⟩
        rintro (h | ⟨-, h⟩)
        · omega
        · omega
    | N =>
      refine ⟨_, _, _, _, _, _, gen_N0 hT hd (by omega) up edge, nums_N0 hT hd (by omega), web_N0 n (by omega) up edge, fun _ => ?_, fun _ j hj h => ⟨j, hj, rfl, (linked_N0 (by omega)).2 (.inl ⟨rfl, .inl ?_⟩)⟩, hold_N0 n (by omega) up edge,
        fun h => by simp at h, fun _ hu i j h1 h2 => ?_⟩
      · rw [linked_N0 (by omega), linked_N0 (by omega)]
        cases up <;> simp <;> omega
      · have := h hd
        omega
      · obtain rfl : up = false := by simpa [hd] using hu
        rw [linked_N0 (by omega)] at h1 h2
        simp only [Bool.false_eq_true, false_and, false_or, true_and] at h1 h2
        rcases h1 with ⟨h1, -⟩ | h1 <;> rcases h2 with ⟨h2, -⟩ | h2 <;> omega
    | KT =>
      cases up
      · refine ⟨_, _, _, _, _, _, gen_Td hT hd (by omega) edge, nums_Td hT hd (by omega), web_Td n (by omega) edge, fun _ => ?_, fun _ j hj h => ?_, hold_Td n (by omega) edge,
          fun _ => ⟨n, linked_Td.2 (.inl (by omega)), linked_Td.2 (.inl (by omega))⟩, fun h => by simp at h⟩
        · simp only [Bool.false_eq_true, if_false, linked_Td]
          refine ⟨.inl (by omega), ?_⟩
          rintro (h | ⟨-, h⟩)
          · omega
          · omega
        · have := h hd
          refine ⟨2 * j - 1, by omega, ?_, linked_Td.2 (.inl (by omega))⟩
          have h0 : (n : ℝ) ≠ 0 := by exact_mod_cast (by omega : n ≠ 0)
          unfold uX tdXb
          rw [if_neg (by omega), if_pos (by omega), Nat.cast_sub (by omega)]
          push_cast
          field_simp
      · refine ⟨_, _, _, _, _, _, gen_Tu hT hd n edge, nums_Tu hT hd n, web_Tu n edge, fun _ => ?_, fun _ j hj h => ?_, hold_Tu n edge,
          fun _ => ⟨n, linked_Tu.2 (.inr (.inl (by omega))), linked_Tu.2 (.inr (.inr (by omega)))⟩, fun h => by simp at h⟩
        · simp only [if_true, linked_Tu]
          refine ⟨.inr (.inl ⟨by omega, by simp⟩), ?_⟩
          rintro (⟨h, -⟩ | h | h)
          · omega
          · omega
          · omega
        · have := h hd
          refine ⟨2 * j, by omega, ?_, linked_Tu.2 (.inl ⟨rfl, .inl (by omega)⟩)⟩
          unfold uX tuXb
          push_cast
          ring
    | other => exact absurd rfl ht

/-- Trusses with equal halves that the constructor accepts. -/
theorem sym_new {L dx h1 h2 s : ℝ} {T : Sloped} (h : Sloped.new L L dx dx h1 h2 s = .ok T) (hL : 0 < L) (h0 : 0 ≤ dx) (hd : dx < L) (hl : 0 < T.left) : Sym T := by
  obtain ⟨a, b, c, d, e, f, -⟩ := C221_partial h
  exact ⟨by rw [a, b], by rw [c, d], e, a ▸ hL, c ▸ h0, by rw [a, c]; exact hd, hl, f⟩

/-- The chords of a truss with equal halves have the shape that its dimensions describe. -/
theorem C222_partial {L dx h1 h2 s : ℝ} {T : Sloped} (h : Sloped.new L L dx dx h1 h2 s = .ok T) (hL : 0 < L) (h0 : 0 ≤ dx) (hd : dx < L) (hl : 0 < T.left)
    {top : Topology} (ht : top ≠ .other) {n : ℕ} (hn : 2 ≤ n) (up edge : Bool) :
    ∃ g, T.generate top n up edge = .ok g ∧ RoofShape L dx T.left (L * Real.tan (T.slope * Real.pi / 180)) g := by
  have hT := sym_new h hL h0 hd hl
  obtain ⟨Nt, Nb, r, xt, xb, W, hg, hN, -⟩ := gen_all hT ht hn up edge
  refine ⟨_, hg, ?_⟩
  have := shape_mk hT hN W
  obtain ⟨a, -, c, -, -, -, e, -⟩ := C221_partial h
  rwa [a, c, show T.mid - T.left = L * Real.tan (T.slope * Real.pi / 180) by rw [e]; ring] at this

/-- The code disagrees when the halves are not equal: the ridge is generated at midspan, and no node of the top chord of an N truss lies at the ridge, where the left half ends. -/
theorem C222_violation_ridge {T : Sloped} (hd1 : T.dx1 = 0) (_hd2 : T.dx2 = 0) (h1 : 0 < T.L1) (h2 : T.L1 < T.L2) (_hm : T.left < T.mid) (hr : T.right = T.left) (up edge : Bool) :
    ∃ g, T.generate .N 1 up edge = .ok g ∧ (∃ P ∈ g.top, P.1 = (T.L1 + T.L2) / 2 ∧ P.2 = T.mid - T.left) ∧ ∀ P ∈ g.top, P.1 ≠ T.L1 := by
  refine ⟨⟨[(0, 0), (1 / 2 * T.span, T.mid - T.left), (T.span, 0)], nBot T 1, chord (refs .top [(0, 0), (1 / 2 * T.span, T.mid - T.left), (T.span, 0)]), chord (refs .bot (nBot T 1)),
    nBraces T 1 up edge (refs .top [(0, 0), (1 / 2 * T.span, T.mid - T.left), (T.span, 0)]) (refs .bot (nBot T 1))⟩, ?_, ⟨(1 / 2 * T.span, T.mid - T.left), ?_, ?_, rfl⟩, ?_⟩
  · unfold Sloped.generate
    dsimp only
    have : nTop T 1 (nBot T 1) = .ok [(0, 0), (1 / 2 * T.span, T.mid - T.left), (T.span, 0)] := by
      unfold nTop
      dsimp only
      rw [if_pos hd1]
      have e : linspace 2 = [0, 1] := by
        unfold linspace
        norm_num [List.range_succ]
      rw [show 1 + 1 = 2 from rfl, e]
      simp [along, vec, Sloped.xmid, Sloped.xend, hr]
    rw [this]
    rfl
  · simp
  · dsimp only [Sloped.span]
    ring
  · intro P hP
    simp only [List.mem_cons, List.not_mem_nil, or_false] at hP
    rcases hP with rfl | rfl | rfl
    · exact h1.ne
    · dsimp only [Sloped.span]
      intro h
      linarith
    · dsimp only [Sloped.span]
      intro h
      linarith

def kdW' (edge : Bool) : List (Ref × Ref) := ((List.range' 1 2).flatMap fun i => [(.bot i, .top (i - 1)), (.bot i, .top i)]) ++ ends 3 4 edge

/-- The code disagrees for a K truss with vertical ends, one division and the first diagonal down: two nodes of the bottom chord coincide, and the member between them has length zero. -/
theorem C222_violation_single {T : Sloped} (hT : Sym T) (hd : T.dx1 = 0) (edge : Bool) :
    ∃ g, T.generate .K 1 false edge = .ok g ∧ g.bot = [(0, -T.left), (T.L1, -T.left), (2 * T.L1, -T.left), (2 * T.L1, -T.left)] ∧ (Ref.bot 2, Ref.bot 3) ∈ g.botChord := by
  have hb : kBot T 1 false (T.L1 / ((1 : ℕ) - 1 / 2)) = [(0, -T.left), (T.L1, -T.left), (2 * T.L1, -T.left), (2 * T.L1, -T.left)] := by
    have e : linspace 1 = [0] := by
      unfold linspace
      norm_num [List.range_succ]
    unfold kBot kS
    simp only [hd, true_and, if_true, lt_irrefl, if_false, Bool.false_eq_true, Sloped.ycoord, hT.span, e]
    simp [along]
    refine ⟨?_, ?_⟩ <;> ring
  refine ⟨⟨tab 3 fun i : ℕ => (i * (T.L1 / (1 : ℕ)), roof T (i * (T.L1 / (1 : ℕ)))), [(0, -T.left), (T.L1, -T.left), (2 * T.L1, -T.left), (2 * T.L1, -T.left)], chord (tab 3 .top), chord (tab 4 .bot), kdW' edge⟩, ?_, rfl, ?_⟩
  · unfold Sloped.generate
    simp only [kDx, hd, lt_irrefl, if_false, Bool.false_eq_true, bind, Except.bind]
    rw [hb]
    unfold kTop
    dsimp only
    rw [if_pos hd, if_neg (by simp), top_along hT (N := 1) (by omega) (by rw [hT.span])]
    dsimp only
    rw [mk_refs _ 3 _ (tab_length _ _), mk_refs _ 4 _ (by rfl)]
    unfold kBraces
    rw [if_pos hd]
    dsimp only
    rw [if_neg (by simp), loop_ok (g := fun i => [(.bot i, .top (i - 1)), (.bot i, .top i)])]
    · simp only [edges_tab (Nt := 3) (Nb := 4) (by omega) (by omega) edge, bind, Except.bind]
      rfl
    · intro i hi
      have := List.mem_range'_1.1 hi
      simp only [idx_tab (show i < 3 by omega), idx_tab (show i - 1 < 3 by omega), idx_tab (show i < 4 by omega), bind, Except.bind]
  · simp [chord, tab, List.range_succ]

/-! ### C223: members -/

/-- All members. -/
def Gen.members (g : Gen) : List (Ref × Ref) := g.topChord ++ g.botChord ++ g.braces

/-- The members of a truss. `closed`: the top and bottom chords are joined at both ends. -/
structure Bracing (closed : Bool) (g : Gen) : Prop where
  across : ∀ m ∈ g.braces, ∃ i < g.top.length, ∃ j < g.bot.length, m = (.top i, .bot j) ∨ m = (.bot j, .top i)
  distinct : g.members.Pairwise fun a b => a ≠ b ∧ a ≠ b.swap
  planar : ∀ i j k l, Linked g.braces (.top i) (.bot j) → Linked g.braces (.top k) (.bot l) → i < k → j ≤ l
  count : g.members.length + 3 + (if closed then 0 else 2) = 2 * (g.top.length + g.bot.length)
  heldTop : ∀ i < g.top.length, closed = true ∨ (0 < i ∧ i + 1 < g.top.length) → ∃ j < g.bot.length, Linked g.braces (.top i) (.bot j)
  heldBot : ∀ j < g.bot.length, closed = true ∨ (0 < j ∧ j + 1 < g.bot.length) → ∃ i < g.top.length, Linked g.braces (.top i) (.bot j)

theorem bracing_mk {T : Sloped} {Nt Nb r : ℕ} {xt xb : ℕ → ℝ} (h : Nums T Nt Nb r xt xb) {c : Bool} {W : List (Ref × Ref)} (hW : Web Nt Nb c W) (hH : Hold Nt Nb c W) :
    Bracing c (mk T Nt Nb xt xb W) := by
  have ht := h.ht
  have hb := h.hb
  refine ⟨?_, ?_, hW.planar, ?_, ?_, ?_⟩
  · have := hW.inside
    unfold mk
    dsimp only
    rwa [tab_length, tab_length]
  · unfold Gen.members mk
    dsimp only
    rw [List.pairwise_append, List.pairwise_append]
    refine ⟨⟨?_, ?_, ?_⟩, hW.noDup, ?_⟩
    · refine tab_pairwise fun i j hij _ => ?_
      simp
      omega
    · refine tab_pairwise fun i j hij _ => ?_
      simp
      omega
    · intro a ha b hb
      obtain ⟨i, -, rfl⟩ := mem_tab.1 ha
      obtain ⟨j, -, rfl⟩ := mem_tab.1 hb
      simp
    · intro a ha b hb
      obtain ⟨k, -, l, -, rfl | rfl⟩ := hW.inside b hb <;> rcases List.mem_append.1 ha with ha | ha <;> obtain ⟨i, -, rfl⟩ := mem_tab.1 ha <;> simp
  · unfold Gen.members mk
    dsimp only
    rw [List.length_append, List.length_append, tab_length, tab_length, tab_length, tab_length]
    have := hW.count
    cases c
    · simp at this ⊢
      omega
    · simp at this ⊢
      omega
  · have := hH.top
    unfold mk
    dsimp only
    rwa [tab_length, tab_length]
  · have := hH.bot
    unfold mk
    dsimp only
    rwa [tab_length, tab_length]

/-- The braces of a truss with equal halves join the chords without crossing each other, no member is doubled, and the truss has as many members as a statically determinate truss. The first diagonal goes up or
down as it was asked for, and N and KT trusses have a vertical brace at each bottom node (except at vertical ends). -/
theorem C223_partial {L dx h1 h2 s : ℝ} {T : Sloped} (h : Sloped.new L L dx dx h1 h2 s = .ok T) (hL : 0 < L) (h0 : 0 ≤ dx) (hd : dx < L) (hl : 0 < T.left)
    {top : Topology} (ht : top ≠ .other) {n : ℕ} (hn : 2 ≤ n) (up edge : Bool) :
    ∃ g, T.generate top n up edge = .ok g ∧ Bracing (decide (0 < dx) || edge) g ∧
      (dx = 0 → if up then Linked g.braces (.top 1) (.bot 0) ∧ ¬ Linked g.braces (.top 0) (.bot 1) else Linked g.braces (.top 0) (.bot 1) ∧ ¬ Linked g.braces (.top 1) (.bot 0)) ∧
      (top = .N ∨ top = .KT → ∀ j Q, g.bot[j]? = some Q → (dx = 0 → 0 < j ∧ j + 1 < g.bot.length) → ∃ i P, g.top[i]? = some P ∧ P.1 = Q.1 ∧ Linked g.braces (.top i) (.bot j)) := by
  have hT := sym_new h hL h0 hd hl
  obtain ⟨-, -, c, -⟩ := C221_partial h
  obtain ⟨Nt, Nb, r, xt, xb, W, hg, hN, hW, hup, hv, hH, -⟩ := gen_all hT ht hn up edge
  rw [c] at hW hup hv hH
  refine ⟨_, hg, bracing_mk hN hW hH, hup, ?_⟩
  intro htop j Q hQ hj
  have hlen : (mk T Nt Nb xt xb W).bot.length = Nb := tab_length _ _
  have hjl : j < Nb := by
    have := (List.getElem?_eq_some_iff.1 hQ).1
    rwa [hlen] at this
  rw [hlen] at hj
  obtain ⟨i, hi, hx, hl⟩ := hv htop j hjl hj
  refine ⟨i, (xt i, roof T (xt i)), tab_getElem? _ _ hi, ?_, hl⟩
  have : (mk T Nt Nb xt xb W).bot[j]? = some (xb j, -T.left) := tab_getElem? _ _ hjl
  rw [this] at hQ
  rw [← Option.some.inj hQ]
  exact hx

/-! ### C224: stability -/

/-- The place of a node. -/
def Gen.pos (g : Gen) : Ref → Pt
  | .top i => g.top.getD i (0, 0)
  | .bot i => g.bot.getD i (0, 0)

/-- Small displacements of the nodes that do not change the length of any member. -/
def Flex (g : Gen) (u : Ref → Pt) : Prop :=
  ∀ m ∈ g.members, ((g.pos m.1).1 - (g.pos m.2).1) * ((u m.1).1 - (u m.2).1) + ((g.pos m.1).2 - (g.pos m.2).2) * ((u m.1).2 - (u m.2).2) = 0

/-- Small displacements that the members do not resist and the supports permit. -/
def Mechanism (g : Gen) (sup : List Sup) (u : Ref → Pt) : Prop :=
  Flex g u ∧ ∀ s ∈ sup, (s.x = true → (u s.node).1 = 0) ∧ (s.y = true → (u s.node).2 = 0)

/-- A node of the truss. -/
def Gen.IsNode (g : Gen) : Ref → Prop
  | .top i => i < g.top.length
  | .bot i => i < g.bot.length

theorem flex_linked {g : Gen} {u : Ref → Pt} (h : Flex g u) {a b : Ref} (hab : Linked g.members a b) :
    ((g.pos a).1 - (g.pos b).1) * ((u a).1 - (u b).1) + ((g.pos a).2 - (g.pos b).2) * ((u a).2 - (u b).2) = 0 := by
  rcases hab with k | k
  · exact h _ k
  · have := h _ k
    dsimp only at this
    linarith

/-- A node that is tied to two fixed nodes by members in different directions is fixed. -/
theorem flex_fixed {g : Gen} {u : Ref → Pt} (h : Flex g u) {a b c : Ref} (ha : u a = (0, 0)) (hb : u b = (0, 0)) (hac : Linked g.members a c) (hbc : Linked g.members b c)
    (hdet : ((g.pos a).1 - (g.pos c).1) * ((g.pos b).2 - (g.pos c).2) - ((g.pos a).2 - (g.pos c).2) * ((g.pos b).1 - (g.pos c).1) ≠ 0) : u c = (0, 0) := by
  have h1 := flex_linked h hac
  have h2 := flex_linked h hbc
  rw [ha] at h1
  rw [hb] at h2
  dsimp only at h1 h2
  refine Prod.ext ?_ ?_
  · refine (mul_eq_zero.1 (?_ : (u c).1 * _ = 0)).resolve_right hdet
    linear_combination -((g.pos b).2 - (g.pos c).2) * h1 + ((g.pos a).2 - (g.pos c).2) * h2
  · refine (mul_eq_zero.1 (?_ : (u c).2 * _ = 0)).resolve_right hdet
    linear_combination ((g.pos b).1 - (g.pos c).1) * h1 - ((g.pos a).1 - (g.pos c).1) * h2

/-- Displacements without elongations that vanish at two nodes tied to each other vanish everywhere. -/
theorem flex_zero {T : Sloped} (hT : Sym T) {Nt Nb r : ℕ} {xt xb : ℕ → ℝ} (h : Nums T Nt Nb r xt xb) {W : List (Ref × Ref)} (hW : Web Nt Nb true W) {u : Ref → Pt}
    (hu : Flex (mk T Nt Nb xt xb W) u) (ht0 : u (.top 0) = (0, 0)) (hb0 : u (.bot 0) = (0, 0)) : (∀ i < Nt, u (.top i) = (0, 0)) ∧ ∀ j < Nb, u (.bot j) = (0, 0) := by
  have hL := hT.pos
  have hl := hT.left
  have hm : 0 ≤ T.mid - T.left := sub_nonneg.2 hT.mid
  have pt : ∀ i < Nt, (mk T Nt Nb xt xb W).pos (.top i) = (xt i, roof T (xt i)) := fun i hi => by
    show List.getD (tab Nt _) i (0, 0) = _
    rw [List.getD_eq_getElem?_getD, tab_getElem? _ _ hi]
    rfl
  have pb : ∀ i < Nb, (mk T Nt Nb xt xb W).pos (.bot i) = (xb i, -T.left) := fun i hi => by
    show List.getD (tab Nb _) i (0, 0) = _
    rw [List.getD_eq_getElem?_getD, tab_getElem? _ _ hi]
    rfl
  have lt : ∀ i, i + 1 < Nt → Linked (mk T Nt Nb xt xb W).members (.top i) (.top (i + 1)) := fun i hi =>
    .inl (List.mem_append_left _ (List.mem_append_left _ (mem_tab.2 ⟨i, by omega, rfl⟩)))
  have lb : ∀ i, i + 1 < Nb → Linked (mk T Nt Nb xt xb W).members (.bot i) (.bot (i + 1)) := fun i hi =>
    .inl (List.mem_append_left _ (List.mem_append_right _ (mem_tab.2 ⟨i, by omega, rfl⟩)))
  have lw : ∀ {a b}, Linked W a b → Linked (mk T Nt Nb xt xb W).members b a := fun h => h.elim (fun k => .inr (List.mem_append_right _ k)) fun k => .inl (List.mem_append_right _ k)
  have xt0 : ∀ i < Nt, 0 ≤ xt i := fun i hi => h.t0 ▸ le_of_step h.tm (Nat.zero_le i) hi
  have xtl : ∀ i < Nt, xt i ≤ 2 * T.L1 := fun i hi => h.tl ▸ le_of_step h.tm (Nat.le_sub_one_of_lt hi) (by omega)
  have hd0 := hT.dx0
  have bl : xb (Nb - 1) = 2 * T.L1 - T.dx1 := by
    have := h.bs 0 (by have := h.hb; omega)
    rwa [Nat.sub_zero, h.b0] at this
  have xb0 : ∀ i < Nb, 0 ≤ xb i := fun i hi => by
    have := le_of_step h.bm (Nat.zero_le i) hi
    rw [h.b0] at this
    linarith
  have xbl : ∀ i < Nb, xb i ≤ 2 * T.L1 := fun i hi => by
    have := le_of_step h.bm (Nat.le_sub_one_of_lt hi) (by omega)
    rw [bl] at this
    linarith
  refine hW.grow rfl (fun r => u r = (0, 0)) ht0 hb0 ?_ ?_
  · intro i j hi hj hti hbj hlk
    refine flex_fixed hu hti hbj (lt i hi) (lw hlk) ?_
    rw [pt i (by omega), pt (i + 1) hi, pb j hj]
    dsimp only
    have hx := h.tm i hi
    have h0 := xt0 i (by omega)
    have h1 := xtl (i + 1) hi
    have h2 := xb0 j hj
    have h3 := xbl j hj
    rcases Nat.lt_or_ge i r with hir | hir
    · have hle : xt (i + 1) ≤ T.L1 := h.tr ▸ le_of_step h.tm hir h.hr
      rw [roof_left hle, roof_left (by linarith)]
      have : (xt i - xt (i + 1)) * (-T.left - (T.mid - T.left) * (xt (i + 1) / T.L1)) - ((T.mid - T.left) * (xt i / T.L1) - (T.mid - T.left) * (xt (i + 1) / T.L1)) * (xb j - xt (i + 1)) =
          (xt (i + 1) - xt i) * (T.left + (T.mid - T.left) * (xb j / T.L1)) := by
        field_simp
        ring
      rw [this]
      refine (mul_pos (by linarith) ?_).ne'
      have : 0 ≤ (T.mid - T.left) * (xb j / T.L1) := by positivity
      linarith
    · have hge : T.L1 ≤ xt i := h.tr ▸ le_of_step h.tm hir (by omega)
      rw [roof_right hT hge, roof_right hT (by linarith)]
      have : (xt i - xt (i + 1)) * (-T.left - (T.mid - T.left) * ((2 * T.L1 - xt (i + 1)) / T.L1)) -
          ((T.mid - T.left) * ((2 * T.L1 - xt i) / T.L1) - (T.mid - T.left) * ((2 * T.L1 - xt (i + 1)) / T.L1)) * (xb j - xt (i + 1)) =
          (xt (i + 1) - xt i) * (T.left + (T.mid - T.left) * ((2 * T.L1 - xb j) / T.L1)) := by
        field_simp
        ring
      rw [this]
      refine (mul_pos (by linarith) ?_).ne'
      have : 0 ≤ (T.mid - T.left) * ((2 * T.L1 - xb j) / T.L1) := mul_nonneg hm (div_nonneg (by linarith) hL.le)
      linarith
  · intro i j hi hj hti hbj hlk
    refine flex_fixed hu hbj hti (lb j hj) (lw (hlk.elim .inr .inl)) ?_
    rw [pb j (by omega), pb (j + 1) hj, pt i hi]
    dsimp only
    have hx := h.bm j hj
    have hr := roof_nonneg hT (xt0 i hi) (xtl i hi)
    rw [sub_self, zero_mul, sub_zero]
    exact mul_ne_zero (by linarith) (by linarith)

theorem supports_left {T : Sloped} (hT : Sym T) (hd : 0 < T.dx1) {Nt Nb : ℕ} (ht : 0 < Nt) (xt xb : ℕ → ℝ) (W : List (Ref × Ref)) :
    T.supports (mk T Nt Nb xt xb W) = .ok [⟨.top 0, true, true⟩, ⟨.top (Nt - 1), false, true⟩] := by
  unfold Sloped.supports mk
  dsimp only
  rw [mk_refs _ Nt _ (tab_length _ _), mk_refs _ Nb _ (tab_length _ _), if_pos hd, idx_tab ht]
  simp only [bind, Except.bind]
  rw [if_pos (hT.dx ▸ hd), lastIdx_tab ht]

theorem supports_right {T : Sloped} (hT : Sym T) (hd : T.dx1 = 0) {Nt Nb : ℕ} (hb : 0 < Nb) (xt xb : ℕ → ℝ) (W : List (Ref × Ref)) :
    T.supports (mk T Nt Nb xt xb W) = .ok [⟨.bot 0, true, true⟩, ⟨.bot (Nb - 1), false, true⟩] := by
  unfold Sloped.supports mk
  dsimp only
  rw [mk_refs _ Nt _ (tab_length _ _), mk_refs _ Nb _ (tab_length _ _), if_neg (by simp [hd]), idx_tab hb]
  simp only [bind, Except.bind]
  rw [if_neg (by simp [hT.dx, hd]), lastIdx_tab hb]

/-- Displacements without elongations are a rotation about a fixed node. -/
theorem flex_rotation {T : Sloped} (hT : Sym T) {Nt Nb r : ℕ} {xt xb : ℕ → ℝ} (h : Nums T Nt Nb r xt xb) {W : List (Ref × Ref)} (hW : Web Nt Nb true W) {u : Ref → Pt}
    (hu : Flex (mk T Nt Nb xt xb W) u) {c : Ref} (hc : c = .top 0 ∨ c = .bot 0) (hc0 : u c = (0, 0)) :
    ∃ θ : ℝ, ∀ a, (mk T Nt Nb xt xb W).IsNode a →
      u a = (-θ * (((mk T Nt Nb xt xb W).pos a).2 - ((mk T Nt Nb xt xb W).pos c).2), θ * (((mk T Nt Nb xt xb W).pos a).1 - ((mk T Nt Nb xt xb W).pos c).1)) := by
  have ht := h.ht
  have hb := h.hb
  generalize hg : mk T Nt Nb xt xb W = g at hu
  have pt0 : g.pos (.top 0) = (0, 0) := by
    rw [← hg]
    show List.getD (tab Nt _) 0 (0, 0) = _
    rw [List.getD_eq_getElem?_getD, tab_getElem? _ _ (by omega), h.t0, roof_zero hT]
    rfl
  have pb0 : g.pos (.bot 0) = (T.dx1, -T.left) := by
    rw [← hg]
    show List.getD (tab Nb _) 0 (0, 0) = _
    rw [List.getD_eq_getElem?_getD, tab_getElem? _ _ (by omega), h.b0]
    rfl
  have hl := hT.left.ne'
  have hbar : Linked g.members (.top 0) (.bot 0) := by
    rw [← hg]
    exact (hW.start rfl).elim (fun k => .inl (List.mem_append_right _ k)) fun k => .inr (List.mem_append_right _ k)
  have h1 := flex_linked hu hbar
  rw [pt0, pb0] at h1
  dsimp only at h1
  have main : ∀ θ : ℝ, (u (.top 0) = (-θ * ((g.pos (.top 0)).2 - (g.pos c).2), θ * ((g.pos (.top 0)).1 - (g.pos c).1))) →
      (u (.bot 0) = (-θ * ((g.pos (.bot 0)).2 - (g.pos c).2), θ * ((g.pos (.bot 0)).1 - (g.pos c).1))) →
      ∀ a, g.IsNode a → u a = (-θ * ((g.pos a).2 - (g.pos c).2), θ * ((g.pos a).1 - (g.pos c).1)) := by
    intro θ e1 e2
    have hz := flex_zero hT h hW (u := fun a => ((u a).1 - -θ * ((g.pos a).2 - (g.pos c).2), (u a).2 - θ * ((g.pos a).1 - (g.pos c).1))) ?_ ?_ ?_
    · intro a ha
      have : ((u a).1 - -θ * ((g.pos a).2 - (g.pos c).2), (u a).2 - θ * ((g.pos a).1 - (g.pos c).1)) = ((0, 0) : ℝ × ℝ) := by
        cases a with
        | top i => exact hz.1 i (by rw [← hg] at ha; exact (tab_length Nt _) ▸ ha)
        | bot i => exact hz.2 i (by rw [← hg] at ha; exact (tab_length Nb _) ▸ ha)
      have k1 := congrArg Prod.fst this
      have k2 := congrArg Prod.snd this
      exact Prod.ext (sub_eq_zero.1 k1) (sub_eq_zero.1 k2)
    · rw [hg]
      intro m hmem
      have := hu m hmem
      dsimp only
      linear_combination this
    · rw [e1]
      simp
    · rw [e2]
      simp
  rcases hc with rfl | rfl
  · refine ⟨(u (.bot 0)).1 / T.left, main _ ?_ ?_⟩
    · rw [hc0]
      simp
    · rw [hc0] at h1
      dsimp only at h1
      rw [pt0, pb0]
      refine Prod.ext ?_ ?_
      · dsimp only
        field_simp
        ring
      · dsimp only
        field_simp
        linarith
  · refine ⟨-(u (.top 0)).1 / T.left, main _ ?_ ?_⟩
    · rw [hc0] at h1
      dsimp only at h1
      rw [pt0, pb0]
      refine Prod.ext ?_ ?_
      · dsimp only
        field_simp
        ring
      · dsimp only
        field_simp
        linarith
    · rw [hc0]
      simp

/-- A truss with equal halves whose chords are joined at both ends does not collapse on its supports: nodes do not move unless a member changes its length. Together with the number of members and of supported
displacements, the truss is statically determinate as a pin-jointed structure. -/
theorem C224_partial {L dx h1 h2 s : ℝ} {T : Sloped} (h : Sloped.new L L dx dx h1 h2 s = .ok T) (hL : 0 < L) (h0 : 0 ≤ dx) (hd : dx < L) (hl : 0 < T.left)
    {top : Topology} (ht : top ≠ .other) {n : ℕ} (hn : 2 ≤ n) (up edge : Bool) (hc : dx = 0 → edge = true) :
    ∃ g sup, T.generate top n up edge = .ok g ∧ T.supports g = .ok sup ∧
      (∀ u, Mechanism g sup u → ∀ a, g.IsNode a → u a = (0, 0)) ∧
      g.members.length + (sup.map fun s => s.x.toNat + s.y.toNat).sum = 2 * (g.top.length + g.bot.length) := by
  have hT := sym_new h hL h0 hd hl
  obtain ⟨-, -, c, -⟩ := C221_partial h
  obtain ⟨Nt, Nb, r, xt, xb, W, hg, hN, hW, -, -, hH, -⟩ := gen_all hT ht hn up edge
  have hcl : (decide (0 < T.dx1) || edge) = true := by
    rw [c]
    rcases lt_or_eq_of_le h0 with k | k
    · simp [k]
    · simp [hc k.symm]
  rw [hcl] at hW hH
  have hcount := (bracing_mk hN hW hH).count
  rw [if_pos rfl, add_zero] at hcount
  have hNt := hN.ht
  have hNb := hN.hb
  rcases lt_or_eq_of_le hT.dx0 with hp | hp
  · refine ⟨_, _, hg, supports_left hT hp (by omega) xt xb W, ?_, hcount⟩
    intro u hu
    have s0 := hu.2 ⟨.top 0, true, true⟩ (by simp)
    have s1 := hu.2 ⟨.top (Nt - 1), false, true⟩ (by simp)
    dsimp only at s0 s1
    obtain ⟨θ, hθ⟩ := flex_rotation hT hN hW hu.1 (.inl rfl) (Prod.ext (s0.1 rfl) (s0.2 rfl))
    have hlast := hθ (.top (Nt - 1)) (by
      show Nt - 1 < (tab Nt _).length
      rw [tab_length]
      omega)
    have p0 : (mk T Nt Nb xt xb W).pos (.top 0) = (xt 0, roof T (xt 0)) := by
      show List.getD (tab Nt _) 0 (0, 0) = _
      rw [List.getD_eq_getElem?_getD, tab_getElem? _ _ (by omega)]
      rfl
    have p1 : (mk T Nt Nb xt xb W).pos (.top (Nt - 1)) = (xt (Nt - 1), roof T (xt (Nt - 1))) := by
      show List.getD (tab Nt _) (Nt - 1) (0, 0) = _
      rw [List.getD_eq_getElem?_getD, tab_getElem? _ _ (by omega)]
      rfl
    have hy := congrArg Prod.snd hlast
    rw [s1.2 rfl, p0, p1, hN.t0, hN.tl, sub_zero] at hy
    have hθ0 : θ = 0 := (mul_eq_zero.1 hy.symm).resolve_right (by have := hT.pos; linarith)
    intro a ha
    rw [hθ a ha, hθ0]
    simp
  · refine ⟨_, _, hg, supports_right hT hp.symm (by omega) xt xb W, ?_, hcount⟩
    intro u hu
    have s0 := hu.2 ⟨.bot 0, true, true⟩ (by simp)
    have s1 := hu.2 ⟨.bot (Nb - 1), false, true⟩ (by simp)
    dsimp only at s0 s1
    obtain ⟨θ, hθ⟩ := flex_rotation hT hN hW hu.1 (.inr rfl) (Prod.ext (s0.1 rfl) (s0.2 rfl))
    have hlast := hθ (.bot (Nb - 1)) (by
      show Nb - 1 < (tab Nb _).length
      rw [tab_length]
      omega)
    have p0 : (mk T Nt Nb xt xb W).pos (.bot 0) = (xb 0, -T.left) := by
      show List.getD (tab Nb _) 0 (0, 0) = _
      rw [List.getD_eq_getElem?_getD, tab_getElem? _ _ (by omega)]
      rfl
    have p1 : (mk T Nt Nb xt xb W).pos (.bot (Nb - 1)) = (xb (Nb - 1), -T.left) := by
      show List.getD (tab Nb _) (Nb - 1) (0, 0) = _
      rw [List.getD_eq_getElem?_getD, tab_getElem? _ _ (by omega)]
      rfl
    have hlt := lt_of_step hN.bm (i := 0) (j := Nb - 1) (by omega) (by omega)
    have hy := congrArg Prod.snd hlast
    rw [s1.2 rfl, p0, p1] at hy
    have hθ0 : θ = 0 := (mul_eq_zero.1 hy.symm).resolve_right (by dsimp only; linarith)
    intro a ha
    rw [hθ a ha, hθ0]
    simp

/-- The truss of the first example, as a K truss with two divisions: it has 9 nodes and 15 members. -/
example : ∃ T g sup, Sloped.new 10 10 0.5 0.5 1 2 0 = .ok T ∧ T.generate .K 2 true true = .ok g ∧ T.supports g = .ok sup ∧ g.top.length = 5 ∧ g.bot.length = 4 ∧ g.members.length = 15 ∧
    ∀ u, Mechanism g sup u → ∀ a, g.IsNode a → u a = (0, 0) := by
  have hn : Sloped.new 10 10 0.5 0.5 1 2 0 = .ok ⟨10, 10, Real.arctan ((2 - 1) / 10) * 180 / Real.pi, 0.5, 0.5, 1, 2, 1⟩ := by
    unfold Sloped.new pyDiv
    rw [if_neg (by norm_num), if_neg (by norm_num), if_neg (by norm_num)]
    simp only [bind, Except.bind]
    unfold Sloped.check
    rw [if_neg (by norm_num), if_neg (by norm_num)]
  have hT := sym_new hn (by norm_num) (by norm_num) (by norm_num) (by norm_num)
  obtain ⟨g, sup, hg, hs, hm, -⟩ := C224_partial hn (by norm_num) (by norm_num) (by norm_num) (by norm_num) (top := .K) (by simp) (n := 2) le_rfl true true (fun _ => rfl)
  have e := gen_K hT (by norm_num) (n := 2) (by norm_num) true true
  rw [e] at hg
  obtain rfl := Except.ok.inj hg
  refine ⟨_, _, sup, hn, e, hs, tab_length _ _, tab_length _ _, ?_, hm⟩
  simp [Gen.members, mk, tab_length, kW, List.range_succ]

/-- Without verticals at its vertical ends a truss is a mechanism as a pin-jointed structure: either the end of the top chord turns about the next node, or the truss turns about its roller. -/
theorem C224_open_ends {L h1 h2 s : ℝ} {T : Sloped} (h : Sloped.new L L 0 0 h1 h2 s = .ok T) (hL : 0 < L) (hl : 0 < T.left)
    {top : Topology} (ht : top ≠ .other) {n : ℕ} (hn : 2 ≤ n) (up : Bool) :
    ∃ g sup u, T.generate top n up false = .ok g ∧ T.supports g = .ok sup ∧ Mechanism g sup u ∧ ∃ a, g.IsNode a ∧ u a ≠ (0, 0) := by
  have hT := sym_new h hL le_rfl hL hl
  obtain ⟨-, -, c, -⟩ := C221_partial h
  obtain ⟨Nt, Nb, r, xt, xb, W, hg, hN, hW, hup, -⟩ := gen_all hT ht hn up false
  have hNt := hN.ht
  have hNb := hN.hb
  have hup := hup c
  have pt : ∀ i < Nt, (mk T Nt Nb xt xb W).pos (.top i) = (xt i, roof T (xt i)) := fun i hi => by
    show List.getD (tab Nt _) i (0, 0) = _
    rw [List.getD_eq_getElem?_getD, tab_getElem? _ _ hi]
    rfl
  have pb : ∀ i < Nb, (mk T Nt Nb xt xb W).pos (.bot i) = (xb i, -T.left) := fun i hi => by
    show List.getD (tab Nb _) i (0, 0) = _
    rw [List.getD_eq_getElem?_getD, tab_getElem? _ _ hi]
    rfl
  have hopen : ¬ Linked W (.top 0) (.bot 0) := hW.opened (by simp [c])
  have hmem : ∀ m ∈ (mk T Nt Nb xt xb W).members, (∃ i, i + 1 < Nt ∧ m = (.top i, .top (i + 1))) ∨ (∃ i, i + 1 < Nb ∧ m = (.bot i, .bot (i + 1))) ∨ m ∈ W := by
    intro m hm
    rcases List.mem_append.1 hm with hm | hm
    · rcases List.mem_append.1 hm with hm | hm
      · obtain ⟨i, hi, rfl⟩ := mem_tab.1 hm
        exact .inl ⟨i, by omega, rfl⟩
      · obtain ⟨i, hi, rfl⟩ := mem_tab.1 hm
        exact .inr (.inl ⟨i, by omega, rfl⟩)
    · exact .inr (.inr hm)
  cases up
  · -- the rest of the truss turns about the roller
    rw [if_neg (by simp)] at hup
    have hno : ∀ i, ¬ Linked W (.top i) (.bot 0) := by
      intro i hi
      rcases Nat.eq_zero_or_pos i with rfl | hp
      · exact hopen hi
      · have := hW.planar 0 1 i 0 hup.1 hi hp
        omega
    refine ⟨_, _, fun a => if a = .bot 0 then (0, 0) else (-(((mk T Nt Nb xt xb W).pos a).2 + T.left), ((mk T Nt Nb xt xb W).pos a).1 - xb (Nb - 1)), hg,
      supports_right hT c (by omega) xt xb W, ⟨?_, ?_⟩, .top 0, ?_, ?_⟩
    · intro m hm
      rcases hmem m hm with ⟨i, hi, rfl⟩ | ⟨i, hi, rfl⟩ | hw
      · simp only [reduceCtorEq, if_false]
        ring
      · rcases Nat.eq_zero_or_pos i with rfl | hp
        · simp only [if_true, if_neg (show ¬ Ref.bot (0 + 1) = Ref.bot 0 by simp), pb 0 (by omega), pb (0 + 1) hi]
          ring
        · simp only [if_neg (show ¬ Ref.bot i = Ref.bot 0 by simp; omega), if_neg (show ¬ Ref.bot (i + 1) = Ref.bot 0 by simp)]
          ring
      · obtain ⟨i, hi, j, hj, rfl | rfl⟩ := hW.inside m hw
        · have : ¬ Ref.bot j = Ref.bot 0 := by
            rintro e
            rw [e] at hw
            exact hno i (.inl hw)
          simp only [reduceCtorEq, if_false, if_neg this]
          ring
        · have : ¬ Ref.bot j = Ref.bot 0 := by
            rintro e
            rw [e] at hw
            exact hno i (.inr hw)
          simp only [reduceCtorEq, if_false, if_neg this]
          ring
    · intro s hs
      simp only [List.mem_cons, List.not_mem_nil, or_false] at hs
      rcases hs with rfl | rfl
      · simp
      · simp only [if_neg (show ¬ Ref.bot (Nb - 1) = Ref.bot 0 by simp; omega), pb (Nb - 1) (by omega)]
        simp
    · show 0 < (tab Nt _).length
      rw [tab_length]
      omega
    · dsimp only
      rw [if_neg (by simp), pt 0 (by omega), hN.t0, roof_zero hT]
      intro e
      have h1 := congrArg Prod.fst e
      dsimp only at h1
      linarith
  · -- the end of the top chord turns about the next node
    rw [if_pos rfl] at hup
    have hno : ∀ j, ¬ Linked W (.top 0) (.bot j) := by
      intro j hj
      have := hW.planar 0 j 1 0 hj hup.1 (by omega)
      obtain rfl : j = 0 := by omega
      exact hopen hj
    refine ⟨_, _, fun a => if a = .top 0 then (-(roof T (xt 0) - roof T (xt 1)), xt 0 - xt 1) else (0, 0), hg, supports_right hT c (by omega) xt xb W, ⟨?_, ?_⟩, .top 0, ?_, ?_⟩
    · intro m hm
      rcases hmem m hm with ⟨i, hi, rfl⟩ | ⟨i, hi, rfl⟩ | hw
      · rcases Nat.eq_zero_or_pos i with rfl | hp
        · simp only [if_true, if_neg (show ¬ Ref.top (0 + 1) = Ref.top 0 by simp), pt 0 (by omega), pt (0 + 1) hi]
          ring
        · simp only [if_neg (show ¬ Ref.top i = Ref.top 0 by simp; omega), if_neg (show ¬ Ref.top (i + 1) = Ref.top 0 by simp)]
          ring
      · simp only [reduceCtorEq, if_false]
        ring
      · obtain ⟨i, hi, j, hj, rfl | rfl⟩ := hW.inside m hw
        · have : ¬ Ref.top i = Ref.top 0 := by
            rintro e
            rw [e] at hw
            exact hno j (.inl hw)
          simp only [reduceCtorEq, if_false, if_neg this]
          ring
        · have : ¬ Ref.top i = Ref.top 0 := by
            rintro e
            rw [e] at hw
            exact hno j (.inr hw)
          simp only [reduceCtorEq, if_false, if_neg this]
          ring
    · intro s hs
      simp only [List.mem_cons, List.not_mem_nil, or_false] at hs
      rcases hs with rfl | rfl <;> simp
    · show 0 < (tab Nt _).length
      rw [tab_length]
      omega
    · dsimp only
      rw [if_pos rfl]
      intro e
      have h1 := congrArg Prod.snd e
      have := hN.tm 0 (by omega)
      dsimp only at h1
      rw [zero_add] at this
      linarith

end

end Metku.Truss
