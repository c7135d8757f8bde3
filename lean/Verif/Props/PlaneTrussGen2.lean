import Verif.Props.PlaneTrussGen

/-! The nodes and members of symmetric N and KT trusses in closed form. -/

namespace Metku.Truss

open Metku.Steel Metku.Rhs

noncomputable section

/-! ### N trusses with a top chord that is longer than the bottom chord -/

def nStep (T : Sloped) (n : ℕ) : ℝ := (T.L1 - T.dx1) / (n - 1)

def nXb (T : Sloped) (n : ℕ) (i : ℕ) : ℝ := T.dx1 + i * nStep T n

def nXt (T : Sloped) (n : ℕ) (i : ℕ) : ℝ := if i = 0 then 0 else if i < 2 * n then T.dx1 + (i - 1) * nStep T n else 2 * T.L1

theorem nStep_facts {T : Sloped} (hT : Sym T) {n : ℕ} (hn : 2 ≤ n) : 0 < nStep T n ∧ nStep T n * (n - 1) = T.L1 - T.dx1 := by
  have h2 : (2 : ℝ) ≤ n := by exact_mod_cast hn
  refine ⟨div_pos (sub_pos.2 hT.dxL) (by linarith), ?_⟩
  unfold nStep
  rw [div_mul_cancel₀]
  linarith

theorem nums_N {T : Sloped} (hT : Sym T) (hd : 0 < T.dx1) {n : ℕ} (hn : 2 ≤ n) : Nums T (2 * n + 1) (2 * n - 1) n (nXt T n) (nXb T n) := by
  obtain ⟨hp, e⟩ := nStep_facts hT hn
  have hL := hT.pos
  have hl : nXt T n (2 * n) = 2 * T.L1 := by
    unfold nXt
    rw [if_neg (by omega), if_neg (by omega)]
  refine ⟨by omega, by omega, if_pos rfl, hl, by simp [nXb], ?_, ?_, ?_, ?_, by omega, ?_⟩
  · intro i hi
    unfold nXt
    rcases Nat.eq_zero_or_pos i with rfl | h0
    · rw [if_pos rfl, if_neg (by omega), if_pos (by omega)]
      push_cast
      linarith
    · rcases Nat.lt_or_ge (i + 1) (2 * n) with h1 | h1
      · rw [if_neg (by omega), if_pos (by omega), if_neg (by omega), if_pos (by omega)]
        push_cast
        linarith
      · rw [if_neg (by omega), if_pos (by omega), if_neg (by omega), if_neg (by omega)]
        have : (i : ℝ) + 1 = 2 * n := by exact_mod_cast (by omega : i + 1 = 2 * n)
        have h2 : (i : ℝ) = 2 * n - 1 := by linarith
        rw [h2]
        nlinarith
  · intro i hi
    unfold nXb
    push_cast
    linarith
  · intro i hi
    have hc : ((2 * n + 1 - 1 - i : ℕ) : ℝ) = 2 * n - i := by
      rw [show 2 * n + 1 - 1 - i = 2 * n - i by omega, Nat.cast_sub (by omega)]
      push_cast
      ring
    unfold nXt
    rcases Nat.eq_zero_or_pos i with rfl | h0
    · rw [if_neg (by omega), if_neg (by omega), if_pos rfl, sub_zero]
    · rcases Nat.lt_or_ge i (2 * n) with h1 | h1
      · rw [if_neg (by omega), if_pos (by omega), if_neg (by omega), if_pos (by omega), hc]
        linarith
      · rw [if_pos (by omega), if_neg (by omega), if_neg (by omega), sub_self]
  · intro i hi
    unfold nXb
    have : ((2 * n - 1 - 1 - i : ℕ) : ℝ) = 2 * n - 2 - i := by
      rw [show 2 * n - 1 - 1 - i = 2 * n - 2 - i by omega, Nat.cast_sub (by omega), Nat.cast_sub (by omega)]
      push_cast
      ring
    rw [this]
    linarith
  · unfold nXt
    rw [if_neg (by omega), if_pos (by omega)]
    linarith

theorem bot_N {T : Sloped} (hT : Sym T) (hd : 0 < T.dx1) {n : ℕ} (hn : 2 ≤ n) : nBot T n = tab (2 * n - 1) fun i => (nXb T n i, -T.left) := by
  obtain ⟨hp, e⟩ := nStep_facts hT hn
  unfold nBot
  simp only [if_pos hd, Sloped.ycoord, hT.span, hT.dx]
  have h2 : along (1 / 2 * (2 * T.L1), -T.left) (vec (1 / 2 * (2 * T.L1), -T.left) (2 * T.L1 - T.dx1, -T.left)) (linspace n).tail =
      tab (n - 1) fun i : ℕ => (T.L1 + (i + 1) * nStep T n, -T.left) := by
    have := half_bot (1 / 2 * (2 * T.L1)) (2 * T.L1 - T.dx1) (-T.left) (nStep T n) n (by linarith)
    have h3 := congrArg List.tail this
    rw [tab_tail] at h3
    unfold along at h3 ⊢
    rw [List.map_tail, h3]
    refine tab_congr fun i _ => Prod.ext ?_ rfl
    dsimp only
    push_cast
    ring
  rw [h2, half_bot _ _ _ (nStep T n) n (by linarith), tab_append n (n - 1) _ _ (fun i => (nXb T n i, -T.left)) ?_ ?_]
  · congr 1
    omega
  · exact fun _ _ => rfl
  · intro i hi
    refine Prod.ext ?_ rfl
    dsimp only
    unfold nXb
    push_cast
    linarith

theorem top_N {T : Sloped} (hT : Sym T) (hd : 0 < T.dx1) {n : ℕ} (hn : 2 ≤ n) :
    nTop T n (tab (2 * n - 1) fun i => (nXb T n i, -T.left)) = .ok (tab (2 * n + 1) fun i => (nXt T n i, roof T (nXt T n i))) := by
  obtain ⟨hp, e⟩ := nStep_facts hT hn
  unfold nTop
  dsimp only
  rw [if_neg hd.ne', tab_take _ _ _ (by omega), tab_drop]
  have := top_build hT (m := n) (by omega) (k := 2 * n - 1 - n) (X2 := T.xend) hT.xend (nXt T n) (if_pos rfl)
    (X := fun i => (nXb T n i, -T.left)) (Y := fun i => (nXb T n (n + i), -T.left)) ?_ ?_ ?_ ?_ ?_ ?_
  · rw [this, show n + (2 * n - 1 - n) + 2 = 2 * n + 1 by omega]
  · intro i hi
    dsimp only
    unfold nXb nXt
    rw [if_neg (by omega), if_pos (by omega)]
    push_cast
    ring
  · intro i hi
    have : (i : ℝ) + 1 ≤ n := by exact_mod_cast hi
    dsimp only
    unfold nXb
    nlinarith
  · dsimp only
    unfold nXb
    rw [Nat.cast_sub (by omega)]
    push_cast
    linarith
  · intro i hi
    dsimp only
    unfold nXb nXt
    rw [if_neg (by omega), if_pos (by omega)]
    push_cast
    ring
  · intro i hi
    dsimp only
    unfold nXb
    push_cast
    nlinarith [mul_nonneg (Nat.cast_nonneg (α := ℝ) i) hp.le]
  · unfold nXt
    rw [if_neg (by omega), if_neg (by omega)]

def nW (n : ℕ) : List (Ref × Ref) :=
  (tab (2 * n - 1) fun i => (.top (i + 1), .bot i)) ++ (tab n fun i => (.top i, .bot i)) ++ tab n fun i => (.top (n + 1 + i), .bot (n - 1 + i))

theorem gen_N {T : Sloped} (hT : Sym T) (hd : 0 < T.dx1) {n : ℕ} (hn : 2 ≤ n) (up edge : Bool) :
    T.generate .N n up edge = .ok (mk T (2 * n + 1) (2 * n - 1) (nXt T n) (nXb T n) (nW n)) := by
  unfold Sloped.generate
  dsimp only
  simp only [bind, Except.bind]
  rw [bot_N hT hd hn, top_N hT hd hn]
  dsimp only
  rw [mk_refs _ (2 * n + 1) _ (tab_length _ _), mk_refs _ (2 * n - 1) _ (tab_length _ _)]
  unfold nBraces
  rw [if_neg hd.ne', chord_tab, chord_tab, tab_tail, tab_dropLast, tab_zip, tab_take _ _ _ (by omega), tab_take _ _ _ (by omega), tab_zip, tab_drop, tab_drop, tab_zip]
  rw [Nat.min_self, show min (2 * n + 1 - 1 - 1) (2 * n - 1) = 2 * n - 1 by omega, show min (2 * n + 1 - (n + 1)) (2 * n - 1 - (n - 1)) = n by omega]
  rfl

/-! ### N trusses with vertical ends -/

theorem nums_N0 {T : Sloped} (hT : Sym T) (hd : T.dx1 = 0) {n : ℕ} (hn : 0 < n) : Nums T (2 * n + 1) (2 * n + 1) n (uX T n) (uX T n) :=
  ⟨by omega, by omega, uX_zero, uX_end hn, by rw [uX_zero, hd], fun i _ => uX_lt hT hn i, fun i _ => uX_lt hT hn i, fun i hi => uX_sym hn (by omega), fun i hi => uX_sym hn (by omega),
    by omega, uX_mid hn⟩

theorem bot_N0 {T : Sloped} (hT : Sym T) (hd : T.dx1 = 0) {n : ℕ} (hn : 0 < n) : nBot T n = tab (2 * n + 1) fun i => (uX T n i, -T.left) := by
  have h0 : (n : ℝ) ≠ 0 := by exact_mod_cast hn.ne'
  have he : T.L1 = T.L1 / n * n := by rw [div_mul_cancel₀ _ h0]
  unfold nBot
  simp only [hd, lt_irrefl, if_false, Sloped.ycoord, hT.span, hT.dx, sub_zero]
  have h2 : along (1 / 2 * (2 * T.L1), -T.left) (vec (1 / 2 * (2 * T.L1), -T.left) (2 * T.L1, -T.left)) (linspace (n + 1)).tail =
      tab n fun i : ℕ => (T.L1 + (i + 1) * (T.L1 / n), -T.left) := by
    have := half_bot (1 / 2 * (2 * T.L1)) (2 * T.L1) (-T.left) (T.L1 / n) (n + 1) (by push_cast; linarith)
    have h3 := congrArg List.tail this
    rw [tab_tail] at h3
    unfold along at h3 ⊢
    rw [List.map_tail, h3, Nat.add_sub_cancel]
    refine tab_congr fun i _ => Prod.ext ?_ rfl
    dsimp only
    push_cast
    ring
  rw [h2, half_bot _ _ _ (T.L1 / n) (n + 1) (by push_cast; linarith), tab_append (n + 1) n _ _ (fun i => (uX T n i, -T.left)) ?_ ?_]
  · congr 1
    omega
  · intro i hi
    rw [zero_add]
    rfl
  · intro i hi
    refine Prod.ext ?_ rfl
    dsimp only
    unfold uX
    push_cast
    linarith

def n0W (n : ℕ) (up edge : Bool) : List (Ref × Ref) :=
  (if edge then tab (2 * n + 1) fun i => (Ref.top i, Ref.bot i) else tab (2 * n - 1) fun i => (.top (i + 1), .bot (i + 1))) ++
  if up then (tab n fun i => (Ref.top (i + 1), Ref.bot i)) ++ tab n fun i => (Ref.top (n + i), Ref.bot (n + 1 + i))
  else (tab n fun i => (Ref.top i, Ref.bot (i + 1))) ++ tab n fun i => (Ref.top (n + 1 + i), Ref.bot (n + i))

theorem gen_N0 {T : Sloped} (hT : Sym T) (hd : T.dx1 = 0) {n : ℕ} (hn : 0 < n) (up edge : Bool) :
    T.generate .N n up edge = .ok (mk T (2 * n + 1) (2 * n + 1) (uX T n) (uX T n) (n0W n up edge)) := by
  unfold Sloped.generate
  dsimp only
  simp only [bind, Except.bind]
  rw [bot_N0 hT hd hn]
  unfold nTop
  dsimp only
  rw [if_pos hd, top_along hT hn hT.xend]
  dsimp only
  rw [mk_refs _ (2 * n + 1) _ (tab_length _ _), mk_refs _ (2 * n + 1) _ (tab_length _ _)]
  unfold nBraces
  rw [if_pos hd]
  simp only [chord_tab, tab_tail, tab_drop, tab_dropLast, tab_zip]
  rw [tab_take _ _ _ (by omega), tab_take _ _ _ (by omega), tab_take _ _ _ (by omega), tab_take _ _ _ (by omega)]
  simp only [tab_zip]
  rw [Nat.min_self, Nat.min_self, Nat.min_self, show min (2 * n + 1 - n - 1) (2 * n + 1 - (n + 1)) = n by omega, show min (2 * n + 1 - (n + 1)) (2 * n + 1 - n - 1) = n by omega,
    show 2 * n + 1 - 1 - 1 = 2 * n - 1 by omega]
  rfl

/-! ### KT trusses with a top chord that is longer than the bottom chord -/

def tXt (T : Sloped) (n : ℕ) (i : ℕ) : ℝ := if i = 0 then 0 else if i < 4 * n then T.dx1 + (i - 1) * (1 / 2 * kStep T n) else 2 * T.L1

theorem nums_T {T : Sloped} (hT : Sym T) (hd : 0 < T.dx1) {n : ℕ} (hn : 0 < n) : Nums T (4 * n + 1) (2 * n) (2 * n) (tXt T n) (kXb T n) := by
  have e := kStep_mul (T := T) hn
  have hp := kStep_pos hT hn
  have hK := nums_K hT hd hn
  have hL := hT.pos
  have hl : tXt T n (4 * n) = 2 * T.L1 := by
    unfold tXt
    rw [if_neg (by omega), if_neg (by omega)]
  refine ⟨by omega, hK.hb, if_pos rfl, hl, hK.b0, ?_, hK.bm, ?_, hK.bs, by omega, ?_⟩
  · intro i hi
    unfold tXt
    rcases Nat.eq_zero_or_pos i with rfl | h0
    · rw [if_pos rfl, if_neg (by omega), if_pos (by omega)]
      push_cast
      linarith
    · rcases Nat.lt_or_ge (i + 1) (4 * n) with h1 | h1
      · rw [if_neg (by omega), if_pos (by omega), if_neg (by omega), if_pos (by omega)]
        push_cast
        linarith
      · rw [if_neg (by omega), if_pos (by omega), if_neg (by omega), if_neg (by omega)]
        have : (i : ℝ) + 1 = 4 * n := by exact_mod_cast (by omega : i + 1 = 4 * n)
        have h2 : (i : ℝ) = 4 * n - 1 := by linarith
        rw [h2]
        nlinarith
  · intro i hi
    have hc : ((4 * n + 1 - 1 - i : ℕ) : ℝ) = 4 * n - i := by
      rw [show 4 * n + 1 - 1 - i = 4 * n - i by omega, Nat.cast_sub (by omega)]
      push_cast
      ring
    unfold tXt
    rcases Nat.eq_zero_or_pos i with rfl | h0
    · rw [if_neg (by omega), if_neg (by omega), if_pos rfl, sub_zero]
    · rcases Nat.lt_or_ge i (4 * n) with h1 | h1
      · rw [if_neg (by omega), if_pos (by omega), if_neg (by omega), if_pos (by omega), hc]
        linarith
      · rw [if_pos (by omega), if_neg (by omega), if_neg (by omega), sub_self]
  · unfold tXt
    rw [if_neg (by omega), if_pos (by omega)]
    push_cast
    linarith

/-- The loops that append points, one point more. -/
theorem topPoints_snoc (p v : Pt) (l : List Pt) (X : Pt) : topPoints p v (l ++ [X]) = (do
    let B ← topPoints p v l
    let Y ← topPoint p v X
    .ok (B ++ [Y])) := by
  induction l with
  | nil =>
    simp only [List.nil_append, topPoints, bind, Except.bind]
  | cons A l ih =>
    rw [List.cons_append, topPoints, ih, topPoints]
    simp only [bind, Except.bind]
    cases topPoint p v A with
    | error _ => rfl
    | ok a =>
      dsimp only
      cases topPoints p v l with
      | error _ => rfl
      | ok B =>
        dsimp only
        cases topPoint p v X <;> rfl

theorem top_T {T : Sloped} (hT : Sym T) (hd : 0 < T.dx1) {n : ℕ} (hn : 0 < n) (up : Bool) :
    ktTop T n up (kStep T n) (tab (2 * n) fun i => (kXb T n i, -T.left)) = .ok (tab (4 * n + 1) fun i => (tXt T n i, roof T (tXt T n i))) := by
  have e := kStep_mul (T := T) hn
  have hp := kStep_pos hT hn
  have h1 : pairs (kStep T n) ((tab (2 * n) fun i => (kXb T n i, -T.left)).take n) = tab (2 * n) fun i => (tXt T n (i + 1), -T.left) := by
    rw [tab_take _ _ _ (by omega)]
    refine pairs_tab _ _ _ _ ?_ ?_
    · intro i hi
      unfold kXb tXt
      rw [if_neg (by omega), if_pos (by omega)]
      refine Prod.ext ?_ rfl
      push_cast
      ring
    · intro i hi
      unfold kXb tXt
      rw [if_neg (by omega), if_pos (by omega)]
      refine Prod.ext ?_ rfl
      push_cast
      ring
  have h2 : pairs (kStep T n) ((tab (2 * n) fun i => (kXb T n i, -T.left)).drop n).dropLast ++ [(kXb T n (2 * n - 1), -T.left)] = tab (2 * n - 1) fun i => (tXt T n (2 * n + 1 + i), -T.left) := by
    rw [tab_drop, tab_dropLast, pairs_tab (h := fun i => (tXt T n (2 * n + 1 + i), -T.left)), tab_snoc _ _ _ (fun i => (tXt T n (2 * n + 1 + i), -T.left))]
    · congr 1
      omega
    · exact fun _ _ => rfl
    · unfold kXb tXt
      rw [if_neg (by omega), if_pos (by omega)]
      refine Prod.ext ?_ rfl
      dsimp only
      rw [show 2 * n + 1 + 2 * (2 * n - n - 1) = 4 * n - 1 by omega, Nat.cast_sub (by omega), Nat.cast_sub (by omega)]
      push_cast
      ring
    · intro i hi
      unfold kXb tXt
      rw [if_neg (by omega), if_pos (by omega)]
      refine Prod.ext ?_ rfl
      push_cast
      ring
    · intro i hi
      unfold kXb tXt
      rw [if_neg (by omega), if_pos (by omega)]
      refine Prod.ext ?_ rfl
      push_cast
      ring
  have hb := top_build hT (m := 2 * n) (by omega) (k := 2 * n - 1) (X2 := T.xend) hT.xend (tXt T n) (if_pos rfl)
    (X := fun i => (tXt T n (i + 1), -T.left)) (Y := fun i => (tXt T n (2 * n + 1 + i), -T.left)) (fun _ _ => rfl) ?_ ?_ (fun _ _ => rfl) ?_ ?_
  · unfold ktTop
    dsimp only
    rw [if_neg hd.ne', h1, tab_getLast? _ _ (by omega)]
    rw [← h2] at hb
    simp only [bind, Except.bind, topPoints_snoc] at hb ⊢
    rw [show 2 * n + (2 * n - 1) + 2 = 4 * n + 1 by omega] at hb
    rw [← hb]
    clear hb
    cases topPoints (0, 0) (vec (0, 0) T.xmid) (tab (2 * n) fun i => (tXt T n (i + 1), -T.left)) with
    | error _ => rfl
    | ok A =>
      dsimp only
      cases topPoints (lastOf (0, 0) A) (vec T.xmid T.xend) (pairs (kStep T n) ((tab (2 * n) fun i => (kXb T n i, -T.left)).drop n).dropLast) with
      | error _ => rfl
      | ok B =>
        dsimp only
        cases topPoint (lastOf (0, 0) A) (vec T.xmid T.xend) (kXb T n (2 * n - 1), -T.left) with
        | error _ => rfl
        | ok Y => simp
  · intro i hi
    have : (i : ℝ) + 1 ≤ 2 * n := by exact_mod_cast hi
    dsimp only
    unfold tXt
    rw [if_neg (by omega), if_pos (by omega)]
    push_cast
    nlinarith
  · dsimp only
    rw [Nat.sub_add_cancel (by omega)]
    exact (nums_T hT hd hn).tr
  · intro i hi
    dsimp only
    unfold tXt
    rw [if_neg (by omega), if_pos (by omega)]
    push_cast
    nlinarith [mul_nonneg (Nat.cast_nonneg (α := ℝ) i) hp.le]
  · unfold tXt
    rw [if_neg (by omega), if_neg (by omega)]

def tW (n : ℕ) : List (Ref × Ref) := (List.range (2 * n)).flatMap fun i => [(.top (2 * i), .bot i), (.top (2 * i + 1), .bot i), (.top (2 * i + 2), .bot i)]

theorem gen_T {T : Sloped} (hT : Sym T) (hd : 0 < T.dx1) {n : ℕ} (hn : 0 < n) (up edge : Bool) :
    T.generate .KT n up edge = .ok (mk T (4 * n + 1) (2 * n) (tXt T n) (kXb T n) (tW n)) := by
  unfold Sloped.generate
  simp only [ktDx, if_pos hd, bind, Except.bind]
  have h1 := bot_K hT hd hn up
  have h2 := top_T hT hd hn up
  unfold kStep at h1 h2
  rw [h1, h2]
  dsimp only
  rw [mk_refs _ (4 * n + 1) _ (tab_length _ _), mk_refs _ (2 * n) _ (tab_length _ _)]
  unfold ktBraces
  rw [if_neg hd.ne', tab_length, loop_ok (g := fun i => [(.top (2 * i), .bot i), (.top (2 * i + 1), .bot i), (.top (2 * i + 2), .bot i)])]
  · dsimp only
    rw [chord_tab, chord_tab]
    rfl
  · intro i hi
    have := List.mem_range.1 hi
    simp only [idx_tab this, idx_tab (show 2 * i < 4 * n + 1 by omega), idx_tab (show 2 * i + 1 < 4 * n + 1 by omega), idx_tab (show 2 * i + 2 < 4 * n + 1 by omega), bind, Except.bind]

/-! ### KT trusses with vertical ends, first diagonal up -/

def tuXb (T : Sloped) (n : ℕ) (i : ℕ) : ℝ := i * (2 * T.L1 / (2 * n + 1))

theorem nums_Tu {T : Sloped} (hT : Sym T) (hd : T.dx1 = 0) (n : ℕ) : Nums T (4 * n + 3) (2 * n + 2) (2 * n + 1) (uX T (2 * n + 1)) (tuXb T n) := by
  have hp : 0 < 2 * T.L1 / (2 * n + 1 : ℝ) := div_pos (by have := hT.pos; linarith) (by positivity)
  have e : 2 * T.L1 / (2 * n + 1 : ℝ) * (2 * n + 1) = 2 * T.L1 := by rw [div_mul_cancel₀]; positivity
  refine ⟨by omega, by omega, uX_zero, ?_, by simp [tuXb, hd], fun i _ => uX_lt hT (by omega) i, ?_, ?_, ?_, by omega, uX_mid (by omega)⟩
  · rw [show 4 * n + 3 - 1 = 2 * (2 * n + 1) by omega, uX_end (by omega)]
  · intro i hi
    unfold tuXb
    push_cast
    linarith
  · intro i hi
    rw [show 4 * n + 3 - 1 = 2 * (2 * n + 1) by omega, uX_sym (by omega) (by omega)]
  · intro i hi
    unfold tuXb
    rw [show 2 * n + 2 - 1 - i = 2 * n + 1 - i by omega, Nat.cast_sub (by omega)]
    push_cast
    linarith

theorem bot_Tu {T : Sloped} (hT : Sym T) (hd : T.dx1 = 0) (n : ℕ) : kBot T n true (2 * T.L1 / (2 * n + 1)) = tab (2 * n + 2) fun i => (tuXb T n i, -T.left) := by
  have e : 2 * T.L1 / (2 * n + 1 : ℝ) * (2 * n + 1) = 2 * T.L1 := by rw [div_mul_cancel₀]; positivity
  unfold kBot kS
  simp only [hd, true_and, Bool.true_eq_false, if_false, if_true, lt_irrefl, Sloped.ycoord, hT.span, hT.dx, sub_zero]
  rw [half_bot _ _ _ (2 * T.L1 / (2 * n + 1)) (n + 1) (by push_cast; linarith), half_bot _ _ _ (2 * T.L1 / (2 * n + 1)) (n + 1) (by push_cast; linarith),
    tab_append (n + 1) (n + 1) _ _ (fun i => (tuXb T n i, -T.left)) ?_ ?_]
  · congr 1
    omega
  · intro i hi
    unfold tuXb
    rw [zero_add]
  · intro i hi
    unfold tuXb
    refine Prod.ext ?_ rfl
    dsimp only
    push_cast
    linarith

def tuW (n : ℕ) (edge : Bool) : List (Ref × Ref) :=
  (if edge then tab (2 * n + 2) fun i => (Ref.top (2 * i), Ref.bot i) else tab (2 * n) fun i => (.top (2 * i + 2), .bot (i + 1))) ++ [(.bot 0, .top 1)] ++
  ((List.range' 1 (2 * n)).flatMap fun i => [(.top (2 * i - 1), .bot i), (.top (2 * i + 1), .bot i)]) ++ [(.bot (2 * n + 1), .top (4 * n + 1))]

theorem gen_Tu {T : Sloped} (hT : Sym T) (hd : T.dx1 = 0) (n : ℕ) (edge : Bool) :
    T.generate .KT n true edge = .ok (mk T (4 * n + 3) (2 * n + 2) (uX T (2 * n + 1)) (tuXb T n) (tuW n edge)) := by
  unfold Sloped.generate
  simp only [ktDx, hd, lt_irrefl, if_false, if_true, bind, Except.bind]
  rw [bot_Tu hT hd n]
  unfold ktTop
  dsimp only
  rw [if_pos hd, if_pos rfl, show 2 * n + 2 = 2 * n + 1 + 1 by omega, top_along hT (N := 2 * n + 1) (by omega) hT.xend]
  dsimp only
  rw [mk_refs _ (4 * n + 3) _ (by rw [tab_length]; omega), mk_refs _ (2 * n + 2) _ (tab_length _ _)]
  unfold ktBraces
  rw [if_pos hd, if_pos rfl, tab_length]
  simp only [idx_tab (show 0 < 2 * n + 2 by omega), idx_tab (show 1 < 4 * n + 3 by omega), bind, Except.bind]
  rw [loop_ok (g := fun i => [(.top (2 * i - 1), .bot i), (.top (2 * i + 1), .bot i)])]
  · dsimp only
    rw [tab_dropLast, lastIdx_tab (by omega), lastIdx_tab (by omega)]
    dsimp only
    rw [chord_tab, chord_tab, everySecond_tab, tab_drop, everySecond_tab, tab_zip, tab_tail, tab_dropLast, tab_zip]
    rw [show (4 * n + 3 + 1) / 2 = 2 * n + 2 by omega, Nat.min_self, show min ((4 * n + 3 - 2 + 1) / 2) (2 * n + 2 - 1 - 1) = 2 * n by omega, show 2 * n + 2 - 2 = 2 * n by omega]
    simp only [show ∀ i, 2 + 2 * i = 2 * i + 2 from fun i => by omega]
    rw [show 2 * (2 * n + 1) + 1 = 4 * n + 3 by omega]
    rfl
  · intro i hi
    have := List.mem_range'_1.1 hi
    simp only [idx_tab (show 2 * i - 1 < 4 * n + 3 by omega), idx_tab (show 2 * i + 1 < 4 * n + 3 by omega), idx_tab (show i < 2 * n + 2 by omega)]

/-! ### KT trusses with vertical ends, first diagonal down -/

def tdXb (T : Sloped) (n : ℕ) (i : ℕ) : ℝ := if i = 0 then 0 else if i ≤ 2 * n then (i - 1 / 2) * (T.L1 / n) else 2 * T.L1

theorem nums_Td {T : Sloped} (hT : Sym T) (hd : T.dx1 = 0) {n : ℕ} (hn : 0 < n) : Nums T (4 * n + 1) (2 * n + 2) (2 * n) (uX T (2 * n)) (tdXb T n) := by
  have h0 : (n : ℝ) ≠ 0 := by exact_mod_cast hn.ne'
  have hp : 0 < T.L1 / (n : ℝ) := div_pos hT.pos (by positivity)
  have e : T.L1 / (n : ℝ) * n = T.L1 := by rw [div_mul_cancel₀ _ h0]
  refine ⟨by omega, by omega, uX_zero, ?_, by simp [tdXb, hd], fun i _ => uX_lt hT (by omega) i, ?_, ?_, ?_, by omega, uX_mid (by omega)⟩
  · rw [show 4 * n + 1 - 1 = 2 * (2 * n) by omega, uX_end (by omega)]
  · intro i hi
    unfold tdXb
    rcases Nat.eq_zero_or_pos i with rfl | h0
    · rw [if_pos rfl, if_neg (by omega), if_pos (by omega)]
      push_cast
      linarith
    · rcases Nat.lt_or_ge i (2 * n) with h1 | h1
      · rw [if_neg (by omega), if_pos (by omega), if_neg (by omega), if_pos (by omega)]
        push_cast
        linarith
      · obtain rfl : i = 2 * n := by omega
        rw [if_neg (by omega), if_pos (by omega), if_neg (by omega), if_neg (by omega)]
        push_cast
        linarith
  · intro i hi
    rw [show 4 * n + 1 - 1 = 2 * (2 * n) by omega, uX_sym (by omega) (by omega)]
  · intro i hi
    have hc : ((2 * n + 2 - 1 - i : ℕ) : ℝ) = 2 * n + 1 - i := by
      rw [show 2 * n + 2 - 1 - i = 2 * n + 1 - i by omega, Nat.cast_sub (by omega)]
      push_cast
      ring
    unfold tdXb
    rcases Nat.eq_zero_or_pos i with rfl | h0
    · rw [if_neg (by omega), if_neg (by omega), if_pos rfl, sub_zero]
    · rcases Nat.lt_or_ge (2 * n) i with h1 | h1
      · rw [if_pos (by omega), if_neg (by omega), if_neg (by omega), sub_self]
      · rw [if_neg (by omega), if_pos (by omega), if_neg (by omega), if_pos (by omega), hc]
        linarith

theorem bot_Td {T : Sloped} (hT : Sym T) (hd : T.dx1 = 0) {n : ℕ} (hn : 0 < n) : kBot T n false (T.L1 / n) = tab (2 * n + 2) fun i => (tdXb T n i, -T.left) := by
  have h0 : (n : ℝ) ≠ 0 := by exact_mod_cast hn.ne'
  have e : T.L1 / (n : ℝ) * n = T.L1 := by rw [div_mul_cancel₀ _ h0]
  refine bot_between hT hd (D := T.L1 / n) (e := T.L1 / n) (by linarith) _ (if_pos rfl) ?_ ?_ ?_
  · intro i hi
    unfold tdXb
    rw [if_neg (by omega), if_pos (by omega)]
    push_cast
    ring
  · intro i hi
    unfold tdXb
    rw [if_neg (by omega), if_pos (by omega)]
    push_cast
    linarith
  · unfold tdXb
    rw [if_neg (by omega), if_neg (by omega)]

def tdW (n : ℕ) (edge : Bool) : List (Ref × Ref) :=
  ends (4 * n + 1) (2 * n + 2) edge ++ (List.range' 1 (2 * n)).flatMap fun i => [(.top (2 * i - 2), .bot i), (.top (2 * i - 1), .bot i), (.top (2 * i), .bot i)]

theorem gen_Td {T : Sloped} (hT : Sym T) (hd : T.dx1 = 0) {n : ℕ} (hn : 0 < n) (edge : Bool) :
    T.generate .KT n false edge = .ok (mk T (4 * n + 1) (2 * n + 2) (uX T (2 * n)) (tdXb T n) (tdW n edge)) := by
  have h0 : (n : ℝ) ≠ 0 := by exact_mod_cast hn.ne'
  unfold Sloped.generate
  simp only [ktDx, hd, lt_irrefl, if_false, Bool.false_eq_true, pyDiv, if_neg h0, bind, Except.bind]
  rw [bot_Td hT hd hn]
  unfold ktTop
  dsimp only
  rw [if_pos hd, if_neg (by simp), top_along hT (N := 2 * n) (by omega) hT.xend]
  dsimp only
  rw [mk_refs _ (4 * n + 1) _ (by rw [tab_length]; omega), mk_refs _ (2 * n + 2) _ (tab_length _ _)]
  unfold ktBraces
  rw [if_pos hd, if_neg (by simp), tab_length]
  simp only [edges_tab (Nt := 4 * n + 1) (Nb := 2 * n + 2) (by omega) (by omega) edge, bind, Except.bind]
  rw [loop_ok (g := fun i => [(.top (2 * i - 2), .bot i), (.top (2 * i - 1), .bot i), (.top (2 * i), .bot i)])]
  · dsimp only
    rw [chord_tab, chord_tab, show 2 * (2 * n) + 1 = 4 * n + 1 by omega]
    rfl
  · intro i hi
    have := List.mem_range'_1.1 hi
    simp only [idx_tab (show 2 * i - 2 < 4 * n + 1 by omega), idx_tab (show 2 * i - 1 < 4 * n + 1 by omega), idx_tab (show 2 * i < 4 * n + 1 by omega), idx_tab (show i < 2 * n + 2 by omega)]

end

end Metku.Truss
