import Verif.Props.PlaneTrussGen2

/-! The braces of symmetric roof trusses: which nodes they join, and how the truss grows from its first two nodes. -/

namespace Metku.Truss

open Metku.Steel Metku.Rhs

noncomputable section

/-- A member joins the two nodes. -/
def Linked (W : List (Ref × Ref)) (a b : Ref) : Prop := (a, b) ∈ W ∨ (b, a) ∈ W

theorem linked_append {V W : List (Ref × Ref)} {a b : Ref} : Linked (V ++ W) a b ↔ Linked V a b ∨ Linked W a b := by
  unfold Linked
  rw [List.mem_append, List.mem_append]
  tauto

theorem linked_tab {n : ℕ} {f g : ℕ → ℕ} {i j : ℕ} : Linked (tab n fun k => (Ref.top (f k), Ref.bot (g k))) (.top i) (.bot j) ↔ ∃ k < n, f k = i ∧ g k = j := by
  unfold Linked
  simp [mem_tab]

theorem linked_ends {Nt Nb : ℕ} {edge : Bool} {i j : ℕ} : Linked (ends Nt Nb edge) (.top i) (.bot j) ↔ edge = true ∧ (i = 0 ∧ j = 0 ∨ i = Nt - 1 ∧ j = Nb - 1) := by
  unfold Linked ends
  cases edge
  · simp
  · simp
    tauto

theorem linked_K {n i j : ℕ} : Linked (kW n) (.top i) (.bot j) ↔ j < 2 * n ∧ (i = j ∨ i = j + 1) := by
  unfold Linked kW
  simp only [List.mem_flatMap, List.mem_range, List.mem_cons, List.not_mem_nil, or_false, Prod.mk.injEq, Ref.top.injEq, Ref.bot.injEq, reduceCtorEq, and_false, exists_false, or_self, false_or]
  constructor
  · rintro ⟨k, hk, h⟩
    omega
  · rintro ⟨h1, h2⟩
    exact ⟨j, h1, by omega⟩

theorem linked_Ku {n i j : ℕ} {edge : Bool} : Linked (kuW n edge) (.top i) (.bot j) ↔ (1 ≤ i ∧ i ≤ 2 * n + 1 ∧ (j + 1 = i ∨ j = i)) ∨ edge = true ∧ (i = 0 ∧ j = 0 ∨ i = 2 * n + 2 ∧ j = 2 * n + 1) := by
  unfold kuW
  rw [linked_append, linked_ends]
  refine or_congr ?_ Iff.rfl
  unfold Linked
  simp only [List.mem_flatMap, List.mem_range'_1, List.mem_cons, List.not_mem_nil, or_false, Prod.mk.injEq, Ref.top.injEq, Ref.bot.injEq, reduceCtorEq, and_false, exists_false, or_self]
  constructor
  · rintro ⟨k, hk, h⟩
    omega
  · rintro ⟨h1, h2⟩
    exact ⟨i, by omega, by omega⟩

theorem linked_Kd {n i j : ℕ} {edge : Bool} : Linked (kdW n edge) (.top i) (.bot j) ↔ (1 ≤ j ∧ j ≤ 2 * n ∧ (i + 1 = j ∨ i = j)) ∨ edge = true ∧ (i = 0 ∧ j = 0 ∨ i = 2 * n ∧ j = 2 * n + 1) := by
  unfold kdW
  rw [linked_append, linked_ends]
  refine or_congr ?_ Iff.rfl
  unfold Linked
  simp only [List.mem_flatMap, List.mem_range'_1, List.mem_cons, List.not_mem_nil, or_false, Prod.mk.injEq, Ref.top.injEq, Ref.bot.injEq, reduceCtorEq, and_false, exists_false, or_self, false_or]
  constructor
  · rintro ⟨k, hk, h⟩
    omega
  · rintro ⟨h1, h2⟩
    exact ⟨j, by omega, by omega⟩

theorem linked_N {n i j : ℕ} (hn : 2 ≤ n) : Linked (nW n) (.top i) (.bot j) ↔ (j < 2 * n - 1 ∧ i = j + 1) ∨ (i < n ∧ j = i) ∨ (n + 1 ≤ i ∧ i ≤ 2 * n ∧ j + 2 = i) := by
  unfold nW
  rw [linked_append, linked_append, linked_tab (f := fun k => k + 1) (g := fun k => k), linked_tab (f := fun k => k) (g := fun k => k),
    linked_tab (f := fun k => n + 1 + k) (g := fun k => n - 1 + k), or_assoc]
  refine or_congr ?_ (or_congr ?_ ?_)
  · constructor
    · rintro ⟨k, hk, h⟩
      omega
    · rintro ⟨h1, h2⟩
      exact ⟨j, by omega, by omega⟩
  · constructor
    · rintro ⟨k, hk, h⟩
      omega
    · rintro ⟨h1, h2⟩
      exact ⟨j, by omega, by omega⟩
  · constructor
    · rintro ⟨k, hk, h⟩
      omega
    · rintro ⟨h1, h2⟩
      exact ⟨i - (n + 1), by omega, by omega⟩

theorem linked_N0 {n i j : ℕ} {up edge : Bool} (hn : 0 < n) : Linked (n0W n up edge) (.top i) (.bot j) ↔
    (i = j ∧ (1 ≤ i ∧ i ≤ 2 * n - 1 ∨ edge = true ∧ i ≤ 2 * n)) ∨ (up = true ∧ (i = j + 1 ∧ j < n ∨ j = i + 1 ∧ n ≤ i ∧ i < 2 * n)) ∨ (up = false ∧ (j = i + 1 ∧ i < n ∨ i = j + 1 ∧ n ≤ j ∧ j < 2 * n)) := by
  unfold n0W
  rw [linked_append]
  refine or_congr ?_ ?_
  · cases edge
    · rw [if_neg (by simp), linked_tab (f := fun k => k + 1) (g := fun k => k + 1)]
      constructor
      · rintro ⟨k, hk, h⟩
        exact ⟨by omega, .inl (by omega)⟩
      · rintro ⟨h1, h2 | ⟨h2, -⟩⟩
        · exact ⟨i - 1, by omega, by omega⟩
        · cases h2
    · rw [if_pos rfl, linked_tab (f := fun k => k) (g := fun k => k)]
      constructor
      · rintro ⟨k, hk, h⟩
        exact ⟨by omega, .inr ⟨rfl, by omega⟩⟩
      · rintro ⟨h1, h2 | ⟨-, h2⟩⟩
        · exact ⟨i, by omega, by omega⟩
        · exact ⟨i, by omega, by omega⟩
  · cases up
    · rw [if_neg (by simp), linked_append, linked_tab (f := fun k => k) (g := fun k => k + 1), linked_tab (f := fun k => n + 1 + k) (g := fun k => n + k)]
      simp only [Bool.false_eq_true, false_and, true_and, false_or]
      refine or_congr ⟨?_, ?_⟩ ⟨?_, ?_⟩
      · rintro ⟨k, hk, h⟩
        omega
      · rintro ⟨h1, h2⟩
        exact ⟨i, by omega, by omega⟩
      · rintro ⟨k, hk, h⟩
        omega
      · rintro ⟨h1, h2⟩
        exact ⟨j - n, by omega, by omega⟩
    · rw [if_pos rfl, linked_append, linked_tab (f := fun k => k + 1) (g := fun k => k), linked_tab (f := fun k => n + k) (g := fun k => n + 1 + k)]
      simp only [Bool.true_eq_false, false_and, true_and, or_false]
      refine or_congr ⟨?_, ?_⟩ ⟨?_, ?_⟩
      · rintro ⟨k, hk, h⟩
        omega
      · rintro ⟨h1, h2⟩
        exact ⟨j, by omega, by omega⟩
      · rintro ⟨k, hk, h⟩
        omega
      · rintro ⟨h1, h2⟩
        exact ⟨i - n, by omega, by omega⟩

theorem linked_T {n i j : ℕ} : Linked (tW n) (.top i) (.bot j) ↔ j < 2 * n ∧ 2 * j ≤ i ∧ i ≤ 2 * j + 2 := by
  unfold Linked tW
  simp only [List.mem_flatMap, List.mem_range, List.mem_cons, List.not_mem_nil, or_false, Prod.mk.injEq, Ref.top.injEq, Ref.bot.injEq, reduceCtorEq, and_false, exists_false, or_self]
  constructor
  · rintro ⟨k, hk, h⟩
    omega
  · rintro ⟨h1, h2⟩
    exact ⟨j, h1, by omega⟩

theorem linked_Tu {n i j : ℕ} {edge : Bool} : Linked (tuW n edge) (.top i) (.bot j) ↔
    (i = 2 * j ∧ (1 ≤ j ∧ j ≤ 2 * n ∨ edge = true ∧ j ≤ 2 * n + 1)) ∨ (j ≤ 2 * n ∧ i = 2 * j + 1) ∨ (1 ≤ j ∧ j ≤ 2 * n + 1 ∧ i + 1 = 2 * j) := by
  unfold tuW
  rw [linked_append, linked_append, linked_append]
  have h1 : Linked (if edge = true then tab (2 * n + 2) fun i => (Ref.top (2 * i), Ref.bot i) else tab (2 * n) fun i => (.top (2 * i + 2), .bot (i + 1))) (.top i) (.bot j) ↔
      i = 2 * j ∧ (1 ≤ j ∧ j ≤ 2 * n ∨ edge = true ∧ j ≤ 2 * n + 1) := by
    cases edge
    · rw [if_neg (by simp), linked_tab (f := fun k => 2 * k + 2) (g := fun k => k + 1)]
      constructor
      · rintro ⟨k, hk, h⟩
        exact ⟨by omega, .inl (by omega)⟩
      · rintro ⟨h1, h2 | ⟨h2, -⟩⟩
        · exact ⟨j - 1, by omega, by omega⟩
        · cases h2
    · rw [if_pos rfl, linked_tab (f := fun k => 2 * k) (g := fun k => k)]
      constructor
      · rintro ⟨k, hk, h⟩
        exact ⟨by omega, .inr ⟨rfl, by omega⟩⟩
      · rintro ⟨h1, h2 | ⟨-, h2⟩⟩
        · exact ⟨j, by omega, by omega⟩
        · exact ⟨j, by omega, by omega⟩
  rw [h1, or_assoc, or_assoc]
  refine or_congr Iff.rfl ?_
  unfold Linked
  simp only [List.mem_flatMap, List.mem_range'_1, List.mem_cons, List.not_mem_nil, or_false, Prod.mk.injEq, Ref.top.injEq, Ref.bot.injEq, reduceCtorEq, and_false, exists_false, or_self, false_or]
  constructor
  · rintro (h | ⟨k, hk, h⟩ | h)
    · omega
    · omega
    · omega
  · intro h
    by_cases h0 : j = 0
    · exact .inl (by omega)
    · by_cases hl : j = 2 * n + 1
      · exact .inr (.inr (by omega))
      · exact .inr (.inl ⟨j, by omega, by omega⟩)

theorem linked_Td {n i j : ℕ} {edge : Bool} : Linked (tdW n edge) (.top i) (.bot j) ↔ (1 ≤ j ∧ j ≤ 2 * n ∧ 2 * j ≤ i + 2 ∧ i ≤ 2 * j) ∨ edge = true ∧ (i = 0 ∧ j = 0 ∨ i = 4 * n ∧ j = 2 * n + 1) := by
  unfold tdW
  rw [linked_append, linked_ends, or_comm]
  refine or_congr ?_ Iff.rfl
  unfold Linked
  simp only [List.mem_flatMap, List.mem_range'_1, List.mem_cons, List.not_mem_nil, or_false, Prod.mk.injEq, Ref.top.injEq, Ref.bot.injEq, reduceCtorEq, and_false, exists_false, or_self]
  constructor
  · rintro ⟨k, hk, h⟩
    omega
  · rintro ⟨h1, h2⟩
    exact ⟨j, by omega, by omega⟩

/-- What the braces between `Nt` top nodes and `Nb` bottom nodes satisfy. -/
structure Web (Nt Nb : ℕ) (closed : Bool) (W : List (Ref × Ref)) : Prop where
  inside : ∀ m ∈ W, ∃ i < Nt, ∃ j < Nb, m = (.top i, .bot j) ∨ m = (.bot j, .top i)
  noDup : W.Pairwise fun a b => a ≠ b ∧ a ≠ b.swap
  planar : ∀ i j k l, Linked W (.top i) (.bot j) → Linked W (.top k) (.bot l) → i < k → j ≤ l
  count : W.length + 3 = Nt + Nb + if closed then 2 else 0
  start : closed = true → Linked W (.top 0) (.bot 0)
  opened : closed = false → ¬ Linked W (.top 0) (.bot 0)
  grow : closed = true → ∀ z : Ref → Prop, z (.top 0) → z (.bot 0) →
    (∀ i j, i + 1 < Nt → j < Nb → z (.top i) → z (.bot j) → Linked W (.top (i + 1)) (.bot j) → z (.top (i + 1))) →
    (∀ i j, i < Nt → j + 1 < Nb → z (.top i) → z (.bot j) → Linked W (.top i) (.bot (j + 1)) → z (.bot (j + 1))) →
    (∀ i < Nt, z (.top i)) ∧ ∀ j < Nb, z (.bot j)

theorem ends_inside {Nt Nb : ℕ} (ht : 0 < Nt) (hb : 0 < Nb) {edge : Bool} {m : Ref × Ref} (h : m ∈ ends Nt Nb edge) : ∃ i < Nt, ∃ j < Nb, m = (.top i, .bot j) ∨ m = (.bot j, .top i) := by
  unfold ends at h
  cases edge
  · simp at h
  · simp only [if_true, List.mem_cons, List.not_mem_nil, or_false] at h
    rcases h with rfl | rfl
    · exact ⟨0, ht, 0, hb, .inr rfl⟩
    · exact ⟨Nt - 1, by omega, Nb - 1, by omega, .inr rfl⟩

theorem web_K (n : ℕ) (hn : 0 < n) : Web (2 * n + 1) (2 * n) true (kW n) := by
  refine ⟨?_, ?_, ?_, ?_, ?_, ?_, ?_⟩
  · intro m hm
    unfold kW at hm
    simp only [List.mem_flatMap, List.mem_range, List.mem_cons, List.not_mem_nil, or_false] at hm
    obtain ⟨k, hk, rfl | rfl⟩ := hm
    · exact ⟨k, by omega, k, hk, .inr rfl⟩
    · exact ⟨k + 1, by omega, k, hk, .inr rfl⟩
  · unfold kW
    rw [List.pairwise_flatMap]
    refine ⟨fun i _ => by simp, ?_⟩
    refine List.Pairwise.imp (R := (· < ·)) ?_ List.pairwise_lt_range
    intro a b hab
    simp
    omega
  · intro i j k l h1 h2 hlt
    rw [linked_K] at h1 h2
    omega
  · unfold kW
    simp
    omega
  · intro _
    rw [linked_K]
    omega
  · intro h
    cases h
  · intro _ z h0 h1 hS hB
    have key : ∀ i, i < 2 * n → z (.top i) ∧ z (.bot i) := by
      intro i
      induction i with
      | zero => exact fun _ => ⟨h0, h1⟩
      | succ i ih =>
        intro hi
        obtain ⟨a, b⟩ := ih (by omega)
        have c := hS i i (by omega) (by omega) a b (linked_K.2 (by omega))
        exact ⟨c, hB (i + 1) i (by omega) hi c b (linked_K.2 (by omega))⟩
    refine ⟨fun i hi => ?_, fun j hj => (key j hj).2⟩
    rcases Nat.lt_or_ge i (2 * n) with h | h
    · exact (key i h).1
    · obtain ⟨a, b⟩ := key (2 * n - 1) (by omega)
      have := hS (2 * n - 1) (2 * n - 1) (by omega) (by omega) a b (linked_K.2 (by omega))
      rwa [show 2 * n - 1 + 1 = i by omega] at this

/-- Members between top and bottom nodes. -/
def Across (Nt Nb : ℕ) (W : List (Ref × Ref)) : Prop := ∀ m ∈ W, ∃ i < Nt, ∃ j < Nb, m = (.top i, .bot j) ∨ m = (.bot j, .top i)

theorem across_append {Nt Nb : ℕ} {V W : List (Ref × Ref)} (hV : Across Nt Nb V) (hW : Across Nt Nb W) : Across Nt Nb (V ++ W) := by
  intro m hm
  rcases List.mem_append.1 hm with h | h
  · exact hV m h
  · exact hW m h

theorem across_tab {Nt Nb n : ℕ} {f g : ℕ → ℕ} (hf : ∀ k < n, f k < Nt) (hg : ∀ k < n, g k < Nb) : Across Nt Nb (tab n fun k => (Ref.top (f k), Ref.bot (g k))) := by
  intro m hm
  obtain ⟨k, hk, rfl⟩ := mem_tab.1 hm
  exact ⟨f k, hf k hk, g k, hg k hk, .inl rfl⟩

theorem pairwise_append' {Nt Nb : ℕ} {V W : List (Ref × Ref)} (ha : Across Nt Nb V) (hV : V.Pairwise fun a b => a ≠ b ∧ a ≠ b.swap) (hW : W.Pairwise fun a b => a ≠ b ∧ a ≠ b.swap)
    (h : ∀ i j, Linked V (.top i) (.bot j) → ¬ Linked W (.top i) (.bot j)) : (V ++ W).Pairwise fun a b => a ≠ b ∧ a ≠ b.swap := by
  rw [List.pairwise_append]
  refine ⟨hV, hW, ?_⟩
  intro a ha' b hb
  obtain ⟨i, -, j, -, rfl | rfl⟩ := ha a ha'
  · refine ⟨?_, ?_⟩
    · rintro rfl
      exact h i j (.inl ha') (.inl hb)
    · intro e
      have : b = (.bot j, .top i) := by rw [← Prod.swap_swap b, ← e]; rfl
      exact h i j (.inl ha') (.inr (this ▸ hb))
  · refine ⟨?_, ?_⟩
    · rintro rfl
      exact h i j (.inr ha') (.inr hb)
    · intro e
      have : b = (.top i, .bot j) := by rw [← Prod.swap_swap b, ← e]; rfl
      exact h i j (.inr ha') (.inl (this ▸ hb))

theorem pairwise_tab {n : ℕ} {f g : ℕ → ℕ} (hg : ∀ a b, a < b → g a ≠ g b) : (tab n fun k => (Ref.top (f k), Ref.bot (g k))).Pairwise fun a b => a ≠ b ∧ a ≠ b.swap := by
  unfold tab
  rw [List.pairwise_map]
  refine List.Pairwise.imp (R := (· < ·)) ?_ List.pairwise_lt_range
  intro a b hab
  have := hg a b hab
  simp [this]

theorem pairwise_ends {Nt Nb : ℕ} (ht : 2 ≤ Nt) {edge : Bool} : (ends Nt Nb edge).Pairwise fun a b => a ≠ b ∧ a ≠ b.swap := by
  unfold ends
  cases edge
  · simp
  · simp
    omega

theorem length_ends {Nt Nb : ℕ} {edge : Bool} : (ends Nt Nb edge).length = if edge then 2 else 0 := by
  unfold ends
  cases edge <;> simp

theorem length_flatMap_range' {α : Type} (s n c : ℕ) (f : ℕ → List α) (h : ∀ i, (f i).length = c) : ((List.range' s n).flatMap f).length = n * c := by
  rw [List.length_flatMap, List.map_congr_left (g := fun _ => c) (fun i _ => h i)]
  simp

theorem web_Ku (n : ℕ) (edge : Bool) : Web (2 * n + 3) (2 * n + 2) edge (kuW n edge) := by
  have hin : Across (2 * n + 3) (2 * n + 2) ((List.range' 1 (2 * n + 1)).flatMap fun i => [(.top i, .bot (i - 1)), (.top i, .bot i)]) := by
    intro m hm
    simp only [List.mem_flatMap, List.mem_range'_1, List.mem_cons, List.not_mem_nil, or_false] at hm
    obtain ⟨k, hk, rfl | rfl⟩ := hm
    · exact ⟨k, by omega, k - 1, by omega, .inl rfl⟩
    · exact ⟨k, by omega, k, by omega, .inl rfl⟩
  refine ⟨across_append hin fun m hm => ends_inside (by omega) (by omega) hm, ?_, ?_, ?_, ?_, ?_, ?_⟩
  · refine pairwise_append' hin ?_ (pairwise_ends (by omega)) ?_
    · rw [List.pairwise_flatMap]
      refine ⟨fun i hi => ?_, ?_⟩
      · have := List.mem_range'_1.1 hi
        simp
        omega
      · refine List.Pairwise.imp (R := (· < ·)) ?_ List.pairwise_lt_range'
        intro a b hab
        simp
        omega
    · intro i j h1 h2
      rw [linked_ends] at h2
      have h3 := (linked_Ku (n := n) (i := i) (j := j) (edge := false)).1 (by
        unfold kuW
        exact linked_append.2 (.inl h1))
      simp at h3
      omega
  · intro i j k l h1 h2 hlt
    rw [linked_Ku] at h1 h2
    omega
  · unfold kuW
    rw [List.length_append, length_ends, length_flatMap_range' _ _ 2 _ (fun _ => rfl)]
    omega
  · rintro rfl
    rw [linked_Ku]
    exact .inr ⟨rfl, .inl ⟨rfl, rfl⟩⟩
  · rintro rfl h
    have := linked_Ku.1 h
    simp at this
    try omega
  · rintro rfl z h0 h1 hS hB
    have key : ∀ i, i < 2 * n + 2 → z (.top i) ∧ z (.bot i) := by
      intro i
      induction i with
      | zero => exact fun _ => ⟨h0, h1⟩
      | succ i ih =>
        intro hi
        obtain ⟨a, b⟩ := ih (by omega)
        have c := hS i i (by omega) (by omega) a b (linked_Ku.2 (.inl (by omega)))
        exact ⟨c, hB (i + 1) i (by omega) hi c b (linked_Ku.2 (.inl (by omega)))⟩
    refine ⟨fun i hi => ?_, fun j hj => (key j hj).2⟩
    rcases Nat.lt_or_ge i (2 * n + 2) with h | h
    · exact (key i h).1
    · obtain ⟨a, b⟩ := key (2 * n + 1) (by omega)
      have := hS (2 * n + 1) (2 * n + 1) (by omega) (by omega) a b (linked_Ku.2 (.inr ⟨rfl, by omega⟩))
      rwa [show 2 * n + 1 + 1 = i by omega] at this

theorem web_Kd (n : ℕ) (hn : 0 < n) (edge : Bool) : Web (2 * n + 1) (2 * n + 2) edge (kdW n edge) := by
  have hin : Across (2 * n + 1) (2 * n + 2) ((List.range' 1 (2 * n)).flatMap fun i => [(.bot i, .top (i - 1)), (.bot i, .top i)]) := by
    intro m hm
    simp only [List.mem_flatMap, List.mem_range'_1, List.mem_cons, List.not_mem_nil, or_false] at hm
    obtain ⟨k, hk, rfl | rfl⟩ := hm
    · exact ⟨k - 1, by omega, k, by omega, .inr rfl⟩
    · exact ⟨k, by omega, k, by omega, .inr rfl⟩
  refine ⟨across_append hin fun m hm => ends_inside (by omega) (by omega) hm, ?_, ?_, ?_, ?_, ?_, ?_⟩
  · refine pairwise_append' hin ?_ (pairwise_ends (by omega)) ?_
    · rw [List.pairwise_flatMap]
      refine ⟨fun i hi => ?_, ?_⟩
      · have := List.mem_range'_1.1 hi
        simp
        omega
      · refine List.Pairwise.imp (R := (· < ·)) ?_ List.pairwise_lt_range'
        intro a b hab
        simp
        omega
    · intro i j h1 h2
      rw [linked_ends] at h2
      have h3 := (linked_Kd (n := n) (i := i) (j := j) (edge := false)).1 (by
        unfold kdW
        exact linked_append.2 (.inl h1))
      simp at h3
      omega
  · intro i j k l h1 h2 hlt
    rw [linked_Kd] at h1 h2
    omega
  · unfold kdW
    rw [List.length_append, length_ends, length_flatMap_range' _ _ 2 _ (fun _ => rfl)]
    omega
  · rintro rfl
    rw [linked_Kd]
    exact .inr ⟨rfl, .inl ⟨rfl, rfl⟩⟩
  · rintro rfl h
    have := linked_Kd.1 h
    simp at this
    try omega
  · rintro rfl z h0 h1 hS hB
    have key : ∀ i, i < 2 * n + 1 → z (.top i) ∧ z (.bot i) := by
      intro i
      induction i with
      | zero => exact fun _ => ⟨h0, h1⟩
      | succ i ih =>
        intro hi
        obtain ⟨a, b⟩ := ih (by omega)
        have c := hB i i (by omega) (by omega) a b (linked_Kd.2 (.inl (by omega)))
        exact ⟨hS i (i + 1) (by omega) (by omega) a c (linked_Kd.2 (.inl (by omega))), c⟩
    refine ⟨fun i hi => (key i hi).1, fun j hj => ?_⟩
    rcases Nat.lt_or_ge j (2 * n + 1) with h | h
    · exact (key j h).2
    · obtain ⟨a, b⟩ := key (2 * n) (by omega)
      have := hB (2 * n) (2 * n) (by omega) (by omega) a b (linked_Kd.2 (.inr ⟨rfl, by omega⟩))
      rwa [show 2 * n + 1 = j by omega] at this

theorem web_N (n : ℕ) (hn : 2 ≤ n) : Web (2 * n + 1) (2 * n - 1) true (nW n) := by
  have ha : Across (2 * n + 1) (2 * n - 1) (tab (2 * n - 1) fun i => (Ref.top (i + 1), Ref.bot i)) := across_tab (fun k _ => by omega) (fun k _ => by omega)
  have hb : Across (2 * n + 1) (2 * n - 1) (tab n fun i => (Ref.top i, Ref.bot i)) := across_tab (fun k _ => by omega) (fun k _ => by omega)
  have hc : Across (2 * n + 1) (2 * n - 1) (tab n fun i => (Ref.top (n + 1 + i), Ref.bot (n - 1 + i))) := across_tab (fun k _ => by omega) (fun k _ => by omega)
  refine ⟨across_append (across_append ha hb) hc, ?_, ?_, ?_, ?_, ?_, ?_⟩
  · unfold nW
    refine pairwise_append' (across_append ha hb) (pairwise_append' ha ?_ ?_ ?_) ?_ ?_
    · exact pairwise_tab (f := fun k => k + 1) (g := fun k => k) fun a b h => h.ne
    · exact pairwise_tab (f := fun k => k) (g := fun k => k) fun a b h => h.ne
    · intro i j h1 h2
      obtain ⟨k, hk, h⟩ := (linked_tab (f := fun k => k + 1) (g := fun k => k)).1 h1
      obtain ⟨l, hl, h'⟩ := (linked_tab (f := fun k => k) (g := fun k => k)).1 h2
      omega
    · exact pairwise_tab (f := fun k => n + 1 + k) (g := fun k => n - 1 + k) fun a b h => by omega
    · intro i j h1 h2
      obtain ⟨l, hl, h'⟩ := (linked_tab (f := fun k => n + 1 + k) (g := fun k => n - 1 + k)).1 h2
      rcases linked_append.1 h1 with h | h
      · obtain ⟨k, hk, h⟩ := (linked_tab (f := fun k => k + 1) (g := fun k => k)).1 h
        omega
      · obtain ⟨k, hk, h⟩ := (linked_tab (f := fun k => k) (g := fun k => k)).1 h
        omega
  · intro i j k l h1 h2 hlt
    rw [linked_N hn] at h1 h2
    omega
  · unfold nW
    rw [List.length_append, List.length_append, tab_length, tab_length, tab_length]
    simp
    omega
  · intro _
    rw [linked_N hn]
    omega
  · intro h
    cases h
  · intro _ z h0 h1 hS hB
    have key : ∀ i, i < 2 * n - 1 → z (.top i) ∧ z (.top (i + 1)) ∧ z (.bot i) := by
      intro i
      induction i with
      | zero => exact fun _ => ⟨h0, hS 0 0 (by omega) (by omega) h0 h1 ((linked_N hn).2 (by omega)), h1⟩
      | succ i ih =>
        intro hi
        obtain ⟨a, b, c⟩ := ih (by omega)
        rcases Nat.lt_or_ge (i + 1) n with h | h
        · have d := hB (i + 1) i (by omega) (by omega) b c ((linked_N hn).2 (by omega))
          exact ⟨b, hS (i + 1) (i + 1) (by omega) (by omega) b d ((linked_N hn).2 (by omega)), d⟩
        · have d := hS (i + 1) i (by omega) (by omega) b c ((linked_N hn).2 (by omega))
          exact ⟨b, d, hB (i + 1 + 1) i (by omega) (by omega) d c ((linked_N hn).2 (by omega))⟩
    refine ⟨fun i hi => ?_, fun j hj => (key j hj).2.2⟩
    rcases Nat.lt_or_ge i (2 * n - 1) with h | h
    · exact (key i h).1
    · obtain ⟨a, b, c⟩ := key (2 * n - 2) (by omega)
      rcases Nat.lt_or_ge i (2 * n) with h' | h'
      · rwa [show 2 * n - 2 + 1 = i by omega] at b
      · have := hS (2 * n - 2 + 1) (2 * n - 2) (by omega) (by omega) b c ((linked_N hn).2 (by omega))
        rwa [show 2 * n - 2 + 1 + 1 = i by omega] at this

theorem web_N0 (n : ℕ) (hn : 0 < n) (up edge : Bool) : Web (2 * n + 1) (2 * n + 1) edge (n0W n up edge) := by
  have hv : Across (2 * n + 1) (2 * n + 1) (if edge then tab (2 * n + 1) fun i => (Ref.top i, Ref.bot i) else tab (2 * n - 1) fun i => (.top (i + 1), .bot (i + 1))) := by
    cases edge
    · exact across_tab (f := fun k => k + 1) (g := fun k => k + 1) (fun k _ => by omega) (fun k _ => by omega)
    · exact across_tab (f := fun k => k) (g := fun k => k) (fun k _ => by omega) (fun k _ => by omega)
  have hc : Across (2 * n + 1) (2 * n + 1) (if up then (tab n fun i => (Ref.top (i + 1), Ref.bot i)) ++ tab n fun i => (Ref.top (n + i), Ref.bot (n + 1 + i))
      else (tab n fun i => (Ref.top i, Ref.bot (i + 1))) ++ tab n fun i => (Ref.top (n + 1 + i), Ref.bot (n + i))) := by
    cases up
    · exact across_append (across_tab (f := fun k => k) (g := fun k => k + 1) (fun k _ => by omega) (fun k _ => by omega))
        (across_tab (f := fun k => n + 1 + k) (g := fun k => n + k) (fun k _ => by omega) (fun k _ => by omega))
    · exact across_append (across_tab (f := fun k => k + 1) (g := fun k => k) (fun k _ => by omega) (fun k _ => by omega))
        (across_tab (f := fun k => n + k) (g := fun k => n + 1 + k) (fun k _ => by omega) (fun k _ => by omega))
  refine ⟨across_append hv hc, ?_, ?_, ?_, ?_, ?_, ?_⟩
  · refine pairwise_append' hv ?_ ?_ ?_
    · cases edge
      · exact pairwise_tab (f := fun k => k + 1) (g := fun k => k + 1) fun a b h => by omega
      · exact pairwise_tab (f := fun k => k) (g := fun k => k) fun a b h => by omega
    · cases up
      · refine pairwise_append' (across_tab (Nt := 2 * n + 1) (Nb := 2 * n + 1) (f := fun k => k) (g := fun k => k + 1) (fun k _ => by omega) (fun k _ => by omega))
          (pairwise_tab (f := fun k => k) (g := fun k => k + 1) fun a b h => by omega) (pairwise_tab (f := fun k => n + 1 + k) (g := fun k => n + k) fun a b h => by omega) ?_
        intro i j h1 h2
        obtain ⟨k, hk, h⟩ := (linked_tab (f := fun k => k) (g := fun k => k + 1)).1 h1
        obtain ⟨l, hl, h'⟩ := (linked_tab (f := fun k => n + 1 + k) (g := fun k => n + k)).1 h2
        omega
      · refine pairwise_append' (across_tab (Nt := 2 * n + 1) (Nb := 2 * n + 1) (f := fun k => k + 1) (g := fun k => k) (fun k _ => by omega) (fun k _ => by omega))
          (pairwise_tab (f := fun k => k + 1) (g := fun k => k) fun a b h => by omega) (pairwise_tab (f := fun k => n + k) (g := fun k => n + 1 + k) fun a b h => by omega) ?_
        intro i j h1 h2
        obtain ⟨k, hk, h⟩ := (linked_tab (f := fun k => k + 1) (g := fun k => k)).1 h1
        obtain ⟨l, hl, h'⟩ := (linked_tab (f := fun k => n + k) (g := fun k => n + 1 + k)).1 h2
        omega
    · intro i j h1 h2
      have hij : i = j := by
        cases edge
        · obtain ⟨k, hk, h⟩ := (linked_tab (f := fun k => k + 1) (g := fun k => k + 1)).1 h1
          omega
        · obtain ⟨k, hk, h⟩ := (linked_tab (f := fun k => k) (g := fun k => k)).1 h1
          omega
      cases up
      · rcases linked_append.1 h2 with h | h
        · obtain ⟨k, hk, h⟩ := (linked_tab (f := fun k => k) (g := fun k => k + 1)).1 h
          omega
        · obtain ⟨k, hk, h⟩ := (linked_tab (f := fun k => n + 1 + k) (g := fun k => n + k)).1 h
          omega
      · rcases linked_append.1 h2 with h | h
        · obtain ⟨k, hk, h⟩ := (linked_tab (f := fun k => k + 1) (g := fun k => k)).1 h
          omega
        · obtain ⟨k, hk, h⟩ := (linked_tab (f := fun k => n + k) (g := fun k => n + 1 + k)).1 h
          omega
  · intro i j k l h1 h2 hlt
    rw [linked_N0 hn] at h1 h2
    cases up <;> simp at h1 h2 <;> omega
  · unfold n0W
    cases up <;> cases edge <;> simp [tab_length] <;> omega
  · rintro rfl
    rw [linked_N0 hn]
    exact .inl ⟨rfl, .inr ⟨rfl, by omega⟩⟩
  · rintro rfl h
    have := (linked_N0 hn).1 h
    simp at this
    try omega
  · rintro rfl z h0 h1 hS hB
    have vert : ∀ i ≤ 2 * n, Linked (n0W n up true) (.top i) (.bot i) := fun i hi => (linked_N0 hn).2 (.inl ⟨rfl, .inr ⟨rfl, hi⟩⟩)
    have diag : ∀ i < 2 * n, Linked (n0W n up true) (.top (i + 1)) (.bot i) ∨ Linked (n0W n up true) (.top i) (.bot (i + 1)) := by
      intro i hi
      rw [linked_N0 hn, linked_N0 hn]
      cases up <;> simp <;> omega
    have key : ∀ i, i < 2 * n + 1 → z (.top i) ∧ z (.bot i) := by
      intro i
      induction i with
      | zero => exact fun _ => ⟨h0, h1⟩
      | succ i ih =>
        intro hi
        obtain ⟨a, b⟩ := ih (by omega)
        rcases diag i (by omega) with h | h
        · have c := hS i i (by omega) (by omega) a b h
          exact ⟨c, hB (i + 1) i (by omega) (by omega) c b (vert _ (by omega))⟩
        · have c := hB i i (by omega) (by omega) a b h
          exact ⟨hS i (i + 1) (by omega) (by omega) a c (vert _ (by omega)), c⟩
    exact ⟨fun i hi => (key i hi).1, fun j hj => (key j hj).2⟩

theorem web_T (n : ℕ) (hn : 0 < n) : Web (4 * n + 1) (2 * n) true (tW n) := by
  refine ⟨?_, ?_, ?_, ?_, ?_, ?_, ?_⟩
  · intro m hm
    unfold tW at hm
    simp only [List.mem_flatMap, List.mem_range, List.mem_cons, List.not_mem_nil, or_false] at hm
    obtain ⟨k, hk, rfl | rfl | rfl⟩ := hm
    · exact ⟨2 * k, by omega, k, hk, .inl rfl⟩
    · exact ⟨2 * k + 1, by omega, k, hk, .inl rfl⟩
    · exact ⟨2 * k + 2, by omega, k, hk, .inl rfl⟩
  · unfold tW
    rw [List.pairwise_flatMap]
    refine ⟨fun i _ => by simp, ?_⟩
    refine List.Pairwise.imp (R := (· < ·)) ?_ List.pairwise_lt_range
    intro a b hab
    simp
    omega
  · intro i j k l h1 h2 hlt
    rw [linked_T] at h1 h2
    omega
  · unfold tW
    simp
    omega
  · intro _
    rw [linked_T]
    omega
  · intro h
    cases h
  · intro _ z h0 h1 hS hB
    have key : ∀ i, i < 2 * n → z (.top (2 * i)) ∧ z (.top (2 * i + 1)) ∧ z (.top (2 * i + 2)) ∧ z (.bot i) := by
      intro i
      induction i with
      | zero =>
        intro hi
        have a := hS 0 0 (by omega) (by omega) h0 h1 (linked_T.2 (by omega))
        exact ⟨h0, a, hS 1 0 (by omega) (by omega) a h1 (linked_T.2 (by omega)), h1⟩
      | succ i ih =>
        intro hi
        obtain ⟨-, -, b, c⟩ := ih (by omega)
        have d := hB (2 * i + 2) i (by omega) (by omega) b c (linked_T.2 (by omega))
        have e := hS (2 * i + 2) (i + 1) (by omega) (by omega) b d (linked_T.2 (by omega))
        exact ⟨b, e, hS (2 * i + 3) (i + 1) (by omega) (by omega) e d (linked_T.2 (by omega)), d⟩
    refine ⟨fun i hi => ?_, fun j hj => (key j hj).2.2.2⟩
    rcases Nat.lt_or_ge i (4 * n) with h | h
    · obtain ⟨a, b, -, -⟩ := key (i / 2) (by omega)
      rcases Nat.mod_two_eq_zero_or_one i with h' | h'
      · rwa [show 2 * (i / 2) = i by omega] at a
      · rwa [show 2 * (i / 2) + 1 = i by omega] at b
    · obtain ⟨-, -, c, -⟩ := key (2 * n - 1) (by omega)
      rwa [show 2 * (2 * n - 1) + 2 = i by omega] at c

theorem web_Tu (n : ℕ) (edge : Bool) : Web (4 * n + 3) (2 * n + 2) edge (tuW n edge) := by
  have hv : Across (4 * n + 3) (2 * n + 2) (if edge then tab (2 * n + 2) fun i => (Ref.top (2 * i), Ref.bot i) else tab (2 * n) fun i => (.top (2 * i + 2), .bot (i + 1))) := by
    cases edge
    · exact across_tab (f := fun k => 2 * k + 2) (g := fun k => k + 1) (fun k _ => by omega) (fun k _ => by omega)
    · exact across_tab (f := fun k => 2 * k) (g := fun k => k) (fun k _ => by omega) (fun k _ => by omega)
  have h1' : Across (4 * n + 3) (2 * n + 2) [(.bot 0, .top 1)] := by
    intro m hm
    rw [List.mem_singleton] at hm
    exact ⟨1, by omega, 0, by omega, .inr hm⟩
  have h2' : Across (4 * n + 3) (2 * n + 2) ((List.range' 1 (2 * n)).flatMap fun i => [(.top (2 * i - 1), .bot i), (.top (2 * i + 1), .bot i)]) := by
    intro m hm
    simp only [List.mem_flatMap, List.mem_range'_1, List.mem_cons, List.not_mem_nil, or_false] at hm
    obtain ⟨k, hk, rfl | rfl⟩ := hm
    · exact ⟨2 * k - 1, by omega, k, by omega, .inl rfl⟩
    · exact ⟨2 * k + 1, by omega, k, by omega, .inl rfl⟩
  have h3' : Across (4 * n + 3) (2 * n + 2) [(.bot (2 * n + 1), .top (4 * n + 1))] := by
    intro m hm
    rw [List.mem_singleton] at hm
    exact ⟨4 * n + 1, by omega, 2 * n + 1, by omega, .inr hm⟩
  have lv : ∀ i j, Linked (if edge then tab (2 * n + 2) fun i => (Ref.top (2 * i), Ref.bot i) else tab (2 * n) fun i => (.top (2 * i + 2), .bot (i + 1))) (.top i) (.bot j) → i = 2 * j := by
    intro i j h
    cases edge
    · obtain ⟨k, hk, h⟩ := (linked_tab (f := fun k => 2 * k + 2) (g := fun k => k + 1)).1 h
      omega
    · obtain ⟨k, hk, h⟩ := (linked_tab (f := fun k => 2 * k) (g := fun k => k)).1 h
      omega
  have lm : ∀ i j, Linked ((List.range' 1 (2 * n)).flatMap fun i => [(.top (2 * i - 1), .bot i), (.top (2 * i + 1), .bot i)]) (.top i) (.bot j) → 1 ≤ j ∧ j ≤ 2 * n ∧ (i + 1 = 2 * j ∨ i = 2 * j + 1) := by
    intro i j h
    unfold Linked at h
    simp only [List.mem_flatMap, List.mem_range'_1, List.mem_cons, List.not_mem_nil, or_false, Prod.mk.injEq, Ref.top.injEq, Ref.bot.injEq, reduceCtorEq, and_false, exists_false, or_self] at h
    obtain ⟨k, hk, h⟩ := h
    omega
  have l0 : ∀ i j, Linked [(.bot 0, .top 1)] (.top i) (.bot j) → i = 1 ∧ j = 0 := by
    intro i j h
    unfold Linked at h
    simp at h
    omega
  have l1 : ∀ i j, Linked [(.bot (2 * n + 1), .top (4 * n + 1))] (.top i) (.bot j) → i = 4 * n + 1 ∧ j = 2 * n + 1 := by
    intro i j h
    unfold Linked at h
    simp at h
    omega
  refine ⟨across_append (across_append (across_append hv h1') h2') h3', ?_, ?_, ?_, ?_, ?_, ?_⟩
  · refine pairwise_append' (across_append (across_append hv h1') h2') (pairwise_append' (across_append hv h1') (pairwise_append' hv ?_ (List.pairwise_singleton _ _) ?_) ?_ ?_) (List.pairwise_singleton _ _) ?_
    · cases edge
      · exact pairwise_tab (f := fun k => 2 * k + 2) (g := fun k => k + 1) fun a b h => by omega
      · exact pairwise_tab (f := fun k => 2 * k) (g := fun k => k) fun a b h => by omega
    · intro i j h h'
      have := lv i j h
      have := l0 i j h'
      omega
    · rw [List.pairwise_flatMap]
      refine ⟨fun i hi => ?_, ?_⟩
      · have := List.mem_range'_1.1 hi
        simp
      · refine List.Pairwise.imp (R := (· < ·)) ?_ List.pairwise_lt_range'
        intro a b hab
        simp
        omega
    · intro i j h h'
      have := lm i j h'
      rcases linked_append.1 h with h | h
      · have := lv i j h
        omega
      · have := l0 i j h
        omega
    · intro i j h h'
      have := l1 i j h'
      rcases linked_append.1 h with h | h
      · rcases linked_append.1 h with h | h
        · have := lv i j h
          omega
        · have := l0 i j h
          omega
      · have := lm i j h
        omega
  · intro i j k l h1 h2 hlt
    rw [linked_Tu] at h1 h2
    omega
  · unfold tuW
    rw [List.length_append, List.length_append, List.length_append, length_flatMap_range' _ _ 2 _ (fun _ => rfl)]
    cases edge <;> simp [tab_length] <;> omega
  · rintro rfl
    rw [linked_Tu]
    exact .inl ⟨rfl, .inr ⟨rfl, by omega⟩⟩
  · rintro rfl h
    have := linked_Tu.1 h
    simp at this
    try omega
  · rintro rfl z h0 h1 hS hB
    have vert : ∀ j ≤ 2 * n + 1, Linked (tuW n true) (.top (2 * j)) (.bot j) := fun j hj => linked_Tu.2 (.inl ⟨rfl, .inr ⟨rfl, hj⟩⟩)
    have key : ∀ i, i < 2 * n + 2 → z (.top (2 * i)) ∧ z (.bot i) ∧ (i < 2 * n + 1 → z (.top (2 * i + 1))) := by
      intro i
      induction i with
      | zero =>
        intro hi
        exact ⟨h0, h1, fun _ => hS 0 0 (by omega) (by omega) h0 h1 (linked_Tu.2 (.inr (by omega)))⟩
      | succ i ih =>
        intro hi
        obtain ⟨a, b, c⟩ := ih (by omega)
        have c := c (by omega)
        have d := hB (2 * i + 1) i (by omega) (by omega) c b (linked_Tu.2 (.inr (by omega)))
        have e := hS (2 * i + 1) (i + 1) (by omega) (by omega) c d (vert (i + 1) (by omega))
        exact ⟨e, d, fun h => hS (2 * i + 2) (i + 1) (by omega) (by omega) e d (linked_Tu.2 (.inr (by omega)))⟩
    refine ⟨fun i hi => ?_, fun j hj => (key j hj).2.1⟩
    obtain ⟨a, b, c⟩ := key (i / 2) (by omega)
    rcases Nat.mod_two_eq_zero_or_one i with h' | h'
    · rwa [show 2 * (i / 2) = i by omega] at a
    · have c := c (by omega)
      rwa [show 2 * (i / 2) + 1 = i by omega] at c

theorem web_Td (n : ℕ) (hn : 0 < n) (edge : Bool) : Web (4 * n + 1) (2 * n + 2) edge (tdW n edge) := by
  have hin : Across (4 * n + 1) (2 * n + 2) ((List.range' 1 (2 * n)).flatMap fun i => [(.top (2 * i - 2), .bot i), (.top (2 * i - 1), .bot i), (.top (2 * i), .bot i)]) := by
    intro m hm
    simp only [List.mem_flatMap, List.mem_range'_1, List.mem_cons, List.not_mem_nil, or_false] at hm
    obtain ⟨k, hk, rfl | rfl | rfl⟩ := hm
    · exact ⟨2 * k - 2, by omega, k, by omega, .inl rfl⟩
    · exact ⟨2 * k - 1, by omega, k, by omega, .inl rfl⟩
    · exact ⟨2 * k, by omega, k, by omega, .inl rfl⟩
  have he : Across (4 * n + 1) (2 * n + 2) (ends (4 * n + 1) (2 * n + 2) edge) := fun m hm => ends_inside (by omega) (by omega) hm
  refine ⟨across_append he hin, ?_, ?_, ?_, ?_, ?_, ?_⟩
  · refine pairwise_append' he (pairwise_ends (by omega)) ?_ ?_
    · rw [List.pairwise_flatMap]
      refine ⟨fun i hi => ?_, ?_⟩
      · have := List.mem_range'_1.1 hi
        simp
        omega
      · refine List.Pairwise.imp (R := (· < ·)) ?_ List.pairwise_lt_range'
        intro a b hab
        simp
        omega
    · intro i j h1 h2
      rw [linked_ends] at h1
      have h3 := (linked_Td (n := n) (i := i) (j := j) (edge := false)).1 (by
        unfold tdW
        exact linked_append.2 (.inr h2))
      simp at h3
      omega
  · intro i j k l h1 h2 hlt
    rw [linked_Td] at h1 h2
    omega
  · unfold tdW
    rw [List.length_append, length_ends, length_flatMap_range' _ _ 3 _ (fun _ => rfl)]
    omega
  · rintro rfl
    rw [linked_Td]
    exact .inr ⟨rfl, .inl ⟨rfl, rfl⟩⟩
  · rintro rfl h
    have := linked_Td.1 h
    simp at this
    try omega
  · rintro rfl z h0 h1 hS hB
    have key : ∀ i, i < 2 * n + 1 → z (.top (2 * i)) ∧ z (.bot i) ∧ (0 < i → z (.top (2 * i - 1))) := by
      intro i
      induction i with
      | zero => exact fun _ => ⟨h0, h1, fun h => absurd h (by omega)⟩
      | succ i ih =>
        intro hi
        obtain ⟨a, b, -⟩ := ih (by omega)
        have c := hB (2 * i) i (by omega) (by omega) a b (linked_Td.2 (.inl (by omega)))
        have d := hS (2 * i) (i + 1) (by omega) (by omega) a c (linked_Td.2 (.inl (by omega)))
        exact ⟨hS (2 * i + 1) (i + 1) (by omega) (by omega) d c (linked_Td.2 (.inl (by omega))), c, fun _ => d⟩
    refine ⟨fun i hi => ?_, fun j hj => ?_⟩
    · rcases Nat.mod_two_eq_zero_or_one i with h' | h'
      · have := (key (i / 2) (by omega)).1
        rwa [show 2 * (i / 2) = i by omega] at this
      · have := (key (i / 2 + 1) (by omega)).2.2 (by omega)
        rwa [show 2 * (i / 2 + 1) - 1 = i by omega] at this
    · rcases Nat.lt_or_ge j (2 * n + 1) with h | h
      · exact (key j h).2.1
      · obtain ⟨a, b, -⟩ := key (2 * n) (by omega)
        have := hB (2 * (2 * n)) (2 * n) (by omega) (by omega) a b (linked_Td.2 (.inr ⟨rfl, by omega⟩))
        rwa [show 2 * n + 1 = j by omega] at this

end

end Metku.Truss
