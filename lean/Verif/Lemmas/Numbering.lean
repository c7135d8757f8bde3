import Verif.Model.Fem
import Verif.Spec.Fem
import Mathlib.Tactic.Linarith

/-! Helper lemmas about `numberNode`, `numberNodes`, `initElem`. -/
namespace Metku.Fem

theorem numberNode_le (ds : List Int) : ∀ c, c ≤ (numberNode ds c).2 := by
  induction ds with
  | nil => intro c; simp [numberNode]
  | cons d ds ih =>
    intro c
    by_cases h : d ≥ 0
    · simp only [numberNode, h, if_true]; have := ih (c+1); omega
    · simp only [numberNode, h, if_false]; exact ih c

theorem numberNode_entry (ds : List Int) : ∀ c (j : Nat) (d : Int), ds[j]? = some d →
    ∃ d', (numberNode ds c).1[j]? = some d' ∧
      (0 ≤ d → (c : Int) ≤ d' ∧ d' < (numberNode ds c).2) ∧ (d < 0 → d' = d) := by
  induction ds with
  | nil => intro c j d h; simp at h
  | cons x ds ih =>
    intro c j d hj
    by_cases h : x ≥ 0
    · simp only [numberNode, h, if_true]
      cases j with
      | zero =>
        simp at hj; subst hj
        refine ⟨c, by simp, fun _ => ⟨le_refl _, ?_⟩, fun hh => by omega⟩
        have := numberNode_le ds (c+1); omega
      | succ j =>
        simp at hj
        obtain ⟨d', h1, h2, h3⟩ := ih (c+1) j d hj
        refine ⟨d', by simpa using h1, fun h0 => ?_, h3⟩
        have := h2 h0; omega
    · simp only [numberNode, h, if_false]
      cases j with
      | zero => simp at hj; subst hj; exact ⟨x, by simp, fun h0 => absurd h0 (by omega), fun _ => rfl⟩
      | succ j =>
        simp at hj
        obtain ⟨d', h1, h2, h3⟩ := ih c j d hj
        exact ⟨d', by simpa using h1, h2, h3⟩

theorem numberNode_length (ds : List Int) : ∀ c, (numberNode ds c).1.length = ds.length := by
  induction ds with
  | nil => intro c; simp [numberNode]
  | cons d ds ih =>
    intro c
    by_cases h : d ≥ 0 <;> simp [numberNode, h, ih]

theorem numberNode_low (ds : List Int) (c j : Nat) (k : Int)
    (h : (numberNode ds c).1[j]? = some k) (hk : 0 ≤ k) : (c : Int) ≤ k ∧ k < (numberNode ds c).2 := by
  have hl : j < ds.length := by
    rw [← numberNode_length ds c]
    exact (List.getElem?_eq_some_iff.mp h).1
  obtain ⟨d', h1, h2, h3⟩ := numberNode_entry ds c j ds[j] (List.getElem?_eq_getElem hl)
  rw [h] at h1; cases h1
  by_cases h0 : 0 ≤ ds[j]
  · exact h2 h0
  · have := h3 (by omega); omega

theorem numberNode_unique (ds : List Int) : ∀ (c k : Nat), c ≤ k → k < (numberNode ds c).2 →
    ∃! j : Nat, (numberNode ds c).1[j]? = some (k : Int) := by
  induction ds with
  | nil => intro c k h1 h2; simp [numberNode] at h2; omega
  | cons x ds ih =>
    intro c k h1 h2
    by_cases h : x ≥ 0
    · simp only [numberNode, h, if_true] at h2 ⊢
      by_cases hk : k = c
      · subst hk
        refine ⟨0, by simp, ?_⟩
        intro j hj
        cases j with
        | zero => rfl
        | succ j =>
          simp at hj
          have := numberNode_low ds (k+1) j k hj (by omega)
          omega
      · obtain ⟨j, hj, huj⟩ := ih (c+1) k (by omega) h2
        refine ⟨j+1, by simpa using hj, ?_⟩
        intro y hy
        cases y with
        | zero => simp at hy; omega
        | succ y => simp at hy; rw [huj y hy]
    · simp only [numberNode, h, if_false] at h2 ⊢
      obtain ⟨j, hj, huj⟩ := ih c k h1 h2
      refine ⟨j+1, by simpa using hj, ?_⟩
      intro y hy
      cases y with
      | zero => simp at hy; omega
      | succ y => simp at hy; rw [huj y hy]

theorem numberNodes_le (ns : List (List Int)) : ∀ c, c ≤ (numberNodes ns c).2 := by
  induction ns with
  | nil => intro c; simp [numberNodes]
  | cons d ds ih =>
    intro c
    simp only [numberNodes]
    exact le_trans (numberNode_le d c) (ih _)

theorem numberNodes_entry (ns : List (List Int)) : ∀ c (i j : Nat) (d : Int), entry ns (i, j) = some d →
    ∃ d', entry (numberNodes ns c).1 (i, j) = some d' ∧
      (0 ≤ d → (c : Int) ≤ d' ∧ d' < (numberNodes ns c).2) ∧ (d < 0 → d' = d) := by
  induction ns with
  | nil => intro c i j d h; simp [entry] at h
  | cons x ns ih =>
    intro c i j d h
    simp only [numberNodes]
    cases i with
    | zero =>
      simp [entry] at h
      obtain ⟨d', h1, h2, h3⟩ := numberNode_entry x c j d h
      refine ⟨d', by simpa [entry] using h1, fun h0 => ?_, h3⟩
      have := numberNodes_le ns (numberNode x c).2
      have := h2 h0
      omega
    | succ i =>
      obtain ⟨d', h1, h2, h3⟩ := ih (numberNode x c).2 i j d (by simpa [entry] using h)
      refine ⟨d', by simpa [entry] using h1, fun h0 => ?_, h3⟩
      have := numberNode_le x c
      have := h2 h0
      omega

theorem numberNodes_length (ns : List (List Int)) : ∀ c, (numberNodes ns c).1.length = ns.length := by
  induction ns with
  | nil => intro c; simp [numberNodes]
  | cons d ds ih => intro c; simp [numberNodes, ih]

theorem numberNodes_node_length (ns : List (List Int)) : ∀ c (i : Nat),
    ((numberNodes ns c).1[i]?).map List.length = (ns[i]?).map List.length := by
  induction ns with
  | nil => intro c i; simp [numberNodes]
  | cons d ds ih =>
    intro c i
    cases i with
    | zero => simp [numberNodes, numberNode_length]
    | succ i => simpa [numberNodes] using ih (numberNode d c).2 i

theorem numberNodes_low (ns : List (List Int)) : ∀ (c : Nat) (ij : Nat × Nat) (k : Int),
    entry (numberNodes ns c).1 ij = some k → 0 ≤ k → (c : Int) ≤ k ∧ k < (numberNodes ns c).2 := by
  induction ns with
  | nil => intro c ij k h; simp [entry, numberNodes] at h
  | cons x ns ih =>
    intro c ⟨i, j⟩ k h hk
    simp only [numberNodes] at h ⊢
    have h4 := numberNodes_le ns (numberNode x c).2
    have h5 := numberNode_le x c
    cases i with
    | zero =>
      simp [entry] at h
      have := numberNode_low x c j k h hk
      omega
    | succ i =>
      have := ih (numberNode x c).2 (i, j) k (by simpa [entry] using h) hk
      omega

theorem numberNodes_unique (ns : List (List Int)) : ∀ (c k : Nat), c ≤ k → k < (numberNodes ns c).2 →
    ∃! ij : Nat × Nat, entry (numberNodes ns c).1 ij = some (k : Int) := by
  induction ns with
  | nil => intro c k h1 h2; simp [numberNodes] at h2; omega
  | cons x ns ih =>
    intro c k h1 h2
    simp only [numberNodes] at h2 ⊢
    by_cases hk : k < (numberNode x c).2
    · obtain ⟨j, hj, huj⟩ := numberNode_unique x c k h1 hk
      refine ⟨(0, j), by simpa [entry] using hj, ?_⟩
      rintro ⟨i', j'⟩ hy
      cases i' with
      | zero => simp only [entry] at hy; rw [huj j' (by simpa using hy)]
      | succ i' =>
        have := numberNodes_low ns (numberNode x c).2 (i', j') k (by simpa [entry] using hy) (by omega)
        omega
    · obtain ⟨⟨i, j⟩, hj, huj⟩ := ih (numberNode x c).2 k (by omega) h2
      refine ⟨(i+1, j), by simpa [entry] using hj, ?_⟩
      rintro ⟨i', j'⟩ hy
      cases i' with
      | zero =>
        simp [entry] at hy
        have := numberNode_low x c j' k hy (by omega)
        omega
      | succ i' =>
        have := huj (i', j') (by simpa [entry] using hy)
        cases this; rfl

theorem entry_modify (dofv : List (List Int)) (n k i j : Nat) :
    entry (dofv.modify n (initNode k)) (i, j) =
      (entry dofv (i, j)).map fun d => if n = i ∧ j < k then 0 else d := by
  unfold entry
  simp only [List.getElem?_modify]
  cases h : dofv[i]? with
  | none => simp
  | some l =>
    by_cases hn : n = i
    · simp [hn, initNode, List.getElem?_mapIdx]
    · simp [hn]

theorem entry_initElem {K : Type} (dofv : List (List Int)) (e : Elem K) (i j : Nat) :
    entry (initElem dofv e) (i, j) =
      (entry dofv (i, j)).map fun d => if (e.n1 = i ∨ e.n2 = i) ∧ j < e.kind.lead then 0 else d := by
  unfold initElem
  rw [entry_modify, entry_modify]
  cases h : entry dofv (i, j) with
  | none => simp
  | some d =>
    simp only [Option.map_some]
    by_cases h1 : e.n1 = i <;> by_cases h2 : e.n2 = i <;> by_cases h3 : j < e.kind.lead <;> simp [h1, h2, h3]

theorem entry_initAll {K : Type} (es : List (Elem K)) : ∀ (dofv : List (List Int)) (i j : Nat),
    entry (es.foldl initElem dofv) (i, j) =
      (entry dofv (i, j)).map fun d =>
        if ∃ e ∈ es, (e.n1 = i ∨ e.n2 = i) ∧ j < e.kind.lead then 0 else d := by
  induction es with
  | nil => intro dofv i j; simp
  | cons e es ih =>
    intro dofv i j
    rw [List.foldl_cons, ih, entry_initElem]
    cases h : entry dofv (i, j) with
    | none => simp
    | some d =>
      simp only [Option.map_some, List.mem_cons, exists_eq_or_imp]
      by_cases h1 : (e.n1 = i ∨ e.n2 = i) ∧ j < e.kind.lead <;>
      by_cases h2 : ∃ a ∈ es, (a.n1 = i ∨ a.n2 = i) ∧ j < a.kind.lead <;> simp [h1, h2]

theorem initAll_node_length {K : Type} (es : List (Elem K)) : ∀ (dofv : List (List Int)) (i : Nat),
    ((es.foldl initElem dofv)[i]?).map List.length = (dofv[i]?).map List.length := by
  induction es with
  | nil => intro dofv i; simp
  | cons e es ih =>
    intro dofv i
    rw [List.foldl_cons, ih]
    unfold initElem
    simp only [List.getElem?_modify]
    cases h : dofv[i]? with
    | none => simp
    | some l =>
      by_cases h1 : e.n1 = i <;> by_cases h2 : e.n2 = i <;> simp [h1, h2, initNode]

end Metku.Fem
