import Verif.Lemmas.Numbering

/-! Numbering depends only on which entries are active: helper lemmas for C13. -/
namespace Metku.Fem

/-- Sign pattern of one entry. -/
def act (d : Int) : Int := if 0 ≤ d then 0 else d

theorem numberNode_act (ds : List Int) (c : Nat) : numberNode (ds.map act) c = numberNode ds c := by
  induction ds generalizing c with
  | nil => rfl
  | cons d ds ih =>
    by_cases h : 0 ≤ d
    · simp [numberNode, act, h, ih]
    · simp [numberNode, act, h, ih]

theorem numberNodes_act (l : List (List Int)) (c : Nat) :
    numberNodes (l.map (List.map act)) c = numberNodes l c := by
  induction l generalizing c with
  | nil => rfl
  | cons n l ih => simp only [List.map_cons, numberNodes, numberNode_act, ih]

theorem act_numberNode (ds : List Int) (c : Nat) : (numberNode ds c).1.map act = ds.map act := by
  induction ds generalizing c with
  | nil => rfl
  | cons d ds ih =>
    by_cases h : 0 ≤ d
    · simp [numberNode, act, h]; exact ih _
    · simp [numberNode, act, h]; exact ih _

theorem act_numberNodes (l : List (List Int)) (c : Nat) :
    (numberNodes l c).1.map (List.map act) = l.map (List.map act) := by
  induction l generalizing c with
  | nil => rfl
  | cons n l ih => simp [numberNodes, act_numberNode, ih]

/-- Both ends of `e` have the directions used by `e` active already. -/
def Activated {K : Type} (dofv : List (List Int)) (e : Elem K) : Prop :=
  ∀ i j d, (e.n1 = i ∨ e.n2 = i) → j < e.kind.lead → entry dofv (i, j) = some d → 0 ≤ d

theorem ext_entry_act {l l' : List (List Int)} (hlen : l.length = l'.length)
    (hn : ∀ i : Nat, (l[i]?).map List.length = (l'[i]?).map List.length)
    (h : ∀ ij, (entry l ij).map act = (entry l' ij).map act) :
    l.map (List.map act) = l'.map (List.map act) := by
  apply List.ext_getElem
  · simpa using hlen
  · intro i h1 h2
    simp only [List.getElem_map]
    have h1' : i < l.length := by simpa using h1
    have h2' : i < l'.length := by simpa using h2
    have hl := hn i
    rw [List.getElem?_eq_getElem h1', List.getElem?_eq_getElem h2'] at hl
    simp at hl
    apply List.ext_getElem
    · simpa using hl
    · intro j h3 h4
      have h3' : j < l[i].length := by simpa using h3
      have h4' : j < l'[i].length := by simpa using h4
      have := h (i, j)
      unfold entry at this
      simp [List.getElem?_eq_getElem h1', List.getElem?_eq_getElem h2', List.getElem?_eq_getElem h3',
        List.getElem?_eq_getElem h4'] at this
      simpa using this

theorem act_init {K : Type} (elems : List (Elem K)) (dofv : List (List Int))
    (h : ∀ e ∈ elems, Activated dofv e) :
    (elems.foldl initElem dofv).map (List.map act) = dofv.map (List.map act) := by
  have hlen : ∀ (es : List (Elem K)) (l : List (List Int)), (es.foldl initElem l).length = l.length := by
    intro es
    induction es with
    | nil => intro l; rfl
    | cons e es ih => intro l; rw [List.foldl_cons, ih]; simp [initElem]
  apply ext_entry_act (hlen _ _)
  · intro i; exact initAll_node_length _ _ _
  · rintro ⟨i, j⟩
    rw [entry_initAll]
    cases hd : entry dofv (i, j) with
    | none => rfl
    | some d =>
      simp only [Option.map_some, Option.some.injEq]
      split
      · rename_i hex
        obtain ⟨e, he, hi, hj⟩ := hex
        have := h e he i j d hi hj hd
        simp [act, this]
      · rfl

/-- Numbering a model that is already numbered, for elements using only active directions, changes nothing. -/
theorem nodalDofs_stable {K : Type} (m0 m : Model K)
    (h0 : m.dofv = (nodalDofs m0).dofv) (hd : m.dofs = (nodalDofs m0).dofs)
    (h : ∀ e ∈ m.elems, Activated m.dofv e) : nodalDofs m = m := by
  have key : numberNodes (m.elems.foldl initElem m.dofv) 0 = (m.dofv, m.dofs) := by
    rw [← numberNodes_act, act_init _ _ h, h0]
    unfold nodalDofs
    rw [act_numberNodes, numberNodes_act, hd]
    rfl
  unfold nodalDofs
  rw [key]

end Metku.Fem
