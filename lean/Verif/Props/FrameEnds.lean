import Verif.Props.FrameSimple

/-! The connections at the ends of members: rotational stiffnesses and hinges. -/
namespace Metku.Frame2D

open Metku.FrameSpec

set_option linter.unusedSectionVars false

variable {K : Type} [Field K] [LinearOrder K] [IsStrictOrderedRing K] [FloorRing K]

/-- How an end of an element is connected to its node: rigidly, by a spring or by a hinge. -/
inductive Joint (K : Type)
  | rigid
  | spring (k : K)
  | hinge
  deriving DecidableEq

/-- A rotational stiffness, `none` for infinite. -/
def Joint.ofStiff : Option K → Joint K
  | none => .rigid
  | some k => .spring k

/-- The connection of the first end of an element; degree of freedom 2 is its rotation. -/
def Elem.first (e : Elem K) : Joint K :=
  if 2 ∈ e.release then .hinge else
  match e.kind with
  | .beam => .rigid
  | .rod => .hinge
  | .semi k _ => .ofStiff k

/-- The connection of the second end; degree of freedom 5 is its rotation. -/
def Elem.second (e : Elem K) : Joint K :=
  if 5 ∈ e.release then .hinge else
  match e.kind with
  | .beam => .rigid
  | .rod => .hinge
  | .semi _ k => .ofStiff k

/-- The element number `j` of a member. -/
def elementOf (g : Fem K) (m : Member K) (j : ℕ) : Option (Elem K) := m.elems[j]?.bind (fun e => g.elems[e]?)

/-- Every element of a member of the generated frame. -/
theorem element_of {n : ℕ} {items : List (Item K)} {f f' : Frame K} {g : Fem K} {sw : Bool} (hx : ∀ x ∈ items, FreshItem x)
    (h1 : ({ num := n } : Frame K).addAll items = .ok f) (h2 : f.generate sw = .ok (f', g)) {i : ℕ} {m : Member K} (hm : f.members[i]? = some m) (hb : m.mtype ≠ .bar) :
    ∃ m', f'.members[i]? = some m' ∧ m'.elems.length + 1 = m'.nodes.length ∧ 0 < m'.elems.length
      ∧ ∀ j < m'.elems.length, ∃ a b, elementOf g m' j = some { n1 := a, n2 := b, kind := m.elemKind (m'.elems.length + 1) j, release := m.releases (m'.elems.length + 1) j } := by
  have hf := (addAll_spec hx (inv_empty n) h1).1
  have hr := hf.1 m (List.mem_of_getElem? hm)
  obtain ⟨m', k1, k2, k3, k4, -, k6⟩ := frame_member hf h2 hm
  obtain ⟨⟨c1, c2⟩, c3⟩ := k6 hb
  refine ⟨m', k1, c1, ?_, ?_⟩
  · by_contra hz
    have h1 : m'.nodes.length = 1 := by omega
    rw [k3, List.length_map] at h1
    obtain ⟨q, hq⟩ := List.length_eq_one_iff.mp h1
    have hs : m.start ∈ firsts [] (nodalOf m) :=
      mem_firsts.mpr (Or.inr (List.mem_map.mpr ⟨_, start_mem_raw m, roundPt_of_decimals hr.d1⟩))
    have ht : m.stop ∈ firsts [] (nodalOf m) :=
      mem_firsts.mpr (Or.inr (List.mem_map.mpr ⟨_, stop_mem_raw hr.num, roundPt_of_decimals hr.d2⟩))
    rw [hq, List.mem_singleton] at hs ht
    exact hr.ne (hs.trans ht.symm)
  · intro j hj
    have hj1 : j < m'.nodes.length := by omega
    have hj2 : j + 1 < m'.nodes.length := by omega
    obtain ⟨e, e1, e2⟩ := c3 j _ _ (List.getElem?_eq_getElem hj1) (List.getElem?_eq_getElem hj2)
    refine ⟨m'.nodes[j], m'.nodes[j + 1], ?_⟩
    unfold elementOf
    rw [e1]
    simp only [Option.bind_some]
    rw [e2]
    unfold elemAt
    rw [c1]

/-- C181: in a beam only the two ends of the member turn against their nodes, with the stiffnesses `Sj1` and `Sj2` of the member (tapered beams of one element excepted); in a member that is neither beam, column nor bar only the hinged ends are released, if it has more than one element or at most one hinge; all inner connections are rigid. -/
theorem C181_partial {n : ℕ} {items : List (Item K)} {f f' : Frame K} {g : Fem K} {sw : Bool} (hx : ∀ x ∈ items, FreshItem x)
    (h1 : ({ num := n } : Frame K).addAll items = .ok f) (h2 : f.generate sw = .ok (f', g)) {i : ℕ} {m : Member K} (hm : f.members[i]? = some m) :
    (m.mtype = .beam → ∃ m', f'.members[i]? = some m' ∧ 0 < m'.elems.length ∧ (m.tapered = false ∨ 1 < m'.elems.length →
      ∀ j < m'.elems.length, ∃ e, elementOf g m' j = some e
        ∧ e.first = (if j = 0 then .spring m.sj1 else .rigid) ∧ e.second = (if j + 1 = m'.elems.length then .spring m.sj2 else .rigid)))
    ∧ (m.mtype = .other → ∃ m', f'.members[i]? = some m' ∧ 0 < m'.elems.length ∧ (m.hinge1 = false ∨ m.hinge2 = false ∨ 1 < m'.elems.length →
      ∀ j < m'.elems.length, ∃ e, elementOf g m' j = some e
        ∧ e.first = (if j = 0 ∧ m.hinge1 then .hinge else .rigid) ∧ e.second = (if j + 1 = m'.elems.length ∧ m.hinge2 then .hinge else .rigid))) := by
  constructor
  · intro ht
    obtain ⟨m', k1, k2, k3, k4⟩ := element_of hx h1 h2 hm (by rw [ht]; decide)
    refine ⟨m', k1, k3, ?_⟩
    intro hcase j hj
    obtain ⟨a, b, he⟩ := k4 j hj
    refine ⟨_, he, ?_, ?_⟩
    all_goals
      simp only [Elem.first, Elem.second, Member.elemKind, Member.releases, ht, List.not_mem_nil, if_false]
      by_cases hl : m'.elems.length = 1
      · have hj0 : j = 0 := by omega
        have htap : m.tapered = false := by
          rcases hcase with h | h
          · exact h
          · omega
        simp [hl, hj0, htap, Joint.ofStiff]
      · rw [if_neg (by omega)]
        by_cases hj0 : j = 0
        · subst hj0
          simp [Joint.ofStiff]
          try omega
        · rw [if_neg hj0]
          by_cases hj1 : j + 1 = m'.elems.length
          · rw [if_pos (by omega)]
            simp [Joint.ofStiff, hj0, hj1]
          · rw [if_neg (by omega)]
            simp [hj0, hj1]
  · intro ht
    obtain ⟨m', k1, k2, k3, k4⟩ := element_of hx h1 h2 hm (by rw [ht]; decide)
    refine ⟨m', k1, k3, ?_⟩
    intro hcase j hj
    obtain ⟨a, b, he⟩ := k4 j hj
    refine ⟨_, he, ?_, ?_⟩
    all_goals
      simp only [Elem.first, Elem.second, Member.elemKind, Member.releases, ht]
      have hx : m.hinge1 = true → m.hinge2 = true → ¬ (j = 0 ∧ j + 1 = m'.elems.length) := by
        intro q1 q2 ⟨q3, q4⟩
        rcases hcase with h | h | h
        · rw [q1] at h; cases h
        · rw [q2] at h; cases h
        · omega
      by_cases hl : j = m'.elems.length + 1 - 2 ∧ m.hinge2 = true
      · rw [if_pos hl]
        obtain ⟨q1, q2⟩ := hl
        have q3 : j + 1 = m'.elems.length := by omega
        first
        | (rw [if_neg (by decide), if_neg (fun q => hx q.2 q2 ⟨q.1, q3⟩)])
        | (rw [if_pos (by decide), if_pos ⟨q3, q2⟩])
      · rw [if_neg hl]
        have q3 : ¬ (j + 1 = m'.elems.length ∧ m.hinge2 = true) := fun q => hl ⟨by omega, q.2⟩
        by_cases h0 : j = 0 ∧ m.hinge1 = true
        · rw [if_pos h0]
          first
          | (rw [if_pos (by decide), if_pos h0])
          | (rw [if_neg (by decide), if_neg q3])
        · rw [if_neg h0]
          first
          | (rw [if_neg (by decide), if_neg h0])
          | (rw [if_neg (by decide), if_neg q3])

/-- The stiffnesses and hinges of a column do not reach the FEM model: all its elements are rigidly connected. -/
theorem C181_violation_column {n : ℕ} {items : List (Item K)} {f f' : Frame K} {g : Fem K} {sw : Bool} (hx : ∀ x ∈ items, FreshItem x)
    (h1 : ({ num := n } : Frame K).addAll items = .ok f) (h2 : f.generate sw = .ok (f', g)) {i : ℕ} {m : Member K} (hm : f.members[i]? = some m) (ht : m.mtype = .column) :
    ∃ m', f'.members[i]? = some m' ∧ 0 < m'.elems.length ∧ ∀ j < m'.elems.length, ∃ e, elementOf g m' j = some e ∧ e.first = .rigid ∧ e.second = .rigid := by
  obtain ⟨m', k1, k2, k3, k4⟩ := element_of hx h1 h2 hm (by rw [ht]; decide)
  refine ⟨m', k1, k3, ?_⟩
  intro j hj
  obtain ⟨a, b, he⟩ := k4 j hj
  exact ⟨_, he, by simp [Elem.first, Member.elemKind, Member.releases, ht], by simp [Elem.second, Member.elemKind, Member.releases, ht]⟩

/-- The hinges of a beam do not reach the FEM model. -/
theorem C181_violation_hinge {n : ℕ} {items : List (Item K)} {f f' : Frame K} {g : Fem K} {sw : Bool} (hx : ∀ x ∈ items, FreshItem x)
    (h1 : ({ num := n } : Frame K).addAll items = .ok f) (h2 : f.generate sw = .ok (f', g)) {i : ℕ} {m : Member K} (hm : f.members[i]? = some m) (ht : m.mtype = .beam) :
    ∃ m', f'.members[i]? = some m' ∧ 0 < m'.elems.length ∧ ∀ j < m'.elems.length, ∃ e, elementOf g m' j = some e ∧ e.first ≠ .hinge ∧ e.second ≠ .hinge := by
  obtain ⟨m', k1, k2, k3, k4⟩ := element_of hx h1 h2 hm (by rw [ht]; decide)
  refine ⟨m', k1, k3, ?_⟩
  intro j hj
  obtain ⟨a, b, he⟩ := k4 j hj
  refine ⟨_, he, ?_, ?_⟩
  all_goals
    simp only [Elem.first, Elem.second, Member.elemKind, Member.releases, ht, List.not_mem_nil, if_false]
    split_ifs <;> simp [Joint.ofStiff]

/-- Of the two hinges of a member of one element only the second is there: a hinge at the second end takes away that at the first. -/
theorem C181_violation_both {n : ℕ} {items : List (Item K)} {f f' : Frame K} {g : Fem K} {sw : Bool} (hx : ∀ x ∈ items, FreshItem x)
    (h1 : ({ num := n } : Frame K).addAll items = .ok f) (h2 : f.generate sw = .ok (f', g)) {i : ℕ} {m : Member K} (hm : f.members[i]? = some m) (ht : m.mtype = .other)
    (hh2 : m.hinge2 = true) :
    ∃ m', f'.members[i]? = some m' ∧ (m'.elems.length = 1 → ∃ e, elementOf g m' 0 = some e ∧ e.first = .rigid ∧ e.second = .hinge) := by
  obtain ⟨m', k1, k2, k3, k4⟩ := element_of hx h1 h2 hm (by rw [ht]; decide)
  refine ⟨m', k1, ?_⟩
  intro hl
  obtain ⟨a, b, he⟩ := k4 0 k3
  exact ⟨_, he, by simp [Elem.first, Member.elemKind, Member.releases, ht, hl, hh2], by simp [Elem.second, Member.releases, ht, hl, hh2]⟩

/-- A tapered beam of one element loses the stiffness of its first end. -/
theorem C181_violation_tapered {n : ℕ} {items : List (Item K)} {f f' : Frame K} {g : Fem K} {sw : Bool} (hx : ∀ x ∈ items, FreshItem x)
    (h1 : ({ num := n } : Frame K).addAll items = .ok f) (h2 : f.generate sw = .ok (f', g)) {i : ℕ} {m : Member K} (hm : f.members[i]? = some m) (ht : m.mtype = .beam)
    (hh : m.tapered = true) :
    ∃ m', f'.members[i]? = some m' ∧ (m'.elems.length = 1 → ∃ e, elementOf g m' 0 = some e ∧ e.first = .rigid ∧ e.second = .spring m.sj2) := by
  obtain ⟨m', k1, k2, k3, k4⟩ := element_of hx h1 h2 hm (by rw [ht]; decide)
  refine ⟨m', k1, ?_⟩
  intro hl
  obtain ⟨a, b, he⟩ := k4 0 k3
  exact ⟨_, he, by simp [Elem.first, Member.elemKind, Member.releases, ht, hl, hh, Joint.ofStiff], by simp [Elem.second, Member.elemKind, Member.releases, ht, hl, hh, Joint.ofStiff]⟩

/-- The connections of all elements of the FEM model, in order. -/
def seeJoints (items : List (Item ℚ)) (n : ℕ) : Option (List (Joint ℚ × Joint ℚ)) :=
  match ({ num := n } : Frame ℚ).addAll items with
  | .error _ => none
  | .ok f =>
    match f.generate false with
    | .error _ => none
    | .ok r => some (r.2.elems.map (fun e => (e.first, e.second)))

/-- A beam with a spring at its start, one with hinges, a column with a spring and a tie with two hinges. -/
def joined (t : MType) (h1 h2 tap : Bool) (s1 s2 : Option ℚ) : List (Item ℚ) :=
  [.member { Member.new (0, 0) (4000, 0) 4 t s1 s2 1 with hinge1 := h1, hinge2 := h2, tapered := tap }]

example : (∀ t h1 h2 tap s1 s2, ∀ x ∈ joined t h1 h2 tap s1 s2, FreshItem x) := by
  intro t h1 h2 tap s1 s2 x hx
  rw [joined, List.mem_singleton] at hx
  subst hx
  have : Fresh (Member.new ((0, 0) : Pt ℚ) (4000, 0) 4 t s1 s2 1) := fresh_new _ _ _ _ (by norm_num) (by decide +kernel)
  exact ⟨this.d1, this.d2, this.ne, this.num, rfl, rfl, rfl, rfl, rfl, rfl⟩

example : seeJoints (joined .beam false false false (some 5) none) 3 = some [(.spring 5, .rigid), (.rigid, .rigid), (.rigid, .spring (10 ^ 20))] := by decide +kernel
example : seeJoints (joined .other true true false none none) 2 = some [(.hinge, .rigid), (.rigid, .hinge)] := by decide +kernel
example : seeJoints (joined .other true true false none none) 1 = some [(.rigid, .hinge)] := by decide +kernel
example : seeJoints (joined .column true true false (some 5) (some 6)) 1 = some [(.rigid, .rigid)] := by decide +kernel
example : seeJoints (joined .beam true true false (some 5) (some 6)) 1 = some [(.spring 5, .spring 6)] := by decide +kernel
example : seeJoints (joined .beam false false true (some 5) (some 6)) 1 = some [(.rigid, .spring 6)] := by decide +kernel

end Metku.Frame2D
