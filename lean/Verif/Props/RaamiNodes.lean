import Verif.Props.RaamiFem

/-! Properties of the FEM model of a `Raami` frame: generation, moved nodes and hinges. -/
namespace Metku.Raami

set_option linter.unusedSectionVars false

variable {K : Type} [Field K] [LinearOrder K] [IsStrictOrderedRing K] [FloorRing K]

/-! ### Reachable frames -/

/-- What a user does to a frame. -/
inductive FCmd (K : Type)
  | node (c : Coords K)
  | member (n1 n2 nel : ℕ) (mtype : MType) (hinges : Option (Bool × Bool)) (steel : Bool)
  | support (node : ℕ) (dofs : List ℕ)
  | hinge (m loc : ℕ)
  | generate
  | setX (i : ℕ) (v : K)
  | setY (i : ℕ) (v : K)

def FCmd.step (f : Frame K) : FCmd K → Except PyErr (Frame K)
  | .node c => .ok (f.addNode c)
  | .member a b n t h s => f.addMember a b n t h s
  | .support n d => .ok (f.addSupport n d)
  | .hinge m l => .ok (f.addHinge m l)
  | .generate => f.generateFem
  | .setX i v => f.setX i v
  | .setY i v => f.setY i v

/-- The frame after some commands, none of which failed. -/
def FCmd.run : List (FCmd K) → Frame K → Except PyErr (Frame K)
  | [], f => .ok f
  | c :: cs, f => (c.step f).bind (FCmd.run cs)

/-- Every member lies between two nodes of the frame, and its points are those of its present position. -/
def Fresh (f : Frame K) : Prop := ∀ m ∈ f.members, ∃ p q : K × K, f.posOf m.n1 = some p ∧ f.posOf m.n2 = some q ∧ m.coords = nodalCoords p q m.nel

theorem fresh_empty : Fresh (Frame.empty : Frame K) := fun m hm => absurd hm (by simp [Frame.empty])

theorem posOf_append (f : Frame K) (n : FNode K) (i : ℕ) (p : K × K) (h : f.posOf i = some p) : ({ f with nodes := f.nodes ++ [n] } : Frame K).posOf i = some p := by
  unfold Frame.posOf at h ⊢
  obtain ⟨a, ha, rfl⟩ := Option.map_eq_some_iff.mp h
  obtain ⟨hi, rfl⟩ := List.getElem?_eq_some_iff.mp ha
  simp only
  rw [List.getElem?_append_left hi, List.getElem?_eq_getElem hi]
  rfl

theorem lt_of_posOf {f : Frame K} {i : ℕ} {p : K × K} (h : f.posOf i = some p) : i < f.nodes.length := by
  unfold Frame.posOf at h
  obtain ⟨a, ha, rfl⟩ := Option.map_eq_some_iff.mp h
  exact (List.getElem?_eq_some_iff.mp ha).1

theorem finishAll_mem : ∀ (ms : List (FMember K)) (o e : ℕ) (m : FMember K), m ∈ finishAll ms o e → ∃ m' ∈ ms, ∃ o' e', m = m'.finish o' e'
  | [], _, _, _, h => by simp [finishAll] at h
  | a :: ms, o, e, m, h => by
    rw [finishAll, List.mem_cons] at h
    rcases h with rfl | h
    · exact ⟨a, by simp, o, e, rfl⟩
    · obtain ⟨m', hm', r⟩ := finishAll_mem ms _ _ m h
      exact ⟨m', by simp [hm'], r⟩

theorem generateElements_keep {g g' : Frame K} {j : ℕ} (h : g.generateElements j = .ok g') : g'.nodes = g.nodes ∧ ∀ m ∈ g'.members, ∃ m0 ∈ g.members, m.n1 = m0.n1 ∧ m.n2 = m0.n2 ∧ m.nel = m0.nel ∧ m.coords = m0.coords := by
  unfold Frame.generateElements at h
  cases hj : g.members[j]? with
  | none => rw [hj] at h; cases h
  | some m =>
    rw [hj] at h
    simp only at h
    cases h1 : (g.nodes[m.n1]?).bind FNode.femNode with
    | none => rw [h1] at h; cases h
    | some a =>
      cases h2 : (g.nodes[m.n2]?).bind FNode.femNode with
      | none => rw [h1, h2] at h; cases h
      | some b =>
        rw [h1, h2] at h
        simp only at h
        cases hb : m.mtype.beam? with
        | none => rw [hb] at h; cases h
        | some be =>
          rw [hb] at h
          obtain rfl := Except.ok.inj h
          refine ⟨rfl, fun x hx => ?_⟩
          rcases List.mem_or_eq_of_mem_set hx with hx | rfl
          · exact ⟨x, hx, rfl, rfl, rfl, rfl⟩
          · exact ⟨m, List.mem_of_getElem? hj, rfl, rfl, rfl, rfl⟩

theorem generateFold_keep : ∀ (l : List ℕ) {g g' : Frame K}, l.foldlM (fun g j => g.generateElements j) g = .ok g' → g'.nodes = g.nodes ∧ ∀ m ∈ g'.members, ∃ m0 ∈ g.members, m.n1 = m0.n1 ∧ m.n2 = m0.n2 ∧ m.nel = m0.nel ∧ m.coords = m0.coords
  | [], g, g', h => by
    rw [List.foldlM_nil] at h
    obtain rfl := Except.ok.inj h
    exact ⟨rfl, fun m hm => ⟨m, hm, rfl, rfl, rfl, rfl⟩⟩
  | j :: l, g, g', h => by
    rw [List.foldlM_cons] at h
    cases hj : g.generateElements j with
    | error e => rw [hj] at h; cases h
    | ok g1 =>
      rw [hj] at h
      obtain ⟨a1, a2⟩ := generateElements_keep hj
      obtain ⟨b1, b2⟩ := generateFold_keep l (show l.foldlM (fun g j => g.generateElements j) g1 = .ok g' from h)
      refine ⟨b1.trans a1, fun m hm => ?_⟩
      obtain ⟨m1, hm1, e1, e2, e3, e4⟩ := b2 m hm
      obtain ⟨m0, hm0, d1, d2, d3, d4⟩ := a2 m1 hm1
      exact ⟨m0, hm0, e1.trans d1, e2.trans d2, e3.trans d3, e4.trans d4⟩

theorem fresh_generate {f f' : Frame K} (hf : Fresh f) (h : f.generateFem = .ok f') : Fresh f' := by
  unfold Frame.generateFem at h
  simp only at h
  cases hg : (List.range f.members.length).foldlM (fun g j => g.generateElements j) f.clearFem.makeNodes with
  | error e => rw [hg] at h; cases h
  | ok g =>
    rw [hg] at h
    obtain rfl := Except.ok.inj h
    obtain ⟨h1, h2⟩ := generateFold_keep _ hg
    have hp : ∀ i, (Frame.makeSupports g).posOf i = f.posOf i := by
      intro i
      unfold Frame.posOf Frame.makeSupports
      simp only [h1, Frame.makeNodes, Frame.clearFem, List.getElem?_mapIdx, Option.map_map]
      rfl
    intro m hm
    obtain ⟨m1, hm1, e1, e2, e3, e4⟩ := h2 m hm
    rw [show f.clearFem.makeNodes.members = f.members.map (fun m : FMember K => { m with femNodes := [], femElements := [] }) from rfl, List.mem_map] at hm1
    obtain ⟨m0, hm0, rfl⟩ := hm1
    obtain ⟨p, q, a, b, c⟩ := hf m0 hm0
    exact ⟨p, q, by rw [hp, e1]; exact a, by rw [hp, e2]; exact b, by rw [e4, e3]; exact c⟩

theorem recalculate_shape (f : Frame K) (m : FMember K) : (f.recalculate m).n1 = m.n1 ∧ (f.recalculate m).n2 = m.n2 ∧ (f.recalculate m).nel = m.nel := by
  unfold Frame.recalculate
  split <;> exact ⟨rfl, rfl, rfl⟩

theorem recalculate_congr {f g : Frame K} (h : g.nodes = f.nodes) (m : FMember K) : g.recalculate m = f.recalculate m := by
  unfold Frame.recalculate Frame.posOf
  rw [h]

theorem recalculate_twice (f : Frame K) (m : FMember K) : f.recalculate (f.recalculate m) = f.recalculate m := by
  unfold Frame.recalculate
  cases h1 : f.posOf m.n1 with
  | none => simp only [h1]
  | some p =>
    cases h2 : f.posOf m.n2 with
    | none => simp only [h1, h2]
    | some q => simp only [h1, h2]

/-- The loop over the members of a node. -/
theorem updateFold : ∀ (l : List ℕ) {g g' : Frame K}, l.foldlM (fun g j => match g.members[j]? with
      | none => Except.error PyErr.keyError
      | some m => if m.steel then .ok { g with members := g.members.set j (g.recalculate m) } else .error .attributeError) g = .ok g' →
    (g'.nodes = g.nodes ∧ g'.fem = g.fem ∧ g'.supports = g.supports ∧ g'.hinges = g.hinges) ∧ ∀ j, g'.members[j]? = if j ∈ l then (g.members[j]?).map g.recalculate else g.members[j]?
  | [], g, g', h => by
    rw [List.foldlM_nil] at h
    obtain rfl := Except.ok.inj h
    exact ⟨⟨rfl, rfl, rfl, rfl⟩, fun j => by simp⟩
  | i :: l, g, g', h => by
    rw [List.foldlM_cons] at h
    cases hi : g.members[i]? with
    | none => rw [hi] at h; cases h
    | some m =>
      rw [hi] at h
      simp only at h
      by_cases hs : m.steel = true
      · rw [if_pos hs] at h
        obtain ⟨⟨a1, a2, a3, a4⟩, b⟩ := updateFold l (g := { g with members := g.members.set i (g.recalculate m) }) h
        refine ⟨⟨a1, a2, a3, a4⟩, fun j => ?_⟩
        rw [b j]
        simp only [List.getElem?_set]
        obtain ⟨hlt, hm⟩ := List.getElem?_eq_some_iff.mp hi
        by_cases hj : i = j
        · subst hj
          simp only [if_true, if_pos hlt, List.mem_cons, true_or, hi, Option.map_some]
          have e : ({ g with members := g.members.set i (g.recalculate m) } : Frame K).recalculate (g.recalculate m) = g.recalculate m :=
            (recalculate_congr (f := g) (g := { g with members := g.members.set i (g.recalculate m) }) rfl _).trans (recalculate_twice g m)
          split_ifs
          · rw [e]
          · rfl
        · rw [if_neg hj]
          simp only [List.mem_cons, Ne.symm hj, false_or]
          rfl
      · rw [if_neg hs] at h; cases h

theorem mem_membersAt (f : Frame K) (i j : ℕ) : j ∈ f.membersAt i ↔ ∃ m, f.members[j]? = some m ∧ (m.n1 = i ∨ m.n2 = i) := by
  unfold Frame.membersAt
  rw [List.mem_flatMap]
  constructor
  · rintro ⟨k, hk, h⟩
    cases hm : f.members[k]? with
    | none => rw [hm] at h; simp at h
    | some m =>
      rw [hm] at h
      simp only [List.mem_append] at h
      rcases h with h | h
      · by_cases hh : m.n1 = i
        · rw [if_pos hh, List.mem_singleton] at h
          subst h
          exact ⟨m, hm, Or.inl hh⟩
        · rw [if_neg hh] at h; simp at h
      · by_cases hh : m.n2 = i
        · rw [if_pos hh, List.mem_singleton] at h
          subst h
          exact ⟨m, hm, Or.inr hh⟩
        · rw [if_neg hh] at h; simp at h
  · rintro ⟨m, hm, h⟩
    refine ⟨j, List.mem_range.mpr (List.getElem?_eq_some_iff.mp hm).1, ?_⟩
    rw [hm]
    simp only [List.mem_append]
    rcases h with h | h
    · left; rw [if_pos h]; simp
    · right; rw [if_pos h]; simp

/-- Changing the coordinates of one node and updating its members. -/
theorem fresh_update {f g g' : Frame K} {i : ℕ} (hf : Fresh f) (hm : g.members = f.members) (hl : g.nodes.length = f.nodes.length) (hp : ∀ k, k ≠ i → g.posOf k = f.posOf k)
    (h : g.updateMembers i = .ok g') : Fresh g' := by
  obtain ⟨⟨h1, -⟩, h2⟩ := updateFold _ h
  have hpos : ∀ k, g'.posOf k = g.posOf k := fun k => by unfold Frame.posOf; rw [h1]
  intro m hmm
  obtain ⟨j, hj⟩ := List.getElem?_of_mem hmm
  rw [h2 j] at hj
  by_cases hi : j ∈ g.membersAt i
  · rw [if_pos hi] at hj
    obtain ⟨m0, hm0, rfl⟩ := Option.map_eq_some_iff.mp hj
    rw [hm] at hm0
    obtain ⟨p, q, a, b, -⟩ := hf m0 (List.mem_of_getElem? hm0)
    have ha := lt_of_posOf a
    have hb := lt_of_posOf b
    rw [← hl] at ha hb
    obtain ⟨s1, s2, s3⟩ := recalculate_shape g m0
    refine ⟨g.nodes[m0.n1].coords.pos, g.nodes[m0.n2].coords.pos, ?_, ?_, ?_⟩
    · rw [hpos, s1]; unfold Frame.posOf; rw [List.getElem?_eq_getElem ha]; rfl
    · rw [hpos, s2]; unfold Frame.posOf; rw [List.getElem?_eq_getElem hb]; rfl
    · rw [s3]
      unfold Frame.recalculate Frame.posOf
      rw [List.getElem?_eq_getElem ha, List.getElem?_eq_getElem hb]
      rfl
  · rw [if_neg hi] at hj
    have hn : m.n1 ≠ i ∧ m.n2 ≠ i := by
      rw [mem_membersAt] at hi
      constructor <;> intro e <;> apply hi
      · exact ⟨m, hj, Or.inl e⟩
      · exact ⟨m, hj, Or.inr e⟩
    rw [hm] at hj
    obtain ⟨p, q, a, b, c⟩ := hf m (List.mem_of_getElem? hj)
    exact ⟨p, q, by rw [hpos, hp _ hn.1]; exact a, by rw [hpos, hp _ hn.2]; exact b, c⟩

theorem posOf_set_ne (f : Frame K) (fem : Fem K) (i k : ℕ) (n : FNode K) (h : k ≠ i) : ({ f with nodes := f.nodes.set i n, fem := fem } : Frame K).posOf k = f.posOf k := by
  unfold Frame.posOf
  simp only
  rw [List.getElem?_set_ne (Ne.symm h)]

theorem fresh_step {f f' : Frame K} (hf : Fresh f) (c : FCmd K) (h : c.step f = .ok f') : Fresh f' := by
  cases c with
  | node c =>
    obtain rfl := Except.ok.inj h
    intro m hm
    obtain ⟨p, q, a, b, e⟩ := hf m hm
    exact ⟨p, q, posOf_append f _ _ _ a, posOf_append f _ _ _ b, e⟩
  | member n1 n2 nel t hs s =>
    simp only [FCmd.step, Frame.addMember] at h
    cases h1 : f.posOf n1 with
    | none => rw [h1] at h; cases h
    | some p =>
      cases h2 : f.posOf n2 with
      | none => rw [h1, h2] at h; cases h
      | some q =>
        rw [h1, h2] at h
        simp only at h
        cases hs with
        | none =>
          obtain rfl := Except.ok.inj h
          intro m hm
          rcases List.mem_append.mp hm with hm | hm
          · exact hf m hm
          · rw [List.mem_singleton] at hm
            subst hm
            exact ⟨p, q, h1, h2, rfl⟩
        | some x =>
          obtain rfl := Except.ok.inj h
          intro m hm
          rcases List.mem_append.mp hm with hm | hm
          · exact hf m hm
          · rw [List.mem_singleton] at hm
            subst hm
            exact ⟨p, q, h1, h2, rfl⟩
  | support n d =>
    obtain rfl := Except.ok.inj h
    exact hf
  | hinge m l =>
    obtain rfl := Except.ok.inj h
    unfold Frame.addHinge
    cases f.members[m]? with
    | none => exact hf
    | some x => exact hf
  | generate => exact fresh_generate hf h
  | setX i v =>
    simp only [FCmd.step, Frame.setX] at h
    cases hi : f.nodes[i]? with
    | none => rw [hi] at h; cases h
    | some n =>
      rw [hi] at h
      exact fresh_update (i := i) (f := f) (by exact hf) (by rfl) (by simp) (fun k hk => posOf_set_ne f _ i k _ hk) h
  | setY i v =>
    simp only [FCmd.step, Frame.setY] at h
    cases hi : f.nodes[i]? with
    | none => rw [hi] at h; cases h
    | some n =>
      rw [hi] at h
      exact fresh_update (i := i) (f := f) (by exact hf) (by rfl) (by simp) (fun k hk => posOf_set_ne f _ i k _ hk) h

theorem fresh_run : ∀ (cs : List (FCmd K)) {f f' : Frame K}, Fresh f → FCmd.run cs f = .ok f' → Fresh f'
  | [], f, f', hf, h => by obtain rfl := Except.ok.inj h; exact hf
  | c :: cs, f, f', hf, h => by
    rw [FCmd.run] at h
    cases hc : c.step f with
    | error e => rw [hc] at h; cases h
    | ok g =>
      rw [hc] at h
      exact fresh_run cs (fresh_step hf c hc) h

end Metku.Raami
