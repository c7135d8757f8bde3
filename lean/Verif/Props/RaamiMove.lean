import Verif.Props.RaamiGen

/-! C189: moving a node of a `Raami` frame. C190: hinges of its members. -/
namespace Metku.Raami

set_option linter.unusedSectionVars false

variable {K : Type} [Field K] [LinearOrder K] [IsStrictOrderedRing K] [FloorRing K]

/-! ### The loop over the members of a node succeeds -/

theorem recalculate_steel (f : Frame K) (m : FMember K) : (f.recalculate m).steel = m.steel := by
  unfold Frame.recalculate
  split <;> rfl

theorem updateFold_ok : ∀ (l : List ℕ) (g : Frame K), (∀ j ∈ l, ∃ m, g.members[j]? = some m ∧ m.steel = true) → ∃ g', l.foldlM (fun g j => match g.members[j]? with
      | none => Except.error PyErr.keyError
      | some m => if m.steel then .ok { g with members := g.members.set j (g.recalculate m) } else .error .attributeError) g = .ok g'
  | [], g, _ => ⟨g, rfl⟩
  | i :: l, g, h => by
    obtain ⟨m, hm, hs⟩ := h i (by simp)
    obtain ⟨g', hg'⟩ := updateFold_ok l { g with members := g.members.set i (g.recalculate m) } (by
      intro j hj
      obtain ⟨m', hm', hs'⟩ := h j (by simp [hj])
      obtain ⟨hlt, -⟩ := List.getElem?_eq_some_iff.mp hm
      by_cases hij : i = j
      · subst hij
        exact ⟨g.recalculate m, by simp [hlt], (recalculate_steel g m).trans hs⟩
      · exact ⟨m', by simp only [List.getElem?_set_ne hij]; exact hm', hs'⟩)
    refine ⟨g', ?_⟩
    rw [List.foldlM_cons, hm]
    simp only [hs, if_true]
    exact hg'

theorem updateFold_error : ∀ (l : List ℕ) (g : Frame K), (∀ j ∈ l, ∃ m, g.members[j]? = some m) → (∃ j ∈ l, ∃ m, g.members[j]? = some m ∧ m.steel = false) → l.foldlM (fun g j => match g.members[j]? with
      | none => Except.error PyErr.keyError
      | some m => if m.steel then .ok { g with members := g.members.set j (g.recalculate m) } else .error .attributeError) g = .error .attributeError
  | [], g, _, h => by obtain ⟨j, hj, -⟩ := h; simp at hj
  | i :: l, g, h, hb => by
    obtain ⟨m, hm⟩ := h i (by simp)
    rw [List.foldlM_cons, hm]
    simp only
    by_cases hs : m.steel = true
    · rw [if_pos hs]
      obtain ⟨hlt, -⟩ := List.getElem?_eq_some_iff.mp hm
      refine updateFold_error l { g with members := g.members.set i (g.recalculate m) } ?_ ?_
      · intro j hj
        obtain ⟨m', hm'⟩ := h j (by simp [hj])
        by_cases hij : i = j
        · subst hij
          exact ⟨g.recalculate m, by simp [hlt]⟩
        · exact ⟨m', by simp only [List.getElem?_set_ne hij]; exact hm'⟩
      · obtain ⟨j, hj, m', hm', hs'⟩ := hb
        by_cases hij : i = j
        · subst hij
          rw [hm] at hm'
          obtain rfl := Option.some.inj hm'
          rw [hs] at hs'
          cases hs'
        · rcases List.mem_cons.mp hj with rfl | hj
          · exact absurd rfl hij
          · exact ⟨j, hj, m', by simp only [List.getElem?_set_ne hij]; exact hm', hs'⟩
    · rw [if_neg hs]
      rfl

/-! ### The FEM model is that of the frame -/

/-- The FEM model of the frame is the one `generate_fem` would make now. -/
def UpToDate (f : Frame K) : Prop := f.generateFem = .ok f

/-- Two members differ at most in their coordinates, and have the same inner points. -/
def SameInner (m m' : FMember K) : Prop := m' = { m with coords := m'.coords } ∧ m'.inner = m.inner

theorem finish_same {m m' : FMember K} (h : SameInner m m') (o e : ℕ) : SameInner (m.finish o e) (m'.finish o e) := by
  obtain ⟨h1, h2⟩ := h
  refine ⟨?_, h2⟩
  have hc : m'.chain o = m.chain o := by
    unfold FMember.chain
    rw [h2, h1]
  unfold FMember.finish
  rw [hc, h2, h1]

theorem finishAll_same {ms ms' : List (FMember K)} (h : List.Forall₂ SameInner ms ms') : ∀ (o e : ℕ), List.Forall₂ SameInner (finishAll ms o e) (finishAll ms' o e) ∧
    ms'.flatMap FMember.inner = ms.flatMap FMember.inner := by
  induction h with
  | nil => exact fun o e => ⟨List.Forall₂.nil, rfl⟩
  | cons h1 h2 ih =>
    intro o e
    rw [finishAll, finishAll, List.flatMap_cons, List.flatMap_cons, h1.2]
    exact ⟨List.Forall₂.cons (finish_same h1 _ _) (ih _ _).1, by rw [(ih 0 0).2]⟩

theorem elemsAll_same (hs : FMember K → Bool × Bool) (hh : ∀ m m', SameInner m m' → hs m' = hs m) {ms ms' : List (FMember K)} (h : List.Forall₂ SameInner ms ms') : ∀ o, elemsAll hs ms' o = elemsAll hs ms o := by
  induction h with
  | nil => exact fun o => rfl
  | cons h1 h2 ih =>
    intro o
    rw [elemsAll, elemsAll, h1.2, ih, hh _ _ h1]
    congr 1
    unfold FMember.elems FMember.chain
    rw [h1.2, h1.1]

theorem finishAll_fix {ms ms' : List (FMember K)} (h : List.Forall₂ SameInner ms ms') : ∀ (o e : ℕ), finishAll ms o e = ms → finishAll ms' o e = ms' := by
  induction h with
  | nil => exact fun o e _ => rfl
  | @cons m m' ms ms' h1 h2 ih =>
    intro o e hh
    rw [finishAll, List.cons.injEq] at hh
    rw [finishAll, List.cons.injEq, h1.2]
    refine ⟨?_, ih _ _ hh.2⟩
    have hc : m'.chain o = m.chain o := by
      unfold FMember.chain
      rw [h1.2, h1.1]
    have e1 : m.chain o = m.femNodes := congrArg FMember.femNodes hh.1
    have e2 : List.range' e (m.inner.length + 1) = m.femElements := congrArg FMember.femElements hh.1
    unfold FMember.finish
    rw [hc, h1.2, e1, e2, h1.1]

theorem forall₂_of_get {ms ms' : List (FMember K)} (hl : ms'.length = ms.length) (h : ∀ (j : ℕ) (m m' : FMember K), ms[j]? = some m → ms'[j]? = some m' → SameInner m m') : List.Forall₂ SameInner ms ms' := by
  rw [List.forall₂_iff_get]
  refine ⟨hl.symm, fun i h1 h2 => ?_⟩
  exact h i _ _ (List.getElem?_eq_getElem h1) (List.getElem?_eq_getElem h2)

theorem inner_of_one {m : FMember K} {p q : K × K} (hc : m.coords = nodalCoords p q m.nel) (h1 : m.nel = 1) : m.inner = [] := by
  apply List.length_eq_zero_iff.mp
  rw [nodalCoords_inner_length p q _ m hc, h1]

/-- What a node move does, for any new position. -/
theorem move_upToDate {f g g' : Frame K} {i : ℕ} {c : Coords K} (hf : Fresh f) (ht : ∀ m ∈ f.members, m.mtype ≠ .other) (hu : UpToDate f)
    (hg : g = { f with nodes := f.nodes.set i ⟨c, some i⟩, fem := { f.fem with nodes := f.fem.nodes.set i c.pos } })
    (hi : i < f.nodes.length) (h1 : ∀ m ∈ f.members, m.n1 = i ∨ m.n2 = i → m.nel = 1) (h : g.updateMembers i = .ok g') (hf' : Fresh g') : UpToDate g' := by
  obtain ⟨⟨a1, a2, a3, a4⟩, b⟩ := updateFold _ h
  have hm : g.members = f.members := by rw [hg]
  have hlen : g'.members.length = f.members.length := by
    rw [← hm]
    apply le_antisymm
    · by_contra hc
      have := b g.members.length
      rw [List.getElem?_eq_none (le_refl g.members.length), Option.map_none, ite_self, List.getElem?_eq_getElem (by omega)] at this
      cases this
    · by_contra hc
      have := b g'.members.length
      rw [List.getElem?_eq_none (le_refl g'.members.length), List.getElem?_eq_getElem (show g'.members.length < g.members.length by omega)] at this
      split_ifs at this <;> cases this
  have hsame : List.Forall₂ SameInner f.members g'.members := by
    apply forall₂_of_get hlen
    intro j m m' hj hj'
    rw [b j, hm] at hj'
    by_cases hji : j ∈ g.membersAt i
    · rw [if_pos hji, hj] at hj'
      obtain rfl := Option.some.inj hj'
      rw [mem_membersAt, hm] at hji
      obtain ⟨m2, hm2, hend⟩ := hji
      rw [hj] at hm2
      obtain rfl := Option.some.inj hm2
      have hone := h1 m (List.mem_of_getElem? hj) hend
      obtain ⟨p, q, -, -, hc⟩ := hf m (List.mem_of_getElem? hj)
      have hmem' : g.recalculate m ∈ g'.members := by
        apply List.mem_of_getElem? (i := j)
        rw [b j, hm, if_pos (by rw [mem_membersAt, hm]; exact ⟨m, hj, hend⟩), hj]
        rfl
      obtain ⟨p', q', -, -, hc'⟩ := hf' _ hmem'
      refine ⟨?_, ?_⟩
      · unfold Frame.recalculate
        split <;> rfl
      · rw [inner_of_one hc hone, inner_of_one hc' ((recalculate_shape g m).2.2.trans hone)]
    · rw [if_neg hji, hj] at hj'
      obtain rfl := Option.some.inj hj'
      exact ⟨rfl, rfl⟩
  have hup := hu
  unfold UpToDate at hup
  rw [generateFem_ok (placed_of_fresh hf ht)] at hup
  have hup := Except.ok.inj hup
  have u1 : f.nodes.mapIdx (fun i n => ({ n with femNode := some i } : FNode K)) = f.nodes := congrArg Frame.nodes hup
  have u2 : finishAll f.members f.nodes.length 0 = f.members := congrArg Frame.members hup
  have u3 : (⟨f.nodes.map (fun n => n.coords.pos) ++ f.members.flatMap FMember.inner, elemsAll f.hingesOf f.members f.nodes.length,
        f.supports.filterMap (fun s => if s.1 < f.nodes.length then some s else none)⟩ : Fem K) = f.fem := congrArg Frame.fem hup
  have u4 : f.nodes.map (fun n => n.coords.pos) ++ f.members.flatMap FMember.inner = f.fem.nodes := congrArg Fem.nodes u3
  have u5 : elemsAll f.hingesOf f.members f.nodes.length = f.fem.elements := congrArg Fem.elements u3
  have u6 : f.supports.filterMap (fun s => if s.1 < f.nodes.length then some s else none) = f.fem.supports := congrArg Fem.supports u3
  have hn' : g'.nodes = f.nodes.set i ⟨c, some i⟩ := by rw [a1, hg]
  have hnl : g'.nodes.length = f.nodes.length := by rw [hn', List.length_set]
  have ht' : ∀ m ∈ g'.members, m.mtype ≠ .other := by
    intro m hmm
    obtain ⟨j, hj⟩ := List.getElem?_of_mem hmm
    have hlt := (List.getElem?_eq_some_iff.mp hj).1
    have := (List.forall₂_iff_get.mp hsame).2 j (by omega) hlt
    have hmj : g'.members.get ⟨j, hlt⟩ = m := (List.getElem?_eq_some_iff.mp hj).2
    rw [hmj] at this
    have hmt : m.mtype = (f.members.get ⟨j, by omega⟩).mtype := by rw [this.1]
    rw [hmt]
    exact ht _ (List.get_mem _ _)
  unfold UpToDate
  rw [generateFem_ok (placed_of_fresh hf' ht')]
  congr 1
  obtain ⟨nodes', members', supports', hinges', fem'⟩ := g'
  simp only at a1 a2 a3 a4 hn' hsame hnl ⊢
  simp only [Frame.mk.injEq]
  refine ⟨?_, ?_, trivial, trivial, ?_⟩
  · rw [hn']
    apply List.ext_getElem?
    intro k
    rw [List.getElem?_mapIdx, List.getElem?_set]
    by_cases hk : i = k
    · subst hk
      rw [if_pos rfl, if_pos hi]
      rfl
    · rw [if_neg hk]
      have := congrArg (fun l => l[k]?) u1
      simp only [List.getElem?_mapIdx] at this
      exact this
  · rw [hnl]
    exact finishAll_fix hsame _ _ u2
  · rw [a2, hg]
    simp only [Fem.mk.injEq]
    refine ⟨?_, ?_, ?_⟩
    · rw [(finishAll_same hsame 0 0).2, ← u4, List.set_append_left _ _ (by rw [List.length_map]; exact hi), hn', List.map_set]
    · rw [← u5, hnl]
      have hhs : (fun m => (hinges'[m.hinges]?).getD (false, false) : FMember K → Bool × Bool) = f.hingesOf := by
        funext m
        unfold Frame.hingesOf
        rw [a4, hg]
      show elemsAll (fun m => (hinges'[m.hinges]?).getD (false, false)) members' _ = _
      rw [hhs]
      exact elemsAll_same f.hingesOf (fun m m' hmm => by unfold Frame.hingesOf; rw [hmm.1]) hsame _
    · rw [← u6, a3, hg, hnl]

theorem upToDate_femNode {f : Frame K} (hf : Fresh f) (ht : ∀ m ∈ f.members, m.mtype ≠ .other) (hu : UpToDate f) {i : ℕ} {n : FNode K} (hi : f.nodes[i]? = some n) : n.femNode = some i := by
  unfold UpToDate at hu
  rw [generateFem_ok (placed_of_fresh hf ht)] at hu
  have hup := Except.ok.inj hu
  have u1 : f.nodes.mapIdx (fun i n => ({ n with femNode := some i } : FNode K)) = f.nodes := congrArg Frame.nodes hup
  have := congrArg (fun l => l[i]?) u1
  simp only [List.getElem?_mapIdx, hi, Option.map_some, Option.some.injEq] at this
  rw [← this]

theorem upToDate_femPos {f : Frame K} (hf : Fresh f) (ht : ∀ m ∈ f.members, m.mtype ≠ .other) (hu : UpToDate f) {i : ℕ} {n : FNode K} (hi : f.nodes[i]? = some n) : f.fem.nodes[i]? = some n.coords.pos := by
  unfold UpToDate at hu
  rw [generateFem_ok (placed_of_fresh hf ht)] at hu
  have hup := Except.ok.inj hu
  have u3 : (⟨f.nodes.map (fun n => n.coords.pos) ++ f.members.flatMap FMember.inner, elemsAll f.hingesOf f.members f.nodes.length,
        f.supports.filterMap (fun s => if s.1 < f.nodes.length then some s else none)⟩ : Fem K) = f.fem := congrArg Frame.fem hup
  have u4 : f.nodes.map (fun n => n.coords.pos) ++ f.members.flatMap FMember.inner = f.fem.nodes := congrArg Fem.nodes u3
  rw [← u4, List.getElem?_append_left (by rw [List.length_map]; exact (List.getElem?_eq_some_iff.mp hi).1), List.getElem?_map, hi]
  rfl

theorem modify_eq_set {α : Type} (l : List α) (i : ℕ) (F : α → α) (a : α) (h : l[i]? = some a) : l.modify i F = l.set i (F a) := by
  apply List.ext_getElem?
  intro k
  obtain ⟨hlt, he⟩ := List.getElem?_eq_some_iff.mp h
  rw [List.getElem?_modify, List.getElem?_set]
  by_cases hk : i = k
  · subst hk
    simp [hlt, he]
  · simp [hk]

/-- `node.x = v` or `node.y = v`. -/
def Frame.move (f : Frame K) (i : ℕ) (horizontal : Bool) (v : K) : Except PyErr (Frame K) := if horizontal then f.setX i v else f.setY i v

/-- The position after the move. -/
def moved (horizontal : Bool) (v : K) (p : K × K) : K × K := if horizontal then (v, p.2) else (p.1, v)

theorem move_eq {f : Frame K} {i : ℕ} {x y : K} (d : Bool) (v : K) (hf : Fresh f) (ht : ∀ m ∈ f.members, m.mtype ≠ .other) (hu : UpToDate f) (hi : f.nodes[i]? = some ⟨.floats x y, some i⟩) :
    f.move i d v = Frame.updateMembers { f with
      nodes := f.nodes.set i ⟨.floats (moved d v (x, y)).1 (moved d v (x, y)).2, some i⟩
      fem := { f.fem with nodes := f.fem.nodes.set i (moved d v (x, y)) } } i := by
  have hp := upToDate_femPos hf ht hu hi
  unfold Frame.move
  cases d with
  | true =>
    rw [if_pos rfl]
    unfold Frame.setX
    rw [hi]
    simp only [Coords.setX, moved, if_true]
    rw [modify_eq_set _ _ _ _ hp]
    rfl
  | false =>
    rw [if_neg (by simp)]
    unfold Frame.setY
    rw [hi]
    simp only [Coords.setY, moved, Bool.false_eq_true, if_false]
    rw [modify_eq_set _ _ _ _ hp]
    rfl

/-- C189 (partial): the coordinates of a node were floats, and each member at the node has one element and a steel member: the node is
at the new position, and the FEM model is the one `generate_fem` would make. -/
theorem C189_partial (cs : List (FCmd K)) {f : Frame K} (h : FCmd.run cs Frame.empty = .ok f) (ht : ∀ m ∈ f.members, m.mtype ≠ .other) (hu : UpToDate f)
    {i : ℕ} {x y : K} {k : Option ℕ} (hi : f.nodes[i]? = some ⟨.floats x y, k⟩) (d : Bool) (v : K)
    (hm : ∀ m ∈ f.members, m.n1 = i ∨ m.n2 = i → m.nel = 1 ∧ m.steel = true) :
    ∃ f', f.move i d v = .ok f' ∧ f'.posOf i = some (moved d v (x, y)) ∧ (∀ j ≠ i, f'.posOf j = f.posOf j) ∧ UpToDate f' := by
  have hf := fresh_run cs fresh_empty h
  have hk : k = some i := upToDate_femNode hf ht hu hi
  subst hk
  have hlt := (List.getElem?_eq_some_iff.mp hi).1
  rw [move_eq d v hf ht hu hi]
  obtain ⟨f', hf'⟩ := updateFold_ok (Frame.membersAt { f with
      nodes := f.nodes.set i ⟨.floats (moved d v (x, y)).1 (moved d v (x, y)).2, some i⟩
      fem := { f.fem with nodes := f.fem.nodes.set i (moved d v (x, y)) } } i) { f with
      nodes := f.nodes.set i ⟨.floats (moved d v (x, y)).1 (moved d v (x, y)).2, some i⟩
      fem := { f.fem with nodes := f.fem.nodes.set i (moved d v (x, y)) } } (by
    intro j hj
    rw [mem_membersAt] at hj
    obtain ⟨m, hmj, he⟩ := hj
    exact ⟨m, hmj, (hm m (List.mem_of_getElem? hmj) he).2⟩)
  have hfr : Fresh f' := fresh_update (f := f) (i := i) hf (by rfl) (by simp) (by intro k hk; exact posOf_set_ne f _ i k _ hk) hf'
  obtain ⟨⟨a1, -⟩, -⟩ := updateFold _ hf'
  have hpos : ∀ j, f'.posOf j = Frame.posOf { f with nodes := f.nodes.set i ⟨.floats (moved d v (x, y)).1 (moved d v (x, y)).2, some i⟩ } j := fun j => by unfold Frame.posOf; rw [a1]
  refine ⟨f', hf', ?_, ?_, ?_⟩
  · rw [hpos]
    unfold Frame.posOf
    simp only [List.getElem?_set_self hlt]
    rfl
  · intro j hj
    rw [hpos]
    exact posOf_set_ne f f.fem i j _ hj
  · exact move_upToDate (c := .floats (moved d v (x, y)).1 (moved d v (x, y)).2) hf ht hu rfl hlt (fun m hmm he => (hm m hmm he).1) hf' hfr

/-- C189 (violation): the inner FEM nodes of a member of two or more elements stay where they were, so the FEM model is
not that of the frame any more, wherever the node is moved. -/
theorem C189_violation_inner (cs : List (FCmd K)) {f f' : Frame K} (h : FCmd.run cs Frame.empty = .ok f) (ht : ∀ m ∈ f.members, m.mtype ≠ .other) (hn : ∀ m ∈ f.members, 1 ≤ m.nel) (hu : UpToDate f)
    {i : ℕ} {x y : K} {k : Option ℕ} (hi : f.nodes[i]? = some ⟨.floats x y, k⟩) (d : Bool) (v : K) (hv : moved d v (x, y) ≠ (x, y))
    {j : ℕ} {m : FMember K} (hj : f.members[j]? = some m) (he : m.n1 = i ∧ m.n2 ≠ i ∨ m.n1 ≠ i ∧ m.n2 = i) (h2 : 2 ≤ m.nel) (hf' : f.move i d v = .ok f') : ¬ UpToDate f' := by
  intro hu'
  have hf := fresh_run cs fresh_empty h
  have hk : k = some i := upToDate_femNode hf ht hu hi
  subst hk
  have hlt := (List.getElem?_eq_some_iff.mp hi).1
  rw [move_eq d v hf ht hu hi] at hf'
  have hfr : Fresh f' := fresh_update (f := f) (i := i) hf (by rfl) (by simp) (by intro k hk; exact posOf_set_ne f _ i k _ hk) hf'
  obtain ⟨⟨a1, a2, -, -⟩, b⟩ := updateFold _ hf'
  have hpos : ∀ j, f'.posOf j = Frame.posOf { f with nodes := f.nodes.set i ⟨.floats (moved d v (x, y)).1 (moved d v (x, y)).2, some i⟩ } j := fun j => by unfold Frame.posOf; rw [a1]
  have hposi : f'.posOf i = some (moved d v (x, y)) := by
    rw [hpos]
    unfold Frame.posOf
    simp only [List.getElem?_set_self hlt]
    rfl
  have hposn : ∀ j ≠ i, f'.posOf j = f.posOf j := by
    intro j hj
    rw [hpos]
    exact posOf_set_ne f f.fem i j _ hj
  have hold : f.posOf i = some (x, y) := by unfold Frame.posOf; rw [hi]; rfl
  have shape : ∀ (g : Frame K), (g.recalculate m).n1 = m.n1 ∧ (g.recalculate m).n2 = m.n2 ∧ (g.recalculate m).nel = m.nel ∧ (g.recalculate m).femNodes = m.femNodes := by
    intro g
    unfold Frame.recalculate
    split <;> exact ⟨rfl, rfl, rfl, rfl⟩
  obtain ⟨m', hj', s1, s2, s3, s4⟩ : ∃ m' : FMember K, f'.members[j]? = some m' ∧ m'.n1 = m.n1 ∧ m'.n2 = m.n2 ∧ m'.nel = m.nel ∧ m'.femNodes = m.femNodes := by
    rw [b j]
    split_ifs
    · simp only [hj, Option.map_some]
      exact ⟨_, rfl, shape _⟩
    · exact ⟨m, hj, rfl, rfl, rfl, rfl⟩
  -- all members of `f'` have the properties the generation needs
  have hall : ∀ a ∈ f'.members, ∃ a0 ∈ f.members, a.mtype = a0.mtype ∧ a.nel = a0.nel := by
    intro a ha
    obtain ⟨l, hl⟩ := List.getElem?_of_mem ha
    rw [b l] at hl
    split_ifs at hl
    · obtain ⟨a0, h0, rfl⟩ := Option.map_eq_some_iff.mp hl
      refine ⟨a0, List.mem_of_getElem? h0, ?_⟩
      unfold Frame.recalculate
      split <;> exact ⟨rfl, rfl⟩
    · exact ⟨a, List.mem_of_getElem? hl, rfl, rfl⟩
  obtain ⟨g, hg1, hg2⟩ := goodFem hf ht hn
  have e := hu.symm.trans hg1
  obtain rfl := Except.ok.inj e
  obtain ⟨g', hg1', hg2'⟩ := goodFem hfr (fun a ha => by obtain ⟨a0, h0, e1, -⟩ := hall a ha; rw [e1]; exact ht a0 h0) (fun a ha => by obtain ⟨a0, h0, -, e2⟩ := hall a ha; rw [e2]; exact hn a0 h0)
  have e' := hu'.symm.trans hg1'
  obtain rfl := Except.ok.inj e'
  obtain ⟨c, p, q, hc, -, -, hp, hq, -, -, -, hdiv, -⟩ := hg2.member j m hj
  obtain ⟨c', p', q', hc', -, -, hp', hq', -, -, -, hdiv', -⟩ := hg2'.member j m' hj'
  rw [hj] at hc
  obtain rfl := Option.some.inj hc
  rw [hj'] at hc'
  obtain rfl := Option.some.inj hc'
  obtain ⟨n, hn1, hn2⟩ := hdiv 1 (by omega)
  obtain ⟨n', hn1', hn2'⟩ := hdiv' 1 (by omega)
  rw [s4, hn1] at hn1'
  obtain rfl := Option.some.inj hn1'
  have hout := hg2.outside j m m hj hj 1 n (by omega) (by omega) hn1
  rw [a2] at hn2'
  simp only [List.getElem?_set_ne (show i ≠ n by omega)] at hn2'
  rw [hn2, s3] at hn2'
  have hdd := Option.some.inj hn2'
  have hn0 : (m.nel : K) ≠ 0 := by
    have : 0 < m.nel := by omega
    positivity
  have hn1 : ((m.nel - 1 : ℕ) : K) ≠ 0 := by
    have : 0 < m.nel - 1 := by omega
    positivity
  unfold divide at hdd
  obtain ⟨d1, d2⟩ := Prod.mk.inj hdd
  rw [s1] at hp'
  rw [s2] at hq'
  apply hv
  rcases he with ⟨e1, e2⟩ | ⟨e1, e2⟩
  · rw [hposn _ e2, hq] at hq'
    obtain rfl := Option.some.inj hq'
    rw [e1, hold] at hp
    rw [e1, hposi] at hp'
    obtain rfl := Option.some.inj hp
    rw [← Option.some.inj hp'] at d1 d2
    have k1 := mul_left_cancel₀ (div_ne_zero hn1 hn0) (add_right_cancel d1)
    have k2 := mul_left_cancel₀ (div_ne_zero hn1 hn0) (add_right_cancel d2)
    exact Prod.ext k1.symm k2.symm
  · rw [hposn _ e1, hp] at hp'
    obtain rfl := Option.some.inj hp'
    rw [e2, hold] at hq
    rw [e2, hposi] at hq'
    obtain rfl := Option.some.inj hq
    rw [← Option.some.inj hq'] at d1 d2
    have hone : (((1 : ℕ) : K) / m.nel) ≠ 0 := div_ne_zero (by simp) hn0
    have k1 := mul_left_cancel₀ hone (add_left_cancel d1)
    have k2 := mul_left_cancel₀ hone (add_left_cancel d2)
    exact Prod.ext k1.symm k2.symm

theorem trunc_spec (v : K) : |(trunc v : K)| ≤ |v| ∧ |v - (trunc v : K)| < 1 := by
  unfold trunc
  split_ifs with h
  · have h1 := Int.floor_le v
    have h2 := Int.lt_floor_add_one v
    have h3 : (0 : K) ≤ (⌊v⌋ : K) := by
      exact_mod_cast Int.floor_nonneg.2 h
    rw [abs_of_nonneg h3, abs_of_nonneg h, abs_of_nonneg (by linarith)]
    exact ⟨h1, by linarith⟩
  · have h0 : v ≤ 0 := (not_le.1 h).le
    have h1 := Int.le_ceil v
    have h2 := Int.ceil_lt_add_one v
    have h3 : (⌈v⌉ : K) ≤ 0 := by
      exact_mod_cast Int.ceil_nonpos.2 h0
    rw [abs_of_nonpos h3, abs_of_nonpos h0, abs_of_nonpos (by linarith)]
    exact ⟨by linarith, by linarith⟩

/-- C189 (violation): a node given by integers: for `v` that is not an integer the frame has the node at the next integer towards zero, while its FEM node is at `v`. -/
theorem C189_violation_integer {f f' : Frame K} {i k : ℕ} {x y : ℤ} (hi : f.nodes[i]? = some ⟨.ints x y, some k⟩) {v : K} (hv : ∀ z : ℤ, (z : K) ≠ v) {p : K × K} (hp : f.fem.nodes[k]? = some p)
    (h : f.setX i v = .ok f') : (∃ z : ℤ, |(z : K)| ≤ |v| ∧ |v - (z : K)| < 1 ∧ f'.posOf i = some ((z : K), (y : K))) ∧ f'.fem.nodes[k]? = some (v, p.2) ∧ f'.posOf i ≠ f'.fem.nodes[k]? := by
  unfold Frame.setX at h
  rw [hi] at h
  simp only at h
  obtain ⟨⟨a1, a2, -⟩, -⟩ := updateFold _ h
  have hlt := (List.getElem?_eq_some_iff.mp hi).1
  have e1 : f'.posOf i = some ((trunc v : K), (y : K)) := by
    unfold Frame.posOf
    rw [a1]
    simp only [List.getElem?_set_self hlt]
    rfl
  have e2 : f'.fem.nodes[k]? = some (v, p.2) := by
    rw [a2]
    simp [hp]
  refine ⟨⟨trunc v, (trunc_spec v).1, (trunc_spec v).2, e1⟩, e2, ?_⟩
  rw [e1, e2]
  intro hc
  exact hv _ (Prod.mk.inj (Option.some.inj hc)).1

/-- C189 (violation): the same for the other coordinate: for `v` that is not an integer the frame has the node at the next integer towards zero, while its FEM node is at `v`. -/
theorem C189_violation_integer_y {f f' : Frame K} {i k : ℕ} {x y : ℤ} (hi : f.nodes[i]? = some ⟨.ints x y, some k⟩) {v : K} (hv : ∀ z : ℤ, (z : K) ≠ v) {p : K × K} (hp : f.fem.nodes[k]? = some p)
    (h : f.setY i v = .ok f') : (∃ z : ℤ, |(z : K)| ≤ |v| ∧ |v - (z : K)| < 1 ∧ f'.posOf i = some ((x : K), (z : K))) ∧ f'.fem.nodes[k]? = some (p.1, v) ∧ f'.posOf i ≠ f'.fem.nodes[k]? := by
  unfold Frame.setY at h
  rw [hi] at h
  simp only at h
  obtain ⟨⟨a1, a2, -⟩, -⟩ := updateFold _ h
  have hlt := (List.getElem?_eq_some_iff.mp hi).1
  have e1 : f'.posOf i = some ((x : K), (trunc v : K)) := by
    unfold Frame.posOf
    rw [a1]
    simp only [List.getElem?_set_self hlt]
    rfl
  have e2 : f'.fem.nodes[k]? = some (p.1, v) := by
    rw [a2]
    simp [hp]
  refine ⟨⟨trunc v, (trunc_spec v).1, (trunc_spec v).2, e1⟩, e2, ?_⟩
  rw [e1, e2]
  intro hc
  exact hv _ (Prod.mk.inj (Option.some.inj hc)).2

/-- C189 (violation): a node with a member that is a plain `FrameMember` cannot be moved. -/
theorem C189_violation_plain {f : Frame K} {i j : ℕ} {n : FNode K} (hi : f.nodes[i]? = some n) {m : FMember K} (hj : f.members[j]? = some m) (he : m.n1 = i ∨ m.n2 = i) (hs : m.steel = false) (d : Bool) (v : K) :
    f.move i d v = .error .attributeError := by
  have key : ∀ g : Frame K, g.members = f.members → g.updateMembers i = .error .attributeError := by
    intro g hg
    unfold Frame.updateMembers
    apply updateFold_error
    · intro l hl
      rw [mem_membersAt] at hl
      obtain ⟨a, ha, -⟩ := hl
      exact ⟨a, ha⟩
    · refine ⟨j, ?_, m, ?_, hs⟩
      · rw [mem_membersAt, hg]
        exact ⟨m, hj, he⟩
      · rw [hg]
        exact hj
  unfold Frame.move
  cases d
  · rw [if_neg (by simp)]
    unfold Frame.setY
    rw [hi]
    exact key _ rfl
  · rw [if_pos rfl]
    unfold Frame.setX
    rw [hi]
    exact key _ rfl

/-- A column and a beam of one element each, with their FEM model. -/
def angleFrame : List (FCmd ℚ) :=
  [.node (.floats 0 0), .node (.floats 0 4), .node (.floats 6 4), .member 0 1 1 .column none true, .member 1 2 1 .beam none true, .generate]

example : ∃ f : Frame ℚ, FCmd.run angleFrame Frame.empty = .ok f ∧ (∀ m ∈ f.members, m.mtype ≠ .other) ∧ UpToDate f ∧ f.nodes[1]? = some ⟨.floats 0 4, some 1⟩ ∧
    (∀ m ∈ f.members, m.n1 = 1 ∨ m.n2 = 1 → m.nel = 1 ∧ m.steel = true) := by
  unfold UpToDate
  refine ⟨(FCmd.run angleFrame Frame.empty).toOption.getD Frame.empty, ?_, ?_, ?_, ?_, ?_⟩ <;> decide +kernel

/-- The same with beams of two elements. -/
def fineFrame : List (FCmd ℚ) :=
  [.node (.floats 0 0), .node (.floats 0 4), .node (.floats 6 4), .member 0 1 1 .column none true, .member 1 2 2 .beam none true, .generate]

example : ∃ f f' : Frame ℚ, FCmd.run fineFrame Frame.empty = .ok f ∧ UpToDate f ∧ f.nodes[2]? = some ⟨.floats 6 4, some 2⟩ ∧ moved true (8 : ℚ) (6, 4) ≠ (6, 4) ∧
    (∃ m, f.members[1]? = some m ∧ (m.n1 = 2 ∧ m.n2 ≠ 2 ∨ m.n1 ≠ 2 ∧ m.n2 = 2) ∧ 2 ≤ m.nel) ∧ f.move 2 true 8 = .ok f' ∧ f'.fem.nodes = [(0, 0), (0, 4), (8, 4), (3, 4)] := by
  unfold UpToDate
  refine ⟨(FCmd.run fineFrame Frame.empty).toOption.getD Frame.empty, (((FCmd.run fineFrame Frame.empty).toOption.bind (fun f => (f.move 2 true 8).toOption)).getD Frame.empty), ?_, ?_, ?_, ?_, ?_, ?_, ?_⟩
  case refine_5 => exact ⟨⟨1, 2, 2, .beam, 0, [(0, 4), (3, 4), (6, 4)], [1, 3, 2], [1, 2], true⟩, by decide +kernel, by decide, by decide⟩
  all_goals decide +kernel

/-- A frame whose nodes are given by integers, as in `FrameNode([0, 3])`. -/
def intFrame : List (FCmd ℚ) := [.node (.ints 0 0), .node (.ints 0 3), .member 0 1 1 .column none true, .generate]

example : ∃ f f' : Frame ℚ, FCmd.run intFrame Frame.empty = .ok f ∧ f.nodes[1]? = some ⟨.ints 0 3, some 1⟩ ∧ ((trunc (5 / 2 : ℚ) : ℤ) : ℚ) ≠ 5 / 2 ∧ f.setX 1 (5 / 2) = .ok f' ∧
    f'.posOf 1 = some (2, 3) ∧ f'.fem.nodes = [(0, 0), (5 / 2, 3)] := by
  refine ⟨(FCmd.run intFrame Frame.empty).toOption.getD Frame.empty, (((FCmd.run intFrame Frame.empty).toOption.bind (fun f => (f.setX 1 (5 / 2)).toOption)).getD Frame.empty), ?_, ?_, ?_, ?_, ?_, ?_⟩ <;> decide +kernel

/-! ### Hinges -/

/-- The rotation of the first node of an element is released by a hinge at the start of the member, and that of the second
node of the last element by a hinge at its end. -/
def wantedReleases (h : Bool × Bool) (i nel : ℕ) : List ℕ := (if h.1 = true ∧ i = 0 then [2] else []) ++ (if h.2 = true ∧ i + 1 = nel then [5] else [])

/-- The releases of the element `i` of a member, as the code sets them. -/
theorem releases_of {f f' : Frame K} (hf : Fresh f) (ht : ∀ m ∈ f.members, m.mtype ≠ .other) (hn : ∀ m ∈ f.members, 1 ≤ m.nel) (h : f.generateFem = .ok f') {j i : ℕ} {m : FMember K} (hj : f.members[j]? = some m) (hi : i < m.nel) :
    ∃ (m' : FMember K) (e : ℕ) (el : Elem), f'.members[j]? = some m' ∧ m'.femElements[i]? = some e ∧ f'.fem.elements[e]? = some el ∧
      el.releases = if (f.hingesOf m).2 = true ∧ i + 1 = m.nel then [5] else if (f.hingesOf m).1 = true ∧ i = 0 then [2] else [] := by
  rw [generateFem_ok (placed_of_fresh hf ht)] at h
  obtain rfl := Except.ok.inj h
  have hmem := List.mem_of_getElem? hj
  obtain ⟨p, q, -, -, e⟩ := hf m hmem
  have hil := nodalCoords_inner_length p q _ m e
  have h1 := hn m hmem
  obtain ⟨x, y, -, -, hel⟩ := elems_get m (f.hingesOf m) (f.nodes.length + before f.members j) i (by omega)
  have hel2 := (elemsAll_get f.hingesOf f.members f.nodes.length j i m hj (by omega)).trans hel
  have hg : (finishAll f.members f.nodes.length 0)[j]? = some (m.finish (f.nodes.length + before f.members j) (before f.members j + j)) := by
    rw [finishAll_get _ _ _ _ _ hj, Nat.zero_add]
  refine ⟨_, before f.members j + j + i, _, hg, ?_, hel2, ?_⟩
  · show (List.range' _ _)[i]? = _
    rw [List.getElem?_range' (by omega)]
    simp
  · have : (i = m.inner.length) ↔ i + 1 = m.nel := by omega
    simp only [this]
    split_ifs <;> rfl

/-- C190 (partial): a member with two or more elements, or with a hinge at one end at most, has its hinges in the FEM model exactly where they are. -/
theorem C190_partial (cs : List (FCmd K)) {f f' : Frame K} (h : FCmd.run cs Frame.empty = .ok f) (ht : ∀ m ∈ f.members, m.mtype ≠ .other) (hn : ∀ m ∈ f.members, 1 ≤ m.nel) (hg : f.generateFem = .ok f')
    {j i : ℕ} {m : FMember K} (hj : f.members[j]? = some m) (hi : i < m.nel) (hm : 2 ≤ m.nel ∨ f.hingesOf m ≠ (true, true)) :
    ∃ (m' : FMember K) (e : ℕ) (el : Elem), f'.members[j]? = some m' ∧ m'.femElements[i]? = some e ∧ f'.fem.elements[e]? = some el ∧ el.releases = wantedReleases (f.hingesOf m) i m.nel := by
  obtain ⟨m', e, el, h1, h2, h3, h4⟩ := releases_of (fresh_run cs fresh_empty h) ht hn hg hj hi
  refine ⟨m', e, el, h1, h2, h3, ?_⟩
  rw [h4]
  unfold wantedReleases
  revert hm
  generalize f.hingesOf m = hh
  obtain ⟨a, b⟩ := hh
  intro hm
  cases a <;> cases b <;> simp only [Bool.false_eq_true, false_and, if_false, true_and, List.nil_append, List.append_nil]
  have hm : 2 ≤ m.nel := hm.resolve_right (fun hc => hc rfl)
  by_cases h0 : i = 0
  · rw [if_neg (by omega), if_pos h0, if_neg (by omega), List.append_nil]
  · rw [if_neg h0]
    rfl

/-- C190 (violation): a member of one element with hinges at both ends has only the hinge at its end in the FEM model. -/
theorem C190_violation_both (cs : List (FCmd K)) {f f' : Frame K} (h : FCmd.run cs Frame.empty = .ok f) (ht : ∀ m ∈ f.members, m.mtype ≠ .other) (hn : ∀ m ∈ f.members, 1 ≤ m.nel) (hg : f.generateFem = .ok f')
    {j : ℕ} {m : FMember K} (hj : f.members[j]? = some m) (h1 : m.nel = 1) (hm : f.hingesOf m = (true, true)) :
    ∃ (m' : FMember K) (e : ℕ) (el : Elem), f'.members[j]? = some m' ∧ m'.femElements[0]? = some e ∧ f'.fem.elements[e]? = some el ∧ el.releases = [5] ∧ wantedReleases (f.hingesOf m) 0 m.nel = [2, 5] := by
  obtain ⟨m', e, el, a, b, c, d⟩ := releases_of (fresh_run cs fresh_empty h) ht hn hg hj (show 0 < m.nel by omega)
  refine ⟨m', e, el, a, b, c, ?_, ?_⟩
  · rw [d, hm, h1]; rfl
  · unfold wantedReleases
    rw [hm, h1]; rfl

/-- The members made with a list of hinges of their own have lists of their own, and the others have the list made with the class. -/
def Lists (f : Frame K) : Prop := (∀ m ∈ f.members, m.hinges < f.hinges.length) ∧ ∀ (j j' : ℕ) (m m' : FMember K), f.members[j]? = some m → f.members[j']? = some m' → m.hinges = m'.hinges → m.hinges ≠ 0 → j = j'

theorem lists_empty : Lists (Frame.empty : Frame K) := ⟨fun m hm => absurd hm (by simp [Frame.empty]), fun j j' m m' hj => absurd hj (by simp [Frame.empty])⟩

theorem lists_of_map {f f' : Frame K} (hf : Lists f) (hh : f'.hinges.length = f.hinges.length) (hm : ∀ j : ℕ, (f'.members[j]?).map FMember.hinges = (f.members[j]?).map FMember.hinges) : Lists f' := by
  have key : ∀ (j : ℕ) (m : FMember K), f'.members[j]? = some m → ∃ m0, f.members[j]? = some m0 ∧ m0.hinges = m.hinges := by
    intro j m hj
    have := hm j
    rw [hj, Option.map_some] at this
    obtain ⟨m0, a, b⟩ := Option.map_eq_some_iff.mp this.symm
    exact ⟨m0, a, b⟩
  refine ⟨fun m hmm => ?_, fun j j' m m' hj hj' he h0 => ?_⟩
  · obtain ⟨j, hj⟩ := List.getElem?_of_mem hmm
    obtain ⟨m0, h0, e⟩ := key j m hj
    rw [hh, ← e]
    exact hf.1 m0 (List.mem_of_getElem? h0)
  · obtain ⟨a, ha, ea⟩ := key j m hj
    obtain ⟨b, hb, eb⟩ := key j' m' hj'
    exact hf.2 j j' a b ha hb (by rw [ea, eb]; exact he) (by rw [ea]; exact h0)

theorem lists_append {f : Frame K} (hf : Lists f) (m : FMember K) (hs : List (Bool × Bool)) (hm : m.hinges = 0 ∧ f.hinges ≠ [] ∨ m.hinges = f.hinges.length ∧ hs ≠ []) :
    Lists { f with members := f.members ++ [m], hinges := f.hinges ++ hs } := by
  have split : ∀ (j : ℕ) (x : FMember K), (f.members ++ [m])[j]? = some x → f.members[j]? = some x ∨ j = f.members.length ∧ x = m := by
    intro j x hx
    rcases lt_or_ge j f.members.length with h | h
    · rw [List.getElem?_append_left h] at hx
      exact Or.inl hx
    · rw [List.getElem?_append_right h] at hx
      have := (List.getElem?_eq_some_iff.mp hx).1
      have h0 : j - f.members.length = 0 := by simpa using this
      rw [h0] at hx
      exact Or.inr ⟨by omega, (Option.some.inj hx).symm⟩
  refine ⟨fun x hx => ?_, fun j j' x x' hj hj' he h0 => ?_⟩
  · simp only [List.length_append]
    rcases List.mem_append.mp hx with h | h
    · have := hf.1 x h
      omega
    · rw [List.mem_singleton] at h
      subst h
      rcases hm with ⟨e, hn⟩ | ⟨e, hn⟩
      · have := List.length_pos_of_ne_nil hn
        omega
      · have := List.length_pos_of_ne_nil hn
        omega
  · rcases split j x hj with a | ⟨a, ra⟩ <;> rcases split j' x' hj' with b | ⟨b, rb⟩
    · exact hf.2 j j' x x' a b he h0
    · subst rb
      have := hf.1 x (List.mem_of_getElem? a)
      rcases hm with ⟨e, hn⟩ | ⟨e, hn⟩ <;> omega
    · subst ra
      have := hf.1 x' (List.mem_of_getElem? b)
      rcases hm with ⟨e, hn⟩ | ⟨e, hn⟩ <;> omega
    · omega

theorem generateElements_hinges {g g' : Frame K} {j : ℕ} (h : g.generateElements j = .ok g') : g'.hinges = g.hinges ∧ ∀ k : ℕ, (g'.members[k]?).map FMember.hinges = (g.members[k]?).map FMember.hinges := by
  unfold Frame.generateElements at h
  cases hj : g.members[j]? with
  | none => rw [hj] at h; cases h
  | some m =>
    rw [hj] at h
    simp only at h
    cases h1 : (g.nodes[m.n1]?).bind FNode.femNode with
    | none => rw [h1] at h; cases h
    | some a =>
      cases h2 : (g.nodes[m.n2]?).bind FNode.femNode with
      | none => rw [h1, h2] at h; cases h
      | some b =>
        rw [h1, h2] at h
        simp only at h
        cases hb : m.mtype.beam? with
        | none => rw [hb] at h; cases h
        | some be =>
          rw [hb] at h
          obtain rfl := Except.ok.inj h
          refine ⟨rfl, fun k => ?_⟩
          simp only [List.getElem?_set]
          obtain ⟨hlt, he⟩ := List.getElem?_eq_some_iff.mp hj
          by_cases hk : j = k
          · subst hk
            rw [if_pos rfl, if_pos hlt, hj]
            rfl
          · rw [if_neg hk]

theorem generateFold_hinges : ∀ (l : List ℕ) {g g' : Frame K}, l.foldlM (fun g j => g.generateElements j) g = .ok g' → g'.hinges = g.hinges ∧ ∀ k : ℕ, (g'.members[k]?).map FMember.hinges = (g.members[k]?).map FMember.hinges
  | [], g, g', h => by
    rw [List.foldlM_nil] at h
    obtain rfl := Except.ok.inj h
    exact ⟨rfl, fun k => rfl⟩
  | j :: l, g, g', h => by
    rw [List.foldlM_cons] at h
    cases hj : g.generateElements j with
    | error e => rw [hj] at h; cases h
    | ok g1 =>
      rw [hj] at h
      obtain ⟨a1, a2⟩ := generateElements_hinges hj
      obtain ⟨b1, b2⟩ := generateFold_hinges l (show l.foldlM (fun g j => g.generateElements j) g1 = .ok g' from h)
      exact ⟨b1.trans a1, fun k => (b2 k).trans (a2 k)⟩

theorem hinges_ne_nil_step {f f' : Frame K} (c : FCmd K) (h : c.step f = .ok f') (hf : Lists f ∧ f.hinges ≠ []) : Lists f' ∧ f'.hinges ≠ [] := by
  obtain ⟨hf, hne⟩ := hf
  have upd : ∀ (g g' : Frame K) (i : ℕ), g.hinges = f.hinges → g.members = f.members → g.updateMembers i = .ok g' → Lists g' ∧ g'.hinges ≠ [] := by
    intro g g' i h1 h2 h3
    obtain ⟨⟨-, -, -, a4⟩, b⟩ := updateFold _ h3
    refine ⟨lists_of_map hf (by rw [a4, h1]) (fun j => ?_), by rw [a4, h1]; exact hne⟩
    rw [b j, h2]
    split_ifs
    · rw [Option.map_map]
      congr 1
      funext m
      show (g.recalculate m).hinges = m.hinges
      unfold Frame.recalculate
      split <;> rfl
    · rfl
  cases c with
  | node c => obtain rfl := Except.ok.inj h; exact ⟨hf, hne⟩
  | member n1 n2 nel t hs s =>
    simp only [FCmd.step, Frame.addMember] at h
    cases h1 : f.posOf n1 with
    | none => rw [h1] at h; cases h
    | some p =>
      cases h2 : f.posOf n2 with
      | none => rw [h1, h2] at h; cases h
      | some q =>
        rw [h1, h2] at h
        simp only at h
        cases hs with
        | none =>
          obtain rfl := Except.ok.inj h
          have := lists_append hf ⟨n1, n2, nel, t, 0, nodalCoords p q nel, [], [], s⟩ [] (Or.inl ⟨rfl, hne⟩)
          rw [List.append_nil] at this
          exact ⟨this, hne⟩
        | some x =>
          obtain rfl := Except.ok.inj h
          exact ⟨lists_append hf ⟨n1, n2, nel, t, f.hinges.length, nodalCoords p q nel, [], [], s⟩ [x] (Or.inr ⟨rfl, by simp⟩), by simp⟩
  | support n d => obtain rfl := Except.ok.inj h; exact ⟨hf, hne⟩
  | hinge m l =>
    obtain rfl := Except.ok.inj h
    unfold Frame.addHinge
    cases f.members[m]? with
    | none => exact ⟨hf, hne⟩
    | some x =>
      refine ⟨lists_of_map hf (by simp) (fun j => rfl), ?_⟩
      simp only
      intro hc
      have := congrArg List.length hc
      rw [List.length_modify] at this
      exact hne (List.length_eq_zero_iff.mp this)
  | generate =>
    simp only [FCmd.step] at h
    unfold Frame.generateFem at h
    simp only at h
    cases hg : (List.range f.members.length).foldlM (fun g j => g.generateElements j) f.clearFem.makeNodes with
    | error e => rw [hg] at h; cases h
    | ok g =>
      rw [hg] at h
      obtain rfl := Except.ok.inj h
      obtain ⟨h1, h2⟩ := generateFold_hinges _ hg
      refine ⟨lists_of_map hf (congrArg List.length h1) (fun j => ?_), ?_⟩
      · refine (h2 j).trans ?_
        simp only [Frame.makeNodes, Frame.clearFem, List.getElem?_map, Option.map_map]
        rfl
      · show g.hinges ≠ []
        rw [h1]
        exact hne
  | setX i v =>
    simp only [FCmd.step, Frame.setX] at h
    cases hi : f.nodes[i]? with
    | none => rw [hi] at h; cases h
    | some n =>
      rw [hi] at h
      exact upd _ _ i (by rfl) (by rfl) h
  | setY i v =>
    simp only [FCmd.step, Frame.setY] at h
    cases hi : f.nodes[i]? with
    | none => rw [hi] at h; cases h
    | some n =>
      rw [hi] at h
      exact upd _ _ i (by rfl) (by rfl) h

theorem lists_run : ∀ (cs : List (FCmd K)) {f f' : Frame K}, Lists f ∧ f.hinges ≠ [] → FCmd.run cs f = .ok f' → Lists f' ∧ f'.hinges ≠ []
  | [], f, f', hf, h => by obtain rfl := Except.ok.inj h; exact hf
  | c :: cs, f, f', hf, h => by
    rw [FCmd.run] at h
    cases hc : c.step f with
    | error e => rw [hc] at h; cases h
    | ok g =>
      rw [hc] at h
      exact lists_run cs (hinges_ne_nil_step c hc hf) h

/-- C190 (partial): `add_hinge` adds a hinge to the member, and to no other member unless both were made without the
argument `hinges`. -/
theorem C190_partial_add (cs : List (FCmd K)) {f : Frame K} (h : FCmd.run cs Frame.empty = .ok f) {j j' l : ℕ} {m m' : FMember K} (hj : f.members[j]? = some m) (hj' : f.members[j']? = some m') :
    (f.addHinge j l).hingesOf m = (if l = 0 then (true, (f.hingesOf m).2) else ((f.hingesOf m).1, true)) ∧
    (j' ≠ j → m.hinges ≠ 0 → (f.addHinge j l).hingesOf m' = f.hingesOf m') := by
  have hf := (lists_run cs ⟨lists_empty, by simp [Frame.empty]⟩ h).1
  have hlt := hf.1 m (List.mem_of_getElem? hj)
  have e : (f.addHinge j l) = { f with hinges := f.hinges.modify m.hinges (fun h => if l = 0 then (true, h.2) else (h.1, true)) } := by
    unfold Frame.addHinge
    rw [hj]
  rw [e]
  constructor
  · unfold Frame.hingesOf
    simp only [List.getElem?_modify, if_true, List.getElem?_eq_getElem hlt]
    rfl
  · intro hne h0
    have : m.hinges ≠ m'.hinges := fun hh => hne (hf.2 j j' m m' hj hj' hh h0).symm
    unfold Frame.hingesOf
    simp only [List.getElem?_modify, if_neg this]
    cases f.hinges[m'.hinges]? <;> rfl

/-- C190 (violation): two members made without the argument `hinges` share their hinges: a hinge added to the first one is a hinge of
the other one too, whatever was done to the frame before. -/
theorem C190_violation_shared (cs : List (FCmd K)) {f f1 f2 : Frame K} (h : FCmd.run cs Frame.empty = .ok f) (a b c d n n' : ℕ) (t t' : MType) (s s' : Bool)
    (h1 : f.addMember a b n t none s = .ok f1) (h2 : f1.addMember c d n' t' none s' = .ok f2) (l : ℕ) :
    ∃ m, f2.members[f.members.length + 1]? = some m ∧ m.n1 = c ∧ m.n2 = d ∧
      (f2.addHinge f.members.length l).hingesOf m = if l = 0 then (true, (f2.hingesOf m).2) else ((f2.hingesOf m).1, true) := by
  have hne := (lists_run cs ⟨lists_empty, by simp [Frame.empty]⟩ h).2
  unfold Frame.addMember at h1 h2
  cases p1 : f.posOf a with
  | none => rw [p1] at h1; cases h1
  | some p =>
    cases p2 : f.posOf b with
    | none => rw [p1, p2] at h1; cases h1
    | some q =>
      rw [p1, p2] at h1
      obtain rfl := Except.ok.inj h1
      cases q1 : Frame.posOf { f with members := f.members ++ [⟨a, b, n, t, 0, nodalCoords p q n, [], [], s⟩] } c with
      | none => rw [q1] at h2; cases h2
      | some r =>
        cases q2 : Frame.posOf { f with members := f.members ++ [⟨a, b, n, t, 0, nodalCoords p q n, [], [], s⟩] } d with
        | none => rw [q1, q2] at h2; cases h2
        | some w =>
          rw [q1, q2] at h2
          obtain rfl := Except.ok.inj h2
          obtain ⟨x, xs, hx⟩ := List.exists_cons_of_ne_nil hne
          refine ⟨⟨c, d, n', t', 0, nodalCoords r w n', [], [], s'⟩, by simp, rfl, rfl, ?_⟩
          unfold Frame.addHinge Frame.hingesOf
          simp [hx]

/-- The two columns of a frame with a hinge added to the foot of the first one: the FEM model has a hinge at the foot of both. -/
example : ∃ f f' : Frame ℚ, FCmd.run [.node (.floats 0 0), .node (.floats 0 4), .node (.floats 6 0), .node (.floats 6 4), .member 0 1 2 .column none true, .member 2 3 2 .column none true, .hinge 0 0] Frame.empty = .ok f ∧
    f.generateFem = .ok f' ∧ f'.fem.elements.map Elem.releases = [[2], [], [2], []] := by
  refine ⟨(FCmd.run [.node (.floats 0 0), .node (.floats 0 4), .node (.floats 6 0), .node (.floats 6 4), .member 0 1 2 .column none true, .member 2 3 2 .column none true, .hinge 0 0] Frame.empty).toOption.getD Frame.empty,
    (((FCmd.run [.node (.floats 0 0), .node (.floats 0 4), .node (.floats 6 0), .node (.floats 6 4), .member 0 1 2 .column none true, .member 2 3 2 .column none true, .hinge 0 0] Frame.empty).toOption.bind
      (fun f => f.generateFem.toOption)).getD Frame.empty), ?_, ?_, ?_⟩ <;> decide +kernel

end Metku.Raami
