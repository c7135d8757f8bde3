import Verif.Props.RaamiNodes
import Mathlib.Data.Rat.Floor

/-! C188: the FEM model a `Raami` frame generates. -/
namespace Metku.Raami

set_option linter.unusedSectionVars false

variable {K : Type} [Field K] [LinearOrder K] [IsStrictOrderedRing K] [FloorRing K]

theorem placed_of_fresh {f : Frame K} (hf : Fresh f) (ht : ∀ m ∈ f.members, m.mtype ≠ .other) : ∀ m ∈ f.members, Placed f.nodes.length m := by
  intro m hm
  obtain ⟨p, q, a, b, -⟩ := hf m hm
  exact ⟨lt_of_posOf a, lt_of_posOf b, ht m hm⟩

theorem finishAll_length : ∀ (ms : List (FMember K)) (o e : ℕ), (finishAll ms o e).length = ms.length
  | [], _, _ => rfl
  | a :: ms, o, e => by rw [finishAll, List.length_cons, List.length_cons, finishAll_length ms]

theorem finishAll_again : ∀ (ms : List (FMember K)) (o e o' e' : ℕ), finishAll (finishAll ms o e) o' e' = finishAll ms o' e'
  | [], _, _, _, _ => rfl
  | a :: ms, o, e, o', e' => by
    rw [finishAll, finishAll, finishAll, finishAll_again ms]
    rfl

theorem elemsAll_again (hs : FMember K → Bool × Bool) (hh : ∀ (m : FMember K) o e, hs (m.finish o e) = hs m) : ∀ (ms : List (FMember K)) (o e o' : ℕ), elemsAll hs (finishAll ms o e) o' = elemsAll hs ms o'
  | [], _, _, _ => rfl
  | a :: ms, o, e, o' => by
    rw [finishAll, elemsAll, elemsAll, elemsAll_again hs hh ms, hh]
    rfl

theorem inner_again : ∀ (ms : List (FMember K)) (o e : ℕ), (finishAll ms o e).flatMap FMember.inner = ms.flatMap FMember.inner
  | [], _, _ => rfl
  | a :: ms, o, e => by
    rw [finishAll, List.flatMap_cons, List.flatMap_cons, inner_again ms]
    rfl

theorem generate_again {f f' : Frame K} (hf : ∀ m ∈ f.members, Placed f.nodes.length m) (h : f.generateFem = .ok f') : f'.generateFem = .ok f' := by
  rw [generateFem_ok hf] at h
  obtain rfl := Except.ok.inj h
  rw [generateFem_ok]
  · simp only [finishAll_again, inner_again, List.length_mapIdx]
    have e1 : (f.nodes.mapIdx (fun i n => ({ n with femNode := some i } : FNode K))).mapIdx (fun i n => ({ n with femNode := some i } : FNode K)) = f.nodes.mapIdx (fun i n => ({ n with femNode := some i } : FNode K)) := by
      rw [List.mapIdx_mapIdx]
      rfl
    have e2 : (f.nodes.mapIdx (fun i n => ({ n with femNode := some i } : FNode K))).map (fun n => n.coords.pos) = f.nodes.map (fun n => n.coords.pos) := by
      apply List.ext_getElem?
      intro i
      simp only [List.getElem?_map, List.getElem?_mapIdx, Option.map_map]
      rfl
    rw [e1, e2]
    congr 3
    exact elemsAll_again f.hingesOf (fun m o e => rfl) f.members _ _ _
  · intro m hm
    obtain ⟨m', hm', o, e, rfl⟩ := finishAll_mem _ _ _ _ hm
    have := hf m' hm'
    simp only [List.length_mapIdx]
    exact this

theorem along_zero (p q : K × K) : along p q 0 = p := by simp [along]
theorem along_one (p q : K × K) : along p q 1 = q := by simp [along]

/-- The position of the point that divides the distance from `p` to `q` in the ratio `i : n - i`. -/
def divide (p q : K × K) (i n : ℕ) : K × K := (((n - i : ℕ) : K) / n * p.1 + (i : K) / n * q.1, ((n - i : ℕ) : K) / n * p.2 + (i : K) / n * q.2)

theorem along_eq_divide (p q : K × K) {i n : ℕ} (h : i ≤ n) (hn : 1 ≤ n) : along p q ((i : K) / n) = divide p q i n := by
  unfold along divide
  rw [Nat.cast_sub h]
  have : (n : K) ≠ 0 := by positivity
  ext <;> field_simp <;> ring

/-- What the FEM model of a frame is, in terms of the frame. -/
structure GoodFem (f f' : Frame K) : Prop where
  /-- Every node of the frame stays where it is, and has a FEM node there. -/
  node : ∀ (i : ℕ) (p : K × K), f.posOf i = some p → f'.posOf i = some p ∧ (f'.nodes[i]?).bind FNode.femNode = some i ∧ f'.fem.nodes[i]? = some p
  /-- The FEM node has the coordinates that were given for the node. -/
  coords : ∀ (i : ℕ) (k : Option ℕ), (∀ x y : K, f.nodes[i]? = some ⟨.floats x y, k⟩ → f'.fem.nodes[i]? = some (x, y)) ∧
    ∀ x y : ℤ, f.nodes[i]? = some ⟨.ints x y, k⟩ → f'.fem.nodes[i]? = some ((x : K), (y : K))
  /-- Every member is a chain of `nel` elements from its first to its second node, with nodes at equal distances. -/
  member : ∀ (j : ℕ) (m : FMember K), f.members[j]? = some m → ∃ (m' : FMember K) (p q : K × K), f'.members[j]? = some m' ∧ m'.n1 = m.n1 ∧ m'.n2 = m.n2 ∧
    f.posOf m.n1 = some p ∧ f.posOf m.n2 = some q ∧
    m'.femNodes.length = m.nel + 1 ∧ m'.femNodes[0]? = some m.n1 ∧ m'.femNodes[m.nel]? = some m.n2 ∧
    (∀ i ≤ m.nel, ∃ k, m'.femNodes[i]? = some k ∧ f'.fem.nodes[k]? = some (divide p q i m.nel)) ∧
    m'.femElements.length = m.nel ∧
    ∀ i < m.nel, ∃ (e : ℕ) (el : Elem), m'.femElements[i]? = some e ∧ f'.fem.elements[e]? = some el ∧ m'.femNodes[i]? = some el.n1 ∧ m'.femNodes[i + 1]? = some el.n2 ∧
      (el.beam = true ↔ m.mtype ≠ .bar ∧ m.mtype ≠ .brace)
  /-- There is nothing else. -/
  nodes : f'.fem.nodes.length = f.nodes.length + (f.members.map (fun m => m.nel - 1)).sum
  elements : f'.fem.elements.length = (f.members.map (fun m => m.nel)).sum
  supports : ∀ s, s ∈ f'.fem.supports ↔ s ∈ f.supports ∧ s.1 < f.nodes.length
  /-- Only ends of members are shared: a node inside a member is not a node of another member or of the frame. -/
  inside : ∀ (j j' : ℕ) (m m' g g' : FMember K), f.members[j]? = some m → f.members[j']? = some m' → f'.members[j]? = some g → f'.members[j']? = some g' →
    ∀ (i i' k : ℕ), 0 < i → i < m.nel → g.femNodes[i]? = some k → g'.femNodes[i']? = some k → j = j' ∧ i = i'
  outside : ∀ (j : ℕ) (m g : FMember K), f.members[j]? = some m → f'.members[j]? = some g → ∀ (i k : ℕ), 0 < i → i < m.nel → g.femNodes[i]? = some k → f.nodes.length ≤ k
  element : ∀ (j j' : ℕ) (g g' : FMember K), f'.members[j]? = some g → f'.members[j']? = some g' →
    ∀ (i i' e : ℕ), g.femElements[i]? = some e → g'.femElements[i']? = some e → j = j' ∧ i = i'

theorem before_add_lt {ms : List (FMember K)} {j j' : ℕ} {m : FMember K} (h : ms[j]? = some m) (hj : j < j') : before ms j + m.inner.length ≤ before ms j' := by
  rw [← before_succ h]
  exact before_mono ms hj

/-- The FEM model of a frame with fresh members. -/
theorem goodFem {f : Frame K} (hf : Fresh f) (ht : ∀ m ∈ f.members, m.mtype ≠ .other) (hn : ∀ m ∈ f.members, 1 ≤ m.nel) : ∃ f', f.generateFem = .ok f' ∧ GoodFem f f' := by
  refine ⟨_, generateFem_ok (placed_of_fresh hf ht), ?_⟩
  have hil : ∀ m ∈ f.members, m.inner.length = m.nel - 1 := by
    intro m hm
    obtain ⟨p, q, -, -, e⟩ := hf m hm
    exact nodalCoords_inner_length p q _ m e
  have hget : ∀ (j : ℕ) (m : FMember K), f.members[j]? = some m → (finishAll f.members f.nodes.length 0)[j]? = some (m.finish (f.nodes.length + before f.members j) (before f.members j + j)) := by
    intro j m hm
    rw [finishAll_get _ _ _ _ _ hm, Nat.zero_add]
  have hnode : ∀ (i : ℕ) (p : K × K), f.posOf i = some p → (f.nodes.map (fun n => n.coords.pos) ++ f.members.flatMap FMember.inner)[i]? = some p := by
    intro i p hp
    rw [List.getElem?_append_left (by rw [List.length_map]; exact lt_of_posOf hp), List.getElem?_map]
    exact hp
  refine ⟨?_, fun i k => ⟨fun x y h => hnode i (x, y) (by unfold Frame.posOf; rw [h]; rfl), fun x y h => hnode i ((x : K), (y : K)) (by unfold Frame.posOf; rw [h]; rfl)⟩, ?_, ?_, ?_, ?_, ?_, ?_, ?_⟩
  · intro i p hp
    refine ⟨?_, ?_, hnode i p hp⟩
    · unfold Frame.posOf at hp ⊢
      simp only [List.getElem?_mapIdx, Option.map_map]
      exact hp
    · simp only [List.getElem?_mapIdx]
      rw [List.getElem?_eq_getElem (lt_of_posOf hp)]
      rfl
  · intro j m hm
    have hmem := List.mem_of_getElem? hm
    obtain ⟨p, q, a, b, e⟩ := hf m hmem
    have h1 := hn m hmem
    have h2 := hil m hmem
    refine ⟨_, p, q, hget j m hm, rfl, rfl, a, b, ?_, ?_, ?_, ?_, ?_, ?_⟩
    · show (m.chain _).length = _
      rw [chain_length]; omega
    · show (m.chain _)[0]? = _
      rw [chain_get, if_pos rfl]
    · show (m.chain _)[m.nel]? = _
      rw [chain_get, if_neg (by omega), if_neg (by omega), if_pos (by omega)]
    · intro i hi
      show ∃ k, (m.chain _)[i]? = some k ∧ _
      rw [chain_get]
      by_cases h0 : i = 0
      · refine ⟨m.n1, by rw [if_pos h0], ?_⟩
        rw [hnode _ _ a, ← along_eq_divide p q hi h1, h0]
        simp [along_zero]
      · by_cases h3 : i ≤ m.inner.length
        · refine ⟨_, by rw [if_neg h0, if_pos h3], ?_⟩
          simp only
          rw [List.getElem?_append_right (by rw [List.length_map]; omega), List.length_map]
          rw [show f.nodes.length + before f.members j + (i - 1) - f.nodes.length = before f.members j + (i - 1) by omega]
          rw [inner_get f.members j (i - 1) m hm (by omega), nodalCoords_inner p q m.nel (i - 1) (by omega) m e, show i - 1 + 1 = i by omega, along_eq_divide p q hi h1]
        · have h4 : i = m.nel := by omega
          refine ⟨m.n2, by rw [if_neg h0, if_neg h3, if_pos (by omega)], ?_⟩
          rw [hnode _ _ b, ← along_eq_divide p q hi h1, h4, div_self (by positivity), along_one]
    · show (List.range' _ _).length = _
      rw [List.length_range']; omega
    · intro i hi
      obtain ⟨x, y, hx, hy, hel⟩ := elems_get m (f.hingesOf m) (f.nodes.length + before f.members j) i (by omega)
      have hel2 := (elemsAll_get f.hingesOf f.members f.nodes.length j i m hm (by omega)).trans hel
      refine ⟨before f.members j + j + i, _, ?_, hel2, ?_, ?_, ?_⟩
      · show (List.range' _ _)[i]? = _
        rw [List.getElem?_range' (by omega)]
        simp
      · show (m.chain _)[i]? = _
        rw [hx]; split_ifs <;> rfl
      · show (m.chain _)[i + 1]? = _
        rw [hy]; split_ifs <;> rfl
      · have ho := ht m hmem
        have : (m.mtype.beam?.getD true = true ↔ m.mtype ≠ .bar ∧ m.mtype ≠ .brace) := by
          cases hmt : m.mtype <;> simp [MType.beam?]
        split_ifs <;> exact this
  · show (f.nodes.map _ ++ f.members.flatMap FMember.inner).length = _
    rw [List.length_append, List.length_map, List.length_flatMap]
    congr 2
    exact List.map_congr_left hil
  · show (elemsAll _ _ _).length = _
    rw [elemsAll_length]
    congr 1
    apply List.map_congr_left
    intro m hm
    rw [hil m hm]
    have := hn m hm
    omega
  · intro s
    simp only [List.mem_filterMap]
    constructor
    · rintro ⟨t, ht, h⟩
      split_ifs at h with h1
      obtain rfl := Option.some.inj h
      exact ⟨ht, h1⟩
    · rintro ⟨h1, h2⟩
      exact ⟨s, h1, by rw [if_pos h2]⟩
  · intro j j' m m' g g' hm hm' hg hg' i i' k h0 hi hk hk'
    have e1 := hil m (List.mem_of_getElem? hm)
    have e2 := hil m' (List.mem_of_getElem? hm')
    have n1 := hn m (List.mem_of_getElem? hm)
    have n2 := hn m' (List.mem_of_getElem? hm')
    simp only at hg hg'
    rw [hget j m hm] at hg
    rw [hget j' m' hm'] at hg'
    obtain rfl := Option.some.inj hg
    obtain rfl := Option.some.inj hg'
    have hk1 : (m.chain (f.nodes.length + before f.members j))[i]? = some k := hk
    have hk2 : (m'.chain (f.nodes.length + before f.members j'))[i']? = some k := hk'
    rw [chain_get, if_neg (by omega), if_pos (by omega)] at hk1
    have hk1 := Option.some.inj hk1
    have hp := placed_of_fresh hf ht m' (List.mem_of_getElem? hm')
    rw [chain_get] at hk2
    split_ifs at hk2 with c1 c2 c3
    · have := Option.some.inj hk2
      have := hp.1
      omega
    · have hk2 := Option.some.inj hk2
      rcases lt_trichotomy j j' with hj | hj | hj
      · have := before_add_lt hm hj
        omega
      · subst hj
        exact ⟨rfl, by omega⟩
      · have := before_add_lt hm' hj
        omega
    · have := Option.some.inj hk2
      have := hp.2.1
      omega
  · intro j m g hm hg i k h0 hi hk
    have e1 := hil m (List.mem_of_getElem? hm)
    simp only at hg
    rw [hget j m hm] at hg
    obtain rfl := Option.some.inj hg
    have hk1 : (m.chain (f.nodes.length + before f.members j))[i]? = some k := hk
    rw [chain_get, if_neg (by omega), if_pos (by omega)] at hk1
    have hk1 := Option.some.inj hk1
    omega
  · intro j j' g g' hg hg' i i' e he he'
    simp only at hg hg'
    have hlj : j < f.members.length := by
      have := (List.getElem?_eq_some_iff.mp hg).1
      rwa [finishAll_length] at this
    have hlj' : j' < f.members.length := by
      have := (List.getElem?_eq_some_iff.mp hg').1
      rwa [finishAll_length] at this
    have hm : f.members[j]? = some f.members[j] := List.getElem?_eq_getElem hlj
    have hm' : f.members[j']? = some f.members[j'] := List.getElem?_eq_getElem hlj'
    rw [hget j _ hm] at hg
    rw [hget j' _ hm'] at hg'
    obtain rfl := Option.some.inj hg
    obtain rfl := Option.some.inj hg'
    have he1 : (List.range' (before f.members j + j) (f.members[j].inner.length + 1))[i]? = some e := he
    have he2 : (List.range' (before f.members j' + j') (f.members[j'].inner.length + 1))[i']? = some e := he'
    have l1 : i < f.members[j].inner.length + 1 := by
      have := (List.getElem?_eq_some_iff.mp he1).1
      rwa [List.length_range'] at this
    have l2 : i' < f.members[j'].inner.length + 1 := by
      have := (List.getElem?_eq_some_iff.mp he2).1
      rwa [List.length_range'] at this
    rw [List.getElem?_range' l1] at he1
    rw [List.getElem?_range' l2] at he2
    have he1 := Option.some.inj he1
    have he2 := Option.some.inj he2
    rcases lt_trichotomy j j' with hj | hj | hj
    · have := before_add_lt hm hj
      omega
    · subst hj
      exact ⟨rfl, by omega⟩
    · have := before_add_lt hm' hj
      omega

/-- C188: whatever was done to a frame before, also if a FEM model was made or nodes were moved, `generate_fem` makes the
model of the frame as it is now, and making it again changes nothing. -/
theorem C188 (cs : List (FCmd K)) {f : Frame K} (h : FCmd.run cs Frame.empty = .ok f) (ht : ∀ m ∈ f.members, m.mtype ≠ .other) (hn : ∀ m ∈ f.members, 1 ≤ m.nel) :
    ∃ f', f.generateFem = .ok f' ∧ GoodFem f f' ∧ f'.generateFem = .ok f' := by
  have hf := fresh_run cs fresh_empty h
  obtain ⟨f', h1, h2⟩ := goodFem hf ht hn
  exact ⟨f', h1, h2, generate_again (placed_of_fresh hf ht) h1⟩

/-- A reachable frame: a column, a beam of three elements and a brace; a node is moved after a first FEM model. -/
def portal : List (FCmd ℚ) :=
  [.node (.floats 0 0), .node (.floats 0 4), .node (.floats 6 4), .member 0 1 1 .column none true, .member 1 2 3 .beam (some (true, false)) true, .generate,
    .member 0 2 2 .brace none true, .support 0 [0, 1, 2], .setX 2 9, .hinge 0 1]

example : ∃ f f' : Frame ℚ, FCmd.run portal Frame.empty = .ok f ∧ (∀ m ∈ f.members, m.mtype ≠ .other) ∧ (∀ m ∈ f.members, 1 ≤ m.nel) ∧ f.generateFem = .ok f' ∧
    f'.fem = ⟨[(0, 0), (0, 4), (9, 4), (3, 4), (6, 4), (9 / 2, 2)],
      [⟨0, 1, true, [5]⟩, ⟨1, 3, true, [2]⟩, ⟨3, 4, true, []⟩, ⟨4, 2, true, []⟩, ⟨0, 5, false, []⟩, ⟨5, 2, false, [5]⟩], [(0, [0, 1, 2])]⟩ := by
  refine ⟨(FCmd.run portal Frame.empty).toOption.getD Frame.empty, ((FCmd.run portal Frame.empty).toOption.bind (fun f => f.generateFem.toOption)).getD Frame.empty, ?_, ?_, ?_, ?_, ?_⟩ <;> decide +kernel

end Metku.Raami
