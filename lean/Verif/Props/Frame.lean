import Verif.Props.FrameGen

/-! Nodes, elements, supports and point loads of a generated frame. -/
namespace Metku.Frame2D

open Metku.FrameSpec

set_option linter.unusedSectionVars false

variable {K : Type} [Field K] [LinearOrder K] [IsStrictOrderedRing K] [FloorRing K]

/-! ### What the later loops of `generate` leave alone -/

/-- Nodes and elements are the same. -/
def SameMesh (g g' : Fem K) : Prop := g'.coords = g.coords ∧ g'.place = g.place ∧ g'.elems = g.elems

theorem SameMesh.refl (g : Fem K) : SameMesh g g := ⟨rfl, rfl, rfl⟩

theorem SameMesh.trans {a b c : Fem K} (h1 : SameMesh a b) (h2 : SameMesh b c) : SameMesh a c :=
  ⟨h2.1.trans h1.1, h2.2.1.trans h1.2.1, h2.2.2.trans h1.2.2⟩

theorem addSupport_mesh (g : Fem K) (s : Support K) : SameMesh g (g.addSupport s) ∧ (g.addSupport s).pointLoads = g.pointLoads
    ∧ (g.addSupport s).lineLoads = g.lineLoads ∧ (g.addSupport s).cases = g.cases := by
  unfold Fem.addSupport
  split_ifs <;> exact ⟨⟨rfl, rfl, rfl⟩, rfl, rfl, rfl⟩

theorem addSupports_spec : ∀ (l : List (Support K)) (g : Fem K), SameMesh g (l.foldl Fem.addSupport g)
    ∧ (l.foldl Fem.addSupport g).supports = g.supports ++ (l.filter (fun s => s.coord ∈ g.coords)).map (fun s => (s.suppId, g.coords.idxOf s.coord, s.dofs))
    ∧ (l.foldl Fem.addSupport g).pointLoads = g.pointLoads ∧ (l.foldl Fem.addSupport g).lineLoads = g.lineLoads ∧ (l.foldl Fem.addSupport g).cases = g.cases
  | [], g => ⟨SameMesh.refl g, by simp, rfl, rfl, rfl⟩
  | s :: l, g => by
    obtain ⟨a1, a2, a3, a4⟩ := addSupport_mesh g s
    obtain ⟨b1, b2, b3, b4, b5⟩ := addSupports_spec l (g.addSupport s)
    rw [List.foldl_cons]
    refine ⟨a1.trans b1, ?_, b3.trans a2, b4.trans a3, b5.trans a4⟩
    rw [b2, a1.1]
    unfold Fem.addSupport
    by_cases h : s.coord ∈ g.coords
    · rw [if_pos h]
      simp [h]
    · rw [if_neg h]
      simp [h]

theorem noteCase_spec (g : Fem K) (i : ℕ) : SameMesh g (g.noteCase i) ∧ (g.noteCase i).supports = g.supports ∧ (g.noteCase i).pointLoads = g.pointLoads
    ∧ (g.noteCase i).lineLoads = g.lineLoads ∧ (g.noteCase i).cases = noteId g.cases i := by
  unfold Fem.noteCase noteId
  split_ifs <;> exact ⟨⟨rfl, rfl, rfl⟩, rfl, rfl, rfl, rfl⟩

theorem pointStep_spec (g : Fem K) (e : String × PointLoad K) : SameMesh g (pointStep g e) ∧ (pointStep g e).supports = g.supports
    ∧ (pointStep g e).lineLoads = g.lineLoads ∧ (pointStep g e).cases = noteId g.cases e.2.loadId
    ∧ (pointStep g e).pointLoads = g.pointLoads ++ (if e.2.coord ∈ g.coords then [(e.2.loadId, g.coords.idxOf e.2.coord, e.2.v, e.2.f)] else []) := by
  obtain ⟨a1, a2, a3, a4, a5⟩ := noteCase_spec (g.addPointLoad e.2) e.2.loadId
  have b : SameMesh g (g.addPointLoad e.2) ∧ (g.addPointLoad e.2).supports = g.supports ∧ (g.addPointLoad e.2).lineLoads = g.lineLoads
      ∧ (g.addPointLoad e.2).cases = g.cases
      ∧ (g.addPointLoad e.2).pointLoads = g.pointLoads ++ (if e.2.coord ∈ g.coords then [(e.2.loadId, g.coords.idxOf e.2.coord, e.2.v, e.2.f)] else []) := by
    unfold Fem.addPointLoad
    split_ifs with h
    · exact ⟨⟨rfl, rfl, rfl⟩, rfl, rfl, rfl, rfl⟩
    · exact ⟨⟨rfl, rfl, rfl⟩, rfl, rfl, rfl, by simp⟩
  unfold pointStep
  exact ⟨b.1.trans a1, a2.trans b.2.1, a4.trans b.2.2.1, a5.trans (by rw [b.2.2.2.1]), a3.trans b.2.2.2.2⟩

theorem pointSteps_spec : ∀ (l : List (String × PointLoad K)) (g : Fem K), SameMesh g (l.foldl pointStep g)
    ∧ (l.foldl pointStep g).supports = g.supports ∧ (l.foldl pointStep g).lineLoads = g.lineLoads
    ∧ (l.foldl pointStep g).cases = (l.map (fun e => e.2.loadId)).foldl noteId g.cases
    ∧ (l.foldl pointStep g).pointLoads = g.pointLoads ++ (l.filter (fun e => e.2.coord ∈ g.coords)).map (fun e => (e.2.loadId, g.coords.idxOf e.2.coord, e.2.v, e.2.f))
  | [], g => ⟨SameMesh.refl g, rfl, rfl, rfl, by simp⟩
  | e :: l, g => by
    obtain ⟨a1, a2, a3, a4, a5⟩ := pointStep_spec g e
    obtain ⟨b1, b2, b3, b4, b5⟩ := pointSteps_spec l (pointStep g e)
    rw [List.foldl_cons]
    refine ⟨a1.trans b1, b2.trans a2, b3.trans a3, ?_, ?_⟩
    · rw [b4, a4]; rfl
    · rw [b5, a1.1, a5]
      by_cases h : e.2.coord ∈ g.coords
      · simp [h]
      · simp [h]

/-- The values a line load writes, per element. -/
def lineEntries (l : LineLoad K) (elems : List ℕ) : List (ℕ × ℕ × K × K) :=
  (List.range elems.length).map (fun i => (l.loadId, elems.getD i 0, linspaceAt l.v0 l.v1 elems.length i, linspaceAt l.v0 l.v1 elems.length (i + 1)))

theorem lineLoadStep_spec {ms : List (Member K)} {g g' : Fem K} {l : LineLoad K} (h : lineLoadStep ms g l = .ok g') :
    SameMesh g g' ∧ g'.supports = g.supports ∧ g'.pointLoads = g.pointLoads ∧ g'.cases = noteId g.cases l.loadId
    ∧ ∃ m, ms[l.mem]? = some m ∧ g'.lineLoads = g.lineLoads ++ lineEntries l m.elems := by
  unfold lineLoadStep at h
  cases hm : ms[l.mem]? with
  | none => rw [hm] at h; cases h
  | some m =>
    rw [hm] at h
    simp only at h
    split_ifs at h with hc
    obtain rfl := Except.ok.inj h
    obtain ⟨a1, a2, a3, a4, a5⟩ := noteCase_spec (g.addLineLoad l m.elems) l.loadId
    exact ⟨⟨a1.1, a1.2.1, a1.2.2⟩, a2, a3, a5, m, rfl, a4⟩

theorem lineSteps_spec {ms : List (Member K)} : ∀ {ls : List (LineLoad K)} {g g' : Fem K}, ls.foldlM (lineLoadStep ms) g = .ok g' →
    SameMesh g g' ∧ g'.supports = g.supports ∧ g'.pointLoads = g.pointLoads ∧ g'.cases = (ls.map LineLoad.loadId).foldl noteId g.cases
    ∧ (∀ l ∈ ls, ∃ m, ms[l.mem]? = some m)
    ∧ g'.lineLoads = g.lineLoads ++ ls.flatMap (fun l => lineEntries l ((ms[l.mem]?.map Member.elems).getD []))
  | [], g, g', h => by
    obtain rfl := Except.ok.inj h
    exact ⟨SameMesh.refl _, rfl, rfl, rfl, by simp, by simp⟩
  | l :: ls, g, g', h => by
    rw [List.foldlM_cons] at h
    cases h1 : lineLoadStep ms g l with
    | error e => rw [h1] at h; cases h
    | ok g1 =>
      rw [h1] at h
      obtain ⟨a1, a2, a3, a4, m, hm, a5⟩ := lineLoadStep_spec h1
      obtain ⟨b1, b2, b3, b4, b5, b6⟩ := lineSteps_spec (g := g1) (g' := g') h
      refine ⟨a1.trans b1, b2.trans a2, b3.trans a3, ?_, ?_, ?_⟩
      · rw [b4, a4]; rfl
      · intro x hx
        rcases List.mem_cons.mp hx with rfl | hx
        · exact ⟨m, hm⟩
        · exact b5 x hx
      · rw [b6, a5, List.flatMap_cons, hm, List.append_assoc]
        rfl

theorem selfWeight_members (f f' : Frame K) (h : f.addSelfWeight false = .ok f') :
    f'.members = f.members.map (fun m : Member K => { m with selfWeight := true }) ∧ f'.supports = f.supports ∧ f'.pointLoads = f.pointLoads := by
  have hl : ∀ (l : List (LineLoad K)) (f : Frame K), (l.foldl Frame.addLineLoad f).members = f.members ∧ (l.foldl Frame.addLineLoad f).supports = f.supports
      ∧ (l.foldl Frame.addLineLoad f).pointLoads = f.pointLoads := by
    intro l
    induction l with
    | nil => exact fun f => ⟨rfl, rfl, rfl⟩
    | cons a l ih =>
      intro f
      rw [List.foldl_cons]
      exact ⟨(ih _).1, (ih _).2.1, (ih _).2.2⟩
  unfold Frame.addSelfWeight at h
  simp only [Bool.false_eq_true, if_false] at h
  obtain rfl := Except.ok.inj h
  have := hl (selfWeightLoads 0 f.members) f
  exact ⟨by simp only; rw [this.1], this.2.1, this.2.2⟩

/-- The steps of a generation. -/
theorem generate_steps {f f' : Frame K} {g : Fem K} {sw : Bool} (h : f.generate sw = .ok (f', g)) :
    ∃ ms gm, generateMembers f.members {} = .ok (ms, gm) ∧ SameMesh gm g
    ∧ g.supports = gm.supports ++ (f.supports.filter (fun s => s.coord ∈ gm.coords)).map (fun s => (s.suppId, gm.coords.idxOf s.coord, s.dofs))
    ∧ g.pointLoads = gm.pointLoads ++ (f.pointLoads.filter (fun e => e.2.coord ∈ gm.coords)).map (fun e => (e.2.loadId, gm.coords.idxOf e.2.coord, e.2.v, e.2.f))
    ∧ g.cases = ((f.pointLoads.map (fun e => e.2.loadId)) ++ f'.lineLoads.map (fun e => e.2.loadId)).foldl noteId gm.cases
    ∧ (∀ e ∈ f'.lineLoads, ∃ m, f'.members[e.2.mem]? = some m)
    ∧ g.lineLoads = gm.lineLoads ++ (f'.lineLoads.map Prod.snd).flatMap (fun l => lineEntries l ((f'.members[l.mem]?.map Member.elems).getD []))
    ∧ (∀ i : ℕ, f'.members[i]? = (ms[i]?).map (fun m : Member K => { m with selfWeight := sw || m.selfWeight }))
    ∧ (if sw then ({ f with members := ms } : Frame K).addSelfWeight false = .ok f' else f' = { f with members := ms }) := by
  unfold Frame.generate at h
  simp only [bind, Except.bind] at h
  cases hg : generateMembers f.members {} with
  | error e => rw [hg] at h; cases h
  | ok r =>
    obtain ⟨ms, gm⟩ := r
    rw [hg] at h
    simp only at h
    refine ⟨ms, gm, rfl, ?_⟩
    have key : ∀ (f1 : Frame K), (f1.lineLoads.map Prod.snd).foldlM (lineLoadStep f1.members) (f.pointLoads.foldl pointStep (f.supports.foldl Fem.addSupport gm)) = .ok g →
        SameMesh gm g ∧ g.supports = gm.supports ++ (f.supports.filter (fun s => s.coord ∈ gm.coords)).map (fun s => (s.suppId, gm.coords.idxOf s.coord, s.dofs))
        ∧ g.pointLoads = gm.pointLoads ++ (f.pointLoads.filter (fun e => e.2.coord ∈ gm.coords)).map (fun e => (e.2.loadId, gm.coords.idxOf e.2.coord, e.2.v, e.2.f))
        ∧ g.cases = ((f.pointLoads.map (fun e => e.2.loadId)) ++ f1.lineLoads.map (fun e => e.2.loadId)).foldl noteId gm.cases
        ∧ (∀ e ∈ f1.lineLoads, ∃ m, f1.members[e.2.mem]? = some m)
        ∧ g.lineLoads = gm.lineLoads ++ (f1.lineLoads.map Prod.snd).flatMap (fun l => lineEntries l ((f1.members[l.mem]?.map Member.elems).getD [])) := by
      intro f1 hf
      obtain ⟨a1, a2, a3, a4, a5⟩ := addSupports_spec f.supports gm
      obtain ⟨b1, b2, b3, b4, b5⟩ := pointSteps_spec f.pointLoads (f.supports.foldl Fem.addSupport gm)
      obtain ⟨c1, c2, c3, c4, c5, c6⟩ := lineSteps_spec hf
      refine ⟨a1.trans (b1.trans c1), ?_, ?_, ?_, ?_, ?_⟩
      · rw [c2, b2, a2]
      · rw [c3, b5, a3, a1.1]
      · rw [c4, b4, a5, List.foldl_append, List.map_map]
        rfl
      · intro e he
        exact c5 e.2 (List.mem_map_of_mem he)
      · rw [c6, b3, a4]
    cases sw with
    | false =>
      simp only [Bool.false_eq_true, if_false] at h
      cases hl : (f.lineLoads.map Prod.snd).foldlM (lineLoadStep ms) (f.pointLoads.foldl pointStep (f.supports.foldl Fem.addSupport gm)) with
      | error e =>
        rw [hl] at h
        cases h
      | ok g1 =>
        rw [hl] at h
        obtain ⟨rfl, rfl⟩ := Prod.mk.inj (Except.ok.inj h)
        have := key { f with members := ms } hl
        obtain ⟨k1, k2, k3, k4, k5, k6⟩ := this
        refine ⟨k1, k2, k3, k4, k5, k6, ?_, by simp⟩
        intro i
        cases ms[i]? with
        | none => rfl
        | some m => simp
    | true =>
      simp only [if_true] at h
      cases hw : Frame.addSelfWeight { f with members := ms } false with
      | error e => rw [hw] at h; cases h
      | ok f1 =>
        rw [hw] at h
        simp only at h
        cases hl : (f1.lineLoads.map Prod.snd).foldlM (lineLoadStep f1.members) (f.pointLoads.foldl pointStep (f.supports.foldl Fem.addSupport gm)) with
        | error e =>
          rw [hl] at h
          cases h
        | ok g1 =>
          rw [hl] at h
          obtain ⟨rfl, rfl⟩ := Prod.mk.inj (Except.ok.inj h)
          obtain ⟨k1, k2, k3, k4, k5, k6⟩ := key f1 hl
          refine ⟨k1, k2, k3, k4, k5, k6, ?_, by simp⟩
          have := (selfWeight_members _ _ hw).1
          intro i
          rw [this, List.getElem?_map]
          simp

theorem getElem?_idxOf {l : List (Pt K)} {p : Pt K} (h : p ∈ l) : l[l.idxOf p]? = some p := by
  have hi := List.idxOf_lt_length_of_mem h
  rw [List.getElem?_eq_getElem hi, List.getElem_idxOf]

/-- The elements of a member connect its consecutive nodes, one element for each pair. -/
def Connects (g : Fem K) (m : Member K) : Prop :=
  m.elems.length + 1 = m.nodes.length
  ∧ ∀ (j a b : ℕ), m.nodes[j]? = some a → m.nodes[j + 1]? = some b → ∃ e el, m.elems[j]? = some e ∧ g.elems[e]? = some el ∧ el.n1 = a ∧ el.n2 = b

/-- A member of the generated frame. -/
theorem frame_member {f f' : Frame K} {g : Fem K} {sw : Bool} (hf : Inv f) (h : f.generate sw = .ok (f', g)) {i : ℕ} {m : Member K} (hm : f.members[i]? = some m) :
    ∃ m', f'.members[i]? = some m'
    ∧ m' = { m with nodal := nodalOf m, nodes := m'.nodes, n1 := m'.nodes.head?, n2 := m'.n2, elems := m'.elems, built := true, selfWeight := m'.selfWeight }
    ∧ m'.nodes = (firsts [] (nodalOf m)).map g.coords.idxOf
    ∧ (∀ p ∈ nodalOf m, p ∈ g.coords)
    ∧ (m.mtype = .bar → ∃ a b l e, m'.nodes = a :: b :: l ∧ m'.elems = [e] ∧ g.elems[e]? = some { n1 := a, n2 := b, kind := .rod })
    ∧ (m.mtype ≠ .bar → Connects g m' ∧ ∀ (j a b : ℕ), m'.nodes[j]? = some a → m'.nodes[j + 1]? = some b → ∃ e, m'.elems[j]? = some e ∧ g.elems[e]? = some (elemAt m m'.nodes (j, a, b))) := by
  obtain ⟨ms, gm, hgm, ⟨mc, mp, me⟩, _, _, _, _, _, hmem, _⟩ := generate_steps h
  obtain ⟨_, _, _, _, _, _, hall⟩ := generateMembers_spec hf.1 hgm
  obtain ⟨m1, g1, g2, hm1, md, _, ⟨⟨c, hc⟩, ⟨e, he⟩⟩⟩ := hall i m hm
  rw [← mc] at hc
  rw [← me] at he
  have hidx : ∀ p ∈ nodalOf m, g.coords.idxOf p = g2.coords.idxOf p := fun p hp => by rw [hc]; exact idxOf_prefix (md.mem p hp)
  have hmemg : ∀ p ∈ nodalOf m, p ∈ g.coords := fun p hp => by rw [hc]; exact List.mem_append_left _ (md.mem p hp)
  have hlen : 0 < (nodalOf m).length := by
    unfold nodalOf
    rw [List.length_map, List.length_pos_iff]
    intro h0
    have := raw_head (m := m)
    rw [h0] at this
    cases this
  have hnodes : m1.nodes = (firsts [] (nodalOf m)).map g.coords.idxOf := by
    rw [md.nodes]
    have e1 : (nodalOf m).map g2.coords.idxOf = (nodalOf m).map g.coords.idxOf := List.map_congr_left (fun p hp => (hidx p hp).symm)
    rw [e1]
    refine firsts_map (acc := []) ?_
    intro x hx y hy hxy
    rw [List.nil_append] at hx hy
    have h1 := getElem?_idxOf (hmemg x hx)
    have h2 := getElem?_idxOf (hmemg y hy)
    rw [hxy, h2] at h1
    exact (Option.some.inj h1).symm
  refine ⟨{ m1 with selfWeight := sw || m1.selfWeight }, ?_, ?_, hnodes, hmemg, ?_, ?_⟩
  · rw [hmem i, hm1]
    rfl
  · rw [md.member]
  · intro hb
    obtain ⟨a, b, l, k1, k2, k3⟩ := md.bar hb
    refine ⟨a, b, l, g1.elems.length, k1, k2, ?_⟩
    rw [he, k3]
    simp
  · intro hb
    obtain ⟨k1, k2⟩ := md.chain hb
    have pos : 0 < m1.nodes.length := by
      rw [hnodes, List.length_map]
      cases hl : nodalOf m with
      | nil => rw [hl] at hlen; simp at hlen
      | cons a l =>
        have : a ∈ firsts [] (nodalOf m) := mem_firsts.mpr (Or.inr (by rw [hl]; simp))
        rw [hl] at this
        exact List.length_pos_of_mem this
    have key : ∀ (j a b : ℕ), m1.nodes[j]? = some a → m1.nodes[j + 1]? = some b → ∃ e, m1.elems[j]? = some e ∧ g.elems[e]? = some (elemAt m m1.nodes (j, a, b)) := by
      intro j a b ha hb'
      have hj : j + 1 < m1.nodes.length := (List.getElem?_eq_some_iff.mp hb').1
      refine ⟨g1.elems.length + j, ?_, ?_⟩
      · rw [k1, List.getElem?_map, List.getElem?_range (by omega)]
        rfl
      · have hp := pairs_get m1.nodes 0 j a b ha hb'
        have hp' : ((pairs 0 m1.nodes).map (elemAt m m1.nodes))[j]? = some (elemAt m m1.nodes (0 + j, a, b)) := by rw [List.getElem?_map, hp]; rfl
        rw [Nat.zero_add] at hp'
        have hjl := (List.getElem?_eq_some_iff.mp hp').1
        rw [he, k2, List.append_assoc, List.getElem?_append_right (by omega), Nat.add_sub_cancel_left, List.getElem?_append_left hjl]
        exact hp'
    refine ⟨⟨?_, ?_⟩, key⟩
    · simp only
      rw [k1, List.length_map, List.length_range]
      omega
    · intro j a b ha hb'
      obtain ⟨e', h1, h2⟩ := key j a b ha hb'
      exact ⟨e', _, h1, h2, rfl, rfl⟩

/-- The nodes of a generated frame. -/
theorem frame_nodes {f f' : Frame K} {g : Fem K} {sw : Bool} (hf : Inv f) (h : f.generate sw = .ok (f', g)) :
    g.coords.Nodup ∧ g.place = g.coords ∧ ∀ q ∈ g.coords, ∃ m ∈ f.members, q ∈ nodalOf m := by
  obtain ⟨ms, gm, hgm, ⟨mc, mp, me⟩, _⟩ := generate_steps h
  obtain ⟨_, _, k3, k4, _, k6, _⟩ := generateMembers_spec hf.1 hgm
  rw [mc, mp]
  refine ⟨k3 List.nodup_nil, k4 rfl, ?_⟩
  intro q hq
  rcases k6 q hq with h | h
  · cases h
  · exact h

theorem nodes_places {l : List (Pt K)} {c : List (Pt K)} (h : ∀ p ∈ l, p ∈ c) : (l.map c.idxOf).map (fun k => c[k]?) = l.map some := by
  rw [List.map_map]
  exact List.map_congr_left (fun p hp => getElem?_idxOf (h p hp))

/-- C169: however a frame is put together, after `generate` no two FEM nodes are at the same place, every node belongs to a member, and every member other than a bar whose additional points lie on it is a chain of elements from its start to its end: consecutive elements share a node, the nodes are all different, they never turn back, they lie within half a thousandth of the member, and every additional point has one. -/
theorem C169_partial {n : ℕ} {items : List (Item K)} {f f' : Frame K} {g : Fem K} {sw : Bool} (hx : ∀ x ∈ items, FreshItem x)
    (h1 : ({ num := n } : Frame K).addAll items = .ok f) (h2 : f.generate sw = .ok (f', g)) :
    g.place.Nodup
    ∧ (∀ k, k < g.place.length → ∃ m ∈ f'.members, k ∈ m.nodes)
    ∧ ∀ (i : ℕ) (m : Member K), f.members[i]? = some m → m.mtype ≠ .bar → Straight m →
        ∃ m' pts, f'.members[i]? = some m' ∧ m'.start = m.start ∧ m'.stop = m.stop
          ∧ Path (1 / 2000) m.start m.stop pts ∧ m'.nodes.map (fun k => g.place[k]?) = pts.map some
          ∧ (∀ p ∈ m.added, roundPt 3 p ∈ pts) ∧ Connects g m' := by
  have hf := (addAll_spec hx (inv_empty n) h1).1
  obtain ⟨n1, n2, n3⟩ := frame_nodes hf h2
  refine ⟨by rw [n2]; exact n1, ?_, ?_⟩
  · intro k hk
    rw [n2] at hk
    obtain ⟨m, hm, hq⟩ := n3 _ (List.getElem_mem hk)
    obtain ⟨i, hi, rfl⟩ := List.mem_iff_getElem.mp hm
    obtain ⟨m', a1, _, a3, _⟩ := frame_member hf h2 (List.getElem?_eq_getElem hi)
    refine ⟨m', List.mem_of_getElem? a1, ?_⟩
    rw [a3]
    refine List.mem_map.mpr ⟨_, mem_firsts.mpr (Or.inr hq), ?_⟩
    exact List.Nodup.idxOf_getElem n1 k hk
  · intro i m hm hb hs
    obtain ⟨m', a1, a2, a3, a4, _, a6⟩ := frame_member hf h2 hm
    have hr := hf.1 m (List.mem_of_getElem? hm)
    have hpath := nodal_path hr.d1 hr.d2 hr.ne hr.num hs
    refine ⟨m', firsts [] (nodalOf m), a1, by rw [a2], by rw [a2], ?_, ?_, ?_, (a6 hb).1⟩
    · have : (1 : K) / 2 / 10 ^ prec = 1 / 2000 := by unfold prec; norm_num
      rw [← this]
      exact hpath
    · rw [n2, a3]
      exact nodes_places (fun p hp => a4 p (by rcases mem_firsts.mp hp with h | h; cases h; exact h))
    · intro p hp
      exact mem_firsts.mpr (Or.inr (List.mem_map_of_mem (f := roundPt prec) (mem_rawNodal.mpr (Or.inl hp))))

/-- A bar that has an inner node is not carried through: its only element stops at an inner node. -/
theorem C169_violation_bar {n : ℕ} {items : List (Item K)} {f f' : Frame K} {g : Fem K} {sw : Bool} (hx : ∀ x ∈ items, FreshItem x)
    (h1 : ({ num := n } : Frame K).addAll items = .ok f) (h2 : f.generate sw = .ok (f', g)) {i : ℕ} {m : Member K} (hm : f.members[i]? = some m)
    (hb : m.mtype = .bar) (hs : Straight m) (hq : ∃ q ∈ nodalOf m, q ≠ m.start ∧ q ≠ m.stop) :
    ∃ m' e el p, f'.members[i]? = some m' ∧ m'.elems = [e] ∧ g.elems[e]? = some el ∧ g.place[el.n1]? = some m.start ∧ g.place[el.n2]? = some p ∧ p ≠ m.stop := by
  have hf := (addAll_spec hx (inv_empty n) h1).1
  obtain ⟨n1, n2, n3⟩ := frame_nodes hf h2
  obtain ⟨m', a1, a2, a3, a4, a5, _⟩ := frame_member hf h2 hm
  obtain ⟨a, b, l, e, b1, b2, b3⟩ := a5 hb
  have hr := hf.1 m (List.mem_of_getElem? hm)
  obtain ⟨ph, pl, pn, _, _⟩ := nodal_path hr.d1 hr.d2 hr.ne hr.num hs
  have hpl := nodes_places (l := firsts [] (nodalOf m)) (c := g.coords) (fun p hp => a4 p (by rcases mem_firsts.mp hp with h | h; cases h; exact h))
  rw [← a3, b1] at hpl
  obtain ⟨q, hqm, q1, q2⟩ := hq
  have hqf : q ∈ firsts [] (nodalOf m) := mem_firsts.mpr (Or.inr hqm)
  cases hl : firsts [] (nodalOf m) with
  | nil => rw [hl] at hqf; cases hqf
  | cons x t =>
    rw [hl] at ph pl pn hpl hqf
    obtain rfl := Option.some.inj ph
    cases t with
    | nil => exact absurd (List.mem_singleton.mp hqf) q1
    | cons y t =>
      simp only [List.map_cons, List.cons.injEq] at hpl
      refine ⟨m', e, _, y, a1, b2, b3, by rw [n2]; exact hpl.1, by rw [n2]; exact hpl.2.1, ?_⟩
      rintro rfl
      cases t with
      | nil =>
        rcases List.mem_cons.mp hqf with h | h
        · exact q1 h
        · exact q2 (List.mem_singleton.mp h)
      | cons z t =>
        have hlast : m.stop ∈ z :: t := by
          rw [List.getLast?_cons_cons, List.getLast?_cons_cons] at pl
          exact List.mem_of_getLast? pl
        rw [List.nodup_cons, List.nodup_cons] at pn
        exact pn.2.1 hlast

/-- A portal frame with supports and a load in the middle of the beam. -/
def portal : List (Item ℚ) :=
  [.member (Member.new (0, 0) (0, 6000) 4 .column none none 1), .member (Member.new (0, 6000) (8000, 6000) 4 .beam none none 1),
   .member (Member.new (8000, 0) (8000, 6000) 4 .column none none 1), .support (Support.new (0, 0) [0, 1, 2] 1), .support (Support.new (8000, 0) [0, 1] 1),
   .pointLoad { coord := (3000, 6000), v := [0, -5, 0], f := 1, loadId := 4 }, .lineLoad { mem := 1, v0 := -20, v1 := -20, f := 1, loadId := 4 }]

theorem fresh_of_decide {a b : Pt ℚ} {n : ℕ} {t : MType} {w : ℚ} (h : 0 < n ∧ roundPt prec a ≠ roundPt prec b) : Fresh (Member.new a b n t none none w) :=
  fresh_new t none none w h.1 h.2

theorem portal_fresh : ∀ x ∈ portal, FreshItem x := by
  intro x hx
  simp only [portal, List.mem_cons, List.not_mem_nil, or_false] at hx
  rcases hx with rfl | rfl | rfl | rfl | rfl | rfl | rfl
  · exact fresh_of_decide (by decide +kernel)
  · exact fresh_of_decide (by decide +kernel)
  · exact fresh_of_decide (by decide +kernel)
  all_goals trivial

/-- What can be seen of a generated frame: places of the nodes, nodes and elements of the members, ends of the elements, supports, point loads, line loads. -/
structure Seen where
  place : List (ℚ × ℚ)
  nodes : List (List ℕ)
  chains : List (List ℕ)
  ends : List (ℕ × ℕ)
  supports : List (ℕ × ℕ × List ℕ)
  pointLoads : List (ℕ × ℕ × List ℚ × ℚ)
  lineLoads : List (ℕ × ℕ × ℚ × ℚ)
  cases : List ℕ
  deriving DecidableEq

/-- Build and generate a frame. -/
def see (items : List (Item ℚ)) (n : ℕ) (sw : Bool) : Option Seen :=
  match ({ num := n } : Frame ℚ).addAll items with
  | .error _ => none
  | .ok f =>
    match f.generate sw with
    | .error _ => none
    | .ok r => some ⟨r.2.place, r.1.members.map Member.nodes, r.1.members.map Member.elems, r.2.elems.map (fun e => (e.n1, e.n2)), r.2.supports, r.2.pointLoads, r.2.lineLoads, r.2.cases⟩

/-- The portal frame is generated: 14 nodes, 13 elements, two supports and the load at node number 7. -/
example : (see portal 4 false).map (fun r => (r.place.length, r.ends.length, r.supports)) = some (14, 13, [(1, 0, [0, 1, 2]), (1, 10, [0, 1])]) := by decide +kernel

example : (see portal 4 false).map Seen.pointLoads = some [(4, 6, [0, -5, 0], 1)] := by decide +kernel

example : (see portal 4 false).map Seen.nodes = some [[0, 1, 2, 3, 4], [4, 5, 6, 7, 8, 9], [10, 11, 12, 13, 9]] := by decide +kernel

end Metku.Frame2D
