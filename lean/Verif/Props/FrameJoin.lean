import Verif.Props.Frame

/-! Members, supports and point loads that meet at a point of a frame. -/
namespace Metku.Frame2D

open Metku.FrameSpec

set_option linter.unusedSectionVars false

variable {K : Type} [Field K] [LinearOrder K] [IsStrictOrderedRing K] [FloorRing K]

/-- Every rounded point of a member has a node that belongs to the member. -/
theorem frame_point {f f' : Frame K} {g : Fem K} {sw : Bool} (hf : Inv f) (h : f.generate sw = .ok (f', g)) {i : ℕ} {m : Member K} (hm : f.members[i]? = some m)
    {p : Pt K} (hp : p ∈ rawNodal m) :
    ∃ m', f'.members[i]? = some m' ∧ m'.start = m.start ∧ m'.stop = m.stop ∧ roundPt prec p ∈ g.coords
      ∧ g.coords.idxOf (roundPt prec p) ∈ m'.nodes ∧ g.place[g.coords.idxOf (roundPt prec p)]? = some (roundPt prec p) := by
  obtain ⟨m', a1, a2, a3, a4, _, _⟩ := frame_member hf h hm
  have hq : roundPt prec p ∈ nodalOf m := List.mem_map_of_mem hp
  refine ⟨m', a1, by rw [a2], by rw [a2], a4 _ hq, ?_, ?_⟩
  · rw [a3]
    exact List.mem_map_of_mem (mem_firsts.mpr (Or.inr hq))
  · rw [(frame_nodes hf h).2.1]
    exact getElem?_idxOf (a4 _ hq)

theorem start_mem_raw (m : Member K) : m.start ∈ rawNodal m := mem_rawNodal.mpr (Or.inr ⟨0, zero_mem_locs _, toGlobal_zero m⟩)
theorem stop_mem_raw {m : Member K} (h : 0 < m.num) : m.stop ∈ rawNodal m := mem_rawNodal.mpr (Or.inr ⟨1, one_mem_locs h, toGlobal_one m⟩)

/-- C170: members that meet are connected: whatever was added in whatever order, two members that share an end, or that cross at a point with at most five decimals, have an FEM node in common, at that point rounded to three decimals. -/
theorem C170_partial {n : ℕ} {items : List (Item K)} {f f' : Frame K} {g : Fem K} {sw : Bool} (hx : ∀ x ∈ items, FreshItem x)
    (h1 : ({ num := n } : Frame K).addAll items = .ok f) (h2 : f.generate sw = .ok (f', g)) {i j : ℕ} {a b : Member K} (hij : i ≠ j)
    (ha : f.members[i]? = some a) (hb : f.members[j]? = some b) {p : Pt K}
    (hp : ((p = a.start ∨ p = a.stop) ∧ (p = b.start ∨ p = b.stop))
      ∨ (OnSegment a.start a.stop p ∧ OnSegment b.start b.stop p ∧ ¬ Parallel a.start a.stop b.start b.stop ∧ DecimalPt 5 p)) :
    ∃ a' b' k, f'.members[i]? = some a' ∧ f'.members[j]? = some b' ∧ a'.start = a.start ∧ a'.stop = a.stop ∧ b'.start = b.start ∧ b'.stop = b.stop
      ∧ k ∈ a'.nodes ∧ k ∈ b'.nodes ∧ g.place[k]? = some (roundPt 3 p) := by
  have hf := (addAll_spec hx (inv_empty n) h1).1
  have ra := hf.1 a (List.mem_of_getElem? ha)
  have rb := hf.1 b (List.mem_of_getElem? hb)
  have key : p ∈ rawNodal a ∧ p ∈ rawNodal b := by
    rcases hp with ⟨k1, k2⟩ | ⟨k1, k2, k3, k4⟩
    · constructor
      · rcases k1 with rfl | rfl
        · exact start_mem_raw a
        · exact stop_mem_raw ra.num
      · rcases k2 with rfl | rfl
        · exact start_mem_raw b
        · exact stop_mem_raw rb.num
    · have hl : p ∈ a.added ∧ p ∈ b.added := by
        obtain ⟨hi, rfl⟩ := List.getElem?_eq_some_iff.mp ha
        obtain ⟨hj, rfl⟩ := List.getElem?_eq_some_iff.mp hb
        have hpw := List.pairwise_iff_getElem.mp hf.2
        rcases Nat.lt_or_gt_of_ne hij with h | h
        · exact hpw i j hi hj h p k1 k2 k3 k4
        · refine (hpw j i hj hi h p k2 k1 ?_ k4).symm
          intro hpar
          apply k3
          unfold Parallel at hpar ⊢
          linarith
      exact ⟨mem_rawNodal.mpr (Or.inl hl.1), mem_rawNodal.mpr (Or.inl hl.2)⟩
  obtain ⟨a', a1, a2, a3, a4, a5, a6⟩ := frame_point hf h2 ha key.1
  obtain ⟨b', b1, b2, b3, b4, b5, b6⟩ := frame_point hf h2 hb key.2
  exact ⟨a', b', _, a1, b1, a2, a3, b2, b3, a5, b5, a6⟩

/-- A rafter that rises one in three and a post that crosses it at (1000, 333.333…). -/
def crossing : List (Item ℚ) := [.member (Member.new (0, 0) (3000, 1000) 4 .beam none none 1), .member (Member.new (1000, 0) (1000, 2000) 4 .column none none 1)]

theorem crossing_fresh : ∀ x ∈ crossing, FreshItem x := by
  intro x hx
  simp only [crossing, List.mem_cons, List.not_mem_nil, or_false] at hx
  rcases hx with rfl | rfl
  · exact fresh_of_decide (by decide +kernel)
  · exact fresh_of_decide (by decide +kernel)

/-- The two members cross, but the rounded point of intersection is off the rafter by more than the tolerance: only the post gets a node there, and the members have no node in common. -/
theorem C170_violation_rounded : OnSegment ((0, 0) : ℚ × ℚ) (3000, 1000) (1000, 1000 / 3) ∧ OnSegment ((1000, 0) : ℚ × ℚ) (1000, 2000) (1000, 1000 / 3)
    ∧ (see crossing 4 false).map Seen.nodes = some [[0, 1, 2, 3, 4], [5, 6, 7, 8, 9, 10]] ∧ (see crossing 4 false).map (fun r => r.ends.length) = some 9 := by
  refine ⟨⟨1 / 3, by norm_num, by norm_num, by norm_num, by norm_num⟩, ⟨1 / 6, by norm_num, by norm_num, by norm_num, by norm_num⟩, ?_, ?_⟩
  · decide +kernel
  · decide +kernel

/-- The corner of the portal frame: the column and the beam share node 4. -/
example : ∃ k, some [[0, 1, 2, 3, 4], [4, 5, 6, 7, 8, 9], [10, 11, 12, 13, 9]] = (see portal 4 false).map Seen.nodes ∧ k ∈ [0, 1, 2, 3, 4] ∧ k ∈ [4, 5, 6, 7, 8, 9] :=
  ⟨4, by decide +kernel, by decide, by decide⟩

/-! ### Supports -/

/-- The support of an item. -/
def Item.support? : Item K → Option (Support K)
  | .support s => some s
  | _ => none

theorem add_supports {f f' : Frame K} {x : Item K} (h : f.add x = .ok f') : f'.supports = f.supports ++ x.support?.toList := by
  cases x with
  | member m =>
    simp only [Frame.add, Frame.addMember, bind, Except.bind] at h
    cases hm : m.calcNodal f.num with
    | error e => rw [hm] at h; cases h
    | ok m1 =>
      rw [hm] at h
      simp only at h
      cases hr : meetAll m1 f.members with
      | error e => rw [hr] at h; cases h
      | ok r => rw [hr] at h; obtain rfl := Except.ok.inj h; simp [Item.support?]
  | support s =>
    simp only [Frame.add, Frame.addSupport, bind, Except.bind] at h
    cases hm : f.members.mapM (fun m => m.offer s.coord) with
    | error e => rw [hm] at h; cases h
    | ok ms => rw [hm] at h; obtain rfl := Except.ok.inj h; rfl
  | pointLoad l =>
    simp only [Frame.add, Frame.addPointLoad, bind, Except.bind] at h
    cases hm : f.members.mapM (fun m => m.offer l.coord) with
    | error e => rw [hm] at h; cases h
    | ok ms => rw [hm] at h; obtain rfl := Except.ok.inj h; simp [Item.support?]
  | lineLoad l =>
    simp only [Frame.add] at h
    obtain rfl := Except.ok.inj h
    simp [Item.support?, Frame.addLineLoad]

theorem addAll_supports : ∀ {l : List (Item K)} {f f' : Frame K}, f.addAll l = .ok f' → f'.supports = f.supports ++ l.filterMap Item.support?
  | [], f, f', h => by obtain rfl := Except.ok.inj h; simp
  | x :: l, f, f', h => by
    obtain ⟨g, hg, hl⟩ := addAll_cons h
    rw [addAll_supports hl, add_supports hg, List.filterMap_cons]
    cases x.support? <;> simp

/-- The supports of the FEM model come from those of the frame. -/
theorem frame_supports {f f' : Frame K} {g : Fem K} {sw : Bool} (hf : Inv f) (h : f.generate sw = .ok (f', g)) :
    g.supports = (f.supports.filter (fun s => s.coord ∈ g.coords)).map (fun s => (s.suppId, g.coords.idxOf s.coord, s.dofs)) := by
  obtain ⟨ms, gm, hgm, ⟨mc, mp, me⟩, k1, _⟩ := generate_steps h
  obtain ⟨_, _, _, _, k5, _, _⟩ := generateMembers_spec hf.1 hgm
  rw [k1, k5.1, mc]
  rfl

/-- An offered point on a member stays with it. -/
theorem offered {n : ℕ} {pre post : List (Item K)} {x : Item K} {c : Pt K} {f0 f : Frame K} (hx : ∀ y ∈ pre ++ x :: post, FreshItem y)
    (h0 : ({ num := n } : Frame K).addAll pre = .ok f0) (h1 : ({ num := n } : Frame K).addAll (pre ++ x :: post) = .ok f)
    (hc : ∀ f1, f0.add x = .ok f1 → ∃ r, f0.members.mapM (fun m => m.offer c) = .ok r ∧ f1.members = r)
    {i : ℕ} {m : Member K} (hm : f0.members[i]? = some m) (hon : OnSegment m.start m.stop c) :
    ∃ m', f.members[i]? = some m' ∧ c ∈ m'.added ∧ m'.start = m.start ∧ m'.stop = m.stop := by
  obtain ⟨f0', e0, h2⟩ := addAll_append h1
  rw [h0] at e0
  obtain rfl := Except.ok.inj e0
  obtain ⟨f1, h3, h4⟩ := addAll_cons h2
  have i0 := (addAll_spec (fun y hy => hx y (List.mem_append_left _ hy)) (inv_empty n) h0).1
  have i1 := (add_spec (hx x (by simp)) i0 h3).1
  obtain ⟨_, e4⟩ := addAll_spec (fun y hy => hx y (by simp [hy])) i1 h4
  obtain ⟨r, hr, rfl⟩ := hc f1 h3
  have fa := mapM_forall hr
  obtain ⟨hi, rfl⟩ := List.getElem?_eq_some_iff.mp hm
  have hi' : i < f1.members.length := fa.length_eq ▸ hi
  have hrel := fa.get hi hi'
  simp only [List.get_eq_getElem] at hrel
  obtain ⟨k1, k2⟩ := offer_spec hrel
  obtain ⟨m2, h5, g5⟩ := e4 i _ (List.getElem?_eq_getElem hi')
  exact ⟨m2, h5, g5.mem (k2 ((i0.1 _ (List.getElem_mem hi)).on hon)), by rw [g5.start, k1.start], by rw [g5.stop, k1.stop]⟩

/-- C171: a support with coordinates of at most three decimals that lies on a member added before it restrains the FEM node of that member at that place, in its own directions; and every restraint of the FEM model comes from a support that was added, at its place. -/
theorem C171_partial {n : ℕ} {pre post : List (Item K)} {s : Support K} {f0 f f' : Frame K} {g : Fem K} {sw : Bool} (hx : ∀ y ∈ pre ++ .support s :: post, FreshItem y)
    (h0 : ({ num := n } : Frame K).addAll pre = .ok f0) (h1 : ({ num := n } : Frame K).addAll (pre ++ .support s :: post) = .ok f) (h2 : f.generate sw = .ok (f', g)) :
    (∀ (i : ℕ) (m : Member K), f0.members[i]? = some m → OnSegment m.start m.stop s.coord → DecimalPt 3 s.coord →
      ∃ m' k, f'.members[i]? = some m' ∧ m'.start = m.start ∧ m'.stop = m.stop ∧ k ∈ m'.nodes ∧ g.place[k]? = some s.coord ∧ (s.suppId, k, s.dofs) ∈ g.supports)
    ∧ ∀ e ∈ g.supports, ∃ t, .support t ∈ pre ++ .support s :: post ∧ e.1 = t.suppId ∧ e.2.2 = t.dofs ∧ g.place[e.2.1]? = some t.coord := by
  have hf := (addAll_spec hx (inv_empty n) h1).1
  have hs := frame_supports hf h2
  have hfs := addAll_supports h1
  constructor
  · intro i m hm hon hd
    obtain ⟨m1, a1, a2, a3, a4⟩ := offered hx h0 h1 (c := s.coord) (by
      intro f1 h3
      simp only [Frame.add, Frame.addSupport, bind, Except.bind] at h3
      cases hmm : f0.members.mapM (fun m => m.offer s.coord) with
      | error e => rw [hmm] at h3; cases h3
      | ok ms => rw [hmm] at h3; obtain rfl := Except.ok.inj h3; exact ⟨_, rfl, rfl⟩) hm hon
    obtain ⟨m', b1, b2, b3, b4, b5, b6⟩ := frame_point hf h2 a1 (mem_rawNodal.mpr (Or.inl a2))
    rw [show roundPt prec s.coord = s.coord from roundPt_of_decimals hd] at b4 b5 b6
    refine ⟨m', _, b1, b2.trans a3, b3.trans a4, b5, b6, ?_⟩
    rw [hs]
    refine List.mem_map.mpr ⟨s, List.mem_filter.mpr ⟨?_, by simpa using b4⟩, rfl⟩
    rw [hfs]
    refine List.mem_append_right _ (List.mem_filterMap.mpr ⟨.support s, by simp, rfl⟩)
  · intro e he
    rw [hs] at he
    obtain ⟨t, ht, rfl⟩ := List.mem_map.mp he
    obtain ⟨ht1, ht2⟩ := List.mem_filter.mp ht
    rw [hfs] at ht1
    have ht1 : t ∈ (pre ++ .support s :: post).filterMap Item.support? := by simpa using ht1
    obtain ⟨x, hx1, hx2⟩ := List.mem_filterMap.mp ht1
    have : x = .support t := by
      cases x with
      | support s' => simp only [Item.support?, Option.some.injEq] at hx2; rw [hx2]
      | _ => cases hx2
    subst this
    refine ⟨t, hx1, rfl, rfl, ?_⟩
    rw [(frame_nodes hf h2).2.1]
    exact getElem?_idxOf (by simpa using ht2)

/-- A support in the middle of a beam, given before the beam. -/
def early : List (Item ℚ) := [.support (Support.new (1500, 0) [0, 1] 1), .member (Member.new (0, 0) (4000, 0) 4 .beam none none 1)]

/-- The same support after the beam. -/
def late : List (Item ℚ) := [.member (Member.new (0, 0) (4000, 0) 4 .beam none none 1), .support (Support.new (1500, 0) [0, 1] 1)]

/-- A support that is added before its member is lost, unless it happens to lie at one of the equidistant nodes. -/
theorem C171_violation_order : OnSegment ((0, 0) : ℚ × ℚ) (4000, 0) (1500, 0)
    ∧ (see early 4 false).map Seen.supports = some [] ∧ (see late 4 false).map Seen.supports = some [(1, 2, [0, 1])] := by
  refine ⟨⟨3 / 8, by norm_num, by norm_num, by norm_num, by norm_num⟩, ?_, ?_⟩
  · decide +kernel
  · decide +kernel

/-- A support at a third of a rafter that rises one in three. -/
def skew : List (Item ℚ) := [.member (Member.new (0, 0) (3000, 1000) 4 .beam none none 1), .support (Support.new (1000, 1000 / 3) [0, 1] 1)]

/-- A support exactly on a member is lost when its coordinates need more than three decimals. -/
theorem C171_violation_rounded : OnSegment ((0, 0) : ℚ × ℚ) (3000, 1000) (1000, 1000 / 3) ∧ (see skew 4 false).map Seen.supports = some [] := by
  refine ⟨⟨1 / 3, by norm_num, by norm_num, by norm_num, by norm_num⟩, ?_⟩
  decide +kernel

end Metku.Frame2D
