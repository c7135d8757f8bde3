import Verif.Props.FrameLoads

/-! When `generate` succeeds, and what a later update of the geometry does. -/
namespace Metku.Frame2D

open Metku.FrameSpec

set_option linter.unusedSectionVars false

variable {K : Type} [Field K] [LinearOrder K] [IsStrictOrderedRing K] [FloorRing K]

/-! ### What members keep -/

/-- The member of an item. -/
def Item.member? : Item K → Option (Member K)
  | .member m => some m
  | _ => none

/-- A property of members that does not concern their points. -/
def Keeps {α : Type} (sig : Member K → α) : Prop := ∀ (m : Member K) a n k, sig { m with added := a, nodal := n, num := k } = sig m

theorem Keeps.grows {α : Type} {sig : Member K → α} (h : Keeps sig) {a b : Member K} (g : Grows a b) : sig b = sig a := by
  obtain ⟨e, n, rfl, _⟩ := g
  exact h a _ _ a.num

theorem Keeps.forall₂ {α : Type} {sig : Member K → α} (h : Keeps sig) : ∀ {l l' : List (Member K)}, List.Forall₂ Grows l l' → l'.map sig = l.map sig
  | _, _, .nil => rfl
  | _, _, .cons hab hl => by rw [List.map_cons, List.map_cons, h.grows hab, h.forall₂ hl]

theorem add_sig {α : Type} {sig : Member K → α} (hs : Keeps sig) {f f' : Frame K} {x : Item K} (h : f.add x = .ok f') :
    f'.members.map sig = f.members.map sig ++ (x.member?.toList).map sig := by
  cases x with
  | member m =>
    simp only [Frame.add, Frame.addMember, bind, Except.bind] at h
    cases hm : m.calcNodal f.num with
    | error e => rw [hm] at h; cases h
    | ok m1 =>
      rw [hm] at h
      simp only at h
      cases hr : meetAll m1 f.members with
      | error e => rw [hr] at h; cases h
      | ok r =>
        rw [hr] at h
        obtain rfl := Except.ok.inj h
        obtain ⟨g, fa⟩ := meetAll_spec hr
        have h1 : sig m1 = sig m := by
          unfold Member.calcNodal at hm
          simp only at hm
          split_ifs at hm
          all_goals
            obtain rfl := Except.ok.inj hm
            exact hs m m.added _ _
        simp only [List.map_append, List.map_cons, List.map_nil, Item.member?, Option.toList]
        rw [hs.forall₂ (fa.imp (fun _ _ h => h.1)), hs.grows g, h1]
  | support s =>
    simp only [Frame.add, Frame.addSupport, bind, Except.bind] at h
    cases hm : f.members.mapM (fun m => m.offer s.coord) with
    | error e => rw [hm] at h; cases h
    | ok ms =>
      rw [hm] at h
      obtain rfl := Except.ok.inj h
      rw [hs.forall₂ ((mapM_forall hm).imp (fun _ _ h => (offer_spec h).1))]
      simp [Item.member?]
  | pointLoad l =>
    simp only [Frame.add, Frame.addPointLoad, bind, Except.bind] at h
    cases hm : f.members.mapM (fun m => m.offer l.coord) with
    | error e => rw [hm] at h; cases h
    | ok ms =>
      rw [hm] at h
      obtain rfl := Except.ok.inj h
      rw [hs.forall₂ ((mapM_forall hm).imp (fun _ _ h => (offer_spec h).1))]
      simp [Item.member?]
  | lineLoad l =>
    simp only [Frame.add] at h
    obtain rfl := Except.ok.inj h
    simp [Item.member?, Frame.addLineLoad]

/-- The members of a frame are those that were added, in order. -/
theorem addAll_sig {α : Type} {sig : Member K → α} (hs : Keeps sig) : ∀ {l : List (Item K)} {f f' : Frame K}, f.addAll l = .ok f' →
    f'.members.map sig = f.members.map sig ++ (l.filterMap Item.member?).map sig
  | [], f, f', h => by obtain rfl := Except.ok.inj h; simp
  | x :: l, f, f', h => by
    obtain ⟨g, hg, hl⟩ := addAll_cons h
    rw [addAll_sig hs hl, add_sig hs hg, List.filterMap_cons]
    cases x.member? <;> simp

/-! ### Generation succeeds -/

theorem dictSet_mem {α : Type} {d : List (String × α)} {k : String} {x : α} {e : String × α} (h : e ∈ dictSet d k x) : e ∈ d ∨ e.2 = x := by
  unfold dictSet at h
  split_ifs at h with hk
  · obtain ⟨a, ha, rfl⟩ := List.mem_map.mp h
    split_ifs
    · exact Or.inr rfl
    · exact Or.inl ha
  · rcases List.mem_append.mp h with h | h
    · exact Or.inl h
    · rw [List.mem_singleton.mp h]; exact Or.inr rfl

theorem add_lines {f f' : Frame K} {x : Item K} (h : f.add x = .ok f') : ∀ e ∈ f'.lineLoads, e ∈ f.lineLoads ∨ ∃ l, x = .lineLoad l ∧ SameLine e.2 l := by
  cases x with
  | member m =>
    simp only [Frame.add, Frame.addMember, bind, Except.bind] at h
    cases hm : m.calcNodal f.num with
    | error e => rw [hm] at h; cases h
    | ok m1 =>
      rw [hm] at h
      simp only at h
      cases hr : meetAll m1 f.members with
      | error e => rw [hr] at h; cases h
      | ok r => rw [hr] at h; obtain rfl := Except.ok.inj h; exact fun e he => Or.inl he
  | support s =>
    simp only [Frame.add, Frame.addSupport, bind, Except.bind] at h
    cases hm : f.members.mapM (fun m => m.offer s.coord) with
    | error e => rw [hm] at h; cases h
    | ok ms => rw [hm] at h; obtain rfl := Except.ok.inj h; exact fun e he => Or.inl he
  | pointLoad l =>
    simp only [Frame.add, Frame.addPointLoad, bind, Except.bind] at h
    cases hm : f.members.mapM (fun m => m.offer l.coord) with
    | error e => rw [hm] at h; cases h
    | ok ms => rw [hm] at h; obtain rfl := Except.ok.inj h; exact fun e he => Or.inl he
  | lineLoad l =>
    simp only [Frame.add] at h
    obtain rfl := Except.ok.inj h
    intro e he
    rcases dictSet_mem he with h | h
    · exact Or.inl h
    · exact Or.inr ⟨l, rfl, by unfold SameLine; rw [h]⟩

theorem addAll_lines : ∀ {l : List (Item K)} {f f' : Frame K}, f.addAll l = .ok f' → ∀ e ∈ f'.lineLoads, e ∈ f.lineLoads ∨ ∃ x, .lineLoad x ∈ l ∧ SameLine e.2 x
  | [], f, f', h, e, he => by obtain rfl := Except.ok.inj h; exact Or.inl he
  | x :: l, f, f', h, e, he => by
    obtain ⟨g, hg, hl⟩ := addAll_cons h
    rcases addAll_lines hl e he with h | ⟨y, hy, hs⟩
    · rcases add_lines hg e h with h | ⟨y, rfl, hs⟩
      · exact Or.inl h
      · exact Or.inr ⟨y, List.mem_cons_self, hs⟩
    · exact Or.inr ⟨y, List.mem_cons_of_mem _ hy, hs⟩

theorem generate_ok {m : Member K} (hm : Ready m) (ht : m.tapered = false) (g : Fem K) : ∃ r, m.generate g = .ok r := by
  have hr : m.refresh g = m := by unfold Member.refresh; rw [hm.n1, hm.n2]
  have hc : m.calcNodal 0 = .ok { m with nodal := rawNodal m } := by
    unfold Member.calcNodal
    simp only [lt_self_iff_false, if_false]
    rw [if_neg hm.num.ne']
    rfl
  have h1 : m.recalc g = .ok ({ m with nodal := rawNodal m }, g) := by
    unfold Member.recalc
    rw [hr, hc]
    simp only [bind, Except.bind]
    rw [hm.built]
    rfl
  have hs : m.start ∈ nodalOf m := by
    have := List.mem_map_of_mem (f := roundPt prec) (start_mem_raw m)
    rw [roundPt_of_decimals hm.d1] at this
    exact this
  have he : m.stop ∈ nodalOf m := by
    have := List.mem_map_of_mem (f := roundPt prec) (stop_mem_raw hm.num)
    rw [roundPt_of_decimals hm.d2] at this
    exact this
  have hne := hm.ne
  have hnodes := hm.nodes
  have hbuilt := hm.built
  unfold Member.generate
  rw [h1]
  simp only [bind, Except.bind, hm.built, Bool.false_eq_true, if_false]
  obtain ⟨_, hl, e1, _⟩ := addNodesLoop_spec (nodalOf m) [] none g
  have hL : (rawNodal m).map (roundPt prec) = nodalOf m := rfl
  have two : ∃ a b l, (addNodesLoop (nodalOf m) [] none g).1 = a :: b :: l := by
    have n1 : (addNodesLoop (nodalOf m) [] none g).2.2.coords.idxOf m.start ∈ (addNodesLoop (nodalOf m) [] none g).1 := by
      rw [e1]; exact mem_firsts.mpr (Or.inr (List.mem_map_of_mem hs))
    have n2 : (addNodesLoop (nodalOf m) [] none g).2.2.coords.idxOf m.stop ∈ (addNodesLoop (nodalOf m) [] none g).1 := by
      rw [e1]; exact mem_firsts.mpr (Or.inr (List.mem_map_of_mem he))
    have hd : (addNodesLoop (nodalOf m) [] none g).2.2.coords.idxOf m.start ≠ (addNodesLoop (nodalOf m) [] none g).2.2.coords.idxOf m.stop := by
      intro h
      have k1 := getElem?_idxOf (hl _ hs)
      have k2 := getElem?_idxOf (hl _ he)
      rw [h, k2] at k1
      exact hne (Option.some.inj k1).symm
    cases hc : (addNodesLoop (nodalOf m) [] none g).1 with
    | nil => rw [hc] at n1; cases n1
    | cons a t =>
      cases t with
      | nil =>
        rw [hc] at n1 n2
        exact absurd ((List.mem_singleton.mp n1).trans (List.mem_singleton.mp n2).symm) hd
      | cons b l => exact ⟨a, b, l, rfl⟩
  unfold Member.generateElements Member.addNodes
  simp only [hL, hnodes, ht]
  obtain ⟨a, b, l, hab⟩ := two
  rw [hab]
  cases m.mtype with
  | bar => exact ⟨_, rfl⟩
  | _ => exact ⟨_, rfl⟩

theorem generateMembers_ok : ∀ {l : List (Member K)} (g : Fem K), (∀ m ∈ l, Ready m ∧ m.tapered = false) → ∃ r, generateMembers l g = .ok r
  | [], g, _ => ⟨_, rfl⟩
  | m :: l, g, h => by
    obtain ⟨r, hr⟩ := generate_ok (h m List.mem_cons_self).1 (h m List.mem_cons_self).2 g
    obtain ⟨q, hq⟩ := generateMembers_ok r.2 (fun x hx => h x (List.mem_cons_of_mem _ hx))
    unfold generateMembers
    simp only [bind, Except.bind]
    rw [hr]
    simp only
    rw [hq]
    exact ⟨_, rfl⟩

/-- The end nodes that a member remembers are at places of its list. -/
theorem made_ends {m m' : Member K} {g g' : Fem K} (md : Made m m' g g') :
    (∀ k, m'.n1 = some k → g'.coords[k]? = some (roundPt prec m.start)) ∧ ∀ k, m'.n2 = some k → ∃ p ∈ nodalOf m, g'.coords[k]? = some p ∧ (nodalOf m).getLast? = some p := by
  constructor
  · intro k hk
    have h1 : m'.n1 = m'.nodes.head? := by rw [md.member]
    rw [h1, md.nodes] at hk
    cases hl : nodalOf m with
    | nil =>
      have := raw_head (m := m)
      unfold nodalOf at hl
      rw [List.map_eq_nil_iff] at hl
      rw [hl] at this
      cases this
    | cons x t =>
      have hx : x = roundPt prec m.start := by
        have := raw_head (m := m)
        unfold nodalOf at hl
        cases hr : rawNodal m with
        | nil => rw [hr] at hl; cases hl
        | cons y t' =>
          rw [hr] at hl this
          obtain rfl := Option.some.inj this
          rw [List.map_cons] at hl
          exact (List.cons.inj hl).1.symm
      rw [hl, List.map_cons] at hk
      obtain ⟨t', ht, _⟩ := firsts_prefix (t.map g'.coords.idxOf) [g'.coords.idxOf x]
      rw [firsts_cons] at hk
      simp only [List.not_mem_nil, if_false, List.nil_append] at hk
      rw [ht] at hk
      obtain rfl := Option.some.inj hk
      rw [← hx]
      exact getElem?_idxOf (md.mem x (by rw [hl]; exact List.mem_cons_self))
  · intro k hk
    rw [md.n2] at hk
    cases hl : (nodalOf m).getLast? with
    | none =>
      rw [List.getLast?_eq_none_iff] at hl
      rw [hl] at hk
      cases hk
    | some p =>
      have hp := List.mem_of_getLast? hl
      have : ((nodalOf m).map (fun p => some (g'.coords.idxOf p))).getLastD none = some (g'.coords.idxOf p) := by
        rw [List.getLastD_eq_getLast?, List.getLast?_map, hl]
        rfl
      rw [this] at hk
      have hk' : g'.coords.idxOf p = k := by
        unfold lastNode at hk
        split at hk
        · cases hk
        · exact Option.some.inj hk
      rw [← hk']
      exact ⟨p, hp, getElem?_idxOf (md.mem p hp), rfl⟩

/-- The list of a member has the places of its end nodes. -/
def EndsOk (g : Fem K) (m : Member K) : Prop := roundPt prec (m.refresh g).start ∈ m.nodal ∧ roundPt prec (m.refresh g).stop ∈ m.nodal

theorem nodal_decimals {m : Member K} {p : Pt K} (h : p ∈ nodalOf m) : roundPt prec p = p := by
  obtain ⟨q, _, rfl⟩ := List.mem_map.mp h
  exact roundPt_of_decimals (roundPt_decimals _ _)

theorem endsOk {l ms : List (Member K)} {gm : Fem K} (hr : ∀ m ∈ l, Ready m) (h : generateMembers l {} = .ok (ms, gm)) {i : ℕ} {m' : Member K} (hm : ms[i]? = some m')
    {g : Fem K} (hg : g.place = gm.place) : EndsOk g m' := by
  obtain ⟨hlen, _, _, hpl, _, _, hall⟩ := generateMembers_spec hr h
  have hi := (List.getElem?_eq_some_iff.mp hm).1
  obtain ⟨m1, g1, g2, k1, md, _, ⟨⟨c, hc⟩, _⟩⟩ := hall i _ (List.getElem?_eq_getElem (by omega))
  rw [hm] at k1
  obtain rfl := Option.some.inj k1
  set m := l[i]'(by omega) with hmm
  have rd := hr m (List.getElem_mem _)
  have hplace : g.place = gm.coords := hg.trans (hpl rfl)
  have ext : ∀ {k : ℕ} {p : Pt K}, g2.coords[k]? = some p → g.place[k]? = some p := by
    intro k p h
    rw [hplace, hc, List.getElem?_append_left (List.getElem?_eq_some_iff.mp h).1]
    exact h
  obtain ⟨e1, e2⟩ := made_ends md
  have hnod : m'.nodal = nodalOf m := by rw [md.member]
  have hst : m'.start = m.start := by rw [md.member]
  have hen : m'.stop = m.stop := by rw [md.member]
  have hs : m.start ∈ nodalOf m := by
    have := List.mem_map_of_mem (f := roundPt prec) (start_mem_raw m)
    rw [roundPt_of_decimals rd.d1] at this
    exact this
  have he : m.stop ∈ nodalOf m := by
    have := List.mem_map_of_mem (f := roundPt prec) (stop_mem_raw rd.num)
    rw [roundPt_of_decimals rd.d2] at this
    exact this
  unfold EndsOk Member.refresh
  rw [hnod]
  cases h1 : m'.n1 with
  | none =>
    simp only
    rw [hst, hen, roundPt_of_decimals rd.d1, roundPt_of_decimals rd.d2]
    exact ⟨hs, he⟩
  | some a =>
    cases h2 : m'.n2 with
    | none =>
      simp only
      rw [hst, hen, roundPt_of_decimals rd.d1, roundPt_of_decimals rd.d2]
      exact ⟨hs, he⟩
    | some b =>
      simp only
      obtain ⟨p, hp, hb, _⟩ := e2 b h2
      rw [List.getD_eq_getElem?_getD, List.getD_eq_getElem?_getD, ext (e1 a h1), ext hb]
      simp only [Option.getD_some]
      rw [roundPt_of_decimals rd.d1, roundPt_of_decimals rd.d1, nodal_decimals hp]
      exact ⟨hs, hp⟩

theorem endsOk_congr {g g' : Fem K} (h : g'.place = g.place) {m : Member K} (hm : EndsOk g m) : EndsOk g' m := by
  have : m.refresh g' = m.refresh g := by unfold Member.refresh; rw [h]
  unfold EndsOk
  rw [this]
  exact hm

theorem endsOk_weight {g : Fem K} {m : Member K} (hm : EndsOk g m) : EndsOk g { m with selfWeight := true } := by
  have h1 : ({ m with selfWeight := true } : Member K).refresh g = { m.refresh g with selfWeight := true } := by
    rcases m with ⟨start, stop, added, nodal, num, mtype, sj1, sj2, hi1, hi2, tap, uw, sw, nodes, n1, n2, elems, built⟩
    cases n1 <;> cases n2 <;> rfl
  unfold EndsOk
  rw [h1]
  exact hm

theorem lineSteps_ok {ms : List (Member K)} : ∀ {ls : List (LineLoad K)} {g : Fem K}, (∀ l ∈ ls, ∃ m, ms[l.mem]? = some m ∧ EndsOk g m) → ∃ g', ls.foldlM (lineLoadStep ms) g = .ok g'
  | [], g, _ => ⟨g, rfl⟩
  | l :: ls, g, h => by
    obtain ⟨m, hm, he⟩ := h l List.mem_cons_self
    have h1 : lineLoadStep ms g l = .ok ((g.addLineLoad l m.elems).noteCase l.loadId) := by
      unfold lineLoadStep
      rw [hm]
      simp only
      exact if_pos he
    obtain ⟨a1, _⟩ := lineLoadStep_spec h1
    obtain ⟨g', hg'⟩ := lineSteps_ok (ls := ls) (g := (g.addLineLoad l m.elems).noteCase l.loadId) (fun x hx => by
      obtain ⟨m2, hm2, he2⟩ := h x (List.mem_cons_of_mem _ hx)
      exact ⟨m2, hm2, endsOk_congr a1.2.1 he2⟩)
    refine ⟨g', ?_⟩
    rw [List.foldlM_cons, h1]
    exact hg'

theorem selfWeightLoads_mem : ∀ {l : List (Member K)} {k : ℕ} {x : LineLoad K}, x ∈ selfWeightLoads k l → k ≤ x.mem ∧ x.mem < k + l.length
  | [], _, _, h => by cases h
  | a :: l, k, x, h => by
    rw [selfWeightLoads, List.mem_append] at h
    rcases h with h | h
    · split_ifs at h
      · cases h
      · rw [List.mem_singleton.mp h]; simp
    · have := selfWeightLoads_mem h
      rw [List.length_cons]
      omega

/-- C175: items can be added in any order and `generate` does not raise, if the members have different ends and none of them is tapered, and every line load is on a member of the frame. -/
theorem C175_partial {n : ℕ} {items : List (Item K)} (sw : Bool) (hx : ∀ x ∈ items, FreshItem x) (ht : ∀ m, .member m ∈ items → m.tapered = false)
    (hl : ∀ l, .lineLoad l ∈ items → l.mem < (items.filterMap Item.member?).length) :
    ∃ f r, ({ num := n } : Frame K).addAll items = .ok f ∧ f.generate sw = .ok r := by
  obtain ⟨f, h1⟩ := addAll_ok hx (inv_empty n)
  have hf := (addAll_spec hx (inv_empty n) h1).1
  have htap := addAll_sig (sig := Member.tapered) (fun _ _ _ _ => rfl) h1
  simp only [List.map_nil, List.nil_append] at htap
  have hlen : f.members.length = (items.filterMap Item.member?).length := by
    have := congrArg List.length htap
    simpa using this
  have hmem : ∀ m ∈ f.members, Ready m ∧ m.tapered = false := by
    intro m hm
    refine ⟨hf.1 m hm, ?_⟩
    have := List.mem_map_of_mem (f := Member.tapered) hm
    rw [htap] at this
    obtain ⟨m0, hm0, e⟩ := List.mem_map.mp this
    rw [← e]
    obtain ⟨x, hx1, hx2⟩ := List.mem_filterMap.mp hm0
    cases x with
    | member m1 => obtain rfl := Option.some.inj hx2; exact ht _ hx1
    | _ => cases hx2
  obtain ⟨⟨ms, gm⟩, hgm⟩ := generateMembers_ok {} hmem
  have hmslen := (generateMembers_spec hf.1 hgm).1
  refine ⟨f, ?_⟩
  unfold Frame.generate
  simp only [bind, Except.bind]
  rw [hgm]
  simp only
  have base : ∀ e ∈ f.lineLoads, e.2.mem < f.members.length := by
    intro e he
    rcases addAll_lines h1 e he with h | ⟨x, hx1, hx2⟩
    · cases h
    · rw [show e.2 = { x with name := e.2.name } from hx2, hlen]
      exact hl x hx1
  set G := f.pointLoads.foldl pointStep (f.supports.foldl Fem.addSupport gm) with hG
  have hGp : G.place = gm.place := by
    obtain ⟨a1, _⟩ := addSupports_spec f.supports gm
    obtain ⟨b1, _⟩ := pointSteps_spec f.pointLoads (f.supports.foldl Fem.addSupport gm)
    exact b1.2.1.trans a1.2.1
  cases sw with
  | false =>
    simp only [Bool.false_eq_true, if_false]
    obtain ⟨g', hg'⟩ := lineSteps_ok (ms := ms) (ls := f.lineLoads.map Prod.snd) (g := G) (by
      intro l hl'
      obtain ⟨e, he, rfl⟩ := List.mem_map.mp hl'
      have := base e he
      have hi : e.2.mem < ms.length := by omega
      exact ⟨ms[e.2.mem], List.getElem?_eq_getElem hi, endsOk hf.1 hgm (List.getElem?_eq_getElem hi) hGp⟩)
    rw [hg']
    exact ⟨_, h1, rfl⟩
  | true =>
    simp only [if_true]
    have hw : ∃ f1, Frame.addSelfWeight { f with members := ms } false = .ok f1 := by
      unfold Frame.addSelfWeight
      exact ⟨_, rfl⟩
    obtain ⟨f1, hf1⟩ := hw
    have hm1 := (selfWeight_members _ _ hf1).1
    have hlines : ∀ e ∈ f1.lineLoads, e.2.mem < ms.length := by
      have aux : ∀ (ls : List (LineLoad K)) (f0 : Frame K), (∀ l ∈ ls, l.mem < ms.length) → (∀ e ∈ f0.lineLoads, e.2.mem < ms.length) →
          ∀ e ∈ (ls.foldl Frame.addLineLoad f0).lineLoads, e.2.mem < ms.length := by
        intro ls
        induction ls with
        | nil => exact fun f0 _ h => h
        | cons l ls ih =>
          intro f0 h0 h
          rw [List.foldl_cons]
          refine ih _ (fun x hx => h0 x (List.mem_cons_of_mem _ hx)) ?_
          intro e he
          rcases dictSet_mem he with h' | h'
          · exact h e h'
          · rw [h']; exact h0 l List.mem_cons_self
      unfold Frame.addSelfWeight at hf1
      simp only [Bool.false_eq_true, if_false] at hf1
      obtain rfl := Except.ok.inj hf1
      refine aux _ _ (fun l hl' => ?_) (fun e he => ?_)
      · have := (selfWeightLoads_mem hl').2
        omega
      · have := base e he
        omega
    rw [hf1]
    simp only
    have hall : ∀ l ∈ f1.lineLoads.map Prod.snd, ∃ m, f1.members[l.mem]? = some m ∧ EndsOk G m := by
      intro l hl'
      obtain ⟨e, he, rfl⟩ := List.mem_map.mp hl'
      have hi := hlines e he
      have hk := endsOk_weight (endsOk hf.1 hgm (List.getElem?_eq_getElem hi) hGp)
      refine ⟨_, ?_, hk⟩
      rw [hm1, List.getElem?_map, List.getElem?_eq_getElem hi, Option.map_some]
    obtain ⟨g', hg'⟩ := lineSteps_ok hall
    rw [hg']
    exact ⟨_, h1, rfl⟩

/-- A tapered beam with as many elements as its section has parts, and a support between its nodes. -/
def taperedBeam : List (Item ℚ) :=
  [.member { Member.new (0, 0) (4000, 0) 4 .beam none none 1 with tapered := true }, .support (Support.new (1500, 0) [0, 1] 1)]

/-- What `generate` raises, if the items can be added. -/
def raised (items : List (Item ℚ)) (n : ℕ) (sw : Bool) : Option PyErr :=
  match ({ num := n } : Frame ℚ).addAll items with
  | .error _ => none
  | .ok f =>
    match f.generate sw with
    | .error e => some e
    | .ok _ => none

/-- The additional node of a tapered beam makes `generate` raise an IndexError. -/
theorem C175_violation_tapered : raised taperedBeam 4 false = some .indexError := by decide +kernel

example : ∃ f r, ({ num := 4 } : Frame ℚ).addAll portal = .ok f ∧ f.generate true = .ok r := by
  refine C175_partial true portal_fresh ?_ ?_
  · intro m hm
    simp only [portal, List.mem_cons, List.not_mem_nil, or_false, reduceCtorEq, Item.member.injEq] at hm
    rcases hm with h | h | h <;> (rw [h, Member.new])
  · intro l hl
    simp only [portal, List.mem_cons, List.not_mem_nil, or_false, reduceCtorEq, Item.lineLoad.injEq, false_or] at hl
    subst hl
    simp [portal, Item.member?]

/-! ### Updating the geometry -/

theorem firsts_nodup {α : Type} [DecidableEq α] : ∀ {l acc : List α}, (acc ++ l).Nodup → firsts acc l = acc ++ l
  | [], acc, _ => by simp [firsts]
  | x :: l, acc, h => by
    have hx : x ∉ acc := by
      intro hx
      have := (List.nodup_append.mp h).2.2 x hx x List.mem_cons_self
      exact this rfl
    rw [firsts_cons, if_neg hx, firsts_nodup (by simpa using h)]
    simp

theorem moveNodes_self {place : List (Pt K)} : ∀ (l : List (Pt K)) {c : List (Pt K)}, (∀ p ∈ l, place[c.idxOf p]? = some p) → moveNodes (l.map c.idxOf) l place = .ok place
  | [], c, _ => rfl
  | p :: l, c, h => by
    rw [List.map_cons, moveNodes]
    have hp := h p List.mem_cons_self
    have : place.set (c.idxOf p) p = place := by
      apply List.ext_getElem?
      intro i
      rw [List.getElem?_set]
      split_ifs with h1 h2
      · rw [← h1, hp]
      · have := (List.getElem?_eq_some_iff.mp hp).1
        omega
      · rfl
    rw [this]
    exact moveNodes_self l (fun q hq => h q (List.mem_cons_of_mem _ hq))

/-- All points of the member have at most three decimals and are different. -/
def Plain (m : Member K) : Prop := Straight m ∧ (∀ p ∈ rawNodal m, DecimalPt 3 p) ∧ (rawNodal m).Nodup

theorem recalc_plain {m m' : Member K} {g : Fem K} (rd : Ready m) (hp : Plain m)
    (hm' : m' = { m with nodal := nodalOf m, nodes := m'.nodes, n1 := m'.nodes.head?, n2 := m'.n2, elems := m'.elems, built := true, selfWeight := m'.selfWeight })
    (hn : m'.nodes = (firsts [] (nodalOf m)).map g.coords.idxOf) (hin : ∀ p ∈ nodalOf m, p ∈ g.coords) (hpl : g.place = g.coords)
    (h2 : ∀ k, m'.n2 = some k → g.coords[k]? = some m.stop) : m'.recalc g = .ok (m', g) := by
  obtain ⟨hs, hd, hnd⟩ := hp
  have hraw : nodalOf m = rawNodal m := by
    unfold nodalOf
    conv_rhs => rw [← List.map_id (rawNodal m)]
    exact List.map_congr_left (fun p hp => roundPt_of_decimals (hd p hp))
  have hfirst : firsts [] (nodalOf m) = rawNodal m := by
    rw [hraw, firsts_nodup (by simpa using hnd)]
    simp
  have hstart : ∀ k, m'.n1 = some k → g.coords[k]? = some m.start := by
    intro k hk
    rw [show m'.n1 = m'.nodes.head? by rw [hm'], hn, hfirst, List.head?_map, raw_head] at hk
    obtain rfl := Option.some.inj hk
    exact getElem?_idxOf (hin _ (by rw [hraw]; exact start_mem_raw m))
  have hst : m'.start = m.start := by rw [hm']
  have hen : m'.stop = m.stop := by rw [hm']
  have href : m'.refresh g = m' := by
    unfold Member.refresh
    cases k1 : m'.n1 with
    | none => rfl
    | some a =>
      cases k2 : m'.n2 with
      | none => rfl
      | some b =>
        simp only
        rw [List.getD_eq_getElem?_getD, List.getD_eq_getElem?_getD, hpl, hstart a k1, h2 b k2]
        simp only [Option.getD_some]
        rw [← hst, ← hen, ← k1, ← k2]
  unfold Member.recalc
  rw [href]
  have hc : m'.calcNodal 0 = .ok m' := by
    unfold Member.calcNodal
    simp only [lt_self_iff_false, if_false]
    have hnum : m'.num = m.num := by rw [hm']
    rw [hnum, if_neg rd.num.ne']
    have : sortFrom m'.start (m'.added ++ (locs m.num).map m'.toGlobal) = m'.nodal := by
      have e : m'.toGlobal = m.toGlobal := by funext t; unfold Member.toGlobal; rw [hst, hen]
      have hn2 : m'.nodal = rawNodal m := by
        rw [← hraw]
        conv_lhs => rw [hm']
      have ha : m'.added = m.added := by rw [hm']
      rw [hst, ha, e, hn2]
      rfl
    rw [this, ← hnum]
  rw [hc]
  simp only [bind, Except.bind]
  have hb : m'.built = true := by rw [hm']
  have hn2 : m'.nodal = rawNodal m := by
    rw [← hraw]
    conv_lhs => rw [hm']
  rw [if_pos hb, hn, hfirst, hn2, moveNodes_self (rawNodal m) (fun p hp => by rw [hpl]; exact getElem?_idxOf (hin p (by rw [hraw]; exact hp)))]

theorem updateModel_self {g : Fem K} : ∀ {l : List (Member K)}, (∀ m ∈ l, m.recalc g = .ok (m, g)) → updateModel l g = .ok (l, g)
  | [], _ => rfl
  | m :: l, h => by
    unfold updateModel
    rw [h m List.mem_cons_self]
    simp only [bind, Except.bind]
    rw [updateModel_self (fun x hx => h x (List.mem_cons_of_mem _ hx))]

/-- C176: updating the geometry of a frame in which nothing has changed leaves every node where it is, if the points of each member are different and have at most three decimals. -/
theorem C176_partial {n : ℕ} {items : List (Item K)} {f f' : Frame K} {g : Fem K} {sw : Bool} (hx : ∀ x ∈ items, FreshItem x)
    (h1 : ({ num := n } : Frame K).addAll items = .ok f) (h2 : f.generate sw = .ok (f', g)) (hp : ∀ m ∈ f.members, Plain m) :
    updateModel f'.members g = .ok (f'.members, g) := by
  have hf := (addAll_spec hx (inv_empty n) h1).1
  apply updateModel_self
  intro m' hm'
  obtain ⟨i, hi, rfl⟩ := List.mem_iff_getElem.mp hm'
  obtain ⟨m, hm⟩ := frame_members_get hf h2 (List.getElem?_eq_getElem hi)
  obtain ⟨m2, a1, a2, a3, a4, _, _⟩ := frame_member hf h2 hm
  rw [List.getElem?_eq_getElem hi] at a1
  obtain rfl := Option.some.inj a1
  have rd := hf.1 m (List.mem_of_getElem? hm)
  have pl := hp m (List.mem_of_getElem? hm)
  refine recalc_plain rd pl a2 a3 a4 (frame_nodes hf h2).2.1 ?_
  intro k hk
  obtain ⟨ms, gm, hgm, ⟨mc, mp, me⟩, _, _, _, _, _, hmem, _⟩ := generate_steps h2
  obtain ⟨_, _, _, _, _, _, hall⟩ := generateMembers_spec hf.1 hgm
  obtain ⟨m3, g1, g2, k1, md, _, ⟨⟨c, hc⟩, _⟩⟩ := hall i m hm
  have h3 := hmem i
  rw [k1, List.getElem?_eq_getElem hi, Option.map_some] at h3
  have h3 := Option.some.inj h3
  have hn2 : m3.n2 = some k := by rw [← hk, h3]
  obtain ⟨p, hp1, hp2, hp3⟩ := (made_ends md).2 k hn2
  have hstop : p = m.stop := by
    have hraw : nodalOf m = rawNodal m := by
      unfold nodalOf
      conv_rhs => rw [← List.map_id (rawNodal m)]
      exact List.map_congr_left (fun p hp => roundPt_of_decimals (pl.2.1 p hp))
    have hpath := nodal_path rd.d1 rd.d2 rd.ne rd.num pl.1
    rw [firsts_nodup (by rw [hraw]; simpa using pl.2.2), List.nil_append] at hpath
    have := hpath.2.1
    rw [hp3] at this
    exact Option.some.inj this
  rw [mc, hc, List.getElem?_append_left (List.getElem?_eq_some_iff.mp hp2).1, hp2, hstop]

/-- The places of the nodes before and after `update_model`. -/
def updated (items : List (Item ℚ)) (n : ℕ) : Option (List (ℚ × ℚ) × List (ℚ × ℚ)) :=
  match ({ num := n } : Frame ℚ).addAll items with
  | .error _ => none
  | .ok f =>
    match f.generate false with
    | .error _ => none
    | .ok r =>
      match updateModel r.1.members r.2 with
      | .error _ => none
      | .ok q => some (r.2.place, q.2.place)

/-- Members that meet or are supported at an end know this end twice; updating the portal frame then pulls its nodes to the wrong places: the left corner goes down from 6000 to 3000, the right one from (8000, 6000) to (6000, 2250). -/
theorem C176_violation_portal : updated portal 2
    = some ([(0, 0), (0, 3000), (0, 6000), (3000, 6000), (4000, 6000), (8000, 6000), (8000, 0), (8000, 3000)],
      [(0, 0), (0, 0), (0, 3000), (0, 6000), (3000, 6000), (6000, 2250), (8000, 0), (8000, 0)]) := by decide +kernel

/-- A beam that is supported at a point between its nodes. -/
example : updated late 4 = some ([(0, 0), (1000, 0), (1500, 0), (2000, 0), (3000, 0), (4000, 0)], [(0, 0), (1000, 0), (1500, 0), (2000, 0), (3000, 0), (4000, 0)]) := by
  decide +kernel

/-! ### A second generation -/

/-- C177: a second call of `generate` makes no new nodes or elements and moves no node, if the points of each member are different and have at most three decimals. -/
theorem C177_partial {n : ℕ} {items : List (Item K)} {f f1 f2 : Frame K} {g1 g2 : Fem K} {sw : Bool} (hx : ∀ x ∈ items, FreshItem x)
    (h1 : ({ num := n } : Frame K).addAll items = .ok f) (h2 : f.generate sw = .ok (f1, g1)) (hp : ∀ m ∈ f.members, Plain m) (h3 : f1.generateAgain g1 = .ok (f2, g2)) :
    g2.place = g1.place ∧ g2.elems = g1.elems ∧ g2.coords = g1.coords ∧ f2.members.map Member.nodes = f1.members.map Member.nodes ∧ f2.members.map Member.elems = f1.members.map Member.elems := by
  have hu := C176_partial hx h1 h2 hp
  unfold Frame.generateAgain regenerateMembers at h3
  rw [hu] at h3
  simp only [bind, Except.bind] at h3
  split_ifs at h3 with hpt
  cases hl : (f1.lineLoads.map Prod.snd).foldlM (lineLoadStep (f1.members.map (fun m : Member K => { m with nodal := m.nodal.map (roundPt prec) })))
      ((f1.supports.map (Support.follow g1)).foldl Fem.addSupport g1) with
  | error e => rw [hl] at h3; cases h3
  | ok h =>
    rw [hl] at h3
    obtain ⟨rfl, rfl⟩ := Prod.mk.inj (Except.ok.inj h3)
    obtain ⟨s1, _⟩ := lineSteps_spec hl
    obtain ⟨s2, _⟩ := addSupports_spec (f1.supports.map (Support.follow g1)) g1
    obtain ⟨k1, k2, k3⟩ := s2.trans s1
    refine ⟨k2, k3, k1, ?_, ?_⟩
    · simp only [List.map_map]; rfl
    · simp only [List.map_map]; rfl

/-- A second call of `generate` puts every line load on the frame a second time. -/
theorem C177_violation_twice {f f1 f2 : Frame K} {g1 g2 : Fem K} (hf : Inv f) (h1 : f.generate false = .ok (f1, g1)) (h2 : f1.generateAgain g1 = .ok (f2, g2)) :
    (f2.lineLoads = f1.lineLoads) ∧ (∀ i : ℕ, (f2.members[i]?).map Member.elems = (f1.members[i]?).map Member.elems) ∧ g2.lineLoads = g1.lineLoads ++ g1.lineLoads := by
  have hup : ∀ {l l' : List (Member K)} {g g' : Fem K}, updateModel l g = .ok (l', g') →
      l'.map Member.elems = l.map Member.elems ∧ g'.lineLoads = g.lineLoads := by
    intro l
    induction l with
    | nil =>
      intro l' g g' h
      obtain ⟨rfl, rfl⟩ := Prod.mk.inj (Except.ok.inj h)
      exact ⟨rfl, rfl⟩
    | cons m l ih =>
      intro l' g g' h
      unfold updateModel at h
      simp only [bind, Except.bind] at h
      cases hr : m.recalc g with
      | error e => rw [hr] at h; cases h
      | ok r =>
        rw [hr] at h
        simp only at h
        cases hu : updateModel l r.2 with
        | error e => rw [hu] at h; cases h
        | ok q =>
          rw [hu] at h
          obtain ⟨rfl, rfl⟩ := Prod.mk.inj (Except.ok.inj h)
          obtain ⟨i1, i2⟩ := ih hu
          have hrc : r.1.elems = m.elems ∧ r.2.lineLoads = g.lineLoads := by
            have hfr : (m.refresh g).elems = m.elems := by
              unfold Member.refresh
              split <;> rfl
            unfold Member.recalc at hr
            cases hc : (m.refresh g).calcNodal 0 with
            | error e => rw [hc] at hr; cases hr
            | ok m1 =>
              rw [hc] at hr
              have hm1 : m1.elems = m.elems := by
                unfold Member.calcNodal at hc
                simp only [lt_self_iff_false, if_false] at hc
                split_ifs at hc
                obtain rfl := Except.ok.inj hc
                exact hfr
              simp only [bind, Except.bind] at hr
              split_ifs at hr with hb
              · cases hmv : moveNodes m1.nodes m1.nodal g.place with
                | error e => rw [hmv] at hr; cases hr
                | ok pl =>
                  rw [hmv] at hr
                  obtain rfl := Except.ok.inj hr
                  exact ⟨hm1, rfl⟩
              · obtain rfl := Except.ok.inj hr
                exact ⟨hm1, rfl⟩
          refine ⟨by rw [List.map_cons, List.map_cons, hrc.1, i1], i2.trans hrc.2⟩
  unfold Frame.generateAgain at h2
  simp only [bind, Except.bind] at h2
  cases hr : regenerateMembers f1.members g1 with
  | error e => rw [hr] at h2; cases h2
  | ok r =>
    rw [hr] at h2
    simp only at h2
    split_ifs at h2 with hpt
    cases hl : (f1.lineLoads.map Prod.snd).foldlM (lineLoadStep r.1) ((f1.supports.map (Support.follow r.2)).foldl Fem.addSupport r.2) with
    | error e => rw [hl] at h2; cases h2
    | ok h =>
      rw [hl] at h2
      obtain ⟨rfl, rfl⟩ := Prod.mk.inj (Except.ok.inj h2)
      unfold regenerateMembers at hr
      simp only [bind, Except.bind] at hr
      cases hu : updateModel f1.members g1 with
      | error e => rw [hu] at hr; cases hr
      | ok q =>
        rw [hu] at hr
        obtain rfl := Except.ok.inj hr
        obtain ⟨u1, u2⟩ := hup hu
        have el : ∀ i : ℕ, ((q.1.map (fun m : Member K => { m with nodal := m.nodal.map (roundPt prec) }))[i]?).map Member.elems = (f1.members[i]?).map Member.elems := by
          intro i
          rw [List.getElem?_map, Option.map_map]
          have := congrArg (fun l => l[i]?) u1
          simp only [List.getElem?_map] at this
          exact this
        refine ⟨rfl, el, ?_⟩
        obtain ⟨_, _, _, _, _, s6⟩ := lineSteps_spec hl
        obtain ⟨_, _, _, s4, _⟩ := addSupports_spec (f1.supports.map (Support.follow q.2)) q.2
        rw [s6, s4, u2]
        congr 1
        rw [(frame_lineLoads hf h1).1, List.flatMap_def, List.map_map]
        congr 1
        apply List.map_congr_left
        intro e _
        simp only [Function.comp]
        rw [el]

/-- The line loads of a frame after one and after two generations. -/
def twice (items : List (Item ℚ)) (n : ℕ) : Option (List (ℕ × ℕ × ℚ × ℚ) × List (ℕ × ℕ × ℚ × ℚ)) :=
  match ({ num := n } : Frame ℚ).addAll items with
  | .error _ => none
  | .ok f =>
    match f.generate false with
    | .error _ => none
    | .ok r =>
      match r.1.generateAgain r.2 with
      | .error _ => none
      | .ok q => some (r.2.lineLoads, q.2.lineLoads)

example : (twice factored 1).map Prod.snd = some [(2, 0, -10, -10), (2, 0, -10, -10)] := by decide +kernel

end Metku.Frame2D
