import Verif.Props.FrameGeom
import Verif.Model.FrameGen

/-! What adding items does to the members of a frame. -/
namespace Metku.Frame2D

open Metku.FrameSpec

set_option linter.unusedSectionVars false

variable {K : Type} [Field K] [LinearOrder K] [IsStrictOrderedRing K] [FloorRing K]

/-- The later state of a member: more added points, all of them on the member for `point_intersection`. -/
def Grows (m m' : Member K) : Prop :=
  ∃ extra nodal, m' = { m with added := m.added ++ extra, nodal := nodal } ∧ ∀ p ∈ extra, m.pointIntersection p = .ok true

theorem Grows.refl (m : Member K) : Grows m m := ⟨[], m.nodal, by simp, by simp⟩

theorem Grows.trans {a b c : Member K} (h1 : Grows a b) (h2 : Grows b c) : Grows a c := by
  obtain ⟨e1, n1, rfl, k1⟩ := h1
  obtain ⟨e2, n2, rfl, k2⟩ := h2
  refine ⟨e1 ++ e2, n2, by simp, ?_⟩
  intro p hp
  rcases List.mem_append.mp hp with h | h
  · exact k1 p h
  · exact k2 p h

theorem Grows.start {a b : Member K} (h : Grows a b) : b.start = a.start := by obtain ⟨_, _, rfl, _⟩ := h; rfl
theorem Grows.stop {a b : Member K} (h : Grows a b) : b.stop = a.stop := by obtain ⟨_, _, rfl, _⟩ := h; rfl
theorem Grows.mem {a b : Member K} (h : Grows a b) {p : Pt K} (hp : p ∈ a.added) : p ∈ b.added := by
  obtain ⟨_, _, rfl, _⟩ := h
  exact List.mem_append_left _ hp

theorem addNodeCoord_spec {m m' : Member K} {p : Pt K} (h : m.addNodeCoord p = .ok m') :
    Grows m m' ∧ (m.pointIntersection p = .ok true → p ∈ m'.added) := by
  unfold Member.addNodeCoord at h
  split_ifs at h with hp
  · obtain rfl := Except.ok.inj h
    exact ⟨Grows.refl _, fun _ => hp⟩
  · cases hq : m.pointIntersection p with
    | error e => rw [hq] at h; cases h
    | ok b =>
      rw [hq] at h
      cases b with
      | false =>
        obtain rfl := Except.ok.inj h
        exact ⟨Grows.refl _, fun h => by cases h⟩
      | true =>
        obtain rfl := Except.ok.inj h
        exact ⟨⟨[p], _, rfl, fun q hq' => by rw [List.mem_singleton.mp hq']; exact hq⟩, fun _ => List.mem_append_right _ (List.mem_singleton.mpr rfl)⟩

theorem offer_spec {m m' : Member K} {p : Pt K} (h : m.offer p = .ok m') :
    Grows m m' ∧ (m.pointIntersection p = .ok true → p ∈ m'.added) := by
  unfold Member.offer at h
  cases hq : m.pointIntersection p with
  | error e => rw [hq] at h; cases h
  | ok b =>
    rw [hq] at h
    cases b with
    | false =>
      obtain rfl := Except.ok.inj h
      exact ⟨Grows.refl _, fun h => by cases h⟩
    | true =>
      have := addNodeCoord_spec (m := m) (p := p) (m' := m') h
      rw [hq] at this
      exact this

theorem mapM_forall {α β : Type} {f : α → Except PyErr β} : ∀ {l : List α} {r : List β}, l.mapM f = .ok r → List.Forall₂ (fun a b => f a = .ok b) l r
  | [], r, h => by
    rw [List.mapM_nil] at h
    obtain rfl := Except.ok.inj h
    exact .nil
  | a :: l, r, h => by
    rw [List.mapM_cons] at h
    cases ha : f a with
    | error e => rw [ha] at h; cases h
    | ok b =>
      cases hl : l.mapM f with
      | error e => rw [ha, hl] at h; cases h
      | ok bs =>
        rw [ha, hl] at h
        obtain rfl := Except.ok.inj h
        exact .cons ha (mapM_forall hl)

/-- The loop of `add_member`: every common point reported by `line_intersection` that lies on both members is added to both. -/
theorem meetAll_spec : ∀ {l : List (Member K)} {this : Member K} {r : Member K × List (Member K)}, meetAll this l = .ok r →
    Grows this r.1 ∧ List.Forall₂ (fun a b => Grows a b ∧ ∀ p, lineIntersection this.start this.stop a.start a.stop = some p →
      this.pointIntersection p = .ok true → a.pointIntersection p = .ok true → p ∈ r.1.added ∧ p ∈ b.added) l r.2
  | [], this, r, h => by
    obtain rfl := Except.ok.inj h
    exact ⟨Grows.refl _, .nil⟩
  | m :: l, this, r, h => by
    unfold meetAll at h
    cases hi : lineIntersection this.start this.stop m.start m.stop with
    | none =>
      rw [hi] at h
      simp only [bind, Except.bind] at h
      cases hr : meetAll this l with
      | error e => rw [hr] at h; cases h
      | ok q =>
        rw [hr] at h
        obtain rfl := Except.ok.inj h
        obtain ⟨g, fa⟩ := meetAll_spec hr
        exact ⟨g, .cons ⟨Grows.refl _, fun p hp => by rw [hi] at hp; cases hp⟩ fa⟩
    | some p =>
      rw [hi] at h
      simp only [bind, Except.bind] at h
      cases h1 : this.addNodeCoord p with
      | error e => rw [h1] at h; cases h
      | ok this' =>
        rw [h1] at h
        simp only at h
        cases h2 : m.addNodeCoord p with
        | error e => rw [h2] at h; cases h
        | ok m' =>
          rw [h2] at h
          simp only at h
          cases hr : meetAll this' l with
          | error e => rw [hr] at h; cases h
          | ok q =>
            rw [hr] at h
            obtain rfl := Except.ok.inj h
            obtain ⟨g, fa⟩ := meetAll_spec hr
            have s1 := addNodeCoord_spec h1
            have s2 := addNodeCoord_spec h2
            refine ⟨s1.1.trans g, .cons ⟨s2.1, ?_⟩ ?_⟩
            · intro p' hp' k1 k2
              rw [hi] at hp'
              obtain rfl := Option.some.inj hp'
              exact ⟨g.mem (s1.2 k1), s2.2 k2⟩
            · refine fa.imp ?_
              intro a b hab
              refine ⟨hab.1, ?_⟩
              intro p' hp' k1 k2
              refine hab.2 p' ?_ ?_ k2
              · rw [s1.1.start, s1.1.stop]; exact hp'
              · obtain ⟨_, _, rfl, _⟩ := s1.1
                exact k1

/-- A member of a frame that is being put together. -/
structure Ready (m : Member K) : Prop where
  d1 : DecimalPt prec m.start
  d2 : DecimalPt prec m.stop
  ne : m.start ≠ m.stop
  num : 0 < m.num
  added : ∀ p ∈ m.added, m.pointIntersection p = .ok true
  nodes : m.nodes = []
  elems : m.elems = []
  n1 : m.n1 = none
  n2 : m.n2 = none
  built : m.built = false

theorem Ready.grows {a b : Member K} (h : Ready a) (g : Grows a b) : Ready b := by
  obtain ⟨e, n, rfl, k⟩ := g
  refine ⟨h.d1, h.d2, h.ne, h.num, ?_, h.nodes, h.elems, h.n1, h.n2, h.built⟩
  intro p hp
  rcases List.mem_append.mp hp with h' | h'
  · exact h.added p h'
  · exact k p h'

theorem Ready.on {m : Member K} (h : Ready m) {p : Pt K} (hp : OnSegment m.start m.stop p) : m.pointIntersection p = .ok true :=
  (C168 h.d1 h.d2 h.ne p).2.1 hp

/-- Two members both know each common point that has at most five decimals. -/
def Linked (a b : Member K) : Prop :=
  ∀ p, OnSegment a.start a.stop p → OnSegment b.start b.stop p → ¬ Parallel a.start a.stop b.start b.stop → DecimalPt 5 p → p ∈ a.added ∧ p ∈ b.added

theorem Linked.grows {a b a' b' : Member K} (h : Linked a b) (ga : Grows a a') (gb : Grows b b') : Linked a' b' := by
  intro p h1 h2 h3 h4
  rw [ga.start, ga.stop] at h1 h3
  rw [gb.start, gb.stop] at h2 h3
  have := h p h1 h2 h3 h4
  exact ⟨ga.mem this.1, gb.mem this.2⟩

theorem pairwise_forall₂ {α : Type} {R : α → α → Prop} {G : α → α → Prop} (hR : ∀ a b a' b', R a b → G a a' → G b b' → R a' b') :
    ∀ {l l' : List α}, List.Forall₂ G l l' → l.Pairwise R → l'.Pairwise R
  | _, _, .nil, _ => .nil
  | _, _, .cons (a := a) (b := b) hab hl, h => by
    rw [List.pairwise_cons] at h ⊢
    refine ⟨?_, pairwise_forall₂ hR hl h.2⟩
    intro c' hc'
    obtain ⟨i, hi, rfl⟩ := List.mem_iff_getElem.mp hc'
    have hlen := hl.length_eq
    exact hR a _ b _ (h.1 _ (List.getElem_mem (hlen ▸ hi))) hab (hl.get (hlen ▸ hi) hi)

theorem forall₂_mem {α : Type} {G : α → α → Prop} {P : α → Prop} (hP : ∀ a b, P a → G a b → P b) :
    ∀ {l l' : List α}, List.Forall₂ G l l' → (∀ a ∈ l, P a) → ∀ b ∈ l', P b
  | _, _, .nil, _ => by simp
  | _, _, .cons (a := a) (b := b) hab hl, h => by
    intro c hc
    rcases List.mem_cons.mp hc with rfl | hc
    · exact hP a _ (h a (List.mem_cons_self)) hab
    · exact forall₂_mem hP hl (fun x hx => h x (List.mem_cons_of_mem _ hx)) c hc

/-- The state of a frame after any additions. -/
def Inv (f : Frame K) : Prop := (∀ m ∈ f.members, Ready m) ∧ f.members.Pairwise Linked

/-- Only fresh members are added. -/
def FreshItem : Item K → Prop
  | .member m => Fresh m
  | _ => True

theorem calcNodal_spec {m m' : Member K} {n : ℕ} (hm : Fresh m) (h : m.calcNodal n = .ok m') :
    Ready m' ∧ m'.start = m.start ∧ m'.stop = m.stop ∧ m'.added = [] ∧ m'.num = (if 0 < n then n else m.num) := by
  unfold Member.calcNodal at h
  simp only at h
  split_ifs at h with h1 h2 h3
  · obtain rfl := Except.ok.inj h
    exact ⟨⟨hm.d1, hm.d2, hm.ne, h1, (fun p hp => absurd (show p ∈ m.added from hp) (by simp [hm.added])), hm.nodes, hm.elems, hm.n1, hm.n2, hm.built⟩, rfl, rfl, hm.added, by rw [if_pos h1]⟩
  · obtain rfl := Except.ok.inj h
    exact ⟨⟨hm.d1, hm.d2, hm.ne, hm.num, (fun p hp => absurd (show p ∈ m.added from hp) (by simp [hm.added])), hm.nodes, hm.elems, hm.n1, hm.n2, hm.built⟩, rfl, rfl, hm.added, by rw [if_neg h1]⟩

/-- What an addition does to the members that are there. -/
def Extends (f f' : Frame K) : Prop := ∃ tl, List.Forall₂ Grows f.members (f'.members.take f.members.length) ∧ f'.members = f'.members.take f.members.length ++ tl

theorem extends_of_forall₂ {f f' : Frame K} (h : List.Forall₂ Grows f.members f'.members) : Extends f f' := by
  refine ⟨[], ?_, ?_⟩
  · rw [h.length_eq, List.take_length]; exact h
  · rw [h.length_eq, List.take_length, List.append_nil]

theorem add_spec {f f' : Frame K} {x : Item K} (hx : FreshItem x) (hf : Inv f) (h : f.add x = .ok f') : Inv f' ∧ Extends f f' := by
  have keep : ∀ {g : Frame K}, List.Forall₂ Grows f.members g.members → Inv g ∧ Extends f g := fun hg =>
    ⟨⟨forall₂_mem (fun _ _ h g => h.grows g) hg hf.1, pairwise_forall₂ (fun _ _ _ _ h g1 g2 => h.grows g1 g2) hg hf.2⟩, extends_of_forall₂ hg⟩
  cases x with
  | member m =>
    simp only [Frame.add, Frame.addMember, bind, Except.bind] at h
    cases hm : m.calcNodal f.num with
    | error e => rw [hm] at h; cases h
    | ok m1 =>
      rw [hm] at h
      simp only at h
      cases hr : meetAll m1 f.members with
      | error e => rw [hr] at h; cases h
      | ok r =>
        rw [hr] at h
        obtain rfl := Except.ok.inj h
        obtain ⟨ready, _, _, _, _⟩ := calcNodal_spec hx hm
        obtain ⟨g, fa⟩ := meetAll_spec hr
        have fg : List.Forall₂ Grows f.members r.2 := fa.imp (fun _ _ h => h.1)
        refine ⟨⟨?_, ?_⟩, ?_⟩
        · intro c hc
          rcases List.mem_append.mp hc with hc | hc
          · exact forall₂_mem (fun _ _ h g => h.grows g) fg hf.1 c hc
          · rw [List.mem_singleton.mp hc]
            exact ready.grows g
        · rw [List.pairwise_append]
          refine ⟨pairwise_forall₂ (fun _ _ _ _ h g1 g2 => h.grows g1 g2) fg hf.2, List.pairwise_singleton _ _, ?_⟩
          intro a' ha' b' hb'
          rw [List.mem_singleton.mp hb']
          obtain ⟨i, hi, rfl⟩ := List.mem_iff_getElem.mp ha'
          have hi' : i < f.members.length := fa.length_eq ▸ hi
          have hrel := fa.get hi' hi
          have hra := hf.1 _ (List.getElem_mem hi')
          simp only [List.get_eq_getElem] at hrel
          intro p h1 h2 h3 h4
          rw [hrel.1.start, hrel.1.stop] at h1 h3
          rw [g.start, g.stop] at h2 h3
          have hn : ¬ Parallel m1.start m1.stop (f.members[i]).start (f.members[i]).stop := by
            intro hp
            apply h3
            unfold Parallel at hp ⊢
            linarith
          have := hrel.2 p (by rw [lineIntersection_eq hn (onSegment_line h2) (onSegment_line h1), roundPt_of_decimals h4]) (ready.on h2) (hra.on h1)
          exact ⟨this.2, this.1⟩
        · refine ⟨[r.1], ?_, ?_⟩
          · simp only
            rw [fg.length_eq, List.take_left]
            exact fg
          · simp only
            rw [fg.length_eq, List.take_left]
  | support s =>
    simp only [Frame.add, Frame.addSupport, bind, Except.bind] at h
    cases hm : f.members.mapM (fun m => m.offer s.coord) with
    | error e => rw [hm] at h; cases h
    | ok ms =>
      rw [hm] at h
      obtain rfl := Except.ok.inj h
      exact keep ((mapM_forall hm).imp (fun _ _ h => (offer_spec h).1))
  | pointLoad l =>
    simp only [Frame.add, Frame.addPointLoad, bind, Except.bind] at h
    cases hm : f.members.mapM (fun m => m.offer l.coord) with
    | error e => rw [hm] at h; cases h
    | ok ms =>
      rw [hm] at h
      obtain rfl := Except.ok.inj h
      exact keep ((mapM_forall hm).imp (fun _ _ h => (offer_spec h).1))
  | lineLoad l =>
    simp only [Frame.add] at h
    obtain rfl := Except.ok.inj h
    exact keep (List.forall₂_same.mpr (fun x _ => Grows.refl x))

theorem addAll_cons {f f' : Frame K} {x : Item K} {l : List (Item K)} (h : f.addAll (x :: l) = .ok f') : ∃ g, f.add x = .ok g ∧ g.addAll l = .ok f' := by
  unfold Frame.addAll at h
  rw [List.foldlM_cons] at h
  cases hg : f.add x with
  | error e => rw [hg] at h; cases h
  | ok g => rw [hg] at h; exact ⟨g, rfl, h⟩

theorem addAll_append {f f' : Frame K} {l l' : List (Item K)} (h : f.addAll (l ++ l') = .ok f') : ∃ g, f.addAll l = .ok g ∧ g.addAll l' = .ok f' := by
  unfold Frame.addAll at h ⊢
  rw [List.foldlM_append] at h
  cases hg : l.foldlM Frame.add f with
  | error e => rw [hg] at h; cases h
  | ok g => rw [hg] at h; exact ⟨g, rfl, h⟩

theorem extends_get {f f' : Frame K} (h : Extends f f') {i : ℕ} {m : Member K} (hm : f.members[i]? = some m) : ∃ m', f'.members[i]? = some m' ∧ Grows m m' := by
  obtain ⟨tl, fa, e⟩ := h
  obtain ⟨hi, hmi⟩ := List.getElem?_eq_some_iff.mp hm
  have hi' : i < (f'.members.take f.members.length).length := fa.length_eq ▸ hi
  refine ⟨(f'.members.take f.members.length)[i], ?_, ?_⟩
  · have := List.getElem?_append_left (l₂ := tl) hi'
    rw [← e, List.getElem?_eq_getElem hi'] at this
    exact this
  · have := fa.get hi hi'
    simp only [List.get_eq_getElem] at this
    rw [← hmi]
    exact this

/-- After any additions the frame is in order and the earlier members are still there, with more points. -/
theorem addAll_spec : ∀ {l : List (Item K)} {f f' : Frame K}, (∀ x ∈ l, FreshItem x) → Inv f → f.addAll l = .ok f' →
    Inv f' ∧ ∀ (i : ℕ) (m : Member K), f.members[i]? = some m → ∃ m', f'.members[i]? = some m' ∧ Grows m m'
  | [], f, f', _, hf, h => by
    obtain rfl := Except.ok.inj h
    exact ⟨hf, fun i m hm => ⟨m, hm, Grows.refl m⟩⟩
  | x :: l, f, f', hx, hf, h => by
    obtain ⟨g, hg, hl⟩ := addAll_cons h
    obtain ⟨ig, eg⟩ := add_spec (hx x List.mem_cons_self) hf hg
    obtain ⟨i', e'⟩ := addAll_spec (fun y hy => hx y (List.mem_cons_of_mem _ hy)) ig hl
    refine ⟨i', ?_⟩
    intro i m hm
    obtain ⟨m1, h1, g1⟩ := extends_get eg hm
    obtain ⟨m2, h2, g2⟩ := e' i m1 h1
    exact ⟨m2, h2, g1.trans g2⟩

theorem inv_empty (n : ℕ) : Inv ({ num := n } : Frame K) := ⟨by simp, List.Pairwise.nil⟩

/-- Adding never raises for fresh members. -/
theorem add_ok {f : Frame K} {x : Item K} (hx : FreshItem x) (hf : Inv f) : ∃ f', f.add x = .ok f' := by
  have one : ∀ {m : Member K} (p : Pt K), Ready m → ∃ m', m.addNodeCoord p = .ok m' := by
    intro m p hm
    obtain ⟨b, hb⟩ := (C168 hm.d1 hm.d2 hm.ne p).1
    unfold Member.addNodeCoord
    by_cases hp : p ∈ m.added
    · exact ⟨m, by rw [if_pos hp]⟩
    · rw [if_neg hp, hb]
      cases b
      · exact ⟨_, rfl⟩
      · exact ⟨_, rfl⟩
  have two : ∀ {m : Member K} (p : Pt K), Ready m → ∃ m', m.offer p = .ok m' := by
    intro m p hm
    obtain ⟨b, hb⟩ := (C168 hm.d1 hm.d2 hm.ne p).1
    unfold Member.offer
    rw [hb]
    cases b
    · exact ⟨_, rfl⟩
    · exact one p hm
  have many : ∀ (p : Pt K) {l : List (Member K)}, (∀ m ∈ l, Ready m) → ∃ r, l.mapM (fun m => m.offer p) = .ok r := by
    intro p l
    induction l with
    | nil => exact fun _ => ⟨[], rfl⟩
    | cons a l ih =>
      intro h
      obtain ⟨a', ha⟩ := two p (h a List.mem_cons_self)
      obtain ⟨r, hr⟩ := ih (fun m hm => h m (List.mem_cons_of_mem _ hm))
      exact ⟨a' :: r, by rw [List.mapM_cons, ha, hr]; rfl⟩
  have meet : ∀ {l : List (Member K)} {this : Member K}, Ready this → (∀ m ∈ l, Ready m) → ∃ r, meetAll this l = .ok r := by
    intro l
    induction l with
    | nil => exact fun _ _ => ⟨_, rfl⟩
    | cons a l ih =>
      intro this ht h
      unfold meetAll
      cases hi : lineIntersection this.start this.stop a.start a.stop with
      | none =>
        obtain ⟨r, hr⟩ := ih ht (fun m hm => h m (List.mem_cons_of_mem _ hm))
        simp only [bind, Except.bind]
        rw [hr]
        exact ⟨_, rfl⟩
      | some p =>
        obtain ⟨t', h1⟩ := one p ht
        obtain ⟨a', h2⟩ := one p (h a List.mem_cons_self)
        obtain ⟨r, hr⟩ := ih (ht.grows (addNodeCoord_spec h1).1) (fun m hm => h m (List.mem_cons_of_mem _ hm))
        simp only [bind, Except.bind]
        rw [h1, h2]
        simp only
        rw [hr]
        exact ⟨_, rfl⟩
  cases x with
  | member m =>
    have hk : ∃ m1, m.calcNodal f.num = .ok m1 := by
      unfold Member.calcNodal
      simp only
      by_cases h : 0 < f.num
      · rw [if_pos h, if_neg (by omega)]; exact ⟨_, rfl⟩
      · rw [if_neg h, if_neg (by have := (hx : Fresh m).num; omega)]; exact ⟨_, rfl⟩
    obtain ⟨m1, h1⟩ := hk
    obtain ⟨r, hr⟩ := meet (calcNodal_spec hx h1).1 hf.1
    simp only [Frame.add, Frame.addMember, bind, Except.bind]
    rw [h1]
    simp only
    rw [hr]
    exact ⟨_, rfl⟩
  | support s =>
    obtain ⟨r, hr⟩ := many s.coord hf.1
    simp only [Frame.add, Frame.addSupport, bind, Except.bind]
    rw [hr]
    exact ⟨_, rfl⟩
  | pointLoad l =>
    obtain ⟨r, hr⟩ := many l.coord hf.1
    simp only [Frame.add, Frame.addPointLoad, bind, Except.bind]
    rw [hr]
    exact ⟨_, rfl⟩
  | lineLoad l => exact ⟨_, rfl⟩

theorem addAll_ok : ∀ {l : List (Item K)} {f : Frame K}, (∀ x ∈ l, FreshItem x) → Inv f → ∃ f', f.addAll l = .ok f'
  | [], f, _, _ => ⟨f, rfl⟩
  | x :: l, f, hx, hf => by
    obtain ⟨g, hg⟩ := add_ok (hx x List.mem_cons_self) hf
    obtain ⟨f', h⟩ := addAll_ok (fun y hy => hx y (List.mem_cons_of_mem _ hy)) (add_spec (hx x List.mem_cons_self) hf hg).1
    refine ⟨f', ?_⟩
    unfold Frame.addAll at h ⊢
    rw [List.foldlM_cons, hg]
    exact h

end Metku.Frame2D
