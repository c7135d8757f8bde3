import Mathlib.Data.List.Nodup
import Verif.Props.StructProblem

/-! Lists of constraints and variables of the structural optimisation problem (C278-C281). -/
namespace Metku.SProb

set_option linter.unusedSectionVars false

open Metku

variable {K : Type} [Field K] [LinearOrder K] [IsStrictOrderedRing K]

/-! ### C278: the constraints that are asked for -/

/-- A constraint that the dict `r` asks for, in the members `ms` and the joints of `S`. -/
inductive Asked (S : Struct K) (r : Req K) (ms : List (Mem K)) : Con K → Prop
  | stability (m : Mem K) (i : ℕ) (s : Sub K) (k : String) (v : Except PyErr K) : m ∈ ms → m.subs[i]? = some s →
      (k, v) ∈ stabilityFuns s (if m.sec.kind = .wisec then 3 else 2) → r.wants k →
      Asked S r ms ⟨k, some m.id, some i, true, v⟩
  | sect (m : Mem K) (e : Elem K) (k : String) (v : Except PyErr K) : m ∈ ms → e ∈ m.elems →
      (k, v) ∈ sectionFuns m e → r.wants k → Asked S r ms ⟨k, some m.id, some e.eid, true, v⟩
  | cls (m : Mem K) (k : String) (v : Except PyErr K) : m ∈ ms → (k, v) ∈ classFuns m → r.wants k →
      Asked S r ms ⟨k, some m.id, none, false, v⟩
  | deflX (m : Mem K) : m ∈ ms → r.wants "deflection_x" →
      Asked S r ms ⟨"deflection_x", some m.id, none, true, deflVal Prod.fst m (r.arg "deflection_x").val⟩
  | deflY (m : Mem K) : m ∈ ms → r.wants "deflection_y" →
      Asked S r ms ⟨"deflection_y", some m.id, none, true, deflVal Prod.snd m (r.arg "deflection_y").val⟩
  | geom (t : List (Joint K)) (j : Joint K) (k : String) (v : Except PyErr K) : t ∈ S.trusses → j ∈ t →
      (k, v) ∈ geomFuns j → r.wants "joint_geometry_constraints" → Asked S r ms ⟨k, none, none, false, v⟩
  | strength (t : List (Joint K)) (j : Joint K) (k : String) (v : Except PyErr K) : t ∈ S.trusses → j ∈ t →
      (k, v) ∈ strengthFuns j → r.wants "joint_strength_constraints" → Asked S r ms ⟨k, none, none, true, v⟩

theorem mem_pick (r : Req K) (mem part : Option ℕ) (f : Bool) (l : List (String × Except PyErr K)) (c : Con K) :
    c ∈ pick r mem part f l ↔ ∃ k v, (k, v) ∈ l ∧ r.wants k = true ∧ c = ⟨k, mem, part, f, v⟩ := by
  rw [pick, List.mem_map]
  constructor
  · rintro ⟨⟨k, v⟩, h, rfl⟩
    obtain ⟨h1, h2⟩ := List.mem_filter.1 h
    exact ⟨k, v, h1, h2, rfl⟩
  · rintro ⟨k, v, h1, h2, rfl⟩
    exact ⟨(k, v), List.mem_filter.2 ⟨h1, h2⟩, rfl⟩

theorem mem_newCons (S : Struct K) (r : Req K) (ms : List (Mem K)) (c : Con K) :
    c ∈ newCons S r ms ↔ Asked S r ms c := by
  rw [newCons, List.mem_append, List.mem_flatMap, List.mem_flatMap]
  constructor
  · rintro (⟨m, hm, hc⟩ | ⟨t, ht, hc⟩)
    · simp only [memCons, List.mem_append, List.mem_flatMap] at hc
      rcases hc with ((⟨⟨s, i⟩, hs, hc⟩ | ⟨e, he, hc⟩) | hc) | hc
      · obtain ⟨k, v, h1, h2, rfl⟩ := (mem_pick ..).1 hc
        exact .stability m i s k v hm (List.mem_zipIdx_iff_getElem?.1 hs) h1 h2
      · obtain ⟨k, v, h1, h2, rfl⟩ := (mem_pick ..).1 hc
        exact .sect m e k v hm he h1 h2
      · obtain ⟨k, v, h1, h2, rfl⟩ := (mem_pick ..).1 hc
        exact .cls m k v hm h1 h2
      · obtain ⟨k, v, h1, h2, rfl⟩ := (mem_pick ..).1 hc
        rw [deflFuns, List.mem_append] at h1
        rcases h1 with h1 | h1
        · split at h1
          · simp only [List.mem_cons, List.not_mem_nil, or_false, Prod.mk.injEq] at h1
            obtain ⟨rfl, rfl⟩ := h1
            exact .deflX m hm h2
          · exact absurd h1 List.not_mem_nil
        · split at h1
          · simp only [List.mem_cons, List.not_mem_nil, or_false, Prod.mk.injEq] at h1
            obtain ⟨rfl, rfl⟩ := h1
            exact .deflY m hm h2
          · exact absurd h1 List.not_mem_nil
    · obtain ⟨j, hj, hc⟩ := List.mem_flatMap.1 hc
      rw [jointCons, List.mem_append] at hc
      rcases hc with hc | hc
      · split at hc
        · obtain ⟨⟨k, v⟩, hp, rfl⟩ := List.mem_map.1 hc
          exact .geom t j k v ht hj hp ‹_›
        · exact absurd hc List.not_mem_nil
      · split at hc
        · obtain ⟨⟨k, v⟩, hp, rfl⟩ := List.mem_map.1 hc
          exact .strength t j k v ht hj hp ‹_›
        · exact absurd hc List.not_mem_nil
  · intro h
    cases h with
    | stability m i s k v hm hs h1 h2 =>
      left
      refine ⟨m, hm, ?_⟩
      simp only [memCons, List.mem_append, List.mem_flatMap]
      exact .inl (.inl (.inl ⟨(s, i), List.mem_zipIdx_iff_getElem?.2 hs, (mem_pick ..).2 ⟨k, v, h1, h2, rfl⟩⟩))
    | sect m e k v hm he h1 h2 =>
      left
      refine ⟨m, hm, ?_⟩
      simp only [memCons, List.mem_append, List.mem_flatMap]
      exact .inl (.inl (.inr ⟨e, he, (mem_pick ..).2 ⟨k, v, h1, h2, rfl⟩⟩))
    | cls m k v hm h1 h2 =>
      left
      refine ⟨m, hm, ?_⟩
      simp only [memCons, List.mem_append]
      exact .inl (.inr ((mem_pick ..).2 ⟨k, v, h1, h2, rfl⟩))
    | deflX m hm h2 =>
      left
      refine ⟨m, hm, ?_⟩
      simp only [memCons, List.mem_append]
      refine .inr ((mem_pick ..).2 ⟨_, _, ?_, h2, rfl⟩)
      have h3 : (r.arg "deflection_x").truthy = true := h2
      simp [deflFuns, h3]
    | deflY m hm h2 =>
      left
      refine ⟨m, hm, ?_⟩
      simp only [memCons, List.mem_append]
      refine .inr ((mem_pick ..).2 ⟨_, _, ?_, h2, rfl⟩)
      have h3 : (r.arg "deflection_y").truthy = true := h2
      simp [deflFuns, h3]
    | geom t j k v ht hj hp h2 =>
      right
      refine ⟨t, ht, List.mem_flatMap.2 ⟨j, hj, ?_⟩⟩
      rw [jointCons, if_pos h2, List.mem_append]
      exact .inl (List.mem_map.2 ⟨(k, v), hp, rfl⟩)
    | strength t j k v ht hj hp h2 =>
      right
      refine ⟨t, ht, List.mem_flatMap.2 ⟨j, hj, ?_⟩⟩
      rw [jointCons, if_pos h2 (c := r.wants "joint_strength_constraints" = true), List.mem_append]
      exact .inr (List.mem_map.2 ⟨(k, v), hp, rfl⟩)

/-- Creating constraints for the whole structure forgets the old ones and makes exactly those that the dict asks for, if
    all its keys are known; with a key that is not known it raises an error.  Missing: the keys `LT_buckling` and
    `alpha_cr` of the published list, see below. -/
theorem C278_partial (S : Struct K) (r : Req K) (old : List (Con K)) :
    ((∀ p ∈ r, p.1 ∈ keywords) → ∃ cons, createConstraints S r none old = .ok cons ∧
      ∀ c, c ∈ cons ↔ Asked S r S.members c) ∧
    ((∃ p ∈ r, p.1 ∉ keywords) → createConstraints S r none old = .error .typeError) := by
  constructor
  · intro h
    refine ⟨newCons S r S.members, ?_, mem_newCons S r S.members⟩
    rw [createConstraints, if_pos]
    simpa [List.all_eq_true] using h
  · rintro ⟨p, hp, hk⟩
    rw [createConstraints, if_neg]
    simp only [List.all_eq_true, decide_eq_true_eq]
    intro h
    exact hk (h p hp)

example : (∀ p ∈ ([("shear", .flag true), ("deflection_y", .num 300)] : Req ℚ), p.1 ∈ keywords) ∧
    Req.wants ([("shear", .flag true), ("deflection_y", .num 300)] : Req ℚ) "deflection_y" = true ∧
    Req.wants ([("shear", .flag true), ("deflection_y", .num 300)] : Req ℚ) "tension" = false := by
  refine ⟨?_, ?_, ?_⟩
  · simp [keywords]
  · simp [Req.wants, Req.arg, List.lookup, Arg.truthy]
  · simp [Req.wants, Req.arg, List.lookup, Arg.truthy]

/-- The published dict of available constraints cannot be used: with it, or any other dict that has its key
    `LT_buckling`, making the constraints raises an error. -/
theorem C278_viol (S : Struct K) (r : Req K) (members : Option (List (Mem K))) (old : List (Con K))
    (h : ∃ a, ("LT_buckling", a) ∈ r) :
    createConstraints S r members old = .error .typeError ∧ ∃ a, ("LT_buckling", a) ∈ available (K := K) := by
  refine ⟨?_, .flag false, by simp [available]⟩
  obtain ⟨a, ha⟩ := h
  have hno : ¬ (r.all fun p => decide (p.1 ∈ keywords)) = true := by
    simp only [List.all_eq_true, decide_eq_true_eq]
    intro h
    exact absurd (h _ ha) (by simp [keywords])
  cases members <;> (rw [createConstraints, if_neg hno])

theorem wants_alpha (r : Req K) (a : Arg K) (k : String) (hk : k ≠ "alpha_cr") :
    Req.arg (("alpha_cr", a) :: r) k = r.arg k := by
  simp [Req.arg, List.lookup, beq_eq_false_iff_ne.2 hk]

theorem pick_alpha (r : Req K) (a : Arg K) (mem part : Option ℕ) (f : Bool) (l : List (String × Except PyErr K))
    (hl : ∀ p ∈ l, p.1 ≠ "alpha_cr") : pick (("alpha_cr", a) :: r) mem part f l = pick r mem part f l := by
  rw [pick, pick]
  congr 1
  apply List.filter_congr
  intro p hp
  rw [Req.wants, Req.wants, wants_alpha r a _ (hl p hp)]

/-- Asking for a least critical load factor has no effect. -/
theorem C278_alpha_viol (S : Struct K) (r : Req K) (a : Arg K) (ms : List (Mem K)) :
    newCons S (("alpha_cr", a) :: r) ms = newCons S r ms := by
  have hm : ∀ m : Mem K, memCons (("alpha_cr", a) :: r) m = memCons r m := by
    intro m
    rw [memCons, memCons, wants_alpha r a _ (by decide), wants_alpha r a _ (by decide),
      pick_alpha r a _ _ _ (classFuns m), pick_alpha r a _ _ _ (deflFuns m _ _)]
    · congr 3
      · apply List.flatMap_congr
        intro p _
        apply pick_alpha
        intro q hq
        simp only [stabilityFuns, List.mem_append, List.mem_cons, List.not_mem_nil, or_false] at hq
        rcases hq with (rfl | rfl | rfl | rfl) | hq
        · dsimp only; decide
        · dsimp only; decide
        · dsimp only; decide
        · dsimp only; decide
        · split at hq
          · simp only [List.mem_cons, List.not_mem_nil, or_false] at hq
            subst hq; dsimp only; decide
          · exact absurd hq List.not_mem_nil
    · intro q hq
      rw [deflFuns, List.mem_append] at hq
      rcases hq with hq | hq <;> split at hq
      · simp only [List.mem_cons, List.not_mem_nil, or_false] at hq; subst hq; dsimp only; decide
      · exact absurd hq List.not_mem_nil
      · simp only [List.mem_cons, List.not_mem_nil, or_false] at hq; subst hq; dsimp only; decide
      · exact absurd hq List.not_mem_nil
    · intro q hq
      simp only [classFuns, List.mem_cons, List.not_mem_nil, or_false] at hq
      rcases hq with rfl | rfl <;> (dsimp only; decide)
  have hj : ∀ j : Joint K, jointCons (("alpha_cr", a) :: r) j = jointCons r j := by
    intro j
    have h1 : Req.wants (("alpha_cr", a) :: r) "joint_geometry_constraints" = r.wants "joint_geometry_constraints" := by
      rw [Req.wants, Req.wants, wants_alpha r a _ (by decide)]
    have h2 : Req.wants (("alpha_cr", a) :: r) "joint_strength_constraints" = r.wants "joint_strength_constraints" := by
      rw [Req.wants, Req.wants, wants_alpha r a _ (by decide)]
    rw [jointCons, jointCons, h1, h2]
  simp only [newCons, funext hm, funext hj]

/-! ### C279: constraints of groups -/

/-- The elements at the positions 1, 3, 5, … of a list. -/
def odds {α : Type} : List α → List α
  | _ :: y :: l => y :: odds l
  | _ => []

theorem odds_length {α : Type} : ∀ l : List α, (odds l).length = l.length / 2
  | [] => by simp [odds]
  | [_] => by simp [odds]
  | _ :: _ :: l => by simp only [odds, List.length_cons, odds_length l]; omega

theorem sweep_none {α : Type} (p : α → Bool) : ∀ l : List α, (∀ x ∈ l, p x = false) → sweep p l = l
  | [], _ => rfl
  | [x], h => by simp [sweep, h x]
  | x :: y :: l, h => by
    rw [sweep, h x (by simp)]
    simp only [Bool.false_eq_true, if_false]
    rw [sweep_none p (y :: l) fun z hz => h z (by simp [hz])]

theorem sweep_pre {α : Type} (p : α → Bool) : ∀ (pre l : List α), (∀ x ∈ pre, p x = false) →
    sweep p (pre ++ l) = pre ++ sweep p l
  | [], _, _ => rfl
  | [x], [], h => by simp [sweep, h x]
  | [x], y :: l, h => by simp [sweep, h x]
  | x :: y :: pre, l, h => by
    have := sweep_pre p (y :: pre) l fun z hz => h z (by simp [hz])
    simp only [List.cons_append] at this ⊢
    rw [sweep, h x (by simp)]
    simp only [Bool.false_eq_true, if_false, this]

theorem sweep_block {α : Type} (p : α → Bool) : ∀ (b post : List α), (∀ x ∈ b, p x = true) →
    (∀ x ∈ post, p x = false) → sweep p (b ++ post) = odds b ++ post
  | [], post, _, h => by simpa [odds] using sweep_none p post h
  | [x], [], hb, _ => by simp [sweep, hb x, odds]
  | [x], y :: post, hb, h => by
    simp only [List.cons_append, List.nil_append, sweep, hb x (by simp), if_true, odds]
    rw [sweep_none p post fun z hz => h z (by simp [hz])]
  | x :: y :: b, post, hb, h => by
    simp only [List.cons_append, sweep, hb x (by simp), if_true, odds]
    rw [sweep_block p b post (fun z hz => hb z (by simp [hz])) h]

theorem sweep_filter {α : Type} (p q : α → Bool) (h : ∀ x, q x = true → p x = false) :
    ∀ l : List α, (sweep p l).filter q = l.filter q
  | [] => rfl
  | [x] => by
    by_cases hp : p x = true
    · have hq : q x = false := by
        cases hq : q x with
        | false => rfl
        | true => rw [h x hq] at hp; exact absurd hp (by decide)
      simp [sweep, hp, hq]
    · simp [sweep, hp]
  | x :: y :: l => by
    by_cases hp : p x = true
    · have hq : q x = false := by
        cases hq : q x with
        | false => rfl
        | true => rw [h x hq] at hp; exact absurd hp (by decide)
      rw [sweep, if_pos hp, List.filter_cons (x := x), hq]
      simp only [Bool.false_eq_true, if_false]
      rw [List.filter_cons, List.filter_cons, sweep_filter p q h l]
    · rw [sweep, if_neg hp, List.filter_cons (x := x) (xs := sweep p (y :: l)), List.filter_cons (x := x) (xs := y :: l),
        sweep_filter p q h (y :: l)]

theorem memCons_mem (r : Req K) (m : Mem K) : ∀ c ∈ memCons r m, c.mem = some m.id := by
  intro c hc
  simp only [memCons, List.mem_append, List.mem_flatMap] at hc
  rcases hc with ((⟨⟨s, i⟩, _, hc⟩ | ⟨e, _, hc⟩) | hc) | hc <;>
    (obtain ⟨k, v, _, _, rfl⟩ := (mem_pick ..).1 hc; rfl)

theorem joint_mem (S : Struct K) (r : Req K) :
    ∀ c ∈ (S.trusses.flatMap fun t => t.flatMap (jointCons r)), c.mem = none := by
  intro c hc
  obtain ⟨t, _, hc⟩ := List.mem_flatMap.1 hc
  obtain ⟨j, _, hc⟩ := List.mem_flatMap.1 hc
  rw [jointCons, List.mem_append] at hc
  rcases hc with hc | hc <;> split at hc
  · obtain ⟨_, _, rfl⟩ := List.mem_map.1 hc; rfl
  · exact absurd hc List.not_mem_nil
  · obtain ⟨_, _, rfl⟩ := List.mem_map.1 hc; rfl
  · exact absurd hc List.not_mem_nil

/-- The keys of a dict are known. -/
def Known (r : Req K) : Prop := ∀ p ∈ r, p.1 ∈ keywords

theorem Known.all {r : Req K} (h : Known r) : (r.all fun p => decide (p.1 ∈ keywords)) = true := by
  simp only [List.all_eq_true, decide_eq_true_eq]
  exact h

theorem create_known (S : Struct K) (r : Req K) (h : Known r) (ms : List (Mem K)) (cs : List (Con K)) :
    createConstraints S r (some ms) cs = .ok (cs ++ newCons S r ms) := by
  rw [createConstraints, if_pos h.all]

/-- Constraints of one member. -/
def consOf (m : Mem K) (cs : List (Con K)) : List (Con K) := cs.filter fun c => decide (c.mem = some m.id)

/-- The steps over the objects of a group, with all keys known. -/
theorem group_fold (S : Struct K) (base own : Req K) (h : Known (own ++ base)) (objs : List (Mem K)) :
    ∀ (l : List (Mem K)) (cs : List (Con K)), l.foldlM (groupStep S base own objs) cs =
      .ok (l.foldl (fun cs m => sweep (Con.of m) cs ++ newCons S (own ++ base) objs) cs)
  | [], _ => rfl
  | m :: l, cs => by
    rw [List.foldlM_cons, groupStep, create_known S _ h]
    exact group_fold S base own h objs l _

/-- A group of one member, in a problem whose members have different numbers: of the old constraints of the member, every
    second one stays; the new ones are appended, and so are the constraints of all joints once more. -/
theorem C279_one (S : Struct K) (base own : Req K) (hb : Known base) (ho : Known own) (pre post : List (Mem K))
    (m : Mem K) (hS : S.members = pre ++ m :: post) (hd : ∀ x ∈ pre ++ post, x.id ≠ m.id) :
    problemCons S (some base) (some [⟨[m], some own⟩]) = .ok
      (pre.flatMap (memCons base) ++ odds (memCons base m) ++ post.flatMap (memCons base) ++
        (S.trusses.flatMap fun t => t.flatMap (jointCons base)) ++
        (memCons (own ++ base) m ++ S.trusses.flatMap fun t => t.flatMap (jointCons (own ++ base)))) := by
  have hk : Known (own ++ base) := by
    intro p hp
    rcases List.mem_append.1 hp with h | h
    · exact ho p h
    · exact hb p h
  have h1 : createConstraints S base none [] = .ok (newCons S base S.members) := by
    rw [createConstraints, if_pos hb.all]
  have hf : ∀ l : List (Mem K), (∀ x ∈ l, x.id ≠ m.id) → ∀ c ∈ l.flatMap (memCons base), Con.of m c = false := by
    intro l hl c hc
    obtain ⟨x, hx, hc⟩ := List.mem_flatMap.1 hc
    have := memCons_mem base x c hc
    simp only [Con.of, this, Option.some.injEq, hl x hx, decide_false]
  simp only [problemCons, Option.getD_some, h1, bind, Except.bind, groupConstraints, List.foldlM_cons, List.foldlM_nil]
  have h2 : groupStep S base own [m] (newCons S base S.members) m =
      .ok (sweep (Con.of m) (newCons S base S.members) ++ newCons S (own ++ base) [m]) := by
    rw [groupStep, create_known S _ hk]
  rw [h2]
  simp only [pure, Except.pure]
  congr 1
  rw [newCons, hS, List.flatMap_append, List.flatMap_cons]
  have h3 : sweep (Con.of m) (pre.flatMap (memCons base) ++ (memCons base m ++ post.flatMap (memCons base)) ++
      S.trusses.flatMap fun t => t.flatMap (jointCons base)) =
      pre.flatMap (memCons base) ++ (odds (memCons base m) ++ (post.flatMap (memCons base) ++
      S.trusses.flatMap fun t => t.flatMap (jointCons base))) := by
    rw [List.append_assoc, List.append_assoc, sweep_pre _ _ _ (hf pre fun x hx => hd x (by simp [hx])), sweep_block]
    · intro c hc
      simp only [Con.of, memCons_mem base m c hc, decide_true]
    · intro c hc
      rcases List.mem_append.1 hc with hc | hc
      · exact hf post (fun x hx => hd x (by simp [hx])) c hc
      · simp only [Con.of, joint_mem S base c hc, reduceCtorEq, decide_false]
  rw [h3, newCons, List.flatMap_cons, List.flatMap_nil, List.append_nil]
  simp only [List.append_assoc]

/-- A member with at least two constraints that gets a group of its own keeps old constraints, besides the new ones.  Its
    number of constraints is that of the new ones plus half that of the old ones. -/
theorem C279_viol (S : Struct K) (base own : Req K) (hb : Known base) (ho : Known own) (pre post : List (Mem K))
    (m : Mem K) (hS : S.members = pre ++ m :: post) (hd : ∀ x ∈ pre ++ post, x.id ≠ m.id) :
    ∃ cs, problemCons S (some base) (some [⟨[m], some own⟩]) = .ok cs ∧
      consOf m cs = odds (memCons base m) ++ memCons (own ++ base) m ∧
      (consOf m cs).length = (memCons base m).length / 2 + (memCons (own ++ base) m).length := by
  refine ⟨_, C279_one S base own hb ho pre post m hS hd, ?_⟩
  have hf : ∀ l : List (Mem K), (∀ x ∈ l, x.id ≠ m.id) → consOf m (l.flatMap (memCons base)) = [] := by
    intro l hl
    rw [consOf, List.filter_eq_nil_iff]
    intro c hc
    obtain ⟨x, hx, hc⟩ := List.mem_flatMap.1 hc
    rw [memCons_mem base x c hc]
    simpa using hl x hx
  have hj : ∀ r : Req K, consOf m (S.trusses.flatMap fun t => t.flatMap (jointCons r)) = [] := by
    intro r
    rw [consOf, List.filter_eq_nil_iff]
    intro c hc
    rw [joint_mem S r c hc]
    simp
  have hself : ∀ l : List (Con K), (∀ c ∈ l, c.mem = some m.id) → consOf m l = l := by
    intro l hl
    rw [consOf, List.filter_eq_self]
    intro c hc
    simp [hl c hc]
  have hodd : ∀ l : List (Con K), ∀ c ∈ odds l, c ∈ l := by
    intro l
    induction l using odds.induct with
    | case1 x y l ih =>
      intro c hc
      rcases List.mem_cons.1 hc with rfl | hc
      · simp
      · simp [ih c hc]
    | case2 l h =>
      intro c hc
      rw [odds] at hc
      · exact absurd hc List.not_mem_nil
      · exact h
  have heq : consOf m (pre.flatMap (memCons base) ++ odds (memCons base m) ++ post.flatMap (memCons base) ++
        (S.trusses.flatMap fun t => t.flatMap (jointCons base)) ++
        (memCons (own ++ base) m ++ S.trusses.flatMap fun t => t.flatMap (jointCons (own ++ base)))) =
      odds (memCons base m) ++ memCons (own ++ base) m := by
    have happ : ∀ a b : List (Con K), consOf m (a ++ b) = consOf m a ++ consOf m b := fun a b => List.filter_append ..
    rw [happ, happ, happ, happ, happ, hf pre fun x hx => hd x (by simp [hx]), hf post fun x hx => hd x (by simp [hx]),
      hj, hj, hself (odds _) fun c hc => memCons_mem base m c (hodd _ c hc), hself _ (memCons_mem (own ++ base) m)]
    simp
  exact ⟨heq, by rw [heq, List.length_append, odds_length]⟩

/-- A group of two different members: the first one has all its new constraints twice. -/
theorem C279_twice_viol (S : Struct K) (base own : Req K) (hb : Known base) (ho : Known own) (m m' : Mem K)
    (hne : m.id ≠ m'.id) :
    ∃ cs, problemCons S (some base) (some [⟨[m, m'], some own⟩]) = .ok cs ∧
      2 * (memCons (own ++ base) m).length ≤ (consOf m cs).length ∧
      ∃ a b, consOf m cs = a ++ memCons (own ++ base) m ++ b ++ memCons (own ++ base) m := by
  have hk : Known (own ++ base) := by
    intro p hp
    rcases List.mem_append.1 hp with h | h
    · exact ho p h
    · exact hb p h
  have h1 : createConstraints S base none [] = .ok (newCons S base S.members) := by
    rw [createConstraints, if_pos hb.all]
  have hnew : consOf m (newCons S (own ++ base) [m, m']) = memCons (own ++ base) m := by
    rw [newCons, List.flatMap_cons, List.flatMap_cons, List.flatMap_nil, List.append_nil, consOf, List.filter_append,
      List.filter_append, List.filter_eq_self.2, List.filter_eq_nil_iff.2, List.filter_eq_nil_iff.2, List.append_nil,
      List.append_nil]
    · intro c hc; rw [joint_mem S _ c hc]; simp
    · intro c hc; rw [memCons_mem _ m' c hc]; simpa using hne.symm
    · intro c hc; simp [memCons_mem _ m c hc]
  have hsw : ∀ l : List (Con K), consOf m (sweep (Con.of m') l) = consOf m l := by
    intro l
    apply sweep_filter
    intro c hc
    simp only [decide_eq_true_eq] at hc
    simp only [Con.of, hc, Option.some.injEq, hne, decide_false]
  refine ⟨sweep (Con.of m') (sweep (Con.of m) (newCons S base S.members) ++ newCons S (own ++ base) [m, m']) ++
    newCons S (own ++ base) [m, m'], ?_, ?_⟩
  · simp only [problemCons, Option.getD_some, h1, bind, Except.bind, groupConstraints, List.foldlM_cons, List.foldlM_nil,
      groupStep, create_known S _ hk, pure, Except.pure]
  · have happ : ∀ a b : List (Con K), consOf m (a ++ b) = consOf m a ++ consOf m b := fun a b => List.filter_append ..
    have heq : consOf m (sweep (Con.of m') (sweep (Con.of m) (newCons S base S.members) ++
        newCons S (own ++ base) [m, m']) ++ newCons S (own ++ base) [m, m']) =
        consOf m (sweep (Con.of m) (newCons S base S.members)) ++ memCons (own ++ base) m ++ [] ++
          memCons (own ++ base) m := by
      rw [happ, hsw, happ, hnew, List.append_nil]
    refine ⟨?_, _, _, heq⟩
    rw [heq]; simp only [List.length_append, List.length_nil]; omega

/-- A group without constraints of its own makes the problem fail. -/
theorem C279_key_viol (S : Struct K) (base : Req K) (objs : List (Mem K)) (gs : List (CGroup K)) (cs : List (Con K)) :
    groupConstraints S base (some (⟨objs, none⟩ :: gs)) cs = .error .keyError := rfl

/-- One group: members outside it keep exactly their constraints, and each member of the group has, among its constraints,
    all those that the dict of the problem, changed by that of the group, asks for.  Missing: that old constraints of
    members of the group are gone, that no constraint is there twice. -/
theorem C279_partial (S : Struct K) (base own : Req K) (hk : Known (own ++ base)) (objs : List (Mem K))
    (hne : objs ≠ []) (cs : List (Con K)) :
    ∃ cs', groupConstraints S base (some [⟨objs, some own⟩]) cs = .ok cs' ∧
      (∀ m, (∀ o ∈ objs, o.id ≠ m.id) → consOf m cs' = consOf m cs) ∧
      (∀ c, Asked S (own ++ base) objs c → c ∈ cs') := by
  have hfold := group_fold S base own hk objs objs cs
  refine ⟨objs.foldl (fun cs m => sweep (Con.of m) cs ++ newCons S (own ++ base) objs) cs, ?_, ?_, ?_⟩
  · simp only [groupConstraints, List.foldlM_cons, List.foldlM_nil, hfold]
    rfl
  · intro m hm
    have hnew : consOf m (newCons S (own ++ base) objs) = [] := by
      rw [newCons, consOf, List.filter_eq_nil_iff]
      intro c hc
      rcases List.mem_append.1 hc with hc | hc
      · obtain ⟨o, ho, hc⟩ := List.mem_flatMap.1 hc
        rw [memCons_mem _ o c hc]
        simpa using hm o ho
      · rw [joint_mem S _ c hc]; simp
    have gen : ∀ (l : List (Mem K)), (∀ o ∈ l, o.id ≠ m.id) → ∀ cs : List (Con K),
        consOf m (l.foldl (fun cs m => sweep (Con.of m) cs ++ newCons S (own ++ base) objs) cs) = consOf m cs := by
      intro l
      induction l with
      | nil => intro _ cs; rfl
      | cons o l ih =>
        intro hl cs
        rw [List.foldl_cons, ih fun x hx => hl x (by simp [hx])]
        rw [show ∀ a b : List (Con K), consOf m (a ++ b) = consOf m a ++ consOf m b from fun a b => List.filter_append ..,
          hnew, List.append_nil]
        apply sweep_filter
        intro c hc
        simp only [decide_eq_true_eq] at hc
        simp only [Con.of, hc, Option.some.injEq, (hl o (by simp)).symm, decide_false]
    exact gen objs hm cs
  · intro c hc
    have hmem := (mem_newCons S (own ++ base) objs c).2 hc
    have gen : ∀ (l : List (Mem K)), l ≠ [] → ∀ cs : List (Con K),
        c ∈ l.foldl (fun cs m => sweep (Con.of m) cs ++ newCons S (own ++ base) objs) cs := by
      intro l
      induction l with
      | nil => intro h; exact absurd rfl h
      | cons o l ih =>
        intro _ cs
        rw [List.foldl_cons]
        by_cases hl : l = []
        · subst hl; simp [hmem]
        · exact ih hl _
    exact gen objs hne cs

/-- Grouping a member of two members with four class and deflection constraints: the hypotheses above are met, and the
    member ends up with an old constraint besides the new one. -/
example : ∃ (S : Struct ℚ) (base own : Req ℚ) (m m' : Mem ℚ), Known base ∧ Known own ∧ S.members = [] ++ m :: [m'] ∧
    (∀ x ∈ [] ++ [m'], x.id ≠ m.id) ∧ (memCons base m).length = 2 ∧ (memCons (own ++ base) m).length = 1 := by
  let m : Mem ℚ := ⟨0, ⟨.rhs, 1, 1, 1, 1, 1⟩, [], [], 1, 1, 1, []⟩
  let m' : Mem ℚ := ⟨1, ⟨.rhs, 1, 1, 1, 1, 1⟩, [], [], 1, 1, 1, []⟩
  refine ⟨⟨[m, m'], []⟩, [("web_class", .flag true), ("flange_class", .flag true)], [("web_class", .flag false)], m, m',
    ?_, ?_, rfl, ?_, ?_, ?_⟩
  · simp [Known, keywords]
  · simp [Known, keywords]
  · simp [m, m']
  · simp [m, memCons, pick, classFuns, deflFuns, Req.wants, Req.arg, List.lookup, Arg.truthy]
  · simp [m, memCons, pick, classFuns, deflFuns, Req.wants, Req.arg, List.lookup, Arg.truthy]

/-! ### C280: design variables -/

theorem mapM_flat {α β : Type} (f : α → Except PyErr β) : ∀ (l : List α) (r : List β), l.mapM f = .ok r →
    ∀ b ∈ r, ∃ a ∈ l, f a = .ok b
  | [], r, h, b, hb => by
    obtain rfl := Except.ok.inj h
    exact absurd hb List.not_mem_nil
  | a :: l, r, h, b, hb => by
    rw [List.mapM_cons] at h
    cases ha : f a with
    | error e => rw [ha] at h; exact absurd h (by simp [bind, Except.bind])
    | ok v =>
      cases hl : l.mapM f with
      | error e => rw [ha, hl] at h; exact absurd h (by simp [bind, Except.bind])
      | ok vs =>
        rw [ha, hl] at h
        obtain rfl := Except.ok.inj h
        rcases List.mem_cons.1 hb with rfl | hb
        · exact ⟨a, by simp, ha⟩
        · obtain ⟨c, hc, hc'⟩ := mapM_flat f l vs hl b hb
          exact ⟨c, by simp [hc], hc'⟩

/-- Without variable groups, a problem of a structure that has members cannot be made. -/
theorem C280_viol (members : List (ℕ × MType)) (h : members ≠ []) :
    createVariables (K := K) members none = .error .keyError := by
  cases members with
  | nil => exact absurd rfl h
  | cons m ms =>
    rw [createVariables, Option.getD_none, List.map_cons, List.mapM_cons]
    have : groupVars (K := K) (defaultGroup m) = .error .keyError := by
      simp [groupVars, defaultGroup, key, bind, Except.bind]
    rw [this]; rfl

/-- Variable groups that have all their keys.  An index group or a group of discrete values becomes one variable with
    these values; a continuous group becomes one variable with its bounds, or, if it lists properties, one for each of
    them that has a value; the targets are the objects of the group.  Missing: binary groups, properties without a value
    and the default groups. -/
theorem C280_partial (g : VGroup K) (o : List Obj) (ho : g.objects = some o) :
    (∀ v l p, g.varType = "index" → g.value = some v → g.values = some l → g.property = some p →
      groupVars g = .ok [⟨g.name, .index l, v, p, o⟩]) ∧
    (∀ v l p, g.varType = "discrete" → g.value = some v → g.numbers = some l → l ≠ [] → g.property = some p →
      groupVars g = .ok [⟨g.name, .nums l, v, p, o⟩]) ∧
    (∀ v lb ub p, g.varType = "continuous" → g.properties = none → g.value = some v → g.lb = some lb →
      g.ub = some ub → g.property = some p → groupVars g = .ok [⟨g.name, .range lb ub, v, p, o⟩]) ∧
    (∀ ps bs vs, g.varType = "continuous" → g.properties = some ps → g.bounds = some bs → g.numbers = some vs →
      bs.length = ps.length → ∃ vars, groupVars g = .ok vars ∧ vars.length = min ps.length vs.length ∧
        ∀ (i : ℕ) (p : String) (v : K) (b : K × K), ps[i]? = some p → vs[i]? = some v → bs[i]? = some b →
          vars[i]? = some ⟨g.name, .range b.1 b.2, v, p, o⟩) := by
  refine ⟨?_, ?_, ?_, ?_⟩
  · intro v l p h1 h2 h3 h4
    simp [groupVars, h1, h2, h3, h4, ho, key, bind, Except.bind, pure, Except.pure]
  · intro v l p h1 h2 h3 h4 h5
    simp [groupVars, h1, h2, h3, h4, h5, ho, key, bind, Except.bind]
  · intro v lb ub p h1 h2 h3 h4 h5 h6
    simp [groupVars, h1, h2, h3, h4, h5, h6, ho, key, bind, Except.bind, pure, Except.pure]
  · intro ps bs vs h1 h2 h3 h4 h5
    let f : (K × K) × String × K → Var K := fun t => ⟨g.name, .range t.1.1 t.1.2, t.2.2, t.2.1, o⟩
    have hg : groupVars g = .ok ((bs.zip (ps.zip vs)).map f) := by
      by_cases he : bs.zip (ps.zip vs) = []
      · simp [groupVars, h1, h2, h3, h4, h5, key, bind, Except.bind, he]
      · simp only [groupVars, h1, h2, h3, h4, h5, ho, key, bind, Except.bind, pure, Except.pure, f]
        simp [he]
    refine ⟨_, hg, ?_, ?_⟩
    · simp [List.length_zip, h5]
    · intro i p v b hp hv hb
      have hz : (ps.zip vs)[i]? = some (p, v) := List.getElem?_zip_eq_some.2 ⟨hp, hv⟩
      have hz' : (bs.zip (ps.zip vs))[i]? = some (b, (p, v)) := List.getElem?_zip_eq_some.2 ⟨hb, hz⟩
      rw [List.getElem?_map, hz']
      rfl

example : ∃ g : VGroup ℚ, g.objects = some [.section 3] ∧ g.varType = "continuous" ∧ g.properties = some ["h", "b"] ∧
    g.bounds = some [(100, 200), (50, 80)] ∧ g.numbers = some [150, 60] :=
  ⟨⟨"WI", "continuous", none, none, some [150, 60], none, some [.section 3], none, none, some ["h", "b"],
    some [(100, 200), (50, 80)]⟩, rfl, rfl, rfl, rfl, rfl⟩

/-- A binary group is dropped without a word; for a list of properties with fewer values, the last properties get no
    variable. -/
theorem C280_lost_viol (g : VGroup K) :
    (g.varType = "binary" → groupVars g = .ok []) ∧
    (∀ o ps bs vs, g.varType = "continuous" → g.objects = some o → g.properties = some ps → g.bounds = some bs →
      g.numbers = some vs → bs.length = ps.length → vs.length < ps.length →
      ∃ vars, groupVars g = .ok vars ∧ vars.length < ps.length) := by
  constructor
  · intro h; simp [groupVars, h]
  · intro o ps bs vs h1 ho h2 h3 h4 h5 h6
    obtain ⟨vars, hv, hl, _⟩ := (C280_partial g o ho).2.2.2 ps bs vs h1 h2 h3 h4 h5
    exact ⟨vars, hv, by omega⟩

/-- Another type of variable, or bounds that are not as many as the properties, raise an error. -/
theorem C280_errors (g : VGroup K) :
    (g.varType ∉ ["discrete", "continuous", "index", "binary"] → groupVars g = .error .valueError) ∧
    (∀ ps bs, g.varType = "continuous" → g.properties = some ps → g.bounds = some bs → bs.length ≠ ps.length →
      groupVars g = .error .valueError) := by
  constructor
  · intro h
    simp only [List.mem_cons, List.not_mem_nil, or_false, not_or] at h
    obtain ⟨a, b, c, d⟩ := h
    simp [groupVars, a, b, c, d]
  · intro ps bs h1 h2 h3 h4
    simp [groupVars, h1, h2, h3, h4, key, bind, Except.bind]

/-! ### C281: index variables turned into variables of dimensions -/

/-- The list of profiles for a kind of member. -/
def ListFor (chord web col : List String) (mt : MType) (profs : List String) : Prop :=
  (mt = .web ∧ profs = web) ∨ (mt = .column ∧ profs = col) ∨ (mt = .chord ∧ profs = chord)

theorem ListFor.eq {chord web col : List String} {mt : MType} {profs : List String}
    (h : ListFor chord web col mt profs) : profilesFor chord web col mt = some profs := by
  rcases h with ⟨rfl, rfl⟩ | ⟨rfl, rfl⟩ | ⟨rfl, rfl⟩ <;> rfl

/-- With variables as they are, a variable of a web, column or chord cannot be converted (at least one dimension, a list of
    profiles that is not empty and whose sections have the dimension). -/
theorem C281_viol (attr : Attrs K) (par : String) (params chord web col : List String) (idx : Var K → ℕ) (v : Var K)
    (l : List String) (id : ℕ) (mt : MType) (rest : List Obj) (ho : v.objs = .member id mt :: rest)
    (profs : List String) (hp : ListFor chord web col mt profs) (hne : profs ≠ [])
    (val : String → K) (hval : ∀ pr ∈ profs, attr pr par = .ok (val pr)) :
    binaryVars attr varId (par :: params) chord web col idx v l = .error .attributeError := by
  have hm := mapM_ok (fun pr => attr pr par) val profs hval
  have hlen : 0 < (profs.map val).length := by
    rw [List.length_map]; exact List.length_pos_iff.2 hne
  have hget : ∃ x, (profs.map val)[min (idx v) ((profs.map val).length - 1)]? = some x := by
    refine ⟨_, List.getElem?_eq_getElem ?_⟩
    omega
  obtain ⟨x, hx⟩ := hget
  simp only [binaryVars, ho, hp.eq, List.mapM_cons, hm, bind, Except.bind, hx, varId]

/-- Variables of other members (beams) are taken away without a replacement, so that these members are no longer
    designed. -/
theorem C281_lost_viol (attr : Attrs K) (ids : Var K → Except PyErr ℕ) (params chord web col : List String)
    (idx : Var K → ℕ) (vs : List (Var K))
    (h : ∀ v ∈ vs, ∃ l id rest, v.dom = .index l ∧ v.objs = .member id .other :: rest) :
    indexToBinary attr ids params chord web col idx vs = .ok [] := by
  have h1 : ∀ v ∈ vs, (match v.dom with
      | .index l => binaryVars attr ids params chord web col idx v l
      | _ => .ok []) = .ok ((fun _ : Var K => ([] : List (Var K))) v) := by
    intro v hv
    obtain ⟨l, id, rest, hd, ho⟩ := h v hv
    simp only [hd, binaryVars, ho, profilesFor]
  have h2 := mapM_ok _ _ vs h1
  have h3 : (vs.filter fun v => match v.dom with | .index _ => false | _ => true) = [] := by
    rw [List.filter_eq_nil_iff]
    intro v hv
    obtain ⟨l, id, rest, hd, ho⟩ := h v hv
    simp [hd]
  have h4 : indexToBinary attr ids params chord web col idx vs =
      (vs.mapM fun v => match v.dom with
        | .index l => binaryVars attr ids params chord web col idx v l
        | _ => .ok []) >>= fun news =>
      .ok ((vs.filter fun v => match v.dom with | .index _ => false | _ => true) ++ news.flatten) := rfl
  rw [h4, h3, h2]
  simp [bind, Except.bind]

example : ∃ vs : List (Var ℚ), vs ≠ [] ∧
    ∀ v ∈ vs, ∃ l id rest, v.dom = .index l ∧ v.objs = .member id .other :: rest :=
  ⟨[⟨"Beam 1", .index ["IPE 200"], 0, "profile", [.member 1 .other]⟩], by simp, by
    intro v hv
    simp only [List.mem_cons, List.not_mem_nil, or_false] at hv
    exact ⟨["IPE 200"], 1, [], by rw [hv], by rw [hv]⟩⟩

/-- If variables had numbers: for a member whose list of profiles is not empty and whose sections have all the dimensions,
    an index variable becomes one variable for each dimension.  Its values are those of the profiles, in order, and its
    value is that of the profile of the old index, or of the last one.  Missing: that the new variables stay on the
    profiles of the list, and variables without numbers. -/
theorem C281_partial (attr : Attrs K) (ids : Var K → Except PyErr ℕ) (params chord web col : List String)
    (idx : Var K → ℕ) (v : Var K) (l : List String) (id n : ℕ) (mt : MType) (rest : List Obj)
    (ho : v.objs = .member id mt :: rest) (hid : ids v = .ok n) (profs : List String)
    (hp : ListFor chord web col mt profs) (hne : profs ≠ [])
    (val : String → String → K) (hval : ∀ pr ∈ profs, ∀ par ∈ params, attr pr par = .ok (val pr par)) :
    ∃ (pr : String) (vars : List (Var K)), profs[min (idx v) (profs.length - 1)]? = some pr ∧
      binaryVars attr ids params chord web col idx v l = .ok vars ∧
      vars = params.map fun par =>
        (⟨v.name ++ " " ++ par, .nums (profs.map fun q => val q par), val pr par, par, v.objs⟩ : Var K) := by
  have hlen : 0 < profs.length := List.length_pos_iff.2 hne
  refine ⟨profs[min (idx v) (profs.length - 1)], _, List.getElem?_eq_getElem (by omega), ?_, rfl⟩
  simp only [binaryVars, ho, hp.eq]
  apply mapM_ok
  intro par hpar
  have hm := mapM_ok (fun q => attr q par) (fun q => val q par) profs fun q hq => hval q hq par hpar
  simp only [hm, bind, Except.bind, List.length_map, List.getElem?_map,
    List.getElem?_eq_getElem (show min (idx v) (profs.length - 1) < profs.length by omega), Option.map_some, hid, pure,
    Except.pure]

example : ∃ (v : Var ℚ) (attr : Attrs ℚ), v.objs = .member 1 .web :: [] ∧
    ListFor ["C"] ["A", "B"] [] .web ["A", "B"] ∧ (∀ pr ∈ ["A", "B"], attr pr "H" = .ok 100) :=
  ⟨⟨"Web", .index ["A", "B"], 0, "profile", [.member 1 .web]⟩, fun _ _ => .ok 100, rfl, .inl ⟨rfl, rfl⟩, by simp⟩

/-- The new variables can be set to dimensions that no profile of the list has. -/
theorem C281_mix_viol : ∃ (attr : Attrs ℚ) (v : Var ℚ) (hv tv : Var ℚ) (h t : ℚ) (lh lt : List ℚ),
    binaryVars attr (fun _ => .ok 0) ["H", "T"] [] ["A", "B"] [] (fun _ => 0) v ["A", "B"] = .ok [hv, tv] ∧
    hv.prop = "H" ∧ tv.prop = "T" ∧ hv.dom = .nums lh ∧ tv.dom = .nums lt ∧ h ∈ lh ∧ t ∈ lt ∧
    ∀ q ∈ ["A", "B"], ¬ (attr q "H" = .ok h ∧ attr q "T" = .ok t) := by
  let val : String → String → ℚ :=
    fun q p => if q = "A" then (if p = "H" then 100 else 5) else (if p = "H" then 200 else 8)
  let v : Var ℚ := ⟨"Web", .index ["A", "B"], 0, "profile", [.member 1 .web]⟩
  obtain ⟨pr, vars, h1, h2, h3⟩ := C281_partial (fun q p => .ok (val q p)) (fun _ => .ok 0) ["H", "T"] [] ["A", "B"] []
    (fun _ => 0) v ["A", "B"] 1 0 .web [] rfl rfl ["A", "B"] (.inl ⟨rfl, rfl⟩) (by simp) val (fun _ _ _ _ => rfl)
  subst h3
  refine ⟨fun q p => .ok (val q p), v, _, _, 100, 8, _, _, h2, rfl, rfl, rfl, rfl, ?_, ?_, ?_⟩
  · simp [val]
  · simp [val]
  · intro q hq
    simp only [List.mem_cons, List.not_mem_nil, or_false] at hq
    rcases hq with rfl | rfl <;> simp [val]

end Metku.SProb
