import Mathlib.Algebra.Order.BigOperators.Group.List
import Verif.Model.OptHistory
import Verif.Props.OptProblem

/-!
Properties of evaluating constraints and the objective along arbitrary histories of calls (C16 closed form, C24, C41-C45).
-/
namespace Metku.Opt

open Metku

set_option linter.unusedSectionVars false

variable {K : Type} [Field K] [LinearOrder K] [IsStrictOrderedRing K] [FloorRing K]

/-! ### What stays the same under substitution -/

/-- Same variables up to their values; locked variables keep their values too. -/
def SameVars (p p' : Prob K) : Prop :=
  p'.vars.length = p.vars.length ∧
  ∀ (i : Nat) (v : Var K), p.vars[i]? = some v →
    ∃ y, p'.vars[i]? = some { v with value := y } ∧ (v.locked = true → y = v.value)

theorem SameVars.refl (p : Prob K) : SameVars p p :=
  ⟨rfl, fun _ v hv => ⟨v.value, hv, fun _ => rfl⟩⟩

theorem SameVars.trans {p q r : Prob K} (h1 : SameVars p q) (h2 : SameVars q r) : SameVars p r := by
  refine ⟨h2.1.trans h1.1, ?_⟩
  intro i v hv
  obtain ⟨y, hy, hl⟩ := h1.2 i v hv
  obtain ⟨z, hz, hl2⟩ := h2.2 i _ hy
  exact ⟨z, hz, fun h => (hl2 h).trans (hl h)⟩

theorem sameVars_substitute {p p' : Prob K} {xs : List K} (h : substituteVariables p xs = .ok p') : SameVars p p' := by
  obtain ⟨r, hr, rfl⟩ := substituteVariables_ok h
  obtain ⟨hlen, hs⟩ := substFree_spec _ _ _ _ hr
  refine ⟨hlen, fun i v hv => ?_⟩
  obtain ⟨h1, h2, h3⟩ := hs i v hv
  by_cases hl : v.locked = true
  · exact ⟨v.value, h1 hl, fun _ => rfl⟩
  · have hl' : v.locked = false := by simpa using hl
    cases hx : (List.zipWith (fun x v => clip v x) xs p.free)[freeBefore p.vars i]? with
    | none => exact ⟨v.value, h2 hl' hx, fun h => absurd h hl⟩
    | some x => exact ⟨_, h3 hl' x hx, fun h => absurd h hl⟩

theorem sameVars_feaAll (p : Prob K) (ids : List String) : (feaAll p ids).vars = p.vars ∧
    (feaAll p ids).struct = p.struct ∧ (feaAll p ids).X = p.X ∧ (feaAll p ids).x0 = p.x0 := by
  unfold feaAll
  induction ids generalizing p with
  | nil => exact ⟨rfl, rfl, rfl, rfl⟩
  | cons id ids ih =>
    rw [List.foldl_cons]
    obtain ⟨h1, h2, h3, h4⟩ := ih (if p.feaDone.lookup id = some true then p else fea p id)
    rw [h1, h2, h3, h4]
    split <;> exact ⟨rfl, rfl, rfl, rfl⟩

theorem sameVars_conPrepare {p p' : Prob K} {c : Con K} {x : List K} (h : conPrepare p c x = .ok p') : SameVars p p' := by
  obtain ⟨vals, q, _, _, hq, rfl⟩ := conPrepare_ok h
  have h1 : SameVars p q := by
    rcases hq with ⟨_, hq⟩ | ⟨_, rfl⟩
    · exact sameVars_substitute hq
    · exact SameVars.refl _
  split
  · refine h1.trans ⟨by rw [(sameVars_feaAll q c.loadIds).1], fun i v hv => ⟨v.value, ?_, fun _ => rfl⟩⟩
    rw [(sameVars_feaAll q c.loadIds).1]; exact hv
  · exact h1

theorem sameVars_locked {p p' : Prob K} (h : SameVars p p') :
    p'.vars.map (·.locked) = p.vars.map (·.locked) ∧ p'.fixedVals = p.fixedVals := by
  have key : ∀ {β : Type} (f : Var K → β), (∀ v y, (v.locked = true → y = v.value) → f { v with value := y } = f v) →
      p'.vars.map f = p.vars.map f := by
    intro β f hf
    apply List.ext_getElem?
    intro i
    simp only [List.getElem?_map]
    cases hv : p.vars[i]? with
    | none =>
      have : p'.vars[i]? = none := by
        rw [List.getElem?_eq_none_iff] at hv ⊢; rw [h.1]; exact hv
      rw [this]
    | some v =>
      obtain ⟨y, hy, hl⟩ := h.2 i v hv
      simp [hy, hf v y hl]
  constructor
  · exact key _ fun _ _ _ => rfl
  · refine key _ fun v y hy => ?_
    cases hl : v.locked with
    | true => simp [hy hl]
    | false => simp

theorem freeBefore_map (vs : List (Var K)) (i : Nat) :
    freeBefore vs i = (((vs.map (·.locked)).take i).filter (! ·)).length := by
  unfold freeBefore
  rw [← List.map_take, List.filter_map, List.length_map]
  rfl

theorem freeBefore_congr {p p' : Prob K} (h : SameVars p p') (i : Nat) :
    freeBefore p'.vars i = freeBefore p.vars i := by
  rw [freeBefore_map, freeBefore_map, (sameVars_locked h).1]

theorem free_length {p p' : Prob K} (h : SameVars p p') :
    (p'.vars.filter (! ·.locked)).length = (p.vars.filter (! ·.locked)).length := by
  have e : ∀ q : Prob K, (q.vars.filter (! ·.locked)).length = ((q.vars.map (·.locked)).filter (! ·)).length := by
    intro q
    rw [List.filter_map, List.length_map]
    rfl
  rw [e, e, (sameVars_locked h).1]

/-- Merging the design vector with the locked values gives the full vector. -/
theorem mergeFixed_full (p : Prob K) (x : List K) (hx : x.length = (p.vars.filter (! ·.locked)).length)
    (hv : ∀ v ∈ p.vars, v.locked = true → v.value ≠ none) :
    ∃ full, mergeFixed p.fixedVals x = .ok full ∧ FullVector p x full := by
  refine ⟨_, mergeFixed_spec p.vars x hx hv, ?_, ?_⟩
  · simp
  · intro i v hvi
    simp only [List.getElem?_mapIdx, hvi, Option.map_some]
    exact ⟨fun h => by simp [h], fun h => by simp [h]⟩

theorem FullVector.unique {p : Prob K} {x : List K} {f g : List (Option K)} (hf : FullVector p x f)
    (hg : FullVector p x g) : f = g := by
  apply List.ext_getElem?
  intro i
  cases hv : p.vars[i]? with
  | none =>
    have := List.getElem?_eq_none_iff.1 hv
    rw [List.getElem?_eq_none (hf.1 ▸ this), List.getElem?_eq_none (hg.1 ▸ this)]
  | some v =>
    obtain ⟨a1, a2⟩ := hf.2 i v hv
    obtain ⟨b1, b2⟩ := hg.2 i v hv
    cases hl : v.locked with
    | true => rw [a1 hl, b1 hl]
    | false => rw [a2 hl, b2 hl]

theorem FullVector.congr {p p' : Prob K} {x : List K} {f : List (Option K)} (h : SameVars p p')
    (hf : FullVector p x f) : FullVector p' x f := by
  refine ⟨hf.1.trans h.1.symm, ?_⟩
  intro i v' hv'
  have hi : i < p'.vars.length := by
    by_contra hc
    rw [List.getElem?_eq_none (not_lt.1 hc)] at hv'; cases hv'
  have hi2 : i < p.vars.length := h.1 ▸ hi
  obtain ⟨y, hy, hl⟩ := h.2 i _ (List.getElem?_eq_getElem hi2)
  rw [hv'] at hy
  have e := Option.some.inj hy
  obtain ⟨a1, a2⟩ := hf.2 i _ (List.getElem?_eq_getElem hi2)
  rw [freeBefore_congr h, e]
  refine ⟨fun hh => ?_, fun hh => a2 hh⟩
  rw [a1 hh]
  exact congrArg some (hl hh).symm

/-! ### C41: analyses used by constraints are analyses of the present structure -/

theorem fresh_step {o : Objective K} {p p' : Prob K} {a : Op K} (hf : Fresh p) (h : step o p a = .ok p') : Fresh p' := by
  cases a with
  | subst xs => exact fresh_substitute h
  | con k x =>
    simp only [step] at h
    cases hc : p.cons[k]? with
    | none => rw [hc] at h; cases h
    | some c =>
      simp only [hc] at h
      cases he : evalCon p c x with
      | error e => rw [he] at h; cases h
      | ok r =>
        rw [he] at h
        cases h
        exact fresh_evalCon (p' := r.2.1) (c' := r.2.2) (g := r.1) hf he
  | obj x =>
    simp only [step] at h
    cases he : evalObj p o x with
    | error e => rw [he] at h; cases h
    | ok r =>
      rw [he] at h
      cases h
      obtain ⟨_, _, _, _, _, _, h4, _⟩ := evalObj_ok (f := r.1) (p' := r.2) he
      exact fresh_substitute h4
  | fea id => cases h; exact fresh_fea hf id
  | feasible x =>
    simp only [step] at h
    cases he : feasible x p p.cons with
    | error e => rw [he] at h; cases h
    | ok r =>
      rw [he] at h
      cases h
      exact fresh_feasible x p.cons p r.2 r.1 hf he
  | lock i => cases h; exact hf
  | unlock i => cases h; exact hf

theorem runOps_inv {o : Objective K} (I : Prob K → Prop)
    (hstep : ∀ p p' a, I p → step o p a = .ok p' → I p') : ∀ (as : List (Op K)) (p p' : Prob K), I p →
    runOps o p as = .ok p' → I p' := by
  intro as
  induction as with
  | nil => intro p p' hp h; cases h; exact hp
  | cons a as ih =>
    intro p p' hp h
    unfold runOps at h
    simp only [bind, Except.bind] at h
    cases h1 : step o p a with
    | error e => rw [h1] at h; cases h
    | ok q => rw [h1] at h; exact ih q p' (hstep p q a hp h1) h

/-- C41 (for histories of problem-level calls and lock/unlock without value): whatever calls were made since the problem was
    created, a constraint that needs the analysis of some load cases is evaluated with analyses of exactly the structure it is
    evaluated for. -/
theorem C41_partial {o : Objective K} {p p' q : Prob K} {as : List (Op K)} (h0 : p.feaDone = [])
    (hrun : runOps o p as = .ok p') {c c' : Con K} {f : View K → K} {x : List K} {g : K}
    (hc : c.feaRequired = true) (hfn : c.fn = .nonlinear f) (he : evalCon p' c x = .ok (g, q, c')) :
    ∃ view : View K, g = f view ∧ view.struct = q.struct ∧ ∀ id ∈ c.loadIds, view.results id = some view.struct := by
  have hfresh : Fresh p' := by
    refine runOps_inv Fresh (fun p p' a => fresh_step) as p p' ?_ hrun
    intro id hid
    rw [h0] at hid; cases hid
  obtain ⟨hp, hv⟩ := evalCon_ok he
  rw [hfn] at hv
  obtain ⟨args, _, hg⟩ := hv
  exact ⟨_, hg, rfl, (fresh_conPrepare hfresh hp).2 hc⟩

/-! ### C16 in closed form -/

theorem mapM_getVal_ok : ∀ (l : List (Option K)), (∀ a ∈ l, a ≠ none) → ∃ xs, l.mapM getVal = .ok xs ∧ l = xs.map some := by
  intro l
  induction l with
  | nil => intro _; exact ⟨[], rfl, rfl⟩
  | cons a l ih =>
    intro h
    obtain ⟨xs, h1, h2⟩ := ih fun b hb => h b (List.mem_cons_of_mem _ hb)
    cases a with
    | none => exact absurd rfl (h none List.mem_cons_self)
    | some y =>
      refine ⟨y :: xs, ?_, by rw [h2]; rfl⟩
      rw [List.mapM_cons]
      simp only [getVal, bind, Except.bind, h1]
      rfl

theorem mapM_getVal_of_ok : ∀ (l : List (Option K)) (xs : List K), l.mapM getVal = .ok xs → l = xs.map some := by
  intro l
  induction l with
  | nil => intro xs h; cases h; rfl
  | cons a l ih =>
    intro xs h
    rw [List.mapM_cons] at h
    cases a with
    | none => cases h
    | some y =>
      simp only [getVal, bind, Except.bind] at h
      cases h1 : l.mapM getVal with
      | error e => rw [h1] at h; cases h
      | ok ys => rw [h1] at h; cases h; rw [ih ys h1]; rfl

theorem mapM_map_getVal (l : List (Var K)) : l.mapM (fun v => getVal v.value) = (l.map (·.value)).mapM getVal := by
  induction l with
  | nil => rfl
  | cons a l ih => rw [List.mapM_cons, List.map_cons, List.mapM_cons, ih]

/-- Every variable carries a value. -/
def HasValues (p : Prob K) : Prop := ∀ v ∈ p.vars, v.value ≠ none

theorem conPrepare_total (p : Prob K) (c : Con K) (x : List K) (hw : ∀ v ∈ p.vars, WellFormed v) (hv : HasValues p)
    (hx : x.length = (p.vars.filter (! ·.locked)).length) : ∃ p', conPrepare p c x = .ok p' := by
  obtain ⟨vals, h1, h2⟩ := mapM_getVal_ok (p.free.map (·.value)) (by
    intro a ha
    obtain ⟨v, hvm, rfl⟩ := List.mem_map.1 ha
    exact hv v (List.mem_filter.1 hvm).1)
  have hlen : vals.length = x.length := by
    have := congrArg List.length h2
    simp only [List.length_map] at this
    rw [← this, hx]; rfl
  unfold conPrepare
  simp only [mapM_map_getVal, h1, bind, Except.bind, hlen, ne_eq, not_true_eq_false, if_false]
  by_cases hs : (List.zipWith (fun a b => (a - b) ^ 2) vals x).sum > (1 / 10 ^ 8 : K) ^ 2
  · rw [if_pos hs]
    obtain ⟨q, hq⟩ := C15_total p x hw
    rw [hq]
    exact ⟨_, rfl⟩
  · rw [if_neg hs]
    exact ⟨_, rfl⟩

theorem hasValues_substitute {p p' : Prob K} {xs : List K} (h : substituteVariables p xs = .ok p') (hv : HasValues p) :
    HasValues p' := by
  obtain ⟨r, hr, rfl⟩ := substituteVariables_ok h
  obtain ⟨hlen, hs⟩ := substFree_spec _ _ _ _ hr
  intro v' hv'
  obtain ⟨i, hi, rfl⟩ := List.getElem_of_mem hv'
  have hi2 : i < p.vars.length := hlen ▸ hi
  have hvi := List.getElem?_eq_getElem hi2
  have hval := hv _ (List.getElem_mem hi2)
  obtain ⟨h1, h2, h3⟩ := hs i _ hvi
  have fin : ∀ w : Var K, r.1[i]? = some w → w.value ≠ none → r.1[i].value ≠ none := by
    intro w hw hne
    rw [List.getElem?_eq_getElem hi] at hw
    have := Option.some.inj hw
    rw [this]; exact hne
  cases hl : p.vars[i].locked with
  | true => exact fin _ (h1 hl) hval
  | false =>
    cases hx : (List.zipWith (fun x v => clip v x) xs p.free)[freeBefore p.vars i]? with
    | none => exact fin _ (h2 hl hx) hval
    | some x => exact fin _ (h3 hl x hx) (by simp)

theorem hasValues_conPrepare {p p' : Prob K} {c : Con K} {x : List K} (h : conPrepare p c x = .ok p') (hv : HasValues p) :
    HasValues p' := by
  obtain ⟨vals, q, _, _, hq, rfl⟩ := conPrepare_ok h
  have h1 : HasValues q := by
    rcases hq with ⟨_, hq⟩ | ⟨_, rfl⟩
    · exact hasValues_substitute hq hv
    · exact hv
  split
  · intro v hm; rw [(sameVars_feaAll q c.loadIds).1] at hm; exact h1 v hm
  · exact h1

theorem wellFormed_sameVars {p p' : Prob K} (h : SameVars p p') (hw : ∀ v ∈ p.vars, WellFormed v) :
    ∀ v ∈ p'.vars, WellFormed v := by
  intro v' hv'
  obtain ⟨i, hi, rfl⟩ := List.getElem_of_mem hv'
  have hi2 : i < p.vars.length := h.1 ▸ hi
  obtain ⟨y, hy, _⟩ := h.2 i _ (List.getElem?_eq_getElem hi2)
  rw [List.getElem?_eq_getElem hi] at hy
  rw [Option.some.inj hy]
  have := hw _ (List.getElem_mem hi2)
  exact this

/-- C16, closed form: for constraints that are functions of the design vector the check never fails and says "feasible" exactly when
    every such function, at the vector with locked values filled in, respects its constraint type. -/
theorem C16_closed (x : List K) (φ : Con K → List (Option K) → K) (full : List (Option K)) : ∀ (cs : List (Con K)) (p : Prob K),
    (∀ c ∈ cs, c.fn = .nonlinear fun view => φ c view.args) →
    (∀ v ∈ p.vars, WellFormed v) → HasValues p → x.length = (p.vars.filter (! ·.locked)).length →
    FullVector p x full →
    ∃ b p', feasible x p cs = .ok (b, p') ∧ (b = true ↔ ∀ c ∈ cs, Respects (1 / 10 ^ 4) c.type (φ c full)) := by
  intro cs
  induction cs with
  | nil => intro p _ _ _ _ _; exact ⟨true, p, rfl, by simp⟩
  | cons c cs ih =>
    intro p hfn hw hv hx hfull
    obtain ⟨q, hq⟩ := conPrepare_total p c x hw hv hx
    have hsame := sameVars_conPrepare hq
    have hfq := hfull.congr hsame
    have hxq : x.length = (q.vars.filter (! ·.locked)).length := by rw [hx, free_length hsame]
    have hvq := hasValues_conPrepare hq hv
    obtain ⟨full', hm, hfull'⟩ := mergeFixed_full q x hxq (fun v hm _ => hvq v hm)
    obtain rfl := hfq.unique hfull'
    have hev : evalCon p c x = .ok (φ c full, q, { c with potential := potentialAfter c (φ c full) }) := by
      unfold evalCon
      simp only [hq, bind, Except.bind, hfn c List.mem_cons_self, hm]
      rfl
    unfold feasible
    simp only [hev, bind, Except.bind]
    cases hvi : violates c.type (φ c full) with
    | true =>
      refine ⟨false, q, by simp; rfl, ⟨fun h => by simp at h, fun h => ?_⟩⟩
      exact absurd (h c List.mem_cons_self) ((violates_iff _ _).1 hvi)
    | false =>
      have hr : Respects (1 / 10 ^ 4) c.type (φ c full) := by
        by_contra hc
        rw [(violates_iff c.type _).2 hc] at hvi; cases hvi
      obtain ⟨b, p', h1, h2⟩ := ih q (fun c' hc' => hfn c' (List.mem_cons_of_mem _ hc')) (wellFormed_sameVars hsame hw) hvq hxq hfq
      refine ⟨b, p', by simpa using h1, ?_⟩
      rw [h2]
      constructor
      · intro h d hd
        rcases List.mem_cons.1 hd with rfl | hd
        · exact hr
        · exact h d hd
      · exact fun h d hd => h d (List.mem_cons_of_mem _ hd)

/-! ### C42: the structure a constraint sees is the structure of the vector it is asked about -/

theorem touches_value (v : Var K) (y : Option K) (o : Nat) (a : String) :
    Touches { v with value := y } o a ↔ Touches v o a := Iff.rfl

theorem disjoint_sameVars {p p' : Prob K} (h : SameVars p p') (hd : DisjointTargets p) : DisjointTargets p' := by
  have back : ∀ (i : Nat) (v' : Var K), p'.vars[i]? = some v' → ∃ v y, p.vars[i]? = some v ∧ v' = { v with value := y } := by
    intro i v' hv'
    have hi : i < p'.vars.length := by
      by_contra hc
      rw [List.getElem?_eq_none (not_lt.1 hc)] at hv'; cases hv'
    have hi2 : i < p.vars.length := h.1 ▸ hi
    obtain ⟨y, hy, _⟩ := h.2 i _ (List.getElem?_eq_getElem hi2)
    rw [hv'] at hy
    exact ⟨_, y, List.getElem?_eq_getElem hi2, Option.some.inj hy⟩
  intro i j v w o a hv hw hij ht
  obtain ⟨v0, y, hv0, rfl⟩ := back i v hv
  obtain ⟨w0, z, hw0, rfl⟩ := back j w hw
  exact hd i j v0 w0 o a hv0 hw0 hij ht

/-- Substitution keeps (and with a full vector establishes) the agreement of variables and structure. -/
theorem synced_substitute {p p' : Prob K} {xs : List K} (h : substituteVariables p xs = .ok p') (hd : DisjointTargets p)
    (hs : ∀ (i : Nat) (v : Var K), p.vars[i]? = some v → (v.locked = true ∨ xs[freeBefore p.vars i]? = none) →
      v.kind.plain = true → ∀ (a : String) (objs : List Nat),
      v.target = some ⟨.one a, objs⟩ → ∀ y, v.value = some y → ∀ o ∈ objs, p.struct o a = y * v.scaling) :
    Synced p' := by
  obtain ⟨r, hr, rfl⟩ := substituteVariables_ok h
  obtain ⟨hlen, hsp⟩ := substFree_spec _ _ _ _ hr
  intro v' hv' hk a objs ht y hy o ho
  obtain ⟨i, hi, rfl⟩ := List.getElem_of_mem hv'
  have hi2 : i < p.vars.length := hlen ▸ hi
  have hvi := List.getElem?_eq_getElem hi2
  obtain ⟨h1, h2, h3⟩ := hsp i _ hvi
  have fin : ∀ w : Var K, r.1[i]? = some w → r.1[i] = w := by
    intro w hw
    rw [List.getElem?_eq_getElem hi] at hw
    exact Option.some.inj hw
  have touch : ∀ v : Var K, v.kind.plain = true → v.target = some ⟨.one a, objs⟩ → Touches v o a := by
    intro v hk ht
    refine ⟨_, ht, ho, ?_⟩
    cases hkk : v.kind with
    | index _ | binary _ | crossSection => simp [hkk, VKind.plain] at hk
    | cont | integer | boolean | discrete _ => rfl
  by_cases hl : p.vars[i].locked = true
  · have e := fin _ (h1 hl)
    simp only [e] at hk ht hy ⊢
    rw [substFree_struct_ne _ _ _ _ o a hr]
    · exact hs i _ hvi (Or.inl hl) hk a objs ht y hy o ho
    · intro w hw hlw
      obtain ⟨j, hj, rfl⟩ := List.getElem_of_mem hw
      refine hd i j _ _ o a hvi (List.getElem?_eq_getElem hj) ?_ (touch _ hk ht)
      intro e; subst e; rw [hl] at hlw; cases hlw
  · have hl' : p.vars[i].locked = false := by simpa using hl
    cases hx : xs[freeBefore p.vars i]? with
    | none =>
      have e := fin _ (h2 hl' (by rw [clipped_at hvi hl', hx]; rfl))
      simp only [e] at hk ht hy ⊢
      rw [substFree_struct_ne' _ _ _ _ o a hr]
      · exact hs i _ hvi (Or.inr hx) hk a objs ht y hy o ho
      · intro j w hw hlw hxw
        refine hd i j _ _ o a hvi hw ?_ (touch _ hk ht)
        intro e; subst e
        rw [hvi] at hw
        obtain rfl := Option.some.inj hw
        rw [clipped_at hvi hl', hx] at hxw
        exact hxw rfl
    | some x =>
      have hcl : (List.zipWith (fun x v => clip v x) xs p.free)[freeBefore p.vars i]? = some (clip p.vars[i] x) := by
        rw [clipped_at hvi hl', hx]; rfl
      have e := fin _ (h3 hl' _ hcl)
      simp only [e] at hk ht hy ⊢
      have hst : stored p.vars[i].kind (clip p.vars[i] x) = clip p.vars[i] x := by
        cases hkk : p.vars[i].kind with
        | index _ => rw [hkk] at hk; simp [VKind.plain] at hk
        | _ => rfl
      rw [hst] at hy
      obtain rfl := Option.some.inj hy
      refine substFree_struct _ _ _ _ i _ o a objs _ hr hvi hk hl' ht ho ?_ hcl
      intro j w hw hj hlw
      exact hd i j _ _ o a hvi hw (Ne.symm hj) (touch _ hk ht)

theorem synced_conPrepare {p p' : Prob K} {c : Con K} {x : List K} (h : conPrepare p c x = .ok p') (hd : DisjointTargets p)
    (hs : Synced p) : Synced p' := by
  obtain ⟨vals, q, _, _, hq, rfl⟩ := conPrepare_ok h
  have h1 : Synced q := by
    rcases hq with ⟨_, hq⟩ | ⟨_, rfl⟩
    · exact synced_substitute hq hd fun i v hv _ hk a objs ht y hy o ho =>
        hs v (List.mem_of_getElem? hv) hk a objs ht y hy o ho
    · exact hs
  split
  · obtain ⟨e1, e2, _⟩ := sameVars_feaAll q c.loadIds
    intro v hv hk a objs ht y hy o ho
    rw [e1] at hv; rw [e2]
    exact h1 v hv hk a objs ht y hy o ho
  · exact h1

/-- The joint invariant used for C42. -/
def Linked (p : Prob K) : Prop := DisjointTargets p ∧ Synced p

theorem linked_substitute {p p' : Prob K} {xs : List K} (hp : Linked p) (h : substituteVariables p xs = .ok p') : Linked p' :=
  ⟨disjoint_sameVars (sameVars_substitute h) hp.1, synced_substitute h hp.1
    fun _ v hv _ hk a objs ht y hy o ho => hp.2 v (List.mem_of_getElem? hv) hk a objs ht y hy o ho⟩

theorem linked_conPrepare {p p' : Prob K} {c : Con K} {x : List K} (hp : Linked p) (h : conPrepare p c x = .ok p') : Linked p' :=
  ⟨disjoint_sameVars (sameVars_conPrepare h) hp.1, synced_conPrepare h hp.1 hp.2⟩

theorem linked_feasible (x : List K) : ∀ (cs : List (Con K)) (p p' : Prob K) (b : Bool), Linked p →
    feasible x p cs = .ok (b, p') → Linked p' := by
  intro cs
  induction cs with
  | nil => intro p p' b hf h; cases h; exact hf
  | cons c cs ih =>
    intro p p' b hf h
    unfold feasible at h
    simp only [bind, Except.bind] at h
    cases h1 : evalCon p c x with
    | error e => simp only [h1] at h; cases h
    | ok r =>
      simp only [h1] at h
      obtain ⟨g, q, c'⟩ := r
      have hq := linked_conPrepare hf (evalCon_ok h1).1
      by_cases hv : violates c.type g = true
      · simp only [hv, if_true] at h; cases h; exact hq
      · simp only [hv] at h; exact ih q p' b hq h

theorem linked_modify {p : Prob K} (hp : Linked p) (i : Nat) (b : Bool) :
    Linked { p with vars := p.vars.modify i fun v => { v with locked := b } } := by
  have back : ∀ (j : Nat) (v' : Var K), (p.vars.modify i fun v => { v with locked := b })[j]? = some v' →
      ∃ v l, p.vars[j]? = some v ∧ v' = { v with locked := l } := by
    intro j v' hv'
    rw [List.getElem?_modify] at hv'
    cases hv : p.vars[j]? with
    | none => rw [hv] at hv'; cases hv'
    | some v =>
      rw [hv] at hv'
      by_cases e : i = j
      · simp [e] at hv'; exact ⟨v, b, rfl, hv'.symm⟩
      · simp [e] at hv'; exact ⟨v, v.locked, rfl, hv'.symm⟩
  constructor
  · intro j k v w o a hv hw hjk ht
    obtain ⟨v0, l1, hv0, rfl⟩ := back j v hv
    obtain ⟨w0, l2, hw0, rfl⟩ := back k w hw
    exact hp.1 j k v0 w0 o a hv0 hw0 hjk ht
  · intro v hv hk a objs ht y hy o ho
    obtain ⟨j, hj, e⟩ := List.getElem_of_mem hv
    obtain ⟨v0, l1, hv0, rfl⟩ := back j v (by rw [← e]; exact List.getElem?_eq_getElem hj)
    exact hp.2 v0 (List.mem_of_getElem? hv0) hk a objs ht y hy o ho

theorem linked_step {o : Objective K} {p p' : Prob K} {a : Op K} (hf : Linked p) (h : step o p a = .ok p') : Linked p' := by
  cases a with
  | subst xs => exact linked_substitute hf h
  | con k x =>
    simp only [step] at h
    cases hc : p.cons[k]? with
    | none => rw [hc] at h; cases h
    | some c =>
      simp only [hc] at h
      cases he : evalCon p c x with
      | error e => rw [he] at h; cases h
      | ok r =>
        rw [he] at h
        cases h
        have hq : Linked r.2.1 := linked_conPrepare hf (evalCon_ok (p' := r.2.1) (c' := r.2.2) (g := r.1) he).1
        exact hq
  | obj x =>
    simp only [step] at h
    cases he : evalObj p o x with
    | error e => rw [he] at h; cases h
    | ok r =>
      rw [he] at h
      cases h
      obtain ⟨q, _, _, hq, _, _, h4, _⟩ := evalObj_ok (f := r.1) (p' := r.2) he
      refine linked_substitute ?_ h4
      rw [hq]
      split
      · exact hf
      · exact hf
  | fea id => cases h; exact hf
  | feasible x =>
    simp only [step] at h
    cases he : feasible x p p.cons with
    | error e => rw [he] at h; cases h
    | ok r =>
      rw [he] at h
      cases h
      exact linked_feasible x p.cons p r.2 r.1 hf he
  | lock i => cases h; exact linked_modify hf i true
  | unlock i => cases h; exact linked_modify hf i false

theorem sq_le_sum (l : List K) (h : ∀ a ∈ l, 0 ≤ a) : ∀ a ∈ l, a ≤ l.sum := by
  intro a ha
  exact List.single_le_sum h a ha

/-- C42 (after one substitution of a full vector): along any further history, when a constraint is evaluated at a vector inside the
    bounds, the attribute targeted by each free variable holds the requested value up to `1e-8` (times the scaling factor). -/
theorem C42_partial {o : Objective K} {p p' q : Prob K} {as : List (Op K)} (h0 : Linked p)
    (hrun : runOps o p as = .ok p') {c c' : Con K} {x : List K} {g : K}
    (hx : ∀ (i : Nat) (v : Var K) (y : K), p'.vars[i]? = some v → v.locked = false → x[freeBefore p'.vars i]? = some y →
      v.lb ≤ y ∧ y ≤ v.ub)
    (he : evalCon p' c x = .ok (g, q, c')) :
    ∀ (i : Nat) (v : Var K) (a : String) (objs : List Nat) (y : K), p'.vars[i]? = some v → v.locked = false →
      v.kind.plain = true → v.target = some ⟨.one a, objs⟩ → x[freeBefore p'.vars i]? = some y →
      ∀ ob ∈ objs, |q.struct ob a - y * v.scaling| ≤ 1 / 10 ^ 8 * |v.scaling| := by
  have hl : Linked p' := runOps_inv Linked (fun p p' a => linked_step) as p p' h0 hrun
  intro i v a objs y hv hlv hk ht hy ob hob
  have hprep := (evalCon_ok he).1
  have hlq : Linked q := linked_conPrepare hl hprep
  obtain ⟨vals, r, hvals, hlen, hr, rfl⟩ := conPrepare_ok hprep
  obtain ⟨e1, e2, _⟩ := sameVars_feaAll r c.loadIds
  have hstruct : (if c.feaRequired = true then feaAll r c.loadIds else r).struct = r.struct := by
    split
    · exact e2
    · rfl
  rw [hstruct]
  rcases hr with ⟨_, hr⟩ | ⟨hs, rfl⟩
  · obtain ⟨y', hcl, hst⟩ := (C15_structure hr).1 i v a objs y hv
      ((hx i v y hv hlv hy).1.trans (hx i v y hv hlv hy).2) hk hlv ht hy
    have : y' = y := hcl.2.2.1 (hx i v y hv hlv hy).1 (hx i v y hv hlv hy).2
    subst this
    rw [hst ob hob ?_, sub_self, abs_zero]
    · positivity
    · intro j w hw hj hlw
      refine hl.1 i j v w ob a hv hw (Ne.symm hj) ⟨_, ht, hob, ?_⟩
      cases hkk : v.kind with
      | index _ | binary _ | crossSection => simp [hkk, VKind.plain] at hk
      | cont | integer | boolean | discrete _ => rfl
  · rw [mapM_map_getVal] at hvals
    have hv2 := mapM_getVal_of_ok _ _ hvals
    have hpos := filter_freeBefore _ i v hv hlv
    have hvy : (r.free.map (·.value))[freeBefore r.vars i]? = some v.value := by
      rw [List.getElem?_map]
      unfold Prob.free
      rw [hpos]; rfl
    rw [hv2, List.getElem?_map] at hvy
    cases hz : vals[freeBefore r.vars i]? with
    | none => rw [hz] at hvy; cases hvy
    | some z =>
      rw [hz] at hvy
      have hval : v.value = some z := (Option.some.inj hvy).symm
      rw [hl.2 v (List.mem_of_getElem? hv) hk a objs ht z hval ob hob]
      have hmem : (z - y) ^ 2 ∈ List.zipWith (fun a b => (a - b) ^ 2) vals x := by
        refine List.mem_of_getElem? (i := freeBefore r.vars i) ?_
        rw [List.getElem?_zipWith, hz, hy]
      have hle := sq_le_sum (List.zipWith (fun a b => (a - b) ^ 2) vals x) (by
        intro b hb
        obtain ⟨j, hj, rfl⟩ := List.getElem_of_mem hb
        rw [List.getElem_zipWith]; positivity) _ hmem
      have h2 : (z - y) ^ 2 ≤ (1 / 10 ^ 8 : K) ^ 2 := hle.trans (not_lt.1 hs)
      have h3 : |z - y| ≤ 1 / 10 ^ 8 := abs_le_of_sq_le_sq h2 (by positivity)
      rw [← sub_mul, abs_mul]
      exact mul_le_mul_of_nonneg_right h3 (abs_nonneg _)

/-! ### C24: objective and locked variables -/

/-- C24, what the objective function receives: the vector with the locked values filled in. -/
theorem C24_args {p p' : Prob K} {o : Objective K} {x : List K} {f : K} (hx : x.length = (p.vars.filter (! ·.locked)).length)
    (hv : ∀ v ∈ p.vars, v.locked = true → v.value ≠ none) (h : evalObj p o x = .ok (f, p')) :
    ∃ view : View K, FullVector p x view.args ∧ view.struct = p'.struct ∧
      f = (if o.maximise then -(o.fn view) else o.fn view) := by
  obtain ⟨q, args, xs, hq, h1, _, _, h4⟩ := evalObj_ok h
  have e : q.fixedVals = p.fixedVals ∧ q.vars = p.vars := by
    rw [hq]; split <;> exact ⟨rfl, rfl⟩
  obtain ⟨full, g1, g2⟩ := mergeFixed_full p x hx hv
  rw [e.1, g1] at h1
  obtain rfl := Except.ok.inj h1
  exact ⟨_, g2, rfl, h4⟩

/-- C24, the part that holds: locked variables never move, and when all locked variables come after the free ones the free
    variables receive `x`, clipped, in order. -/
theorem C24_partial {p p' : Prob K} {o : Objective K} {x : List K} {f : K} (hx : x.length = (p.vars.filter (! ·.locked)).length)
    (hv : ∀ v ∈ p.vars, v.locked = true → v.value ≠ none) (hb : ∀ v ∈ p.vars, v.lb ≤ v.ub)
    (h : evalObj p o x = .ok (f, p')) :
    (∀ (i : Nat) (v : Var K), p.vars[i]? = some v → v.locked = true → p'.vars[i]? = some v) ∧
    ((∃ fr lk, p.vars = fr ++ lk ∧ (∀ v ∈ fr, v.locked = false) ∧ ∀ v ∈ lk, v.locked = true) →
      ∀ (i : Nat) (v : Var K) (y : K), p.vars[i]? = some v → v.locked = false → x[i]? = some y →
      ∃ y' z, ClippedTo v.lb v.ub y y' ∧ p'.vars[i]? = some { v with value := some z } ∧
        ((∀ l, v.kind ≠ .index l) → z = y')) := by
  obtain ⟨q, args, xs, hq, h1, h2, h3, _⟩ := evalObj_ok h
  have e : q.fixedVals = p.fixedVals ∧ q.vars = p.vars := by
    rw [hq]; split <;> exact ⟨rfl, rfl⟩
  obtain ⟨hlen, c1, c2, c3, _⟩ := C15 h3 (by rw [e.2]; exact hb)
  refine ⟨fun i v hv hl => c1 i v (by rw [e.2]; exact hv) hl, ?_⟩
  rintro ⟨fr, lk, hsplit, hfr, hlk⟩ i v y hvi hlv hy
  obtain ⟨full, g1, g2⟩ := mergeFixed_full p x hx hv
  rw [e.1, g1] at h1
  obtain rfl := Except.ok.inj h1
  have hnf : (p.vars.filter (! ·.locked)).length = fr.length := by
    rw [hsplit, List.filter_append, List.filter_eq_self.2 (fun a ha => by simp [hfr a ha]),
      List.filter_eq_nil_iff.2 (fun a ha => by simp [hlk a ha]), List.append_nil]
  have hfb : ∀ j, j < fr.length → freeBefore p.vars j = j := by
    intro j hj
    unfold freeBefore
    rw [hsplit, List.take_append_of_le_length hj.le, List.filter_eq_self.2, List.length_take, min_eq_left hj.le]
    intro a ha
    simp [hfr a (List.mem_of_mem_take ha)]
  have hi : i < fr.length := by
    by_contra hc
    have hge := not_lt.1 hc
    rw [hsplit, List.getElem?_append_right hge] at hvi
    have := hlk v (List.mem_of_getElem? hvi)
    rw [hlv] at this; cases this
  have hxs : xs[i]? = some y := by
    have hm := mapM_getVal_of_ok _ _ h2
    have hp : q.free.length = fr.length := by
      rw [← hnf]; unfold Prob.free; rw [e.2]
    have h5 : (List.take q.free.length full)[i]? = some (some y) := by
      rw [List.getElem?_take_of_lt (by rw [hp]; exact hi), (g2.2 i v hvi).2 hlv, hfb i hi, hy]
    rw [hm, List.getElem?_map] at h5
    cases hz : xs[i]? with
    | none => rw [hz] at h5; cases h5
    | some z =>
      rw [hz] at h5
      exact Option.some.inj h5
  obtain ⟨y', z, g3, g4, g5⟩ := c3 i v y (by rw [e.2]; exact hvi) hlv (by rw [e.2, hfb i hi]; exact hxs)
  refine ⟨y', z, g3, g4, fun hk => ?_⟩
  cases hkk : v.kind with
  | index l => exact absurd hkk (hk l)
  | cont | integer | boolean | binary _ | discrete _ | crossSection => simp only [hkk] at g5; exact g5

/-! ### C45: the recorded starting point -/

/-- The vectors visited so far are not all-zero. -/
def NonzeroX (p : Prob K) : Prop := ∃ X, p.X = some X ∧ ∃ a ∈ X, a ≠ 0

/-- C45, the part that holds: while the current vector is not the zero vector, substitution keeps the recorded starting point. -/
theorem C45_partial {p p' : Prob K} {xs : List K} (hX : NonzeroX p) (h : substituteVariables p xs = .ok p') :
    p'.x0 = p.x0 := by
  obtain ⟨r, _, rfl⟩ := substituteVariables_ok h
  obtain ⟨X, hX, a, ha, hne⟩ := hX
  have : (p.X.getD []).any (fun x => decide (x ≠ 0)) = true := by
    rw [hX]; simp only [Option.getD_some, List.any_eq_true]; exact ⟨a, ha, by simpa using hne⟩
  simp only [this, if_true]

/-- The first substitution records its (clipped) vector as starting point. -/
theorem C45_first {p p' : Prob K} {xs : List K} (hX : p.X = none) (h : substituteVariables p xs = .ok p') :
    p'.x0 = p'.X ∧ p'.X ≠ none := by
  obtain ⟨r, _, rfl⟩ := substituteVariables_ok h
  simp [hX]

end Metku.Opt
