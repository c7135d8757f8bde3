import Verif.Lemmas.OptVars

/-! Helper lemmas about constraint evaluation and the bookkeeping of finished analyses. -/
namespace Metku.Opt

open Metku

set_option linter.unusedSectionVars false

variable {K : Type} [Field K] [LinearOrder K] [FloorRing K]

theorem lookup_allFalse (d : Dict) (id : String) : d.allFalse.lookup id ≠ some true := by
  induction d with
  | nil => simp [Dict.allFalse]
  | cons kv d ih =>
    obtain ⟨k, v⟩ := kv
    simp only [Dict.allFalse, List.map_cons, List.lookup_cons]
    cases id == k with
    | true => simp
    | false => exact ih

theorem lookup_filter_ne (d : Dict) (k k' : String) (h : k' ≠ k) :
    (d.filter (·.1 ≠ k)).lookup k' = d.lookup k' := by
  induction d with
  | nil => rfl
  | cons kv d ih =>
    obtain ⟨q, v⟩ := kv
    by_cases hq : q = k
    · subst hq
      simp only [ne_eq, not_true_eq_false, decide_false, Bool.false_eq_true, not_false_eq_true, List.filter_cons_of_neg]
      rw [List.lookup_cons]
      have : (k' == q) = false := by simp [h]
      rw [this]
      simpa using ih
    · have : decide ((q, v).1 ≠ k) = true := by simp [hq]
      rw [List.filter_cons_of_pos (by simpa using hq)]
      simp only [List.lookup_cons]
      cases k' == q with
      | true => rfl
      | false => simpa using ih

theorem lookup_set (d : Dict) (k k' : String) (v : Bool) :
    (d.set k v).lookup k' = if k' = k then some v else d.lookup k' := by
  unfold Dict.set
  rw [List.lookup_cons]
  by_cases h : k' = k
  · subst h; simp
  · have : (k' == k) = false := by simp [h]
    rw [this, if_neg h]
    exact lookup_filter_ne d k k' h

theorem fresh_substitute {p p' : Prob K} {xs : List K} (h : substituteVariables p xs = .ok p') : Fresh p' := by
  obtain ⟨r, _, rfl⟩ := substituteVariables_ok h
  intro id hid
  exact absurd hid (lookup_allFalse _ _)

theorem fresh_fea {p : Prob K} (h : Fresh p) (id : String) : Fresh (fea p id) := by
  intro id' hid
  unfold fea at hid ⊢
  simp only at hid ⊢
  rw [lookup_set] at hid
  by_cases e : id' = id
  · subst e; simp
  · rw [if_neg e] at hid
    rw [Function.update_of_ne e]
    exact h _ hid

theorem feaAll_spec : ∀ (ids : List String) (p : Prob K), Fresh p →
    Fresh (feaAll p ids) ∧ (feaAll p ids).struct = p.struct ∧ (feaAll p ids).vars = p.vars ∧
    (feaAll p ids).X = p.X ∧ (feaAll p ids).x0 = p.x0 ∧
    (∀ id, p.results id = some p.struct → (feaAll p ids).results id = some p.struct) ∧
    (∀ id ∈ ids, (feaAll p ids).results id = some p.struct) := by
  intro ids
  induction ids with
  | nil => intro p h; exact ⟨h, rfl, rfl, rfl, rfl, fun _ h => h, fun _ h => by simp at h⟩
  | cons id ids ih =>
    intro p h
    have hstep : feaAll p (id :: ids) =
        feaAll (if p.feaDone.lookup id = some true then p else fea p id) ids := rfl
    rw [hstep]
    by_cases hd : p.feaDone.lookup id = some true
    · rw [if_pos hd]
      obtain ⟨h1, h2, h3, h4, h5, h6, h7⟩ := ih p h
      refine ⟨h1, h2, h3, h4, h5, h6, ?_⟩
      intro id' hid'
      rcases List.mem_cons.1 hid' with rfl | hm
      · exact h6 _ (h _ hd)
      · exact h7 _ hm
    · rw [if_neg hd]
      obtain ⟨h1, h2, h3, h4, h5, h6, h7⟩ := ih (fea p id) (fresh_fea h id)
      have hs : (fea p id).struct = p.struct := rfl
      refine ⟨h1, h2.trans hs, h3, h4, h5, ?_, ?_⟩
      · intro id' hid'
        refine h6 id' ?_
        rw [hs]
        by_cases e : id' = id
        · subst e; simp [fea]
        · simp only [fea]; rw [Function.update_of_ne e]; exact hid'
      · intro id' hid'
        rcases List.mem_cons.1 hid' with rfl | hm
        · exact h6 _ (by simp [fea])
        · exact h7 _ hm

/-- What `Constraint.__call__` does, split into its two steps. -/
theorem conPrepare_ok {p p' : Prob K} {c : Con K} {x : List K} (h : conPrepare p c x = .ok p') :
    ∃ vals q, p.free.mapM (fun v => getVal v.value) = .ok vals ∧
      vals.length = x.length ∧
      (((List.zipWith (fun a b => (a - b) ^ 2) vals x).sum > (1 / 10 ^ 8 : K) ^ 2 ∧ substituteVariables p x = .ok q) ∨
        (¬ (List.zipWith (fun a b => (a - b) ^ 2) vals x).sum > (1 / 10 ^ 8 : K) ^ 2 ∧ q = p)) ∧
      p' = if c.feaRequired then feaAll q c.loadIds else q := by
  unfold conPrepare at h
  simp only [bind, Except.bind] at h
  cases h1 : p.free.mapM (fun v => getVal v.value) with
  | error e => simp only [h1] at h; cases h
  | ok vals =>
    simp only [h1] at h
    by_cases hl : vals.length ≠ x.length
    · rw [if_pos hl] at h; cases h
    · rw [if_neg hl] at h
      by_cases hs : (List.zipWith (fun a b => (a - b) ^ 2) vals x).sum > (1 / 10 ^ 8 : K) ^ 2
      · rw [if_pos hs] at h
        cases h2 : substituteVariables p x with
        | error e => simp only [h2] at h; cases h
        | ok q =>
          simp only [h2] at h
          refine ⟨vals, q, rfl, by simpa using hl, Or.inl ⟨hs, rfl⟩, ?_⟩
          cases h; rfl
      · rw [if_neg hs] at h
        refine ⟨vals, p, rfl, by simpa using hl, Or.inr ⟨hs, rfl⟩, ?_⟩
        cases h; rfl

theorem fresh_conPrepare {p p' : Prob K} {c : Con K} {x : List K} (hf : Fresh p) (h : conPrepare p c x = .ok p') :
    Fresh p' ∧ (c.feaRequired = true → ∀ id ∈ c.loadIds, p'.results id = some p'.struct) := by
  obtain ⟨vals, q, _, _, hq, rfl⟩ := conPrepare_ok h
  have hfq : Fresh q := by
    rcases hq with ⟨_, hq⟩ | ⟨_, rfl⟩
    · exact fresh_substitute hq
    · exact hf
  cases hr : c.feaRequired with
  | false => exact ⟨by simpa using hfq, fun h => by simp at h⟩
  | true =>
    obtain ⟨h1, h2, _, _, _, _, h7⟩ := feaAll_spec c.loadIds q hfq
    refine ⟨by simpa using h1, fun _ => ?_⟩
    simp only [if_true]
    rw [h2]; exact h7

theorem evalCon_ok {p p' : Prob K} {c c' : Con K} {x : List K} {g : K} (h : evalCon p c x = .ok (g, p', c')) :
    conPrepare p c x = .ok p' ∧
    (match c.fn with
      | .linear a b => ∃ X, linearArgs p'.vars = .ok X ∧ a.length = X.length ∧ g = (List.zipWith (· * ·) a X).sum - b
      | .nonlinear f => ∃ args, mergeFixed p'.fixedVals x = .ok args ∧ g = f ⟨args, p'.struct, p'.results⟩) := by
  unfold evalCon at h
  simp only [bind, Except.bind] at h
  cases h1 : conPrepare p c x with
  | error e => simp only [h1] at h; cases h
  | ok q =>
    simp only [h1] at h
    cases hfn : c.fn with
    | linear a b =>
      simp only [hfn] at h
      cases h2 : linearArgs q.vars with
      | error e => simp only [h2] at h; cases h
      | ok X =>
        simp only [h2] at h
        by_cases hl : a.length ≠ X.length
        · rw [if_pos hl] at h; cases h
        · rw [if_neg hl] at h; cases h
          exact ⟨rfl, X, h2, by simpa using hl, rfl⟩
    | nonlinear f =>
      simp only [hfn] at h
      cases h2 : mergeFixed q.fixedVals x with
      | error e => simp only [h2] at h; cases h
      | ok args =>
        simp only [h2] at h
        cases h
        exact ⟨rfl, args, h2, rfl⟩

theorem evalObj_ok {p p' : Prob K} {o : Objective K} {x : List K} {f : K} (h : evalObj p o x = .ok (f, p')) :
    ∃ q args xs, q = (if (o.feaRequired && p.feaDone.isEmpty) = true then fea p "ALL" else p) ∧
      mergeFixed q.fixedVals x = .ok args ∧
      (args.take q.free.length).mapM getVal = .ok xs ∧
      substituteVariables q xs = .ok p' ∧
      f = (if o.maximise then -(o.fn ⟨args, p'.struct, p'.results⟩) else o.fn ⟨args, p'.struct, p'.results⟩) := by
  unfold evalObj at h
  simp only [bind, Except.bind] at h
  set q := (if (o.feaRequired && p.feaDone.isEmpty) = true then fea p "ALL" else p) with hq
  cases h1 : mergeFixed q.fixedVals x with
  | error e => simp only [h1] at h; cases h
  | ok args =>
    simp only [h1] at h
    cases h2 : (args.take q.free.length).mapM getVal with
    | error e => simp only [h2] at h; cases h
    | ok xs =>
      simp only [h2] at h
      cases h3 : substituteVariables q xs with
      | error e => simp only [h3] at h; cases h
      | ok q' =>
        simp only [h3] at h
        cases h
        exact ⟨q, args, xs, rfl, h1, h2, h3, rfl⟩

theorem fresh_evalCon {p p' : Prob K} {c c' : Con K} {x : List K} {g : K} (hf : Fresh p)
    (h : evalCon p c x = .ok (g, p', c')) : Fresh p' := (fresh_conPrepare hf (evalCon_ok h).1).1

theorem fresh_feasible (x : List K) : ∀ (cs : List (Con K)) (p p' : Prob K) (b : Bool), Fresh p →
    feasible x p cs = .ok (b, p') → Fresh p' := by
  intro cs
  induction cs with
  | nil => intro p p' b hf h; cases h; exact hf
  | cons c cs ih =>
    intro p p' b hf h
    unfold feasible at h
    simp only [bind, Except.bind] at h
    cases h1 : evalCon p c x with
    | error e => simp only [h1] at h; cases h
    | ok r =>
      simp only [h1] at h
      obtain ⟨g, q, c'⟩ := r
      have hq := fresh_evalCon hf h1
      by_cases hv : violates c.type g = true
      · simp only [hv, if_true] at h; cases h; exact hq
      · simp only [hv] at h; exact ih q p' b hq h

theorem mergeFixed_spec : ∀ (vs : List (Var K)) (x : List K), x.length = (vs.filter (! ·.locked)).length →
    (∀ v ∈ vs, v.locked = true → v.value ≠ none) →
    mergeFixed (vs.map fun v => if v.locked then v.value else none) x = .ok (vs.mapIdx fun i v =>
      if v.locked then v.value else x[freeBefore vs i]?) := by
  intro vs
  induction vs with
  | nil => intro x _ _; simp [mergeFixed]
  | cons w vs ih =>
    intro x hx hv
    have ihx := fun x hx => ih x hx (fun v hm => hv v (List.mem_cons_of_mem _ hm))
    cases hl : w.locked with
    | true =>
      have hfb : ∀ i, freeBefore (w :: vs) (i + 1) = freeBefore vs i := by
        intro i; simp [freeBefore, hl]
      have hw := hv w List.mem_cons_self hl
      obtain ⟨y, hy⟩ := Option.ne_none_iff_exists'.1 hw
      simp only [hl, Bool.not_true, Bool.false_eq_true, not_false_eq_true, List.filter_cons_of_neg] at hx
      have hrec := ihx x hx
      simp only [List.map_cons, hl, if_true, hy, List.mapIdx_cons, hfb]
      cases x with
      | nil =>
        simp only [mergeFixed]
        congr 2
        -- all remaining variables are locked
        apply List.ext_getElem?
        intro i
        simp only [List.getElem?_map, List.getElem?_mapIdx]
        cases hi : vs[i]? with
        | none => rfl
        | some v =>
          have hmem : v ∈ vs := List.mem_of_getElem? hi
          have : v.locked = true := by
            by_contra hc
            have : v ∈ vs.filter (! ·.locked) := List.mem_filter.2 ⟨hmem, by simpa using hc⟩
            rw [List.length_eq_zero_iff.1 hx.symm] at this
            simp at this
          simp [this]
      | cons a x =>
        simp only [mergeFixed, bind, Except.bind, hrec]
        rfl
    | false =>
      have hfb : ∀ i, freeBefore (w :: vs) (i + 1) = freeBefore vs i + 1 := by
        intro i; simp [freeBefore, hl]
      simp only [hl, Bool.not_false, List.filter_cons_of_pos, List.length_cons] at hx
      cases x with
      | nil => simp at hx
      | cons a x =>
        simp only [List.length_cons, Nat.add_right_cancel_iff] at hx
        have hrec := ihx x hx
        have h0 : freeBefore (w :: vs) 0 = 0 := rfl
        simp only [List.map_cons, hl, Bool.false_eq_true, if_false, List.mapIdx_cons, hfb, h0,
          List.getElem?_cons_zero, List.getElem?_cons_succ]
        cases x with
        | nil =>
          simp only [mergeFixed]
          congr 2
          apply List.ext_getElem?
          intro i
          simp only [List.getElem?_map, List.getElem?_mapIdx]
          cases hi : vs[i]? with
          | none => rfl
          | some v =>
            have hmem : v ∈ vs := List.mem_of_getElem? hi
            have : v.locked = true := by
              by_contra hc
              have : v ∈ vs.filter (! ·.locked) := List.mem_filter.2 ⟨hmem, by simpa using hc⟩
              rw [List.length_eq_zero_iff.1 hx.symm] at this
              simp at this
            simp [this]
        | cons b x =>
          simp only [mergeFixed, bind, Except.bind, hrec]
          rfl

end Metku.Opt
