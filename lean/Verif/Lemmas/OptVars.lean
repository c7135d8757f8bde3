import Verif.Spec.Opt

/-! Helper lemmas about substitution of variables. -/
namespace Metku.Opt

open Metku

set_option linter.unusedSectionVars false

variable {K : Type} [Field K] [LinearOrder K] [FloorRing K]

/-- Value a variable stores when `x` is substituted: index variables truncate. -/
def stored (k : VKind K) (x : K) : K :=
  match k with
  | .index _ => ((pyInt x : Int) : K)
  | _ => x

theorem substVar_var {v v' : Var K} {x : K} {s s' : Struct K} (hl : v.locked = false)
    (h : substVar v x s = .ok (v', s')) : v' = { v with value := some (stored v.kind x) } := by
  obtain ⟨kind, lb, ub, value, target, tf, locked, sc, lm, um⟩ := v
  simp only at hl
  subst hl
  cases kind with
  | index values =>
    simp only [substVar] at h
    cases hi : pyIndex values (pyInt x) with
    | none => rw [hi] at h; cases h
    | some y => rw [hi] at h; cases h; rfl
  | crossSection =>
    simp only [substVar] at h
    cases target with
    | none => cases h
    | some t => cases h; rfl
  | cont | integer | boolean | binary _ | discrete _ => cases h; rfl

theorem setAttr_ne {s : Struct K} {o o' : Nat} {p p' : String} {v : K} (h : ¬ (o' = o ∧ p' = p)) :
    setAttr s o p v o' p' = s o' p' := by
  unfold setAttr; rw [if_neg h]

theorem setAttr_eq (s : Struct K) (o : Nat) (p : String) (v : K) : setAttr s o p v o p = v := by
  unfold setAttr; rw [if_pos ⟨rfl, rfl⟩]

theorem foldl_many_ne (v : Var K) (x : K) (o o' : Nat) (a : String) : ∀ (ps : List String) (s : Struct K),
    (o' = o → a ∉ ps) →
    (ps.foldl (fun s p =>
      match v.targetFun with
      | some f =>
        match f p with
        | some g => setAttr s o p (g (x * v.scaling))
        | none => setAttr s o p (x * v.scaling)
      | none => setAttr s o p x) s) o' a = s o' a := by
  intro ps
  induction ps with
  | nil => intro s _; rfl
  | cons p ps ih =>
    intro s h
    rw [List.foldl_cons, ih _ (fun e hm => h e (List.mem_cons_of_mem _ hm))]
    have hne : ¬ (o' = o ∧ a = p) := fun e => h e.1 (e.2 ▸ List.mem_cons_self)
    cases v.targetFun with
    | none => exact setAttr_ne hne
    | some f =>
      simp only
      cases f p with
      | none => exact setAttr_ne hne
      | some g => exact setAttr_ne hne

theorem writeObj_ne {v : Var K} {t : Target} {x : K} {s : Struct K} {o o' : Nat} {a : String}
    (hv : v.target = some t) (hc : ∀ h : o' = o, o ∈ t.objects → ¬ Touches v o' a) (hcs : v.kind ≠ .crossSection)
    (ho : o ∈ t.objects) : writeObj v t x s o o' a = s o' a := by
  unfold writeObj
  cases hp : t.prop with
  | many ps =>
    simp only
    apply foldl_many_ne
    intro e hm
    apply hc e ho
    refine ⟨t, hv, e ▸ ho, ?_⟩
    rw [hp]; exact hm
  | one p =>
    simp only
    cases hk : v.kind with
    | crossSection => exact absurd hk hcs
    | binary sec =>
      have hne : ¬ (o' = o ∧ a = p) := fun e => hc e.1 ho ⟨t, hv, e.1 ▸ ho, by rw [hp, hk]; exact Or.inl e.2⟩
      have hne2 : ¬ (o' = o ∧ a = "active") :=
        fun e => hc e.1 ho ⟨t, hv, e.1 ▸ ho, by rw [hp, hk]; exact Or.inr e.2⟩
      simp only
      split
      · split
        · exact setAttr_ne hne
        · rfl
      · split
        · exact setAttr_ne hne2
        · rfl
    | cont | integer | boolean | discrete _ | index _ =>
      exact setAttr_ne fun e => hc e.1 ho ⟨t, hv, e.1 ▸ ho, by rw [hp, hk]; exact e.2⟩

theorem writeCross_ne {v : Var K} {t : Target} {x : K} {s : Struct K} {o o' : Nat} {a : String}
    (hv : v.target = some t) (hc : ∀ h : o' = o, o ∈ t.objects → ¬ Touches v o' a) (hcs : v.kind = .crossSection)
    (ho : o ∈ t.objects) : writeCross v t x s o o' a = s o' a := by
  unfold writeCross
  cases hp : t.prop with
  | many ps =>
    simp only
    apply foldl_many_ne
    intro e hm
    apply hc e ho
    refine ⟨t, hv, e ▸ ho, ?_⟩
    rw [hp]; exact hm
  | one p =>
    exact setAttr_ne fun e => hc e.1 ho ⟨t, hv, e.1 ▸ ho, by rw [hp, hcs]; exact e.2⟩

theorem foldl_writeObj_ne {v : Var K} {t : Target} {x : K} {o' : Nat} {a : String} (hv : v.target = some t)
    (hc : ¬ Touches v o' a) (hcs : v.kind ≠ .crossSection) : ∀ (l : List Nat) (s : Struct K), (∀ o ∈ l, o ∈ t.objects) →
    (l.foldl (writeObj v t x) s) o' a = s o' a := by
  intro l
  induction l with
  | nil => intro s _; rfl
  | cons o l ih =>
    intro s h
    rw [List.foldl_cons, ih _ (fun q hq => h q (List.mem_cons_of_mem _ hq)),
      writeObj_ne hv (fun _ _ => hc) hcs (h o List.mem_cons_self)]

theorem foldl_writeCross_ne {v : Var K} {t : Target} {x : K} {o' : Nat} {a : String} (hv : v.target = some t)
    (hc : ¬ Touches v o' a) (hcs : v.kind = .crossSection) : ∀ (l : List Nat) (s : Struct K), (∀ o ∈ l, o ∈ t.objects) →
    (l.foldl (writeCross v t x) s) o' a = s o' a := by
  intro l
  induction l with
  | nil => intro s _; rfl
  | cons o l ih =>
    intro s h
    rw [List.foldl_cons, ih _ (fun q hq => h q (List.mem_cons_of_mem _ hq)),
      writeCross_ne hv (fun _ _ => hc) hcs (h o List.mem_cons_self)]

theorem substBase_ne {v : Var K} {x : K} {s : Struct K} {o : Nat} {a : String} (hc : ¬ Touches v o a)
    (hcs : v.kind ≠ .crossSection) : (substBase v x s).2 o a = s o a := by
  unfold substBase
  split
  · rfl
  · cases ht : v.target with
    | none => rfl
    | some t => exact foldl_writeObj_ne ht hc hcs _ _ (fun _ h => h)

/-- Attributes that are not targets stay as they were. -/
theorem substVar_ne {v v' : Var K} {x : K} {s s' : Struct K} {o : Nat} {a : String} (hc : ¬ Touches v o a)
    (h : substVar v x s = .ok (v', s')) : s' o a = s o a := by
  unfold substVar at h
  cases hk : v.kind with
  | index values =>
    simp only [hk] at h
    cases hi : pyIndex values (pyInt x) with
    | none => rw [hi] at h; cases h
    | some y =>
      rw [hi] at h
      cases h
      exact substBase_ne hc (by rw [hk]; exact fun h => nomatch h)
  | crossSection =>
    simp only [hk] at h
    cases hl : v.locked with
    | true => rw [hl] at h; cases h; rfl
    | false =>
      rw [hl] at h
      cases ht : v.target with
      | none => rw [ht] at h; cases h
      | some t =>
        rw [ht] at h; cases h
        exact foldl_writeCross_ne ht hc hk _ _ (fun _ h => h)
  | cont | integer | boolean | binary _ | discrete _ =>
    simp only [hk, Except.ok.injEq] at h
    have h2 : s' = (substBase v x s).2 := by rw [h]
    rw [h2]
    exact substBase_ne hc (by rw [hk]; exact fun h => nomatch h)

theorem foldl_set_mem (f : Struct K → Nat → Struct K) (a : String) (y : K)
    (hf : ∀ s o o' , f s o o' a = if o' = o then y else s o' a) : ∀ (l : List Nat) (s : Struct K) (o : Nat),
    (l.foldl f s) o a = if o ∈ l then y else s o a := by
  intro l
  induction l with
  | nil => intro s o; simp
  | cons q l ih =>
    intro s o
    rw [List.foldl_cons, ih, hf]
    by_cases h1 : o ∈ l
    · simp [h1]
    · by_cases h2 : o = q
      · simp [h2]
      · simp [h1, h2]

theorem substVar_plain {v v' : Var K} {x : K} {s s' : Struct K} {o : Nat} {a : String} {objs : List Nat}
    (hk : v.kind.plain = true) (hl : v.locked = false) (ht : v.target = some ⟨.one a, objs⟩) (ho : o ∈ objs)
    (h : substVar v x s = .ok (v', s')) : s' o a = x * v.scaling := by
  have key : ∀ s : Struct K, (objs.foldl (writeObj v ⟨.one a, objs⟩ x) s) o a = x * v.scaling := by
    intro s
    rw [foldl_set_mem _ a (x * v.scaling) ?_ objs s o, if_pos ho]
    intro s q q'
    unfold writeObj
    cases hkk : v.kind with
    | index _ | binary _ | crossSection => rw [hkk] at hk; exact absurd hk (by simp [VKind.plain])
    | cont | integer | boolean | discrete _ => simp [setAttr]
  unfold substVar at h
  cases hkk : v.kind with
  | index _ | binary _ | crossSection => rw [hkk] at hk; exact absurd hk (by simp [VKind.plain])
  | cont | integer | boolean | discrete _ =>
    simp only [hkk, substBase, hl, ht] at h
    cases h
    exact key s

theorem substFree_spec : ∀ (vs : List (Var K)) (xs : List K) (s : Struct K) (r : List (Var K) × Struct K),
    substFree vs xs s = .ok r →
    r.1.length = vs.length ∧
    ∀ i v, vs[i]? = some v →
      (v.locked = true → r.1[i]? = some v) ∧
      (v.locked = false → xs[freeBefore vs i]? = none → r.1[i]? = some v) ∧
      (v.locked = false → ∀ x, xs[freeBefore vs i]? = some x →
        r.1[i]? = some { v with value := some (stored v.kind x) }) := by
  intro vs
  induction vs with
  | nil =>
    intro xs s r h
    cases h
    simp
  | cons w vs ih =>
    intro xs s r h
    unfold substFree at h
    cases hl : w.locked with
    | true =>
      simp only [hl, if_true, bind, Except.bind] at h
      cases h1 : substFree vs xs s with
      | error e => rw [h1] at h; cases h
      | ok r1 =>
        rw [h1] at h
        cases h
        obtain ⟨hlen, hrec⟩ := ih _ _ _ h1
        refine ⟨by simp [hlen], ?_⟩
        intro i v hv
        cases i with
        | zero =>
          simp at hv
          subst hv
          simp [hl]
        | succ i =>
          simp at hv
          have hfb : freeBefore (w :: vs) (i + 1) = freeBefore vs i := by
            simp [freeBefore, hl]
          rw [hfb]
          simpa using hrec i v hv
    | false =>
      simp only [hl, Bool.false_eq_true, if_false, bind, Except.bind] at h
      have hfb : ∀ i, freeBefore (w :: vs) (i + 1) = freeBefore vs i + 1 := by
        intro i; simp [freeBefore, hl]
      cases xs with
      | nil =>
        cases h
        refine ⟨rfl, ?_⟩
        intro i v hv
        simp [hv]
      | cons x xs =>
        simp only at h
        cases h0 : substVar w x s with
        | error e => rw [h0] at h; cases h
        | ok w1 =>
          simp only [h0] at h
          cases h1 : substFree vs xs w1.2 with
          | error e => rw [h1] at h; cases h
          | ok r1 =>
            rw [h1] at h
            cases h
            obtain ⟨hlen, hrec⟩ := ih _ _ _ h1
            refine ⟨by simp [hlen], ?_⟩
            intro i v hv
            cases i with
            | zero =>
              simp at hv
              subst hv
              have := substVar_var (v' := w1.1) (s' := w1.2) hl h0
              simp [hl, freeBefore, this]
            | succ i =>
              simp at hv
              rw [hfb]
              simpa using hrec i v hv

theorem filter_freeBefore : ∀ (vs : List (Var K)) (i : Nat) (v : Var K), vs[i]? = some v → v.locked = false →
    (vs.filter (! ·.locked))[freeBefore vs i]? = some v := by
  intro vs
  induction vs with
  | nil => intro i v h; simp at h
  | cons w vs ih =>
    intro i v h hl
    cases i with
    | zero =>
      simp at h
      subst h
      simp [freeBefore, hl]
    | succ i =>
      simp at h
      cases hw : w.locked with
      | true => simpa [freeBefore, hw] using ih i v h hl
      | false => simpa [freeBefore, hw] using ih i v h hl

theorem substituteVariables_ok {p p' : Prob K} {xs : List K} (h : substituteVariables p xs = .ok p') :
    ∃ r, substFree p.vars (List.zipWith (fun x v => clip v x) xs p.free) p.struct = .ok r ∧
      p' = { p with
        vars := r.1
        struct := r.2
        X := some (List.zipWith (fun x v => clip v x) xs p.free)
        x0 := if (p.X.getD []).any (· ≠ 0) then p.x0 else some (List.zipWith (fun x v => clip v x) xs p.free)
        feaDone := p.feaDone.allFalse } := by
  unfold substituteVariables at h
  simp only [bind, Except.bind] at h
  cases h1 : substFree p.vars (List.zipWith (fun x v => clip v x) xs p.free) p.struct with
  | error e => rw [h1] at h; cases h
  | ok r => rw [h1] at h; cases h; exact ⟨r, rfl, rfl⟩

theorem clipped_at {p : Prob K} {xs : List K} {i : Nat} {v : Var K} (hv : p.vars[i]? = some v)
    (hl : v.locked = false) :
    (List.zipWith (fun x v => clip v x) xs p.free)[freeBefore p.vars i]? =
      (xs[freeBefore p.vars i]?).map (clip v) := by
  have := filter_freeBefore p.vars i v hv hl
  unfold Prob.free
  rw [List.getElem?_zipWith, this]
  cases xs[freeBefore p.vars i]? <;> rfl

theorem substFree_struct_ne' : ∀ (vs : List (Var K)) (xs : List K) (s : Struct K) (r : List (Var K) × Struct K)
    (o : Nat) (a : String), substFree vs xs s = .ok r →
    (∀ (j : Nat) (v : Var K), vs[j]? = some v → v.locked = false → xs[freeBefore vs j]? ≠ none → ¬ Touches v o a) →
    r.2 o a = s o a := by
  intro vs
  induction vs with
  | nil => intro xs s r o a h _; cases h; rfl
  | cons w vs ih =>
    intro xs s r o a h hn
    unfold substFree at h
    cases hl : w.locked with
    | true =>
      simp only [hl, if_true, bind, Except.bind] at h
      have hfb : ∀ i, freeBefore (w :: vs) (i + 1) = freeBefore vs i := by
        intro i; simp [freeBefore, hl]
      cases h1 : substFree vs xs s with
      | error e => rw [h1] at h; cases h
      | ok r1 =>
        rw [h1] at h
        cases h
        exact ih _ _ r1 _ _ h1 (fun j v hv hlv hx => hn (j + 1) v (by simpa using hv) hlv (by rw [hfb]; exact hx))
    | false =>
      simp only [hl, Bool.false_eq_true, if_false, bind, Except.bind] at h
      have hfb : ∀ i, freeBefore (w :: vs) (i + 1) = freeBefore vs i + 1 := by
        intro i; simp [freeBefore, hl]
      cases xs with
      | nil => cases h; rfl
      | cons x xs =>
        simp only at h
        cases h0 : substVar w x s with
        | error e => rw [h0] at h; cases h
        | ok w1 =>
          simp only [h0] at h
          cases h1 : substFree vs xs w1.2 with
          | error e => rw [h1] at h; cases h
          | ok r1 =>
            rw [h1] at h
            cases h
            rw [ih _ _ _ _ _ h1 (fun j v hv hlv hx =>
              hn (j + 1) v (by simpa using hv) hlv (by rw [hfb]; simpa using hx))]
            exact substVar_ne (hn 0 w rfl hl (by simp [freeBefore])) h0

theorem substFree_struct_ne (vs : List (Var K)) (xs : List K) (s : Struct K) (r : List (Var K) × Struct K)
    (o : Nat) (a : String) (h : substFree vs xs s = .ok r)
    (hn : ∀ v ∈ vs, v.locked = false → ¬ Touches v o a) : r.2 o a = s o a :=
  substFree_struct_ne' vs xs s r o a h fun _ v hv hl _ => hn v (List.mem_of_getElem? hv) hl

theorem substFree_struct : ∀ (vs : List (Var K)) (xs : List K) (s : Struct K) (r : List (Var K) × Struct K)
    (i : Nat) (v : Var K) (o : Nat) (a : String) (objs : List Nat) (x : K), substFree vs xs s = .ok r →
    vs[i]? = some v → v.kind.plain = true → v.locked = false → v.target = some ⟨.one a, objs⟩ → o ∈ objs →
    (∀ j w, vs[j]? = some w → j ≠ i → w.locked = false → ¬ Touches w o a) →
    xs[freeBefore vs i]? = some x → r.2 o a = x * v.scaling := by
  intro vs
  induction vs with
  | nil => intro xs s r i v o a objs x _ hv; simp at hv
  | cons w vs ih =>
    intro xs s r i v o a objs x h hv hk hlv ht ho hn hx
    unfold substFree at h
    cases hl : w.locked with
    | true =>
      simp only [hl, if_true, bind, Except.bind] at h
      cases h1 : substFree vs xs s with
      | error e => rw [h1] at h; cases h
      | ok r1 =>
        rw [h1] at h
        cases h
        cases i with
        | zero => simp at hv; subst hv; rw [hl] at hlv; cases hlv
        | succ i =>
          simp at hv
          have hfb : freeBefore (w :: vs) (i + 1) = freeBefore vs i := by simp [freeBefore, hl]
          rw [hfb] at hx
          exact ih _ _ r1 i v o a objs x h1 hv hk hlv ht ho
            (fun j w' hw' hj => hn (j + 1) w' (by simpa using hw') (by omega)) hx
    | false =>
      simp only [hl, Bool.false_eq_true, if_false, bind, Except.bind] at h
      cases xs with
      | nil => simp at hx
      | cons y xs =>
        simp only at h
        cases h0 : substVar w y s with
        | error e => rw [h0] at h; cases h
        | ok w1 =>
          simp only [h0] at h
          cases h1 : substFree vs xs w1.2 with
          | error e => rw [h1] at h; cases h
          | ok r1 =>
            rw [h1] at h
            cases h
            cases i with
            | zero =>
              simp at hv; subst hv
              simp [freeBefore] at hx; subst hx
              rw [substFree_struct_ne _ _ _ _ _ _ h1]
              · exact substVar_plain hk hl ht ho h0
              · intro v' hv' hlv'
                obtain ⟨j, hj, rfl⟩ := List.getElem_of_mem hv'
                exact hn (j + 1) vs[j] (by simp [hj]) (by omega) hlv'
            | succ i =>
              simp at hv
              have hfb : freeBefore (w :: vs) (i + 1) = freeBefore vs i + 1 := by simp [freeBefore, hl]
              rw [hfb] at hx
              simp at hx
              exact ih _ _ r1 i v o a objs x h1 hv hk hlv ht ho
                (fun j w' hw' hj => hn (j + 1) w' (by simpa using hw') (by omega)) hx

end Metku.Opt
