import Mathlib.Tactic.Linarith
import Mathlib.Tactic.NormNum
import Mathlib.Data.Rat.Floor
import Verif.Lemmas.OptFea

/-!
Properties of design variables, substitution, constraint and objective evaluation (C15, C16, C24, C25, C28, C41-C45).
-/
namespace Metku.Opt

open Metku

set_option linter.unusedSectionVars false

variable {K : Type} [Field K] [LinearOrder K] [IsStrictOrderedRing K] [FloorRing K]

theorem clip_spec (v : Var K) (x : K) (hb : v.lb ≤ v.ub) : ClippedTo v.lb v.ub x (clip v x) := by
  unfold clip
  refine ⟨le_max_left _ _, max_le hb (min_le_right _ _), ?_, ?_, ?_⟩
  · intro h1 h2; rw [min_eq_left h2, max_eq_right h1]
  · intro h; rw [min_eq_left (h.le.trans hb), max_eq_left h.le]
  · intro h; rw [min_eq_right h.le, max_eq_right hb]

/-- C15: substitution clips, leaves locked (and unmentioned) variables alone and invalidates every analysis. -/
theorem C15 {p p' : Prob K} {xs : List K} (h : substituteVariables p xs = .ok p')
    (hb : ∀ v ∈ p.vars, v.lb ≤ v.ub) :
    p'.vars.length = p.vars.length ∧
    (∀ (i : Nat) (v : Var K), p.vars[i]? = some v → v.locked = true → p'.vars[i]? = some v) ∧
    (∀ (i : Nat) (v : Var K), p.vars[i]? = some v → v.locked = false → xs[freeBefore p.vars i]? = none →
      p'.vars[i]? = some v) ∧
    (∀ (i : Nat) (v : Var K) (x : K), p.vars[i]? = some v → v.locked = false → xs[freeBefore p.vars i]? = some x →
      ∃ y z, ClippedTo v.lb v.ub x y ∧ p'.vars[i]? = some { v with value := some z } ∧
        match v.kind with
        | .index _ => 0 ≤ y → z = (⌊y⌋ : Int)
        | _ => z = y) ∧
    (∀ id, p'.feaDone.lookup id ≠ some true) := by
  obtain ⟨r, hr, rfl⟩ := substituteVariables_ok h
  obtain ⟨hlen, hspec⟩ := substFree_spec _ _ _ _ hr
  refine ⟨hlen, ?_, ?_, ?_, fun id => lookup_allFalse _ _⟩
  · intro i v hv hl
    exact (hspec i v hv).1 hl
  · intro i v hv hl hx
    refine (hspec i v hv).2.1 hl ?_
    rw [clipped_at hv hl, hx]; rfl
  · intro i v x hv hl hx
    refine ⟨clip v x, stored v.kind (clip v x), clip_spec v x (hb v (List.mem_of_getElem? hv)), ?_, ?_⟩
    · refine (hspec i v hv).2.2 hl (clip v x) ?_
      rw [clipped_at hv hl, hx]; rfl
    · cases v.kind with
      | index vs => intro hy; simp [stored, pyInt, hy]
      | _ => rfl

/-- C15, bounds: with a full design vector every free variable ends inside its own bounds
    (for index variables: whose lower bound is a natural number, as the constructor makes it). -/
theorem C15_bounds {p p' : Prob K} {xs : List K} (h : substituteVariables p xs = .ok p')
    (hb : ∀ v ∈ p.vars, v.lb ≤ v.ub) (hlen : xs.length = (p.vars.filter (! ·.locked)).length)
    (hidx : ∀ v ∈ p.vars, ∀ l, v.kind = .index l → ∃ n : Nat, v.lb = n) :
    ∀ v' ∈ p'.vars, v'.locked = false → ∃ z, v'.value = some z ∧ v'.lb ≤ z ∧ z ≤ v'.ub := by
  intro v' hv' hl'
  obtain ⟨hlen', hlock, _, hfree, _⟩ := C15 h hb
  obtain ⟨i, hi, rfl⟩ := List.getElem_of_mem hv'
  have hi2 : i < p.vars.length := hlen' ▸ hi
  have hvi : p.vars[i]? = some p.vars[i] := List.getElem?_eq_getElem hi2
  cases hl : p.vars[i].locked with
  | true =>
    have := hlock i _ hvi hl
    rw [List.getElem?_eq_getElem hi] at this
    have e := Option.some.inj this
    rw [e, hl] at hl'
    cases hl'
  | false =>
    have hpos := filter_freeBefore p.vars i _ hvi hl
    have hlt : freeBefore p.vars i < xs.length := by
      rw [hlen]
      by_contra hc
      rw [List.getElem?_eq_none (not_lt.1 hc)] at hpos
      cases hpos
    obtain ⟨y, z, hc, hz, hk⟩ := hfree i _ _ hvi hl (List.getElem?_eq_getElem hlt)
    rw [List.getElem?_eq_getElem hi] at hz
    have e := Option.some.inj hz
    rw [e]
    refine ⟨z, rfl, ?_⟩
    cases hkk : p.vars[i].kind with
    | index l =>
      simp only [hkk] at hk
      obtain ⟨n, hn⟩ := hidx _ (List.getElem_mem hi2) l hkk
      have hy0 : 0 ≤ y := by
        refine le_trans ?_ hc.1
        rw [hn]; exact Nat.cast_nonneg n
      rw [hk hy0]
      constructor
      · rw [hn]
        have : ((n : Int) : K) ≤ y := by simpa [hn] using hc.1
        have h2 := Int.le_floor.2 this
        have h3 : ((n : Int) : K) ≤ ((⌊y⌋ : Int) : K) := Int.cast_le.2 h2
        simpa using h3
      · exact (Int.floor_le y).trans hc.2.1
    | cont | integer | boolean | binary _ | discrete _ | crossSection =>
      simp only [hkk] at hk
      rw [hk]; exact ⟨hc.1, hc.2.1⟩

/-- C15, structure: the attribute targeted by a free variable receives the clipped value (times the scaling factor) when no other
    free variable has the same target; attributes that no free variable targets are untouched. -/
theorem C15_structure {p p' : Prob K} {xs : List K} (h : substituteVariables p xs = .ok p') :
    (∀ (i : Nat) (v : Var K) (a : String) (objs : List Nat) (x : K), p.vars[i]? = some v → v.lb ≤ v.ub →
      v.kind.plain = true → v.locked = false →
      v.target = some ⟨.one a, objs⟩ → xs[freeBefore p.vars i]? = some x →
      ∃ y, ClippedTo v.lb v.ub x y ∧ ∀ o ∈ objs,
        (∀ (j : Nat) (w : Var K), p.vars[j]? = some w → j ≠ i → w.locked = false → ¬ Touches w o a) →
        p'.struct o a = y * v.scaling) ∧
    (∀ o a, (∀ v ∈ p.vars, v.locked = false → ¬ Touches v o a) → p'.struct o a = p.struct o a) := by
  obtain ⟨r, hr, rfl⟩ := substituteVariables_ok h
  constructor
  · intro i v a objs x hv hb hk hl ht hx
    refine ⟨clip v x, clip_spec v x hb, fun o ho hn => ?_⟩
    refine substFree_struct _ _ _ _ i v o a objs (clip v x) hr hv hk hl ht ho hn ?_
    rw [clipped_at hv hl, hx]; rfl
  · intro o a hn
    exact substFree_struct_ne _ _ _ _ o a hr hn

/-- What the constructors guarantee about a variable: consistent bounds, an index variable has bounds `0 .. len - 1`
    (variables.py 310-314), a cross-section variable has a target. -/
def WellFormed (v : Var K) : Prop :=
  v.lb ≤ v.ub ∧
  match v.kind with
  | .index l => l ≠ [] ∧ v.lb = 0 ∧ v.ub = ((l.length - 1 : Nat) : K)
  | .crossSection => v.target ≠ none
  | _ => True

theorem substVar_total {v : Var K} (hw : WellFormed v) (x : K) (h1 : v.lb ≤ x) (h2 : x ≤ v.ub) (s : Struct K) :
    ∃ r, substVar v x s = .ok r := by
  unfold substVar
  obtain ⟨_, hw⟩ := hw
  cases hk : v.kind with
  | index l =>
    simp only [hk] at hw
    obtain ⟨hne, hl, hu⟩ := hw
    have hx0 : 0 ≤ x := hl ▸ h1
    have hf0 : 0 ≤ ⌊x⌋ := Int.floor_nonneg.2 hx0
    have hlen : 0 < l.length := List.length_pos_of_ne_nil hne
    have hf1 : ⌊x⌋ < (l.length : Int) := by
      rw [Int.floor_lt]
      have : x ≤ ((l.length - 1 : Nat) : K) := hu ▸ h2
      rw [Nat.cast_sub hlen] at this
      push_cast at this ⊢
      linarith
    have hlt : ⌊x⌋.toNat < l.length := by omega
    have : pyIndex l (pyInt x) = some l[⌊x⌋.toNat] := by
      simp [pyIndex, pyInt, hx0, hf0, hlt]
    simp only [this]
    exact ⟨_, rfl⟩
  | crossSection =>
    simp only [hk] at hw
    obtain ⟨t, ht⟩ := Option.ne_none_iff_exists'.1 hw
    simp only [ht]
    split <;> exact ⟨_, rfl⟩
  | cont | integer | boolean | binary _ | discrete _ => exact ⟨_, rfl⟩

/-- C15, totality: on variables as the constructors make them, substitution never fails, whatever the vector. -/
theorem C15_total (p : Prob K) (xs : List K) (hw : ∀ v ∈ p.vars, WellFormed v) :
    ∃ p', substituteVariables p xs = .ok p' := by
  have key : ∀ (vs : List (Var K)) (xs : List K) (s : Struct K), (∀ v ∈ vs, WellFormed v) →
      ∃ r, substFree vs (List.zipWith (fun x v => clip v x) xs (vs.filter (! ·.locked))) s = .ok r := by
    intro vs
    induction vs with
    | nil => intro xs s _; exact ⟨_, rfl⟩
    | cons w vs ih =>
      intro xs s hw
      have ih' := fun xs s => ih xs s (fun v hv => hw v (List.mem_cons_of_mem _ hv))
      have hww := hw w List.mem_cons_self
      unfold substFree
      cases hl : w.locked with
      | true =>
        simp only [if_true, bind, Except.bind]
        obtain ⟨r, hr⟩ := ih' xs s
        have e : (w :: vs).filter (! ·.locked) = vs.filter (! ·.locked) := by simp [hl]
        rw [e, hr]
        exact ⟨_, rfl⟩
      | false =>
        have e : (w :: vs).filter (! ·.locked) = w :: vs.filter (! ·.locked) := by simp [hl]
        rw [e]
        cases xs with
        | nil => simp
        | cons x xs =>
          simp only [List.zipWith_cons_cons, Bool.false_eq_true, if_false, bind, Except.bind]
          have hc := clip_spec w x hww.1
          obtain ⟨r1, h1⟩ := substVar_total hww (clip w x) hc.1 hc.2.1 s
          obtain ⟨r, hr⟩ := ih' xs r1.2
          simp only [h1, hr]
          exact ⟨_, rfl⟩
  obtain ⟨r, hr⟩ := key p.vars xs p.struct hw
  unfold substituteVariables Prob.free
  simp only [bind, Except.bind, hr]
  exact ⟨_, rfl⟩

/-- C16: the verdict is "feasible" exactly when every constraint, evaluated in turn, respects its type. -/
inductive Evaluated (x : List K) : Prob K → List (Con K) → List K → Prob K → Prop
  | nil (p) : Evaluated x p [] [] p
  | cons {p q p' c c' cs g gs} : evalCon p c x = .ok (g, q, c') → Evaluated x q cs gs p' →
      Evaluated x p (c :: cs) (g :: gs) p'

theorem violates_iff (t : CType) (g : K) : violates t g = true ↔ ¬ Respects (1 / 10 ^ 4) t g := by
  cases t <;> simp [violates, Respects]

theorem C16 (x : List K) (cs : List (Con K)) : ∀ (p p' : Prob K) (b : Bool), feasible x p cs = .ok (b, p') →
    (b = true ↔ ∃ gs q, Evaluated x p cs gs q ∧ ∀ cg ∈ cs.zip gs, Respects (1 / 10 ^ 4) cg.1.type cg.2) ∧
    (b = false → ∃ pre c post gs g q c', cs = pre ++ c :: post ∧ Evaluated x p pre gs q ∧
      evalCon q c x = .ok (g, p', c') ∧ ¬ Respects (1 / 10 ^ 4) c.type g) := by
  induction cs with
  | nil =>
    intro p p' b h
    cases h
    exact ⟨⟨fun _ => ⟨[], p, .nil p, by simp⟩, fun _ => rfl⟩, fun h => by simp at h⟩
  | cons c cs ih =>
    intro p p' b h
    unfold feasible at h
    simp only [bind, Except.bind] at h
    cases h1 : evalCon p c x with
    | error e => simp only [h1] at h; cases h
    | ok r =>
      obtain ⟨g, q, c'⟩ := r
      simp only [h1] at h
      cases hv : violates c.type g with
      | true =>
        simp only [hv, if_true] at h
        cases h
        have hr := (violates_iff c.type g).1 hv
        refine ⟨⟨fun h => by simp at h, ?_⟩, fun _ => ⟨[], c, cs, [], g, p, c', rfl, .nil p, h1, hr⟩⟩
        rintro ⟨gs, q', he, ha⟩
        cases he with
        | cons h2 h3 =>
          rw [h1] at h2
          cases h2
          exact absurd (ha (c, g) (by simp)) hr
      | false =>
        simp only [hv] at h
        have hr : Respects (1 / 10 ^ 4) c.type g := by
          by_contra hc
          rw [(violates_iff c.type g).2 hc] at hv; cases hv
        obtain ⟨i1, i2⟩ := ih q p' b h
        refine ⟨?_, ?_⟩
        · rw [i1]
          constructor
          · rintro ⟨gs, q', he, ha⟩
            refine ⟨g :: gs, q', .cons h1 he, ?_⟩
            intro cg hm
            simp only [List.zip_cons_cons, List.mem_cons] at hm
            rcases hm with rfl | hm
            · exact hr
            · exact ha cg hm
          · rintro ⟨gs, q', he, ha⟩
            cases he with
            | cons h2 h3 =>
              rw [h1] at h2
              cases h2
              exact ⟨_, q', h3, fun cg hm => ha cg (by simp [hm])⟩
        · intro hb
          obtain ⟨pre, d, post, gs, g', q', d', e1, e2, e3, e4⟩ := i2 hb
          exact ⟨c :: pre, d, post, g :: gs, g', q', d', by rw [e1]; rfl, .cons h1 e2, e3, e4⟩

/-! ### C28: locked variables -/

/-- C28, the part that holds: every kind of variable other than an index variable ignores a substitution while it is locked. -/
theorem C28_partial {v v' : Var K} {x : K} {s s' : Struct K} (hl : v.locked = true)
    (hk : ∀ l, v.kind ≠ .index l) (h : substVar v x s = .ok (v', s')) : v' = v ∧ s' = s := by
  obtain ⟨kind, lb, ub, value, target, tf, locked, sc, lm, um⟩ := v
  simp only at hl
  subst hl
  cases kind with
  | index l => exact absurd rfl (hk l)
  | cont | integer | boolean | binary _ | discrete _ | crossSection => cases h; exact ⟨rfl, rfl⟩

/-- The structure never moves, also for index variables. -/
theorem C28_structure {v v' : Var K} {x : K} {s s' : Struct K} (hl : v.locked = true)
    (h : substVar v x s = .ok (v', s')) : s' = s := by
  obtain ⟨kind, lb, ub, value, target, tf, locked, sc, lm, um⟩ := v
  simp only at hl
  subst hl
  cases kind with
  | index l =>
    simp only [substVar] at h
    cases hi : pyIndex l (pyInt x) with
    | none => rw [hi] at h; cases h
    | some y => rw [hi] at h; cases h; rfl
  | cont | integer | boolean | binary _ | discrete _ | crossSection => cases h; rfl

/-- C28 fails for index variables: the stored index of a locked variable is overwritten (variables.py 334) although
    the structure keeps the old profile. -/
theorem C28_violation : ∃ (v v' : Var ℚ) (s s' : Struct ℚ), v.locked = true ∧ v.value = some 0 ∧ WellFormed v ∧
    substVar v 1 s = .ok (v', s') ∧ v'.value ≠ v.value := by
  let v : Var ℚ := { newVar (.index [100, 200]) 0 1 (some 0) (some ⟨.one "profile", [0]⟩) with locked := true }
  refine ⟨v, { v with value := some 1 }, fun _ _ => 100, fun _ _ => 100, rfl, rfl, ⟨by norm_num [v, newVar], ?_⟩, ?_, ?_⟩
  · simp [v, newVar]
  · have : pyInt (1 : ℚ) = 1 := by simp [pyInt]
    simp [substVar, v, newVar, this, pyIndex, substBase]
  · simp [v, newVar]

/-! ### C25: neighbouring discrete values -/

theorem foldl_max_spec (xs : List K) : ∀ x : K, xs.foldl max x ∈ x :: xs ∧ ∀ y ∈ x :: xs, y ≤ xs.foldl max x := by
  induction xs with
  | nil => intro x; simp
  | cons a xs ih =>
    intro x
    obtain ⟨h1, h2⟩ := ih (max x a)
    rw [List.foldl_cons]
    constructor
    · rcases List.mem_cons.1 h1 with h | h
      · rcases max_choice x a with e | e <;> rw [h, e] <;> simp
      · simp [h]
    · intro y hy
      have hm := h2 (max x a) List.mem_cons_self
      rcases List.mem_cons.1 hy with rfl | hy
      · exact (le_max_left _ _).trans hm
      · rcases List.mem_cons.1 hy with rfl | hy
        · exact (le_max_right _ _).trans hm
        · exact h2 y (List.mem_cons_of_mem _ hy)

theorem foldl_min_spec (xs : List K) : ∀ x : K, xs.foldl min x ∈ x :: xs ∧ ∀ y ∈ x :: xs, xs.foldl min x ≤ y := by
  induction xs with
  | nil => intro x; simp
  | cons a xs ih =>
    intro x
    obtain ⟨h1, h2⟩ := ih (min x a)
    rw [List.foldl_cons]
    constructor
    · rcases List.mem_cons.1 h1 with h | h
      · rcases min_choice x a with e | e <;> rw [h, e] <;> simp
      · simp [h]
    · intro y hy
      have hm := h2 (min x a) List.mem_cons_self
      rcases List.mem_cons.1 hy with rfl | hy
      · exact hm.trans (min_le_left _ _)
      · rcases List.mem_cons.1 hy with rfl | hy
        · exact hm.trans (min_le_right _ _)
        · exact h2 y (List.mem_cons_of_mem _ hy)

theorem pyMax_spec (l : List K) (y : K) : pyMax l = .ok y → y ∈ l ∧ ∀ z ∈ l, z ≤ y := by
  cases l with
  | nil => intro h; cases h
  | cons x xs => intro h; cases h; exact foldl_max_spec xs x

theorem pyMin_spec (l : List K) (y : K) : pyMin l = .ok y → y ∈ l ∧ ∀ z ∈ l, y ≤ z := by
  cases l with
  | nil => intro h; cases h
  | cons x xs => intro h; cases h; exact foldl_min_spec xs x

/-- C25 (smaller): a value is returned exactly when it is the largest allowed value strictly below `x`; otherwise there is no
    allowed value below `x` and the call fails. -/
theorem C25_smaller (values : List K) (x : K) :
    (∀ y, smallerDiscrete values x = .ok y ↔ y ∈ values ∧ y < x ∧ ∀ z ∈ values, z < x → z ≤ y) ∧
    ((∃ e, smallerDiscrete values x = .error e) ↔ ∀ z ∈ values, x ≤ z) := by
  have hmem : ∀ z, z ∈ values.filter (fun val => val - x < 0) ↔ z ∈ values ∧ z < x := by
    intro z; simp [List.mem_filter, sub_neg]
  have hok : ∀ y, smallerDiscrete values x = .ok y → y ∈ values ∧ y < x ∧ ∀ z ∈ values, z < x → z ≤ y := by
    intro y h
    obtain ⟨h1, h2⟩ := pyMax_spec _ _ h
    obtain ⟨h3, h4⟩ := (hmem y).1 h1
    exact ⟨h3, h4, fun z hz hzx => h2 z ((hmem z).2 ⟨hz, hzx⟩)⟩
  have herr : ∀ e, smallerDiscrete values x = .error e → ∀ z ∈ values, x ≤ z := by
    intro e h z hz
    by_contra hc
    have hz' := (hmem z).2 ⟨hz, not_le.1 hc⟩
    unfold smallerDiscrete at h
    cases hf : values.filter (fun val => val - x < 0) with
    | nil => rw [hf] at hz'; simp at hz'
    | cons a l => rw [hf] at h; cases h
  constructor
  · intro y
    refine ⟨hok y, ?_⟩
    rintro ⟨h1, h2, h3⟩
    cases h : smallerDiscrete values x with
    | error e => exact absurd h2 (not_lt.2 (herr e h y h1))
    | ok y' =>
      obtain ⟨g1, g2, g3⟩ := hok y' h
      rw [le_antisymm (h3 y' g1 g2) (g3 y h1 h2)]
  · constructor
    · rintro ⟨e, h⟩; exact herr e h
    · intro hall
      cases h : smallerDiscrete values x with
      | error e => exact ⟨e, rfl⟩
      | ok y => exact absurd (hok y h).2.1 (not_lt.2 (hall y (hok y h).1))

/-- C25 (larger): mirror image of `C25_smaller`. -/
theorem C25_larger (values : List K) (x : K) :
    (∀ y, largerDiscrete values x = .ok y ↔ y ∈ values ∧ x < y ∧ ∀ z ∈ values, x < z → y ≤ z) ∧
    ((∃ e, largerDiscrete values x = .error e) ↔ ∀ z ∈ values, z ≤ x) := by
  have hmem : ∀ z, z ∈ values.filter (fun val => val - x > 0) ↔ z ∈ values ∧ x < z := by
    intro z; simp [List.mem_filter, sub_pos]
  have hok : ∀ y, largerDiscrete values x = .ok y → y ∈ values ∧ x < y ∧ ∀ z ∈ values, x < z → y ≤ z := by
    intro y h
    obtain ⟨h1, h2⟩ := pyMin_spec _ _ h
    obtain ⟨h3, h4⟩ := (hmem y).1 h1
    exact ⟨h3, h4, fun z hz hzx => h2 z ((hmem z).2 ⟨hz, hzx⟩)⟩
  have herr : ∀ e, largerDiscrete values x = .error e → ∀ z ∈ values, z ≤ x := by
    intro e h z hz
    by_contra hc
    have hz' := (hmem z).2 ⟨hz, not_le.1 hc⟩
    unfold largerDiscrete at h
    cases hf : values.filter (fun val => val - x > 0) with
    | nil => rw [hf] at hz'; simp at hz'
    | cons a l => rw [hf] at h; cases h
  constructor
  · intro y
    refine ⟨hok y, ?_⟩
    rintro ⟨h1, h2, h3⟩
    cases h : largerDiscrete values x with
    | error e => exact absurd h2 (not_lt.2 (herr e h y h1))
    | ok y' =>
      obtain ⟨g1, g2, g3⟩ := hok y' h
      rw [le_antisymm (g3 y h1 h2) (h3 y' g1 g2)]
  · constructor
    · rintro ⟨e, h⟩; exact herr e h
    · intro hall
      cases h : largerDiscrete values x with
      | error e => exact ⟨e, rfl⟩
      | ok y => exact absurd (hok y h).2.1 (not_lt.2 (hall y (hok y h).1))

/-- Unsorted list, a value in the middle: the neighbours are found. -/
example : smallerDiscrete [5, 1, 3, 4] (7 / 2 : ℚ) = .ok 3 ∧ largerDiscrete [5, 1, 3, 4] (7 / 2 : ℚ) = .ok 4 := by
  constructor
  · rw [(C25_smaller _ _).1]; norm_num
  · rw [(C25_larger _ _).1]; norm_num

end Metku.Opt
