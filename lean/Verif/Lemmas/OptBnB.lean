import Mathlib.Algebra.Order.Floor.Ring
import Mathlib.Algebra.Order.Field.Basic
import Mathlib.Tactic.Linarith
import Mathlib.Tactic.FieldSimp
import Mathlib.Tactic.Ring
import Verif.Model.OptBnB
import Verif.Props.OptProblem

/-!
Specification and helper lemmas for branch and bound.
-/
set_option linter.unusedSectionVars false

namespace Metku.Opt

variable {K : Type} [Field K] [LinearOrder K] [IsStrictOrderedRing K] [FloorRing K]

/-! ### Specification -/

/-- The point lies within the bounds of the variables. -/
def InBox (vs : List (BVar K)) (y : List K) : Prop := List.Forall₂ (fun v x => v.lb ≤ x ∧ x ≤ v.ub) vs y

/-- The value is allowed for the class of variable. -/
def AllowedValue (k : BKind K) (x : K) : Prop :=
  match k with
  | .cont => True
  | .int => ∃ z : ℤ, x = z
  | .disc values => x ∈ values

/-- Every component has an allowed value. -/
def Discrete (vs : List (BVar K)) (y : List K) : Prop := List.Forall₂ (fun v x => AllowedValue v.kind x) vs y

/-- `a'y` -/
def dotp (a y : List K) : K := (List.zipWith (· * ·) a y).sum

/-- The linear constraint holds. -/
def LinHolds (c : LinCon K) (y : List K) : Prop :=
  match c.type with
  | .lt => dotp c.a y ≤ c.b
  | .gt => c.b ≤ dotp c.a y
  | .eq => dotp c.a y = c.b

/-- Same classes of variables. -/
def SameKinds (vs ws : List (BVar K)) : Prop := vs.map (·.kind) = ws.map (·.kind)

theorem Discrete.congr {vs ws : List (BVar K)} (h : SameKinds vs ws) {y : List K} (hy : Discrete vs y) : Discrete ws y := by
  unfold SameKinds at h
  induction hy generalizing ws with
  | nil => simp at h; subst h; exact .nil
  | cons hd _ ih =>
    cases ws with
    | nil => simp at h
    | cons w ws =>
      simp only [List.map_cons, List.cons.injEq] at h
      exact .cons (h.1 ▸ hd) (ih h.2)

/-! ### Tightening -/

theorem tightenVar_ok {a m s b x : K} {old : Option K} {v : BVar K} (ha : a = 0 ∨ 1 / 10 ^ 9 < |a|)
    (hx : v.lb ≤ x ∧ x ≤ v.ub) (hd : AllowedValue v.kind x) (hr : a * x ≤ b - (s - m)) :
    ∃ v', tightenVar a (newBnd a m s b old) v = .ok v' ∧ (v'.lb ≤ x ∧ x ≤ v'.ub) ∧ v'.kind = v.kind := by
  rcases ha with ha | ha
  · subst ha
    exact ⟨v, by simp [tightenVar], hx, rfl⟩
  · have hb : newBnd a m s b old = some (1 / a * (b - (s - m))) := by simp only [newBnd, if_pos ha]
    rw [hb]
    obtain ⟨k, lb, ub, pr⟩ := v
    simp only at hx hd
    rcases lt_trichotomy a 0 with h | h | h
    · have hle : 1 / a * (b - (s - m)) ≤ x := by
        rw [div_mul_eq_mul_div, one_mul, div_le_iff_of_neg h]; linarith
      unfold tightenVar
      rw [if_neg (by linarith), if_pos h]
      simp only
      generalize 1 / a * (b - (s - m)) = t at hle
      have hmax : max lb t ≤ x := max_le hx.1 hle
      cases k with
      | cont => exact ⟨_, rfl, ⟨hmax, hx.2⟩, rfl⟩
      | int =>
        obtain ⟨z, rfl⟩ := hd
        refine ⟨_, rfl, ⟨?_, hx.2⟩, rfl⟩
        simp only
        exact_mod_cast Int.ceil_le.2 hmax
      | disc values =>
        simp only
        have hmem : x ∈ values.filter fun y => decide (y ≥ max lb t) :=
          List.mem_filter.2 ⟨hd, by simpa using hmax⟩
        cases hp : pyMin (values.filter fun y => decide (y ≥ max lb t)) with
        | error e =>
          cases hl : values.filter fun y => decide (y ≥ max lb t) with
          | nil => rw [hl] at hmem; simp at hmem
          | cons y ys => rw [hl] at hp; cases hp
        | ok r =>
          simp only
          exact ⟨_, rfl, ⟨(pyMin_spec _ _ hp).2 x hmem, hx.2⟩, rfl⟩
    · rw [h, abs_zero] at ha
      exact absurd ha (not_lt.2 (by positivity))
    · have hle : x ≤ 1 / a * (b - (s - m)) := by
        rw [div_mul_eq_mul_div, one_mul, le_div_iff₀ h]; linarith
      unfold tightenVar
      rw [if_pos h]
      simp only
      generalize 1 / a * (b - (s - m)) = t at hle
      have hmin : x ≤ min ub t := le_min hx.2 hle
      cases k with
      | cont => exact ⟨_, rfl, ⟨hx.1, hmin⟩, rfl⟩
      | int =>
        obtain ⟨z, rfl⟩ := hd
        refine ⟨_, rfl, ⟨hx.1, ?_⟩, rfl⟩
        simp only
        exact_mod_cast Int.le_floor.2 hmin
      | disc values =>
        simp only
        have hmem : x ∈ values.filter fun y => decide (y ≤ min ub t) :=
          List.mem_filter.2 ⟨hd, by simpa using hmin⟩
        cases hp : pyMax (values.filter fun y => decide (y ≤ min ub t)) with
        | error e =>
          cases hl : values.filter fun y => decide (y ≤ min ub t) with
          | nil => rw [hl] at hmem; simp at hmem
          | cons y ys => rw [hl] at hp; cases hp
        | ok r =>
          simp only
          exact ⟨_, rfl, ⟨hx.1, (pyMax_spec _ _ hp).2 x hmem⟩, rfl⟩

/-- Every term of the row is within its share. -/
def RowOK (s b : K) : List K → List K → List K → Prop
  | a :: as, m :: ms, y :: ys => a * y ≤ b - (s - m) ∧ RowOK s b as ms ys
  | _, _, _ => True

theorem rowOK_of (s b : K) : ∀ (as : List K) (box : List (K × K)) (ys : List K),
    List.Forall₂ (fun (c : K × K) x => c.1 ≤ x ∧ x ≤ c.2) box ys → as.length = box.length →
    dotp as ys + (s - (axMin as box).sum) ≤ b → RowOK s b as (axMin as box) ys ∧ (axMin as box).sum ≤ dotp as ys := by
  intro as
  induction as with
  | nil => intro box ys _ _ h; simp [RowOK, axMin, dotp]
  | cons a as ih =>
    intro box ys hb hl h
    cases hb with
    | nil => simp at hl
    | cons hc hb =>
      rename_i c y box ys
      simp only [List.length_cons, Nat.add_right_cancel_iff] at hl
      have hm : min (a * c.2) (a * c.1) ≤ a * y := by
        rcases le_total 0 a with h0 | h0
        · exact (min_le_right _ _).trans (mul_le_mul_of_nonneg_left hc.1 h0)
        · exact (min_le_left _ _).trans (mul_le_mul_of_nonpos_left hc.2 h0)
      simp only [dotp, axMin, List.zipWith_cons_cons, List.sum_cons] at h ⊢
      have h2 : dotp as ys + (s - (axMin as box).sum) ≤ b := by
        simp only [dotp, axMin]; linarith
      obtain ⟨r1, r2⟩ := ih box ys hb hl h2
      simp only [dotp, axMin] at r1 r2
      refine ⟨⟨by linarith, r1⟩, by linarith⟩

theorem tightenRow_ok (s b : K) : ∀ (as ms ys : List K) (bnd : Option K) (vs : List (BVar K)),
    (∀ a ∈ as, a = 0 ∨ 1 / 10 ^ 9 < |a|) → InBox vs ys → Discrete vs ys → RowOK s b as ms ys →
    ∃ bnd' vs', tightenRow s b as ms bnd vs = .ok (bnd', vs') ∧ InBox vs' ys ∧ SameKinds vs' vs := by
  intro as
  induction as with
  | nil => intro ms ys bnd vs _ hi hd _; exact ⟨bnd, vs, by simp [tightenRow], hi, rfl⟩
  | cons a as ih =>
    intro ms ys bnd vs ha hi hd hr
    cases ms with
    | nil => exact ⟨bnd, vs, by simp [tightenRow], hi, rfl⟩
    | cons m ms =>
      cases hi with
      | nil => exact ⟨bnd, [], by simp [tightenRow], .nil, rfl⟩
      | cons h1 hi =>
        cases hd with
        | cons h2 hd =>
          obtain ⟨r1, r2⟩ := hr
          obtain ⟨v', e1, e2, e3⟩ := tightenVar_ok (old := bnd) (ha a (by simp)) h1 h2 r1
          obtain ⟨bnd', vs', f1, f2, f3⟩ := ih ms _ (newBnd a m s b bnd) _ (fun x hx => ha x (by simp [hx])) hi hd r2
          refine ⟨bnd', v' :: vs', ?_, .cons e2 f2, ?_⟩
          · simp only [tightenRow, e1, f1]
          · simp only [SameKinds, List.map_cons, e3] at f3 ⊢; rw [f3]

theorem tightenCons_ok (box : List (K × K)) (ys : List K)
    (hb : List.Forall₂ (fun (c : K × K) x => c.1 ≤ x ∧ x ≤ c.2) box ys) :
    ∀ (cs : List (LinCon K)) (bnd : Option K) (vs : List (BVar K)),
    (∀ c ∈ cs, c.a.length = box.length ∧ c.type ≠ .gt ∧ (∀ a ∈ c.a, a = 0 ∨ 1 / 10 ^ 9 < |a|) ∧ LinHolds c ys) →
    InBox vs ys → Discrete vs ys →
    ∃ vs', tightenCons box cs bnd vs = .ok vs' ∧ InBox vs' ys ∧ SameKinds vs' vs := by
  intro cs
  induction cs with
  | nil => intro bnd vs _ hi _; exact ⟨vs, rfl, hi, rfl⟩
  | cons c cs ih =>
    intro bnd vs hc hi hd
    obtain ⟨h1, h2, h3, h4⟩ := hc c (by simp)
    have hle : dotp c.a ys ≤ c.b := by
      unfold LinHolds at h4
      cases ht : c.type <;> rw [ht] at h4 <;> simp only at h4
      · exact h4
      · exact absurd ht h2
      · exact h4.le
    obtain ⟨r, _⟩ := rowOK_of (axMin c.a box).sum c.b c.a box ys hb h1 (by linarith)
    obtain ⟨bnd', vs1, e1, e2, e3⟩ := tightenRow_ok _ _ _ _ _ bnd vs h3 hi hd r
    obtain ⟨vs', f1, f2, f3⟩ := ih bnd' vs1 (fun d hd => hc d (by simp [hd])) e2 (Discrete.congr e3.symm hd)
    refine ⟨vs', ?_, f2, f3.trans e3⟩
    simp only [tightenCons, h1, ne_eq, not_true_eq_false, if_false, e1, f1]

/-! ### Tightening only shrinks -/

theorem tightenVar_sub {a : K} {bnd : Option K} {v v' : BVar K} (h : tightenVar a bnd v = .ok v') :
    v'.kind = v.kind ∧ v.lb ≤ v'.lb ∧ v'.ub ≤ v.ub := by
  obtain ⟨k, lb, ub, pr⟩ := v
  unfold tightenVar at h
  simp only at h
  split at h
  · cases bnd with
    | none => cases h
    | some t =>
      simp only at h
      cases k with
      | cont => cases h; exact ⟨rfl, le_refl _, min_le_left _ _⟩
      | int =>
        cases h
        exact ⟨rfl, le_refl _, (Int.floor_le _).trans (min_le_left _ _)⟩
      | disc values =>
        simp only at h
        cases hp : pyMax (values.filter fun y => decide (y ≤ min ub t)) with
        | error e => rw [hp] at h; cases h
        | ok m =>
          rw [hp] at h; cases h
          have := (List.mem_filter.1 (pyMax_spec _ _ hp).1).2
          simp only [decide_eq_true_eq] at this
          exact ⟨rfl, le_refl _, this.trans (min_le_left _ _)⟩
  · split at h
    · cases bnd with
      | none => cases h
      | some t =>
        simp only at h
        cases k with
        | cont => cases h; exact ⟨rfl, le_max_left _ _, le_refl _⟩
        | int =>
          cases h
          exact ⟨rfl, (le_max_left _ _).trans (Int.le_ceil _), le_refl _⟩
        | disc values =>
          simp only at h
          cases hp : pyMin (values.filter fun y => decide (y ≥ max lb t)) with
          | error e => rw [hp] at h; cases h
          | ok m =>
            rw [hp] at h; cases h
            have := (List.mem_filter.1 (pyMin_spec _ _ hp).1).2
            simp only [decide_eq_true_eq] at this
            exact ⟨rfl, (le_max_left _ _).trans this, le_refl _⟩
    · cases h; exact ⟨rfl, le_refl _, le_refl _⟩

/-- `ws` has the classes of `vs` and bounds within those of `vs`. -/
def SubBox (ws vs : List (BVar K)) : Prop := List.Forall₂ (fun w v => w.kind = v.kind ∧ v.lb ≤ w.lb ∧ w.ub ≤ v.ub) ws vs

theorem SubBox.refl (vs : List (BVar K)) : SubBox vs vs := by
  induction vs with
  | nil => exact .nil
  | cons v vs ih => exact .cons ⟨rfl, le_refl _, le_refl _⟩ ih

theorem SubBox.trans {us vs ws : List (BVar K)} (h1 : SubBox us vs) (h2 : SubBox vs ws) : SubBox us ws := by
  unfold SubBox at *
  induction h1 generalizing ws with
  | nil => cases h2; exact .nil
  | cons h _ ih =>
    cases h2 with
    | cons h' h2 => exact .cons ⟨h.1.trans h'.1, h'.2.1.trans h.2.1, h.2.2.trans h'.2.2⟩ (ih h2)

theorem SubBox.kinds {ws vs : List (BVar K)} (h : SubBox ws vs) : SameKinds ws vs := by
  unfold SubBox at h
  induction h with
  | nil => rfl
  | cons h _ ih => simp only [SameKinds, List.map_cons, h.1] at ih ⊢; rw [ih]

theorem SubBox.inBox {ws vs : List (BVar K)} (h : SubBox ws vs) {y : List K} (hy : InBox ws y) : InBox vs y := by
  unfold SubBox at h
  unfold InBox at *
  induction h generalizing y with
  | nil => cases hy; exact .nil
  | cons h _ ih =>
    cases hy with
    | cons hd hy => exact .cons ⟨h.2.1.trans hd.1, hd.2.trans h.2.2⟩ (ih hy)

theorem tightenRow_sub (s b : K) : ∀ (as ms : List K) (bnd : Option K) (vs : List (BVar K)) r,
    tightenRow s b as ms bnd vs = .ok r → SubBox r.2 vs := by
  intro as
  induction as with
  | nil => intro ms bnd vs r h; simp [tightenRow] at h; subst h; exact SubBox.refl _
  | cons a as ih =>
    intro ms bnd vs r h
    cases ms with
    | nil => simp [tightenRow] at h; subst h; exact SubBox.refl _
    | cons m ms =>
      cases vs with
      | nil => simp [tightenRow] at h; subst h; exact SubBox.refl _
      | cons v vs =>
        simp only [tightenRow] at h
        cases h1 : tightenVar a (newBnd a m s b bnd) v with
        | error e => rw [h1] at h; cases h
        | ok v' =>
          rw [h1] at h
          simp only at h
          cases h2 : tightenRow s b as ms (newBnd a m s b bnd) vs with
          | error e => rw [h2] at h; cases h
          | ok r' => rw [h2] at h; cases h; exact .cons (tightenVar_sub h1) (ih _ _ _ _ h2)

theorem tightenCons_sub (box : List (K × K)) : ∀ (cs : List (LinCon K)) (bnd : Option K) (vs vs' : List (BVar K)),
    tightenCons box cs bnd vs = .ok vs' → SubBox vs' vs := by
  intro cs
  induction cs with
  | nil => intro bnd vs vs' h; cases h; exact SubBox.refl _
  | cons c cs ih =>
    intro bnd vs vs' h
    simp only [tightenCons] at h
    split at h
    · cases h
    · cases h1 : tightenRow (axMin c.a box).sum c.b c.a (axMin c.a box) bnd vs with
      | error e => rw [h1] at h; cases h
      | ok r => rw [h1] at h; exact (ih _ _ _ h).trans (tightenRow_sub _ _ _ _ _ _ _ h1)

/-! ### Branching -/

theorem pickStep_some {cur : Option (Pick K)} {i : Nat} {v : BVar K} {x viol : K} (hc : ∀ c, cur = some c → 0 < c.viol) {c : Pick K}
    (h : pickStep cur i v x viol = some c) : cur = some c ∨ (0 < viol ∧ c = ⟨viol, i, v.prio, x, v.kind⟩) := by
  unfold pickStep at h
  cases cur with
  | none =>
    simp only at h
    split at h
    · rename_i hv; cases h; exact Or.inr ⟨hv, rfl⟩
    · cases h
  | some c0 =>
    have h0 := hc c0 rfl
    simp only at h
    split at h
    · split at h
      · rename_i hv; cases h; exact Or.inr ⟨hv, rfl⟩
      · exact Or.inl h
    · split at h
      · split at h
        · rename_i hv; cases h; exact Or.inr ⟨h0.trans hv, rfl⟩
        · exact Or.inl h
      · exact Or.inl h

/-- The chosen variable is one whose relaxed value is not allowed. -/
theorem pickVar_some : ∀ (vs : List (BVar K)) (i : Nat) (xs : List K) (cur : Option (Pick K)) (c : Pick K),
    (∀ c, cur = some c → 0 < c.viol) → pickVar i vs xs cur = .ok (some c) →
    cur = some c ∨ ∃ j v, vs[j]? = some v ∧ xs[j]? = some c.xr ∧ c.idx = i + j ∧ c.kind = v.kind ∧ 0 < c.viol ∧
      bViolation v c.xr = .ok c.viol := by
  intro vs
  induction vs with
  | nil => intro i xs cur c _ h; simp [pickVar] at h; exact Or.inl h
  | cons v vs ih =>
    intro i xs cur c hc h
    cases xs with
    | nil => simp [pickVar] at h
    | cons x xs =>
      simp only [pickVar] at h
      cases hv : bViolation v x with
      | error e => rw [hv] at h; cases h
      | ok viol =>
        rw [hv] at h
        have hc' : ∀ c, pickStep cur i v x viol = some c → 0 < c.viol := by
          intro c h'
          rcases pickStep_some hc h' with h' | ⟨h1, rfl⟩
          · exact hc c h'
          · exact h1
        rcases ih _ _ _ _ hc' h with h' | ⟨j, w, h1, h2, h3, h4, h5, h6⟩
        · rcases pickStep_some hc h' with h' | ⟨h1, rfl⟩
          · exact Or.inl h'
          · exact Or.inr ⟨0, v, rfl, rfl, rfl, rfl, h1, hv⟩
        · exact Or.inr ⟨j + 1, w, by simpa using h1, by simpa using h2, by omega, h4, h5, h6⟩

theorem discreteViolation_pos {values : List K} {x d : K} (h : discreteViolation values x = .ok d) (hd : 0 < d) :
    x ∉ values := by
  intro hx
  unfold discreteViolation at h
  cases hp : pyMin (values.map fun val => |val - x|) with
  | error e => rw [hp] at h; cases h
  | ok m =>
    rw [hp] at h
    simp only at h
    have hm : m ≤ 0 := by
      have := (pyMin_spec _ _ hp).2 |x - x| (List.mem_map.2 ⟨x, hx, rfl⟩)
      simpa using this
    rw [if_pos (hm.trans (by positivity))] at h
    cases h
    exact lt_irrefl _ hd

/-- What a successful branching is: a discrete variable whose relaxed value is strictly between two consecutive allowed values. -/
theorem branch_spec {vs : List (BVar K)} {xR : List K} {b1 b2 : Branching K} (h : branch vs xR = .ok (b1, b2)) :
    ∃ j v values x, vs[j]? = some v ∧ xR[j]? = some x ∧ v.kind = .disc values ∧ x ∉ values ∧
      b1.idx = j ∧ b1.upper = true ∧ b2.idx = j ∧ b2.upper = false ∧
      (b1.lim ∈ values ∧ b1.lim < x ∧ ∀ z ∈ values, z < x → z ≤ b1.lim) ∧
      (b2.lim ∈ values ∧ x < b2.lim ∧ ∀ z ∈ values, x < z → b2.lim ≤ z) := by
  unfold branch at h
  cases hp : pickVar 0 vs xR none with
  | error e => rw [hp] at h; cases h
  | ok o =>
    rw [hp] at h
    cases o with
    | none => cases h
    | some c =>
      simp only at h
      cases hk : c.kind with
      | cont => rw [hk] at h; cases h
      | int => rw [hk] at h; cases h
      | disc values =>
        rw [hk] at h
        simp only at h
        cases hl : smallerDiscrete values c.xr with
        | error e => rw [hl] at h; cases h
        | ok lo =>
          rw [hl] at h
          simp only at h
          cases hh : largerDiscrete values c.xr with
          | error e => rw [hh] at h; cases h
          | ok hi =>
            rw [hh] at h
            cases h
            rcases pickVar_some _ _ _ _ _ (by simp) hp with h' | ⟨j, v, h1, h2, h3, h4, h5, h6⟩
            · cases h'
            · have hv : v.kind = .disc values := by rw [← h4, hk]
              rw [Nat.zero_add] at h3
              have hnot : c.xr ∉ values := by
                unfold bViolation at h6
                rw [hv] at h6
                exact discreteViolation_pos h6 h5
              exact ⟨j, v, values, c.xr, h1, h2, hv, hnot, h3, rfl, h3, rfl, ((C25_smaller values c.xr).1 lo).1 hl,
                ((C25_larger values c.xr).1 hi).1 hh⟩

theorem applyBranching_inBox {vs : List (BVar K)} {b : Branching K} {y : List K} {v : BVar K} {x : K}
    (hv : vs[b.idx]? = some v) (hx : y[b.idx]? = some x) :
    InBox (applyBranching vs b) y ↔ InBox vs y ∧ (if b.upper then x ≤ b.lim else b.lim ≤ x) := by
  obtain ⟨i, lim, up⟩ := b
  simp only at hv hx
  unfold applyBranching InBox
  simp only
  induction i generalizing vs y with
  | zero =>
    cases vs with
    | nil => simp at hv
    | cons w vs =>
      cases y with
      | nil => simp at hx
      | cons z y =>
        simp at hv hx
        subst hv hx
        cases up
        · simp only [List.modify_zero_cons, List.forall₂_cons, Bool.false_eq_true, if_false, max_le_iff]
          tauto
        · simp only [List.modify_zero_cons, List.forall₂_cons, if_true, le_min_iff]
          tauto
  | succ i ih =>
    cases vs with
    | nil => simp at hv
    | cons w vs =>
      cases y with
      | nil => simp at hx
      | cons z y =>
        simp at hv hx
        simp only [List.modify_succ_cons, List.forall₂_cons]
        rw [ih hv hx]
        tauto

theorem applyBranching_sub (vs : List (BVar K)) (b : Branching K) : SubBox (applyBranching vs b) vs := by
  obtain ⟨i, lim, up⟩ := b
  unfold applyBranching
  simp only
  induction i generalizing vs with
  | zero =>
    cases vs with
    | nil => exact .nil
    | cons w vs =>
      rw [List.modify_zero_cons]
      refine .cons ?_ (SubBox.refl _)
      cases up
      · exact ⟨rfl, le_max_left _ _, le_refl _⟩
      · exact ⟨rfl, le_refl _, min_le_left _ _⟩
  | succ i ih =>
    cases vs with
    | nil => exact .nil
    | cons w vs =>
      rw [List.modify_succ_cons]
      exact .cons ⟨rfl, le_refl _, le_refl _⟩ (ih vs)

theorem nodeVars_sub (orig : List (BVar K)) (path : List (Branching K)) : SubBox (nodeVars orig path) orig := by
  unfold nodeVars
  induction path generalizing orig with
  | nil => exact SubBox.refl _
  | cons b path ih => exact (ih _).trans (applyBranching_sub _ _)

theorem modify_comm {α : Type} (f g : α → α) (hfg : ∀ a, f (g a) = g (f a)) : ∀ (l : List α) (i j : Nat),
    (l.modify i f).modify j g = (l.modify j g).modify i f := by
  intro l
  induction l with
  | nil => intro i j; simp
  | cons a l ih =>
    intro i j
    cases i with
    | zero =>
      cases j with
      | zero => simp [hfg]
      | succ j => simp
    | succ i =>
      cases j with
      | zero => simp
      | succ j => simp [ih]

theorem applyBranching_comm (vs : List (BVar K)) (b c : Branching K) :
    applyBranching (applyBranching vs b) c = applyBranching (applyBranching vs c) b := by
  unfold applyBranching
  apply modify_comm
  intro v
  cases b.upper <;> cases c.upper <;> simp [max_right_comm, min_right_comm]

/-- The new branching can be applied last. -/
theorem nodeVars_cons (orig : List (BVar K)) (b : Branching K) (path : List (Branching K)) :
    nodeVars orig (b :: path) = applyBranching (nodeVars orig path) b := by
  unfold nodeVars
  rw [List.foldl_cons]
  induction path generalizing orig with
  | nil => rfl
  | cons c path ih => rw [List.foldl_cons, List.foldl_cons, applyBranching_comm, ih]

end Metku.Opt
