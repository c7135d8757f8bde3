import Mathlib.Tactic.Linarith
import Mathlib.Tactic.FieldSimp
import Mathlib.Tactic.Ring
import Verif.Model.OptLinearize
import Verif.Props.OptWitness

/-!
Property C43: linearisation of a problem.
-/
namespace Metku.Opt

open Metku

set_option linter.unusedSectionVars false

variable {K : Type} [Field K] [LinearOrder K] [IsStrictOrderedRing K] [FloorRing K]

/-! ### Spec -/

/-- Difference quotient of `g` at `x` in direction `i` with step `h`. -/
def DQ (g : List K → K) (x : List K) (i : Nat) (xi h : K) : K := (g (x.set i (xi + h)) - g x) / h

/-- The constraint computes the function `g` of the design vector: a linear constraint with one coefficient per variable, or a
    nonlinear one that only uses the explicit values. -/
def PureCon (n : Nat) (c : Con K) (g : List K → K) : Prop :=
  match c.fn with
  | .linear a b => a.length = n ∧ ∀ x : List K, g x = (List.zipWith (· * ·) a x).sum - b
  | .nonlinear f => ∀ (v : View K) (x : List K), v.args = x.map some → f v = g x

/-- The objective computes `F` of the explicit values (its sign is changed for maximisation). -/
def PureObj (o : Objective K) (F : List K → K) : Prop :=
  ∀ (v : View K) (x : List K), v.args = x.map some → (if o.maximise then -o.fn v else o.fn v) = F x

/-- Value and bounds: the design vector lies in the box. -/
def XInBox (vs : List (Var K)) (x : List K) : Prop := List.Forall₂ (fun v y => v.lb ≤ y ∧ y ≤ v.ub) vs x

/-- Not far from being violated: kept when only potentially active constraints are asked for. -/
def Near (c : Con K) (g : K) : Prop :=
  match c.type with
  | .lt => -c.potTol ≤ g
  | .gt => g ≤ c.potTol
  | .eq => c.potential = true

instance (c : Con K) (g : K) : Decidable (Near c g) :=
  match h : c.type with
  | .lt => decidable_of_iff (-c.potTol ≤ g) (by simp [Near, h])
  | .gt => decidable_of_iff (g ≤ c.potTol) (by simp [Near, h])
  | .eq => decidable_of_iff (c.potential = true) (by simp [Near, h])

/-! ### Helper lemmas -/

/-- The variables with values `x`. -/
def setVals (vs : List (Var K)) (x : List K) : List (Var K) := List.zipWith (fun v y => { v with value := some y }) vs x

/-- The problem has the variables `vs` with values `z`. -/
def At (vs : List (Var K)) (z : List K) (p : Prob K) : Prop := p.vars = setVals vs z ∧ z.length = vs.length

/-- Unlocked variables of the classes that store any value. -/
def Simple (vs : List (Var K)) : Prop := ∀ v ∈ vs, v.locked = false ∧ v.kind.plain = true

theorem substVar_simple {v : Var K} (hl : v.locked = false) (hk : v.kind.plain = true) (x : K) (s : Struct K) :
    ∃ s', substVar v x s = .ok ({ v with value := some x }, s') := by
  obtain ⟨kind, lb, ub, value, target, tf, locked, sc, lm, um⟩ := v
  simp only at hl
  subst hl
  cases kind with
  | index _ | binary _ | crossSection => simp [VKind.plain] at hk
  | cont | integer | boolean | discrete _ => exact ⟨_, rfl⟩

theorem setVals_setVals (vs : List (Var K)) (z y : List K) (h : z.length = vs.length) : setVals (setVals vs z) y = setVals vs y := by
  induction vs generalizing z y with
  | nil => cases z <;> rfl
  | cons v vs ih =>
    cases z with
    | nil => simp at h
    | cons a z =>
      cases y with
      | nil => rfl
      | cons b y =>
        have := ih z y (by simpa using h)
        simp only [setVals] at this
        simp [setVals, this]

theorem Simple.setVals {vs : List (Var K)} (h : Simple vs) (z : List K) : Simple (setVals vs z) := by
  intro v hv
  unfold Opt.setVals at hv
  rw [List.mem_iff_getElem?] at hv
  obtain ⟨i, hi⟩ := hv
  rw [List.getElem?_zipWith] at hi
  cases h1 : vs[i]? with
  | none => simp [h1] at hi
  | some w =>
    cases h2 : z[i]? with
    | none => simp [h1, h2] at hi
    | some y =>
      simp [h1, h2] at hi
      subst hi
      exact h w (List.mem_of_getElem? h1)

theorem Simple.free {p : Prob K} (h : Simple p.vars) : p.free = p.vars := by
  unfold Prob.free
  rw [List.filter_eq_self]
  intro v hv
  simp [(h v hv).1]

theorem substFree_simple : ∀ (vs : List (Var K)) (xs : List K) (s : Struct K), Simple vs → xs.length = vs.length →
    ∃ s', substFree vs xs s = .ok (setVals vs xs, s') := by
  intro vs
  induction vs with
  | nil => intro xs s _ h; cases xs with
    | nil => exact ⟨s, rfl⟩
    | cons a xs => simp at h
  | cons v vs ih =>
    intro xs s hs h
    cases xs with
    | nil => simp at h
    | cons a xs =>
      obtain ⟨hl, hk⟩ := hs v List.mem_cons_self
      obtain ⟨s1, h1⟩ := substVar_simple hl hk a s
      obtain ⟨s2, h2⟩ := ih xs s1 (fun w hw => hs w (List.mem_cons_of_mem _ hw)) (by simpa using h)
      refine ⟨s2, ?_⟩
      unfold substFree
      rw [if_neg (by simp [hl])]
      simp only [bind, Except.bind, h1, h2]
      rfl

theorem zipWith_clip_setVals (vs : List (Var K)) (z y : List K) (h : z.length = vs.length) :
    List.zipWith (fun x v => clip v x) y (setVals vs z) = List.zipWith (fun x v => clip v x) y vs := by
  induction vs generalizing z y with
  | nil => cases z <;> rfl
  | cons v vs ih =>
    cases z with
    | nil => simp at h
    | cons a z =>
      cases y with
      | nil => rfl
      | cons b y =>
        have := ih z y (by simpa using h)
        simp only [setVals] at this
        have hcl : clip { v with value := some a } b = clip v b := rfl
        simp [setVals, this, hcl]

theorem substituteVariables_simple {vs : List (Var K)} {z y : List K} {p : Prob K} (hs : Simple vs) (hp : At vs z p)
    (hy : y.length = vs.length) :
    ∃ q, substituteVariables p y = .ok q ∧ At vs (List.zipWith (fun x v => clip v x) y vs) q ∧ q.cons = p.cons := by
  have hsp : Simple p.vars := hp.1 ▸ hs.setVals z
  have hf := hsp.free
  have hl : (setVals vs z).length = vs.length := by simp [setVals, hp.2]
  have hlen : (List.zipWith (fun x v => clip v x) y vs).length = (setVals vs z).length := by simp [hy, hl]
  obtain ⟨s', h'⟩ := substFree_simple (setVals vs z) (List.zipWith (fun x v => clip v x) y vs) p.struct (hs.setVals z) hlen
  unfold substituteVariables
  rw [hf, hp.1, zipWith_clip_setVals _ _ _ hp.2]
  simp only [h', bind, Except.bind]
  exact ⟨_, rfl, ⟨setVals_setVals _ _ _ hp.2, by simp [hy]⟩, rfl⟩

theorem substituteVariables_first {y : List K} {p : Prob K} (hs : Simple p.vars) (hy : y.length = p.vars.length) :
    ∃ q, substituteVariables p y = .ok q ∧ At p.vars (List.zipWith (fun x v => clip v x) y p.vars) q ∧ q.cons = p.cons := by
  have hlen : (List.zipWith (fun x v => clip v x) y p.vars).length = p.vars.length := by simp [hy]
  obtain ⟨s', h'⟩ := substFree_simple p.vars (List.zipWith (fun x v => clip v x) y p.vars) p.struct hs hlen
  unfold substituteVariables
  rw [hs.free]
  simp only [h', bind, Except.bind]
  exact ⟨_, rfl, ⟨rfl, hlen⟩, rfl⟩

theorem clip_in {v : Var K} {y : K} (h : v.lb ≤ y ∧ y ≤ v.ub) : clip v y = y := by
  unfold clip; rw [min_eq_left h.2, max_eq_right h.1]

theorem clip_box {vs : List (Var K)} {x : List K} (h : XInBox vs x) : List.zipWith (fun x v => clip v x) x vs = x := by
  induction h with
  | nil => rfl
  | cons h _ ih => simp [ih, clip_in h]

theorem clip_set {vs : List (Var K)} {x : List K} (h : XInBox vs x) (i : Nat) (t : K) :
    ∃ t', List.zipWith (fun x v => clip v x) (x.set i t) vs = x.set i t' := by
  induction h generalizing i with
  | nil => exact ⟨t, rfl⟩
  | @cons v y vs x hv hr ih =>
    cases i with
    | zero => exact ⟨clip v t, by simp [clip_box hr]⟩
    | succ i =>
      obtain ⟨t', ht⟩ := ih i
      exact ⟨t', by simp [ht, clip_in hv]⟩

theorem XInBox.length {vs : List (Var K)} {x : List K} (h : XInBox vs x) : x.length = vs.length := (List.Forall₂.length_eq h).symm

theorem mergeFixed_none (n : Nat) (x : List K) (h : x.length = n) : mergeFixed (List.replicate n none) x = .ok (x.map some) := by
  induction n generalizing x with
  | zero => cases x with
    | nil => rfl
    | cons => simp at h
  | succ n ih =>
    cases x with
    | nil => simp at h
    | cons a x =>
      cases x with
      | nil =>
        have : n = 0 := by simpa using h.symm
        subst this
        rfl
      | cons b x =>
        have := ih (b :: x) (by simpa using h)
        rw [List.replicate_succ]
        simp only [mergeFixed, this, bind, Except.bind]
        rfl

theorem At.fixed {vs : List (Var K)} {z : List K} {p : Prob K} (hs : Simple vs) (h : At vs z p) :
    p.fixedVals = List.replicate vs.length none := by
  have hsp : Simple p.vars := h.1 ▸ hs.setVals z
  have hl : p.vars.length = vs.length := by rw [h.1]; simp [setVals, h.2]
  unfold Prob.fixedVals
  rw [List.eq_replicate_iff]
  refine ⟨by simp [hl], ?_⟩
  intro b hb
  rw [List.mem_map] at hb
  obtain ⟨v, hv, rfl⟩ := hb
  simp [(hsp v hv).1]

theorem At.free {vs : List (Var K)} {z : List K} {p : Prob K} (hs : Simple vs) (h : At vs z p) : p.free = setVals vs z := by
  have hsp : Simple p.vars := h.1 ▸ hs.setVals z
  rw [hsp.free, h.1]

theorem setVals_values (vs : List (Var K)) (z : List K) (h : z.length = vs.length) : (setVals vs z).map (·.value) = z.map some := by
  induction vs generalizing z with
  | nil => cases z with
    | nil => rfl
    | cons => simp at h
  | cons v vs ih =>
    cases z with
    | nil => simp at h
    | cons a z =>
      have := ih z (by simpa using h)
      simp only [setVals] at this
      simp [setVals, this]

theorem At.values {vs : List (Var K)} {z : List K} {p : Prob K} (hs : Simple vs) (h : At vs z p) :
    p.free.map (·.value) = z.map some := by
  rw [h.free hs, setVals_values _ _ h.2]

theorem evalObj_pure {vs : List (Var K)} {z y : List K} {p : Prob K} {o : Objective K} {F : List K → K} (hs : Simple vs)
    (hp : At vs z p) (hy : y.length = vs.length) (ho : PureObj o F) :
    ∃ q, evalObj p o y = .ok (F y, q) ∧ At vs (List.zipWith (fun x v => clip v x) y vs) q ∧ q.cons = p.cons := by
  have hq : At vs z (if (o.feaRequired && p.feaDone.isEmpty) = true then fea p "ALL" else p) := by
    split <;> exact hp
  have hc : (if (o.feaRequired && p.feaDone.isEmpty) = true then fea p "ALL" else p).cons = p.cons := by
    split <;> rfl
  obtain ⟨q, h1, h2, h3⟩ := substituteVariables_simple hs hq hy
  refine ⟨q, ?_, h2, h3.trans hc⟩
  have hm := mergeFixed_none vs.length y hy
  rw [← hq.fixed hs] at hm
  have ht : ((y.map some).take (if (o.feaRequired && p.feaDone.isEmpty) = true then fea p "ALL" else p).free.length).mapM getVal = .ok y := by
    rw [hq.free hs]
    have : (setVals vs z).length = vs.length := by simp [setVals, hp.2]
    rw [this, List.take_of_length_le (by simp [hy]), mapM_getVal_map_some]
  rw [evalObj_of rfl hm ht h1, ho _ y rfl]

theorem feaIf_at {vs : List (Var K)} {z : List K} {p : Prob K} (c : Con K) (h : At vs z p) :
    At vs z (if c.feaRequired then feaAll p c.loadIds else p) := by
  split
  · exact ⟨(sameVars_feaAll p _).1.trans h.1, h.2⟩
  · exact h

theorem linearArgs_simple {vs : List (Var K)} (hs : Simple vs) {z : List K} (h : z.length = vs.length) :
    linearArgs (setVals vs z) = .ok z := by
  unfold linearArgs
  induction vs generalizing z with
  | nil => cases z with
    | nil => rfl
    | cons => simp at h
  | cons v vs ih =>
    cases z with
    | nil => simp at h
    | cons a z =>
      have := ih (fun w hw => hs w (List.mem_cons_of_mem _ hw)) (z := z) (by simpa using h)
      have hk := (hs v List.mem_cons_self).2
      simp only [setVals] at this
      simp only [setVals, List.zipWith_cons_cons, List.mapM_cons, this]
      cases hkk : v.kind with
      | index _ | binary _ | crossSection => rw [hkk] at hk; exact absurd hk (by simp [VKind.plain])
      | cont | integer | boolean | discrete _ => rfl

/-- A constraint evaluated at the present values. -/
theorem evalCon_here {vs : List (Var K)} {x : List K} {p : Prob K} {c : Con K} {g : List K → K} (hs : Simple vs)
    (hp : At vs x p) (hc : PureCon vs.length c g) :
    ∃ q, evalCon p c x = .ok (g x, q, { c with potential := potentialAfter c (g x) }) ∧ At vs x q := by
  have h1 := conPrepare_same (c := c) (hp.values hs)
  have h2 := feaIf_at c hp
  refine ⟨_, ?_, h2⟩
  unfold PureCon at hc
  cases hf : c.fn with
  | nonlinear f =>
    rw [hf] at hc
    have hm := mergeFixed_none vs.length x hp.2
    rw [← h2.fixed hs] at hm
    have hv := hc ⟨x.map some, (if c.feaRequired then feaAll p c.loadIds else p).struct, (if c.feaRequired then feaAll p c.loadIds else p).results⟩ x rfl
    rw [evalCon_nonlinear h1 hf hm, hv, hf]
  | linear a b =>
    rw [hf] at hc
    have hl : a.length = x.length := hc.1.trans hp.2.symm
    unfold evalCon
    rw [h1]
    simp only [bind, Except.bind, hf]
    rw [h2.1, linearArgs_simple hs hp.2]
    simp only [hl, ne_eq, not_true_eq_false, if_false]
    rw [hc.2 x, ← hf]
    rfl

/-- A nonlinear constraint evaluated at another point. -/
theorem evalCon_there {vs : List (Var K)} {x : List K} {p : Prob K} {c : Con K} {g : List K → K} {f : View K → K} (hs : Simple vs)
    (hx : XInBox vs x) {i : Nat} {t s : K} (hp : At vs (x.set i t) p) (hf : c.fn = .nonlinear f) (hc : PureCon vs.length c g) :
    ∃ q c', evalCon p c (x.set i s) = .ok (g (x.set i s), q, c') ∧ ∃ t', At vs (x.set i t') q := by
  have hl : (x.set i s).length = vs.length := by simp [hx.length]
  have hprep : ∃ q, conPrepare p c (x.set i s) = .ok q ∧ ∃ t', At vs (x.set i t') q := by
    by_cases hd : (List.zipWith (fun a b => (a - b) ^ 2) (x.set i t) (x.set i s)).sum > (1 / 10 ^ 8 : K) ^ 2
    · obtain ⟨q, h1, h2, _⟩ := substituteVariables_simple hs hp hl
      obtain ⟨t', ht⟩ := clip_set hx i s
      rw [ht] at h2
      exact ⟨_, conPrepare_far (c := c) (hp.values hs) (by simp) hd h1, t', feaIf_at c h2⟩
    · refine ⟨_, ?_, t, feaIf_at c hp⟩
      unfold conPrepare
      rw [mapM_map_getVal, hp.values hs, mapM_getVal_map_some]
      simp only [bind, Except.bind, List.length_set, ne_eq, not_true_eq_false, if_false, if_neg hd]
      rfl
  obtain ⟨q, h1, t', h2⟩ := hprep
  unfold PureCon at hc
  rw [hf] at hc
  have hm := mergeFixed_none vs.length _ hl
  rw [← h2.fixed hs] at hm
  have := evalCon_nonlinear h1 hf hm
  rw [hc _ _ rfl] at this
  exact ⟨q, _, this, t', h2⟩

theorem evalCons_pure {vs : List (Var K)} {x : List K} (hs : Simple vs) : ∀ (cs : List (Con K)) (gs : List (List K → K)) (p : Prob K),
    At vs x p → List.Forall₂ (PureCon vs.length) cs gs →
    ∃ q, evalCons x p cs = .ok (List.zipWith (fun c g => ({ c with potential := potentialAfter c (g x) }, g x)) cs gs, q) ∧ At vs x q := by
  intro cs gs p hp h
  induction h generalizing p with
  | nil => exact ⟨p, rfl, hp⟩
  | cons h _ ih =>
    obtain ⟨q, h1, h2⟩ := evalCon_here hs hp h
    obtain ⟨q', h3, h4⟩ := ih q h2
    refine ⟨q', ?_, h4⟩
    simp [evalCons, h1, h3]

/-- C43, which variable moves: moving the free variable number `i` acts on the variable of that number among the unlocked ones, as setting
    that variable does, and leaves all other variables, locked ones included, as they are. -/
theorem C43_moves_free : ∀ (vs : List (Var K)) (i : Nat) (y : K) (s s' : Struct K) (ws : List (Var K)),
    substNthFree vs i y s = .ok (ws, s') →
    ∃ l1 v l2 w, vs = l1 ++ v :: l2 ∧ v.locked = false ∧ (l1.filter fun u => !u.locked).length = i ∧ substVar v y s = .ok (w, s') ∧
      ws = l1 ++ w :: l2 := by
  intro vs
  induction vs with
  | nil => intro i y s s' ws h; cases h
  | cons v vs ih =>
    intro i y s s' ws h
    unfold substNthFree at h
    cases hl : v.locked with
    | true =>
      rw [hl] at h
      simp only [if_true] at h
      cases hr : substNthFree vs i y s with
      | error e => rw [hr] at h; cases h
      | ok r =>
        obtain ⟨us, t⟩ := r
        rw [hr] at h
        cases h
        obtain ⟨l1, u, l2, w, e1, e2, e3, e4, e5⟩ := ih i y s _ us hr
        exact ⟨v :: l1, u, l2, w, by rw [e1]; rfl, e2, by simp [hl, e3], e4, by rw [e5]; rfl⟩
    | false =>
      rw [hl] at h
      simp only [Bool.false_eq_true, if_false] at h
      cases i with
      | zero =>
        simp only at h
        cases hr : substVar v y s with
        | error e => rw [hr] at h; cases h
        | ok r =>
          obtain ⟨w, t⟩ := r
          rw [hr] at h
          cases h
          exact ⟨[], v, vs, w, rfl, hl, rfl, hr, rfl⟩
      | succ i =>
        simp only at h
        cases hr : substNthFree vs i y s with
        | error e => rw [hr] at h; cases h
        | ok r =>
          obtain ⟨us, t⟩ := r
          rw [hr] at h
          cases h
          obtain ⟨l1, u, l2, w, e1, e2, e3, e4, e5⟩ := ih i y s _ us hr
          exact ⟨v :: l1, u, l2, w, by rw [e1]; rfl, e2, by simp [hl, e3], e4, by rw [e5]; rfl⟩

/-- the first free variable behind a locked one moves -/
example : ∃ ws s', substNthFree [{ newVar (K := ℚ) .cont 0 10 (some 1) none with locked := true }, newVar .cont 0 10 (some 2) none] 0 5
    (fun _ _ => 0) = .ok (ws, s') ∧ ws.map (·.value) = [some 1, some 5] := by
  refine ⟨_, _, rfl, ?_⟩
  simp [substBase, newVar]

theorem substNthFree_simple : ∀ (vs : List (Var K)) (z : List K) (i : Nat) (t : K) (s : Struct K), Simple vs → z.length = vs.length →
    i < vs.length → ∃ s', substNthFree (setVals vs z) i t s = .ok (setVals vs (z.set i t), s') := by
  intro vs
  induction vs with
  | nil => intro z i t s _ _ h; simp at h
  | cons v vs ih =>
    intro z i t s hs hz hi
    cases z with
    | nil => simp at hz
    | cons a z =>
      obtain ⟨hl, hk⟩ := hs v List.mem_cons_self
      cases i with
      | zero =>
        obtain ⟨s1, h1⟩ := substVar_simple (v := { v with value := some a }) hl hk t s
        refine ⟨s1, ?_⟩
        simp only [setVals, List.zipWith_cons_cons]
        unfold substNthFree
        rw [if_neg (by simp [hl])]
        simp only [h1]
        rfl
      | succ i =>
        obtain ⟨s1, h1⟩ := ih z i t s (fun w hw => hs w (List.mem_cons_of_mem _ hw)) (by simpa using hz) (by simpa using hi)
        refine ⟨s1, ?_⟩
        simp only [setVals] at h1
        simp only [setVals, List.zipWith_cons_cons]
        unfold substNthFree
        rw [if_neg (by simp [hl])]
        simp only [h1]
        rfl

theorem substNth_simple {vs : List (Var K)} {z : List K} {p : Prob K} (hs : Simple vs) (hp : At vs z p) {i : Nat} (hi : i < vs.length) (t : K) :
    ∃ q, substNth p i t = .ok q ∧ At vs (z.set i t) q := by
  obtain ⟨s', h⟩ := substNthFree_simple vs z i t p.struct hs hp.2 hi
  unfold substNth
  rw [hp.1, h]
  exact ⟨_, rfl, rfl, by simp [hp.2]⟩

theorem sum_set : ∀ (a x : List K) (i : Nat) (xi h ai : K), x[i]? = some xi → a[i]? = some ai →
    (List.zipWith (· * ·) a (x.set i (xi + h))).sum = (List.zipWith (· * ·) a x).sum + ai * h := by
  intro a
  induction a with
  | nil => intro x i xi h ai _ h2; simp at h2
  | cons b a ih =>
    intro x i xi h ai h1 h2
    cases x with
    | nil => simp at h1
    | cons y x =>
      cases i with
      | zero =>
        simp at h1 h2
        subst h1 h2
        simp
        ring
      | succ i =>
        simp at h1 h2
        have := ih x i xi h ai h1 h2
        simp [this]
        ring

theorem linStep_ne (prev ub : K) : linStep prev ub ≠ 0 := by
  unfold linStep
  have h : (0 : K) < max (1 / 10 ^ 6 * |prev|) (1 / 10 ^ 8) := lt_max_of_lt_right (by positivity)
  simp only
  split
  · exact neg_ne_zero.2 h.ne'
  · exact h.ne'

theorem linRows_pure {vs : List (Var K)} {x : List K} (hs : Simple vs) (hx : XInBox vs x) {i : Nat} {xi h : K} (hi : x[i]? = some xi)
    (hh : h ≠ 0) : ∀ (cbs : List (Con K × K)) (gs : List (List K → K)) (p : Prob K), (∃ t, At vs (x.set i t) p) →
    List.Forall₂ (fun cb g => PureCon vs.length cb.1 g ∧ cb.2 = g x) cbs gs →
    ∃ q, linRows (x.set i (xi + h)) i h false p cbs = .ok (gs.map fun g => DQ g x i xi h, q) ∧ ∃ t, At vs (x.set i t) q := by
  intro cbs gs p hp hc
  induction hc generalizing p with
  | nil => exact ⟨p, rfl, hp⟩
  | @cons cb g cbs gs h1 _ ih =>
    obtain ⟨hpc, hb⟩ := h1
    cases hf : cb.1.fn with
    | linear a b =>
      obtain ⟨q, h2, h3⟩ := ih p hp
      refine ⟨q, ?_, h3⟩
      unfold PureCon at hpc
      rw [hf] at hpc
      have hil : i < a.length := by
        rw [hpc.1, ← hx.length]
        by_contra hc
        rw [List.getElem?_eq_none (not_lt.1 hc)] at hi; cases hi
      have hai := List.getElem?_eq_getElem hil
      have hd : DQ g x i xi h = a[i] := by
        unfold DQ
        rw [hpc.2, hpc.2, sum_set a x i xi h _ hi hai]
        field_simp
        ring
      simp [linRows, hf, hai, h2, hd]
    | nonlinear f =>
      obtain ⟨t, ht⟩ := hp
      obtain ⟨q1, c', e1, h4⟩ := evalCon_there (s := xi + h) hs hx ht hf hpc
      obtain ⟨q, h2, h3⟩ := ih q1 h4
      refine ⟨q, ?_, h3⟩
      simp [linRows, hf, e1, h2, DQ, hb]

/-- One column. -/
theorem linVar_pure {vs : List (Var K)} {x : List K} {p : Prob K} {o : Objective K} {F : List K → K} (hs : Simple vs) (hx : XInBox vs x)
    (hp : At vs x p) (ho : PureObj o F) {i : Nat} {xi : K} {v : Var K} (hi : x[i]? = some xi) (hv : vs[i]? = some v) (grad : Bool)
    {cbs : List (Con K × K)} {gs : List (List K → K)}
    (hc : List.Forall₂ (fun cb g => PureCon vs.length cb.1 g ∧ cb.2 = g x) cbs gs) :
    ∃ d q, linVar o grad i (F x) x cbs p = .ok (⟨d, gs.map fun g => DQ g x i xi (linStep xi v.ub), x⟩, q) ∧ At vs x q ∧
      (grad = false → d = DQ F x i xi (linStep xi v.ub)) := by
  have hil : i < vs.length := by
    by_contra hc
    rw [List.getElem?_eq_none (not_lt.1 hc)] at hv; cases hv
  have hfree : p.free[i]? = some { v with value := some xi } := by
    rw [hp.free hs, setVals, List.getElem?_zipWith, hv, hi]
  obtain ⟨hl, hk⟩ := hs v (List.mem_of_getElem? hv)
  have hset : x.set i xi = x := by
    apply List.ext_getElem?
    intro j
    by_cases hj : i = j
    · subst hj; rw [List.getElem?_set_self (hx.length ▸ hil), hi]
    · rw [List.getElem?_set_ne hj]
  have hsub := substNth_simple hs hp hil (xi + linStep xi v.ub)
  obtain ⟨q, h1, h2⟩ := hsub
  have hne := linStep_ne xi v.ub
  have key : ∃ d q', linEval o grad i (linStep xi v.ub) false (F x) xi (x.set i xi) cbs q =
      .ok (⟨d, gs.map fun g => DQ g x i xi (linStep xi v.ub), x⟩, q') ∧ At vs x q' ∧
      (grad = false → d = DQ F x i xi (linStep xi v.ub)) := by
    have hvals : (q.free.mapM fun v => getVal v.value) = .ok (x.set i (xi + linStep xi v.ub)) := by
      rw [mapM_map_getVal, h2.values hs, mapM_getVal_map_some]
    unfold linEval
    cases grad with
    | true =>
      obtain ⟨q2, h3, t, h4⟩ := linRows_pure hs hx hi hne cbs gs q ⟨_, h2⟩ hc
      obtain ⟨q3, h5, h6⟩ := substNth_simple hs h4 hil xi
      rw [List.set_set, hset] at h6
      refine ⟨0, q3, ?_, h6, by simp⟩
      simp only [hvals, bind, Except.bind, Bool.true_or, if_true, h3, h5, hset]
      rfl
    | false =>
      obtain ⟨q1, e1, e2, _⟩ := evalObj_pure (y := x.set i (xi + linStep xi v.ub)) hs h2 (by simp [hx.length]) ho
      obtain ⟨t1, ht1⟩ := clip_set hx i (xi + linStep xi v.ub)
      rw [ht1] at e2
      obtain ⟨q2, h3, t, h4⟩ := linRows_pure hs hx hi hne cbs gs q1 ⟨_, e2⟩ hc
      obtain ⟨q3, h5, h6⟩ := substNth_simple hs h4 hil xi
      rw [List.set_set, hset] at h6
      refine ⟨DQ F x i xi (linStep xi v.ub), q3, ?_, h6, fun _ => rfl⟩
      simp only [hvals, bind, Except.bind, Bool.or_self, Bool.false_eq_true, if_false, e1, h3, h5, hset]
      rfl
  obtain ⟨d, q', k1, k2, k3⟩ := key
  refine ⟨d, q', ?_, k2, k3⟩
  unfold linVar
  rw [hfree]
  obtain ⟨kind, lb, ub, value, target, tf, locked, sc, lm, um⟩ := v
  cases kind with
  | index _ | binary _ | crossSection => simp [VKind.plain] at hk
  | cont | integer | boolean | discrete _ => simp only [h1]; exact k1

theorem linLoop_pure {vs : List (Var K)} {x : List K} {o : Objective K} {F : List K → K} (hs : Simple vs) (hx : XInBox vs x)
    (ho : PureObj o F) (grad : Bool) {cbs : List (Con K × K)} {gs : List (List K → K)}
    (hc : List.Forall₂ (fun cb g => PureCon vs.length cb.1 g ∧ cb.2 = g x) cbs gs) : ∀ (m i : Nat) (p : Prob K),
    At vs x p → i + m = vs.length →
    ∃ (df : List K) (cols : List (List K)) (q : Prob K), linLoop o grad (F x) cbs m i x p = .ok (df, cols, x, q) ∧ At vs x q ∧ df.length = m ∧ cols.length = m ∧
      ∀ k, k < m → ∀ (xi : K) (v : Var K), x[i + k]? = some xi → vs[i + k]? = some v →
        cols[k]? = some (gs.map fun g => DQ g x (i + k) xi (linStep xi v.ub)) ∧
        (grad = false → df[k]? = some (DQ F x (i + k) xi (linStep xi v.ub))) := by
  intro m
  induction m with
  | zero => intro i p hp _; exact ⟨[], [], p, rfl, hp, rfl, rfl, fun k hk => absurd hk (Nat.not_lt_zero _)⟩
  | succ m ih =>
    intro i p hp him
    have hil : i < vs.length := by omega
    have hix : i < x.length := hx.length ▸ hil
    obtain ⟨d, q, h1, h2, h3⟩ := linVar_pure hs hx hp ho (List.getElem?_eq_getElem hix) (List.getElem?_eq_getElem hil) grad hc
    obtain ⟨df, cols, q', h4, h5, h6, h7, h8⟩ := ih (i + 1) q h2 (by omega)
    refine ⟨d :: df, (gs.map fun g => DQ g x i x[i] (linStep x[i] vs[i].ub)) :: cols, q', by simp only [linLoop, h1, h4], h5, by simp [h6], by simp [h7], ?_⟩
    intro k hk xi v hxi hv
    cases k with
    | zero =>
      have e1 := List.getElem?_eq_getElem hix
      have e2 := List.getElem?_eq_getElem hil
      rw [Nat.add_zero] at hxi hv ⊢
      rw [e1] at hxi
      rw [e2] at hv
      cases hxi
      cases hv
      exact ⟨rfl, fun hg => by simp [h3 hg]⟩
    | succ k =>
      have e : i + (k + 1) = i + 1 + k := by omega
      rw [e] at hxi hv ⊢
      simpa using h8 k (by omega) xi v hxi hv

theorem potentialAfter_near (c : Con K) (g : K) : potentialAfter c g = decide (Near c g) := by
  rw [Bool.eq_iff_iff, decide_eq_true_iff]
  obtain ⟨fn, type, fr, ids, mult, pot, tol⟩ := c
  cases type <;> simp [potentialAfter, Near]

theorem filter_zip (sel : Bool) (n : Nat) (x : List K) (cs : List (Con K)) (gs : List (List K → K)) (h : List.Forall₂ (PureCon n) cs gs) :
    List.Forall₂ (fun cb g => PureCon n cb.1 g ∧ cb.2 = g x)
      (if sel then (List.zipWith (fun c g => (({ c with potential := potentialAfter c (g x) } : Con K), g x)) cs gs).filter (·.1.potential)
        else List.zipWith (fun c g => (({ c with potential := potentialAfter c (g x) } : Con K), g x)) cs gs)
      (((cs.zip gs).filter fun cg => !sel || decide (Near cg.1 (cg.2 x))).map (·.2)) := by
  induction h with
  | nil => cases sel <;> exact List.Forall₂.nil
  | @cons c g cs gs h _ ih =>
    cases sel with
    | false => simpa using ⟨h, by simpa using ih⟩
    | true =>
      by_cases hn : Near c (g x)
      · have : potentialAfter c (g x) = true := by rw [potentialAfter_near]; simpa using hn
        simpa [this, hn] using ⟨h, by simpa using ih⟩
      · have : potentialAfter c (g x) = false := by rw [potentialAfter_near]; simpa using hn
        simpa [this, hn] using ih

/-! ### The property -/

/-- C43, for problems without locked variables whose variables are continuous, integer, boolean or discrete, whose objective and
    constraints only use the explicit values, at a point inside the bounds (everything the property promises for FEA-based functions,
    locked, index and binary variables and for points outside the bounds is missing here; see the violations below).

    Linearisation returns the objective value, one difference quotient per variable (or the user's gradient), one column of difference quotients per variable with
    one row per (potentially active) constraint, and the right-hand side for which the linear model reproduces the constraint
    values at `x`.  The step never leaves the upper bound when moving upwards and is at least `1e-8`.  Afterwards all variables have
    the values `x` again and the caller's array is unchanged. -/
theorem C43_partial (p : Prob K) (o : Objective K) (grad : Option (List K → List K)) (sel : Bool) (x : List K) (F : List K → K)
    (G : List (List K → K)) (hs : Simple p.vars) (hx : XInBox p.vars x) (ho : PureObj o F)
    (hc : List.Forall₂ (PureCon p.vars.length) p.cons G) :
    ∃ (r : LinRes K) (q : Prob K) (rows : List (List K → K)), linearize p o grad sel x = .ok (r, q) ∧
      rows = ((p.cons.zip G).filter fun cg => !sel || decide (Near cg.1 (cg.2 x))).map (·.2) ∧
      r.x = x ∧ q.vars.map (·.value) = x.map some ∧ r.fx = F x ∧
      (∀ dF, grad = some dF → r.df = dF x) ∧ (grad = none → r.df.length = x.length) ∧ r.cols.length = x.length ∧
      (∀ (i : Nat) (v : Var K) (xi : K), p.vars[i]? = some v → x[i]? = some xi →
        ∃ h : K, |h| = max (1 / 10 ^ 6 * |xi|) (1 / 10 ^ 8) ∧ (0 < h ↔ xi + |h| ≤ v.ub) ∧
          (grad = none → r.df[i]? = some (DQ F x i xi h)) ∧ r.cols[i]? = some (rows.map fun g => DQ g x i xi h)) ∧
      r.B.length = rows.length ∧
      (∀ (j : Nat) (g : List K → K), rows[j]? = some g → ∃ B, r.B[j]? = some B ∧
        (List.zipWith (fun col xi => col.getD j 0 * xi) r.cols x).sum - B = g x) := by
  have hb := clip_box hx
  obtain ⟨q0, e0, a0, c0⟩ := substituteVariables_first hs hx.length
  rw [hb] at a0
  obtain ⟨q1, e1, a1, c1⟩ := evalObj_pure hs a0 hx.length ho
  rw [hb] at a1
  obtain ⟨q2, e2, a2⟩ := evalCons_pure hs p.cons G q1 a1 hc
  have hf := filter_zip sel p.vars.length x p.cons G hc
  have hfl : q0.free.length = p.vars.length := by rw [a0.free hs]; simp [setVals, a0.2]
  obtain ⟨df, cols, q, h4, h5, h6, h7, h8⟩ := linLoop_pure hs hx ho grad.isSome hf p.vars.length 0 q2 a2 (by simp)
  let act := if sel then (List.zipWith (fun c g => (({ c with potential := potentialAfter c (g x) } : Con K), g x)) p.cons G).filter (·.1.potential)
        else List.zipWith (fun c g => (({ c with potential := potentialAfter c (g x) } : Con K), g x)) p.cons G
  let r : LinRes K := ⟨cols, linB cols x act, linGrad grad x df, F x, x⟩
  refine ⟨r, q, _, ?_, rfl, ?_⟩
  · unfold linearize
    simp only [e0, e1, c0, e2, hfl, h4, bind, Except.bind]
    rfl
  refine ⟨rfl, ?_, rfl, ?_, ?_, h7.trans hx.length.symm, ?_, ?_, ?_⟩
  · rw [h5.1, setVals_values _ _ h5.2]
  · rintro dF rfl; rfl
  · rintro rfl; exact h6.trans hx.length.symm
  · intro i v xi hv hxi
    have hil : i < p.vars.length := by
      by_contra hc
      rw [List.getElem?_eq_none (not_lt.1 hc)] at hv; cases hv
    obtain ⟨k1, k2⟩ := h8 i hil xi v (by simpa using hxi) (by simpa using hv)
    rw [Nat.zero_add] at k1 k2
    have hpos : (0 : K) < max (1 / 10 ^ 6 * |xi|) (1 / 10 ^ 8) := lt_max_of_lt_right (by positivity)
    have habs : |linStep xi v.ub| = max (1 / 10 ^ 6 * |xi|) (1 / 10 ^ 8) := by
      unfold linStep
      simp only
      split
      · rw [abs_neg, abs_of_pos hpos]
      · rw [abs_of_pos hpos]
    refine ⟨linStep xi v.ub, habs, ?_, ?_, k1⟩
    · rw [habs]
      unfold linStep
      simp only
      split
      · rename_i hgt
        exact ⟨fun h => absurd h (not_lt.2 (neg_nonpos.2 hpos.le)), fun h => absurd h (not_le.2 hgt)⟩
      · rename_i hle
        exact ⟨fun _ => not_lt.1 hle, fun _ => hpos⟩
    · rintro rfl; exact k2 rfl
  · have := hf.length_eq
    simpa [r, linB] using this
  · intro j g hj
    have hjl := (List.getElem?_eq_some_iff.1 hj).1
    have hj2 := hf.length_eq ▸ hjl
    have hget := hf.get (i := j) hj2 hjl
    simp only [r, linB]
    rw [List.getElem?_mapIdx, List.getElem?_eq_getElem hj2]
    refine ⟨_, rfl, ?_⟩
    have e : (((p.cons.zip G).filter fun cg => !sel || decide (Near cg.1 (cg.2 x))).map (·.2))[j] = g := (List.getElem?_eq_some_iff.1 hj).2
    simp only [List.get_eq_getElem, e] at hget
    rw [sub_sub_cancel, hget.2]

/-- For an affine function the difference quotient is its coefficient, whatever the step: the linear model is exact. -/
theorem C43_affine (a : List K) (c : K) (g : List K → K) (hg : ∀ y : List K, y.length = a.length → g y = (List.zipWith (· * ·) a y).sum + c)
    (x : List K) (hx : x.length = a.length) (i : Nat) (xi ai h : K) (hi : x[i]? = some xi) (hai : a[i]? = some ai) (hh : h ≠ 0) :
    DQ g x i xi h = ai := by
  unfold DQ
  rw [hg _ hx, hg _ (by simp [hx]), sum_set a x i xi h ai hi hai]
  field_simp
  ring

/-! ### Violations -/

/-- The objective `x`. -/
def objX : Objective ℚ := ⟨fun v => match v.args with
  | [some a] => a
  | _ => 0, false, false⟩

/-- One variable and one constraint that reads attribute "A" (the variable) from the analysis. -/
def probFea : Prob ℚ := { prob1 1 1 with cons := [conFea] }

/-- Values of the state after a substitution of the single variable. -/
def probAt (x : ℚ) (s : Struct ℚ) (res : String → Option (Struct ℚ)) (fd : Dict) (X x0 : Option (List ℚ)) (n : Nat) : Prob ℚ :=
  ⟨[vA x], [conFea], s, res, fd, X, x0, n⟩

theorem evalObj_X (p : Prob ℚ) (y x : ℚ) (hp : p.vars = [vA y]) (h0 : 0 ≤ x) (h10 : x ≤ 10) :
    evalObj p objX [x] = .ok (x, { p with
      vars := [vA x]
      struct := setAttr p.struct 0 "A" x
      X := some [x]
      x0 := if (p.X.getD []).any (· ≠ 0) then p.x0 else some [x]
      feaDone := p.feaDone.allFalse }) := by
  have hm : mergeFixed p.fixedVals [x] = .ok [some x] := by
    have : p.fixedVals = [none] := by simp [Prob.fixedVals, hp, vA, newVar]
    rw [this]; rfl
  have hl : p.free.length = 1 := by simp [Prob.free, hp, vA, newVar]
  exact evalObj_of (o := objX) (p := p) (q := p) (args := [some x]) (xs := [x]) (by simp [objX]) hm (by rw [hl]; rfl) (subst1 p y x hp h0 h10)

theorem substNth1 (p : Prob ℚ) (y x : ℚ) (hp : p.vars = [vA y]) :
    substNth p 0 x = .ok { p with
      vars := [vA x]
      struct := setAttr p.struct 0 "A" x } := by
  have : substVar (vA y) x p.struct = .ok (vA x, setAttr p.struct 0 "A" x) := by
    simp [substVar, substBase, vA, newVar, writeObj]
  have hl : (vA y).locked = false := rfl
  simp [substNth, hp, substNthFree, this, hl]

theorem setAttr_setAttr (s : Struct ℚ) (o : Nat) (a : String) (x y : ℚ) : setAttr (setAttr s o a x) o a y = setAttr s o a y := by
  funext o' a'
  unfold setAttr
  split <;> rfl

/-- The constraint that reads the analysis, asked at the present value. -/
theorem conFea_here (x : ℚ) (s : Struct ℚ) (res : String → Option (Struct ℚ)) (fd : Dict) (X x0 : Option (List ℚ)) (n : Nat) :
    let q := feaAll (probAt x s res fd X x0 n) ["LC"]
    ∀ s', q.results "LC" = some s' → 1 ≤ s' 0 "A" →
    evalCon (probAt x s res fd X x0 n) conFea [x] = .ok (s' 0 "A", q, conFea) := by
  intro q s' hs' hge
  have h := conPrepare_same (p := probAt x s res fd X x0 n) (c := conFea) (x := [x]) rfl
  have hm : mergeFixed q.fixedVals [x] = .ok [some x] := by
    have : q.fixedVals = [none] := by
      simp only [q, feaAll, List.foldl_cons, List.foldl_nil]
      split <;> rfl
    rw [this]; rfl
  refine (evalCon_nonlinear h rfl hm).trans ?_
  have hg : conFea.fn = .nonlinear fun v => match v.results "LC" with
    | some s => s 0 "A"
    | none => -1 := rfl
  have hq : (if conFea.feaRequired = true then feaAll (probAt x s res fd X x0 n) conFea.loadIds else probAt x s res fd X x0 n) = q := rfl
  rw [hq]
  dsimp only
  rw [hs']
  have hp : potentialAfter conFea (s' 0 "A") = true := by
    have h1 : ¬ (s' 0 "A" < -conFea.potTol) := by
      have : conFea.potTol = 1 / 4 := rfl
      rw [this]; linarith
    have h2 : conFea.type = .lt := rfl
    simp only [potentialAfter, h2, if_neg h1]
  simp only [hp]
  rfl

/-- Linearisation of `probFea` at `x = (1)`, with and without a user-supplied gradient of the objective. -/
theorem linearize_probFea (grad : Option (List ℚ → List ℚ)) :
    ∃ r q, linearize probFea objX grad false [1] = .ok (r, q) ∧
      r.cols = [[if grad.isSome then 0 else 1]] ∧ q.vars = [vA 1] ∧ q.struct 0 "A" = 1 ∧
      evalCon q conFea [1] = .ok (if grad.isSome then 1 else 1 + 1 / 10 ^ 6, q, conFea) := by
  have hst : linStep (1 : ℚ) 10 = 1 / 10 ^ 6 := by norm_num [linStep]
  let s1 := setAttr (flat 1) 0 "A" 1
  let s2 : Struct ℚ := setAttr (flat 1) 0 "A" (1 + 1 / 10 ^ 6)
  let res1 : String → Option (Struct ℚ) := Function.update (fun _ => none) "LC" (some s1)
  let p2 := probAt 1 s1 (fun _ => none) [] (some [1]) (some [1]) 0
  let p3 := probAt 1 s1 res1 [("LC", true)] (some [1]) (some [1]) 1
  have e0 : substituteVariables probFea [1] = .ok p2 := subst1 probFea 1 1 rfl (by norm_num) (by norm_num)
  have e1 : evalObj p2 objX [1] = .ok (1, p2) := by
    rw [evalObj_X p2 1 1 rfl (by norm_num) (by norm_num)]
    simp [p2, probAt, s1, setAttr_setAttr, Dict.allFalse]
  have e2 : evalCons [1] p2 probFea.cons = .ok ([(conFea, 1)], p3) := by
    have h := conFea_here 1 s1 (fun _ => none) [] (some [1]) (some [1]) 0
    have hq : feaAll p2 ["LC"] = p3 := by simp [feaAll, fea, p2, p3, probAt, res1, Dict.set]
    have hr : p3.results "LC" = some s1 := rfl
    have hs : s1 0 "A" = 1 := by simp [s1, setAttr]
    simp only [] at h
    rw [show probAt 1 s1 (fun _ => none) [] (some [1]) (some [1]) 0 = p2 from rfl, hq] at h
    have hc := h s1 hr (by rw [hs])
    rw [hs] at hc
    simp [evalCons, probFea, hc]
  have hsh := substNth1 p3 1 (1 + 1 / 10 ^ 6) rfl
  have hq4 : { p3 with
      vars := [vA (1 + 1 / 10 ^ 6)]
      struct := setAttr p3.struct 0 "A" (1 + 1 / 10 ^ 6) } = probAt (1 + 1 / 10 ^ 6) s2 res1 [("LC", true)] (some [1]) (some [1]) 1 := by
    simp [p3, probAt, s1, s2, setAttr_setAttr]
  rw [hq4] at hsh
  have hvals : ∀ (x : ℚ) s res fd X x0 n, ((probAt x s res fd X x0 n).free.mapM fun v => getVal v.value) = .ok [x] := fun _ _ _ _ _ _ _ => rfl
  have hs1 : s1 0 "A" = 1 := by simp [s1, setAttr]
  have hs2 : s2 0 "A" = 1 + 1 / 10 ^ 6 := by simp [s2, setAttr]
  have hs21 : setAttr s2 0 "A" 1 = s1 := by simp [s1, s2, setAttr_setAttr]
  cases grad with
  | some dF =>
    -- the analysis is not repeated
    have hc := conFea_here (1 + 1 / 10 ^ 6) s2 res1 [("LC", true)] (some [1]) (some [1]) 1
    have hfa : feaAll (probAt (1 + 1 / 10 ^ 6) s2 res1 [("LC", true)] (some [1]) (some [1]) 1) ["LC"] =
        probAt (1 + 1 / 10 ^ 6) s2 res1 [("LC", true)] (some [1]) (some [1]) 1 := by simp [feaAll, probAt]
    have hr : (probAt (1 + 1 / 10 ^ 6) s2 res1 [("LC", true)] (some [1]) (some [1]) 1).results "LC" = some s1 := rfl
    simp only [] at hc
    rw [hfa] at hc
    have hc := hc s1 hr (by rw [hs1])
    rw [hs1] at hc
    have hb := substNth1 (probAt (1 + 1 / 10 ^ 6) s2 res1 [("LC", true)] (some [1]) (some [1]) 1) (1 + 1 / 10 ^ 6) 1 rfl
    have hq5 : { probAt (1 + 1 / 10 ^ 6) s2 res1 [("LC", true)] (some [1]) (some [1]) 1 with
      vars := [vA 1]
      struct := setAttr s2 0 "A" 1 } = p3 := by
      rw [hs21]; rfl
    have hrow : linRows [(1 : ℚ) + 1 / 10 ^ 6] 0 (1 / 10 ^ 6) false (probAt (1 + 1 / 10 ^ 6) s2 res1 [("LC", true)] (some [1]) (some [1]) 1)
        [(conFea, 1)] = .ok ([0], probAt (1 + 1 / 10 ^ 6) s2 res1 [("LC", true)] (some [1]) (some [1]) 1) := by
      simp only [linRows, hc]
      simp [conFea]
    have hvar : linVar objX true 0 1 [1] [(conFea, 1)] p3 = .ok (⟨0, [0], [1]⟩, p3) := by
      have hfree : p3.free[0]? = some (vA 1) := rfl
      unfold linVar
      rw [hfree]
      simp only [vA, newVar, hst, hsh]
      unfold linEval
      rw [hvals]
      simp only [bind, Except.bind, Bool.true_or, if_true, hrow, hb]
      rw [← hq5]
      rfl
    have hfl : p2.free.length = 1 := rfl
    refine ⟨⟨[[0]], linB [[0]] [1] [(conFea, 1)], dF [1], 1, [1]⟩, p3, ?_, rfl, rfl, hs1, ?_⟩
    · unfold linearize
      simp only [e0, e1, show p2.cons = probFea.cons from rfl, e2, hfl, bind, Except.bind, Option.isSome_some, linLoop, Bool.false_eq_true, if_false, hvar, linGrad]
      rfl
    · have h := conFea_here 1 s1 res1 [("LC", true)] (some [1]) (some [1]) 1
      have hfa : feaAll p3 ["LC"] = p3 := by simp [feaAll, p3, probAt]
      simp only [] at h
      rw [show probAt 1 s1 res1 [("LC", true)] (some [1]) (some [1]) 1 = p3 from rfl, hfa] at h
      have := h s1 rfl (by rw [hs1])
      rw [hs1] at this
      simpa using this
  | none =>
    let res2 : String → Option (Struct ℚ) := Function.update res1 "LC" (some s2)
    let p5 := probAt (1 + 1 / 10 ^ 6) s2 res1 [("LC", false)] (some [1 + 1 / 10 ^ 6]) (some [1]) 1
    let p6 := probAt (1 + 1 / 10 ^ 6) s2 res2 [("LC", true)] (some [1 + 1 / 10 ^ 6]) (some [1]) 2
    let p7 := probAt 1 s1 res2 [("LC", true)] (some [1 + 1 / 10 ^ 6]) (some [1]) 2
    have ho : evalObj (probAt (1 + 1 / 10 ^ 6) s2 res1 [("LC", true)] (some [1]) (some [1]) 1) objX [1 + 1 / 10 ^ 6] = .ok (1 + 1 / 10 ^ 6, p5) := by
      rw [evalObj_X _ (1 + 1 / 10 ^ 6) (1 + 1 / 10 ^ 6) rfl (by norm_num) (by norm_num)]
      simp [p5, probAt, s2, setAttr_setAttr, Dict.allFalse]
    have hc := conFea_here (1 + 1 / 10 ^ 6) s2 res1 [("LC", false)] (some [1 + 1 / 10 ^ 6]) (some [1]) 1
    have hfa : feaAll p5 ["LC"] = p6 := by simp [feaAll, fea, p5, p6, probAt, res2, Dict.set]
    simp only [] at hc
    rw [show probAt (1 + 1 / 10 ^ 6) s2 res1 [("LC", false)] (some [1 + 1 / 10 ^ 6]) (some [1]) 1 = p5 from rfl, hfa] at hc
    have hc := hc s2 rfl (by rw [hs2]; norm_num)
    rw [hs2] at hc
    have hb : substNth p6 0 1 = .ok p7 := by
      rw [substNth1 p6 (1 + 1 / 10 ^ 6) 1 rfl]
      have : setAttr p6.struct 0 "A" 1 = s1 := hs21
      rw [this]
      rfl
    have hrow : linRows [(1 : ℚ) + 1 / 10 ^ 6] 0 (1 / 10 ^ 6) false p5
        [(conFea, 1)] = .ok ([1], p6) := by
      simp only [linRows, hc]
      norm_num [conFea]
    have hvar : linVar objX false 0 1 [1] [(conFea, 1)] p3 = .ok (⟨1, [1], [1]⟩, p7) := by
      have hfree : p3.free[0]? = some (vA 1) := rfl
      unfold linVar
      rw [hfree]
      simp only [vA, newVar, hst, hsh]
      unfold linEval
      rw [hvals]
      simp only [bind, Except.bind, Bool.or_self, Bool.false_eq_true, if_false, ho, hrow, hb]
      norm_num [pure, Except.pure]
    have hfl : p2.free.length = 1 := rfl
    refine ⟨⟨[[1]], linB [[1]] [1] [(conFea, 1)], [1], 1, [1]⟩, p7, ?_, rfl, rfl, hs1, ?_⟩
    · unfold linearize
      simp only [e0, e1, show p2.cons = probFea.cons from rfl, e2, hfl, bind, Except.bind, Option.isSome_none, linLoop, Bool.false_eq_true, if_false, hvar, linGrad]
      rfl
    · have h := conFea_here 1 s1 res2 [("LC", true)] (some [1 + 1 / 10 ^ 6]) (some [1]) 2
      have hfa : feaAll p7 ["LC"] = p7 := by simp [feaAll, p7, probAt]
      simp only [] at h
      rw [show probAt 1 s1 res2 [("LC", true)] (some [1 + 1 / 10 ^ 6]) (some [1]) 2 = p7 from rfl, hfa] at h
      have := h s2 rfl (by rw [hs2]; norm_num)
      rw [hs2] at this
      simpa using this

/-- With a user-supplied gradient the row of a constraint that needs an analysis is zero: the shifted structure is not analysed.
    (The constraint value equals the variable, so the row should be 1.) -/
theorem C43_violation_gradient (dF : List ℚ → List ℚ) :
    ∃ r q, linearize probFea objX (some dF) false [1] = .ok (r, q) ∧ r.cols = [[0]] := by
  obtain ⟨r, q, h, hc, _⟩ := linearize_probFea (some dF)
  exact ⟨r, q, h, hc⟩

/-- Without a gradient the row is right, but the stored analysis is the one of the shifted structure: asked again at `x = (1)`,
    the constraint answers 1.000001, although the structure and the variable have value 1. -/
theorem C43_violation_stale :
    ∃ r q c, linearize probFea objX none false [1] = .ok (r, q) ∧ r.cols = [[1]] ∧ q.vars = [vA 1] ∧ q.struct 0 "A" = 1 ∧
      evalCon q conFea [1] = .ok (1 + 1 / 10 ^ 6, q, c) := by
  obtain ⟨r, q, h, hc, hv, hs, he⟩ := linearize_probFea none
  exact ⟨r, q, _, h, hc, hv, hs, he⟩

/-- The loop body raises for every index variable, so linearisation never succeeds for a problem with free index variables. -/
theorem C43_violation_index (o : Objective K) (grad : Bool) (fx : K) (x : List K) (cbs : List (Con K × K)) (p : Prob K) (i : Nat)
    (v : Var K) (values : List K) (hv : p.free[i]? = some v) (hk : v.kind = .index values) :
    ∃ e, linVar o grad i fx x cbs p = .error e := by
  unfold linVar
  rw [hv]
  simp only [hk]
  cases v.value with
  | none => exact ⟨_, rfl⟩
  | some y => exact ⟨_, rfl⟩

/-- The row of a linear constraint is taken from its coefficients by the number of the free variable: with a locked first variable
    the derivative with respect to the free second variable is the coefficient of the locked one. -/
theorem C43_violation_locked :
    ∃ q, linRows [(2 : ℚ)] 0 1 false prob2 [(⟨.linear [7, 3] 0, .lt, false, [], 1, true, 1 / 4⟩, 0)] = .ok ([7], q) :=
  ⟨prob2, rfl⟩

/-! ### The hypotheses can be met -/

/-- Two variables, a linear and a nonlinear constraint, at a point inside the bounds. -/
example : ∃ (r : LinRes ℚ) (q : Prob ℚ), linearize (⟨[vA 1, vB 2], [⟨.linear [7, 3] 2, .lt, false, [], 1, true, 1 / 4⟩, sumCon], flat 0, fun _ => none, [], none, none, 0⟩ : Prob ℚ)
    ⟨fun v => (v.args.map (·.getD 0)).sum, true, false⟩ none false [4, 10] = .ok (r, q) ∧ r.df[1]? = some (-1 : ℚ) ∧ r.cols[0]? = some [7, 1] := by
  let F : List ℚ → ℚ := fun x => - x.sum
  let g1 : List ℚ → ℚ := fun x => (List.zipWith (· * ·) [7, 3] x).sum - 2
  let g2 : List ℚ → ℚ := fun x => x.sum - 7
  have hsum : ∀ x : List ℚ, ((x.map some).map (·.getD 0)).sum = x.sum := by intro x; simp
  obtain ⟨r, q, rows, h, hrows, _, _, _, _, _, _, hd, _⟩ := C43_partial
    (⟨[vA 1, vB 2], [⟨.linear [7, 3] 2, .lt, false, [], 1, true, 1 / 4⟩, sumCon], flat 0, fun _ => none, [], none, none, 0⟩ : Prob ℚ)
    ⟨fun v => (v.args.map (·.getD 0)).sum, true, false⟩ none false [4, 10] F [g1, g2]
    (by intro v hv; simp at hv; rcases hv with rfl | rfl <;> exact ⟨rfl, rfl⟩)
    (List.Forall₂.cons (by norm_num [vA, newVar]) (List.Forall₂.cons (by norm_num [vB, newVar]) List.Forall₂.nil))
    (by intro v x hx; simp [F, hx])
    (List.Forall₂.cons ⟨rfl, fun _ => rfl⟩ (List.Forall₂.cons (by intro v x hx; simp [g2, hx]) List.Forall₂.nil))
  refine ⟨r, q, h, ?_, ?_⟩
  · obtain ⟨s, hs, _, h1, _⟩ := hd 1 _ 10 rfl rfl
    rw [h1 rfl, C43_affine [-1, -1] 0 F (by
      intro y hy
      match y, hy with
      | [a, b], _ => simp [F]; ring) [4, 10] rfl 1 10 (-1) s rfl rfl (by
      rintro rfl; norm_num at hs)]
  · obtain ⟨s, hs, _, _, h2⟩ := hd 0 _ 4 rfl rfl
    have hne : s ≠ 0 := by rintro rfl; norm_num at hs
    have hr : rows = [g1, g2] := by rw [hrows]; rfl
    rw [h2, hr]
    have e1 := C43_affine [7, 3] (-2) g1 (by intro y hy; simp [g1]; ring) [4, 10] rfl 0 4 7 s rfl rfl hne
    have e2 := C43_affine [1, 1] (-7) g2 (by
      intro y hy
      match y, hy with
      | [a, b], _ => simp [g2]; ring) [4, 10] rfl 0 4 1 s rfl rfl hne
    simp [e1, e2]

end Metku.Opt
