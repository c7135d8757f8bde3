import Mathlib.Tactic.NormNum
import Mathlib.Algebra.Order.Floor.Semiring
import Mathlib.Data.Rat.Floor
import Verif.Lemmas.OptBnB

/-!
C19, C21, C27, C50: branch and bound.
-/
set_option linter.unusedSectionVars false

namespace Metku.Opt

variable {K : Type} [Field K] [LinearOrder K] [IsStrictOrderedRing K] [FloorRing K]

/-! ### C27: bound tightening -/

/-- A constraint that the tightening treats correctly: `<` or `=`, one coefficient for each variable, and no coefficient that is
    tiny without being zero. -/
def GoodRow (n : Nat) (c : LinCon K) : Prop :=
  c.a.length = n ∧ c.type ≠ .gt ∧ ∀ a ∈ c.a, a = 0 ∨ 1 / 10 ^ 9 < |a|

theorem inBox_pairs {vs : List (BVar K)} {y : List K} (h : InBox vs y) :
    List.Forall₂ (fun (c : K × K) x => c.1 ≤ x ∧ x ≤ c.2) (vs.map fun v => (v.lb, v.ub)) y := by
  unfold InBox at h
  induction h with
  | nil => exact .nil
  | cons h _ ih => exact .cons h ih

/-- C27 (partial): tightening the bounds with `<` and `=` constraints succeeds, never widens a bound, and keeps every allowed point
    that satisfies the bounds and the constraints. Missing: `>` constraints and tiny non-zero coefficients, for which it is false
    (`C27_violated_gt`, `C27_violated_tiny`). -/
theorem C27_partial (cons : List (LinCon K)) (vs : List (BVar K)) (y : List K)
    (hc : ∀ c ∈ cons, GoodRow vs.length c ∧ LinHolds c y) (hb : InBox vs y) (hd : Discrete vs y) :
    ∃ vs', feasTighten cons vs = .ok vs' ∧ InBox vs' y ∧ SubBox vs' vs := by
  unfold feasTighten
  obtain ⟨vs', h1, h2, _⟩ := tightenCons_ok (vs.map fun v => (v.lb, v.ub)) y (inBox_pairs hb) cons none vs
    (fun c h => by
      obtain ⟨⟨g1, g2, g3⟩, g4⟩ := hc c h
      exact ⟨by simpa using g1, g2, g3, g4⟩) hb hd
  exact ⟨vs', h1, h2, tightenCons_sub _ _ _ _ _ h1⟩

/-- two integer variables in `[0, 10]`, `2x + 3y ≤ 12`: the point `(3, 2)` stays, the bounds become `[0, 6]` and `[0, 4]` -/
example :
    (∀ c ∈ [(⟨[2, 3], 12, .lt⟩ : LinCon ℚ)], GoodRow 2 c ∧ LinHolds c [3, 2]) ∧
    InBox [(⟨.int, 0, 10, 0⟩ : BVar ℚ), ⟨.int, 0, 10, 0⟩] [3, 2] ∧
    Discrete [(⟨.int, 0, 10, 0⟩ : BVar ℚ), ⟨.int, 0, 10, 0⟩] [3, 2] ∧
    (feasTighten [(⟨[2, 3], 12, .lt⟩ : LinCon ℚ)] [⟨.int, 0, 10, 0⟩, ⟨.int, 0, 10, 0⟩] =
      .ok [⟨.int, 0, 6, 0⟩, ⟨.int, 0, 4, 0⟩]) := by
  refine ⟨?_, ?_, ?_, ?_⟩
  · intro c hc
    simp at hc; subst hc
    refine ⟨⟨rfl, by decide, by norm_num⟩, by norm_num [LinHolds, dotp]⟩
  · unfold InBox; norm_num
  · unfold Discrete
    refine .cons ⟨3, by norm_num⟩ (.cons ⟨2, by norm_num⟩ .nil)
  · norm_num [feasTighten, tightenCons, tightenRow, tightenVar, newBnd, axMin]

/-- C27 violated: a `>` constraint is used as if it were `<`: with `x ≥ 5` on `[0, 10]` the feasible point `x = 7` is cut off. -/
theorem C27_violated_gt :
    ∃ (c : LinCon ℚ) (vs vs' : List (BVar ℚ)) (y : List ℚ), LinHolds c y ∧ InBox vs y ∧ Discrete vs y ∧
      feasTighten [c] vs = .ok vs' ∧ ¬ InBox vs' y := by
  refine ⟨⟨[1], 5, .gt⟩, [⟨.cont, 0, 10, 0⟩], [⟨.cont, 0, 5, 0⟩], [7], ?_, ?_, ?_, ?_, ?_⟩
  · norm_num [LinHolds, dotp]
  · unfold InBox; norm_num
  · unfold Discrete; simp [AllowedValue]
  · norm_num [feasTighten, tightenCons, tightenRow, tightenVar, newBnd, axMin]
  · unfold InBox; norm_num

/-- C27 violated: for a tiny coefficient the limit of the previous variable is used:
    with `x₁ + 10⁻¹⁰x₂ ≤ 5` on `[0, 10]²` the feasible point `(1, 9)` is cut off. -/
theorem C27_violated_tiny :
    ∃ (c : LinCon ℚ) (vs vs' : List (BVar ℚ)) (y : List ℚ), c.type = .lt ∧ LinHolds c y ∧ InBox vs y ∧ Discrete vs y ∧
      feasTighten [c] vs = .ok vs' ∧ ¬ InBox vs' y := by
  refine ⟨⟨[1, 1 / 10 ^ 10], 5, .lt⟩, [⟨.cont, 0, 10, 0⟩, ⟨.cont, 0, 10, 0⟩], [⟨.cont, 0, 5, 0⟩, ⟨.cont, 0, 5, 0⟩], [1, 9],
    rfl, ?_, ?_, ?_, ?_, ?_⟩
  · norm_num [LinHolds, dotp]
  · unfold InBox; norm_num
  · unfold Discrete; simp [AllowedValue]
  · norm_num [feasTighten, tightenCons, tightenRow, tightenVar, newBnd, axMin, abs_of_pos]
  · unfold InBox; norm_num

/-- C27 violated: and if the tiny coefficient comes first, the tightening raises. -/
theorem C27_violated_unbound :
    ∃ (c : LinCon ℚ) (vs : List (BVar ℚ)) (y : List ℚ), c.type = .lt ∧ LinHolds c y ∧ InBox vs y ∧ Discrete vs y ∧
      feasTighten [c] vs = .error .unboundLocal := by
  refine ⟨⟨[1 / 10 ^ 10], 5, .lt⟩, [⟨.cont, 0, 10, 0⟩], [1], rfl, ?_, ?_, ?_, ?_⟩
  · norm_num [LinHolds, dotp]
  · unfold InBox; norm_num
  · unfold Discrete; simp [AllowedValue]
  · norm_num [feasTighten, tightenCons, tightenRow, tightenVar, newBnd, axMin, abs_of_pos]

/-! ### C19: branching -/

theorem discrete_getElem {vs : List (BVar K)} {y : List K} (h : Discrete vs y) {j : Nat} {v : BVar K} (hv : vs[j]? = some v) :
    ∃ x, y[j]? = some x ∧ AllowedValue v.kind x := by
  unfold Discrete at h
  induction h generalizing j with
  | nil => simp at hv
  | cons h _ ih =>
    cases j with
    | zero => simp at hv; subst hv; exact ⟨_, rfl, h⟩
    | succ j => simp at hv; obtain ⟨x, h1, h2⟩ := ih hv; exact ⟨x, by simpa using h1, h2⟩

theorem sameKinds_getElem {vs ws : List (BVar K)} (h : SameKinds vs ws) {j : Nat} {v : BVar K} (hv : vs[j]? = some v) :
    ∃ w, ws[j]? = some w ∧ w.kind = v.kind := by
  have h1 : (ws.map (·.kind))[j]? = some v.kind := by rw [← h]; simp [hv]
  simp only [List.getElem?_map, Option.map_eq_some_iff] at h1
  exact h1

/-- C19 (partial): whenever branching (at the variables `vs` of the node, after tightening) succeeds, every allowed point of the
    node's box `ws` is in exactly one of the two children, and the relaxed solution is in neither. Missing: branching succeeding -
    see `C19_total_partial` for when it does and `C19_violated_int`, `C19_violated_gap` for when it raises. -/
theorem C19_partial (vs ws : List (BVar K)) (xR y : List K) (b1 b2 : Branching K) (hk : SameKinds vs ws)
    (h : branch vs xR = .ok (b1, b2)) (hb : InBox ws y) (hd : Discrete ws y) :
    Xor' (InBox (applyBranching ws b1) y) (InBox (applyBranching ws b2) y) ∧
    ¬ InBox (applyBranching ws b1) xR ∧ ¬ InBox (applyBranching ws b2) xR := by
  obtain ⟨j, v, values, x, h1, h2, h3, h4, i1, u1, i2, u2, ⟨m1, l1, l2⟩, ⟨m2, r1, r2⟩⟩ := branch_spec h
  obtain ⟨w, hw, hwk⟩ := sameKinds_getElem hk h1
  obtain ⟨z, hz, hza⟩ := discrete_getElem hd hw
  rw [hwk, h3] at hza
  simp only [AllowedValue] at hza
  have e1 := applyBranching_inBox (b := b1) (y := y) (by rw [i1]; exact hw) (by rw [i1]; exact hz)
  have e2 := applyBranching_inBox (b := b2) (y := y) (by rw [i2]; exact hw) (by rw [i2]; exact hz)
  have e3 := applyBranching_inBox (b := b1) (y := xR) (by rw [i1]; exact hw) (by rw [i1]; exact h2)
  have e4 := applyBranching_inBox (b := b2) (y := xR) (by rw [i2]; exact hw) (by rw [i2]; exact h2)
  rw [u1, if_pos rfl] at e1 e3
  rw [u2, if_neg (by decide)] at e2 e4
  refine ⟨?_, ?_, ?_⟩
  · rw [e1, e2]
    rcases lt_trichotomy z x with hlt | heq | hgt
    · exact Or.inl ⟨⟨hb, l2 z hza hlt⟩, fun hh => absurd (hlt.trans r1) (not_lt.2 hh.2)⟩
    · exact absurd (heq ▸ hza) h4
    · exact Or.inr ⟨⟨hb, r2 z hza hgt⟩, fun hh => absurd (l1.trans hgt) (not_lt.2 hh.2)⟩
  · rw [e3]; exact fun hh => absurd l1 (not_lt.2 hh.2)
  · rw [e4]; exact fun hh => absurd r1 (not_lt.2 hh.2)

theorem pickStep_isSome {cur : Option (Pick K)} {i : Nat} {v : BVar K} {x viol : K} (h : cur.isSome ∨ 0 < viol) :
    (pickStep cur i v x viol).isSome := by
  unfold pickStep
  cases cur with
  | none => rw [if_pos (h.resolve_left (by simp))]; rfl
  | some c => simp only; split_ifs <;> rfl

theorem discreteViolation_ok {values : List K} (hne : values ≠ []) (x : K) : ∃ d, discreteViolation values x = .ok d ∧
    ((∀ val ∈ values, 1 / 1000 < |val - x|) → 0 < d) := by
  unfold discreteViolation
  cases values with
  | nil => exact absurd rfl hne
  | cons a as =>
    cases hp : pyMin ((a :: as).map fun val => |val - x|) with
    | error e => cases hp
    | ok m =>
      refine ⟨_, rfl, fun h => ?_⟩
      obtain ⟨val, hv, rfl⟩ := List.mem_map.1 (pyMin_spec _ _ hp).1
      have := h val hv
      rw [if_neg (not_le.2 this)]
      exact lt_trans (by positivity) this

theorem pickVar_total : ∀ (vs : List (BVar K)) (i : Nat) (xs : List K) (cur : Option (Pick K)),
    vs.length = xs.length → (∀ v ∈ vs, v.kind = .cont ∨ ∃ values, v.kind = .disc values ∧ values ≠ []) →
    (cur.isSome ∨ ∃ (j : Nat) (v : BVar K) (values : List K) (x : K), vs[j]? = some v ∧ xs[j]? = some x ∧ v.kind = .disc values ∧
      ∀ val ∈ values, 1 / 1000 < |val - x|) →
    ∃ c, pickVar i vs xs cur = .ok (some c) := by
  intro vs
  induction vs with
  | nil =>
    intro i xs cur _ _ h
    rcases h with h | ⟨j, v, _, _, h, _⟩
    · obtain ⟨c, rfl⟩ := Option.isSome_iff_exists.1 h
      exact ⟨c, by simp [pickVar]⟩
    · simp at h
  | cons v vs ih =>
    intro i xs cur hl hk h
    cases xs with
    | nil => simp at hl
    | cons x xs =>
      rcases hk v (by simp) with hv | ⟨values, hv, hne⟩
      · have hb : bViolation v x = .ok 0 := by simp only [bViolation, hv]
        simp only [pickVar, hb]
        refine ih _ _ _ (by simpa using hl) (fun w hw => hk w (by simp [hw])) ?_
        rcases h with h | ⟨j, w, vals, z, h1, h2, h3, h4⟩
        · exact Or.inl (pickStep_isSome (Or.inl h))
        · cases j with
          | zero =>
            simp at h1
            subst h1
            rw [hv] at h3
            cases h3
          | succ j => exact Or.inr ⟨j, w, vals, z, by simpa using h1, by simpa using h2, h3, h4⟩
      obtain ⟨d, hd, hd0⟩ := discreteViolation_ok hne x
      have hb : bViolation v x = .ok d := by simp only [bViolation, hv, hd]
      simp only [pickVar, hb]
      refine ih _ _ _ (by simpa using hl) (fun w hw => hk w (by simp [hw])) ?_
      rcases h with h | ⟨j, w, vals, z, h1, h2, h3, h4⟩
      · exact Or.inl (pickStep_isSome (Or.inl h))
      · cases j with
        | zero =>
          simp at h1 h2
          subst h1 h2
          rw [hv] at h3
          cases h3
          exact Or.inl (pickStep_isSome (Or.inr (hd0 h4)))
        | succ j => exact Or.inr ⟨j, w, vals, z, by simpa using h1, by simpa using h2, h3, h4⟩

/-- Bounds of discrete variables are allowed values. -/
def BoundsAllowed (vs : List (BVar K)) : Prop :=
  ∀ v ∈ vs, ∀ values, v.kind = .disc values → v.lb ∈ values ∧ v.ub ∈ values

theorem inBox_getElem {vs : List (BVar K)} {y : List K} (h : InBox vs y) {j : Nat} {v : BVar K} {x : K} (hv : vs[j]? = some v)
    (hx : y[j]? = some x) : v.lb ≤ x ∧ x ≤ v.ub := by
  unfold InBox at h
  induction h generalizing j with
  | nil => simp at hv
  | cons h _ ih =>
    cases j with
    | zero => simp at hv hx; subst hv hx; exact h
    | succ j => simp at hv hx; exact ih hv hx

/-- C19 (partial), success of branching: if all variables are continuous or discrete with allowed bounds, the relaxed solution is within
    the bounds and some component is more than 10⁻³ away from every allowed value, branching succeeds. -/
theorem C19_total_partial (vs : List (BVar K)) (xR : List K) (hk : ∀ v ∈ vs, v.kind = .cont ∨ ∃ values, v.kind = .disc values)
    (hba : BoundsAllowed vs) (hb : InBox vs xR)
    (hv : ∃ (j : Nat) (v : BVar K) (values : List K) (x : K), vs[j]? = some v ∧ xR[j]? = some x ∧ v.kind = .disc values ∧ ∀ val ∈ values, 1 / 1000 < |val - x|) :
    ∃ b1 b2, branch vs xR = .ok (b1, b2) := by
  have hk' : ∀ v ∈ vs, v.kind = .cont ∨ ∃ values, v.kind = .disc values ∧ values ≠ [] := by
    intro v hv
    rcases hk v hv with h | ⟨values, h⟩
    · exact Or.inl h
    refine Or.inr ⟨values, h, ?_⟩
    rintro rfl
    exact absurd (hba v hv _ h).1 (by simp)
  obtain ⟨c, hc⟩ := pickVar_total vs 0 xR none (List.Forall₂.length_eq hb) hk' (Or.inr hv)
  rcases pickVar_some _ _ _ _ _ (by simp) hc with h' | ⟨j, v, h1, h2, h3, h4, h5, h6⟩
  · cases h'
  · have hmem := List.mem_of_getElem? h1
    obtain ⟨values, hval⟩ : ∃ values, v.kind = .disc values := by
      rcases hk v hmem with hc' | hv'
      · exfalso
        simp only [bViolation, hc', Except.ok.injEq] at h6
        exact absurd h6.symm h5.ne'
      · exact hv'
    obtain ⟨hlb, hub⟩ := hba v hmem _ hval
    have hin := inBox_getElem hb h1 h2
    unfold bViolation at h6
    rw [hval] at h6
    have hnot := discreteViolation_pos h6 h5
    have hlo : v.lb < c.xr := lt_of_le_of_ne hin.1 (fun h => hnot (h ▸ hlb))
    have hhi : c.xr < v.ub := lt_of_le_of_ne hin.2 (fun h => hnot (h ▸ hub))
    unfold branch
    rw [hc]
    simp only [h4, hval]
    cases hl : smallerDiscrete values c.xr with
    | error e => exact absurd hlo (not_lt.2 ((C25_smaller values c.xr).2.1 ⟨e, hl⟩ _ hlb))
    | ok lo =>
      cases hh : largerDiscrete values c.xr with
      | error e => exact absurd hhi (not_lt.2 ((C25_larger values c.xr).2.1 ⟨e, hh⟩ _ hub))
      | ok hi => exact ⟨_, _, rfl⟩

/-- branching at 3.4 between the values 0, 2, 5, 9 gives `≤ 2` and `≥ 5` -/
example : branch [(⟨.disc [5, 0, 9, 2], 0, 9, 0⟩ : BVar ℚ)] [34 / 10] = .ok (⟨0, 2, true⟩, ⟨0, 5, false⟩) ∧
    InBox [(⟨.disc [5, 0, 9, 2], 0, 9, 0⟩ : BVar ℚ)] [9] ∧ Discrete [(⟨.disc [5, 0, 9, 2], 0, 9, 0⟩ : BVar ℚ)] [9] ∧
    BoundsAllowed [(⟨.disc [5, 0, 9, 2], 0, 9, 0⟩ : BVar ℚ)] := by
  refine ⟨?_, ?_, ?_, ?_⟩
  · norm_num [branch, pickVar, pickStep, bViolation, discreteViolation, smallerDiscrete, largerDiscrete, pyMin, pyMax, abs, List.filter]
  · unfold InBox; norm_num
  · unfold Discrete; simp [AllowedValue]
  · intro v hv values h
    simp at hv; subst hv; cases h; simp

/-- C19 violated: branching on an integer variable raises, as integer variables do not know the next smaller value. -/
theorem C19_violated_int :
    ∃ (v : BVar ℚ) (x : ℚ), v.kind = .int ∧ v.lb ≤ x ∧ x ≤ v.ub ∧ branch [v] [x] = .error .attributeError := by
  refine ⟨⟨.int, 0, 10, 0⟩, 5 / 2, rfl, by norm_num, by norm_num, ?_⟩
  have h : integerViolation (5 / 2 : ℚ) = 1 / 2 := by
    norm_num [integerViolation, pyRound]
  simp only [branch, pickVar, bViolation, h, pickStep]
  norm_num

/-- C19 violated: a value between 10⁻⁴ and 10⁻³ away from an allowed one is not accepted as discrete, yet no variable is found to
    branch on, and branching raises. -/
theorem C19_violated_gap :
    ∃ (v : BVar ℚ) (x : ℚ), v.lb ≤ x ∧ x ≤ v.ub ∧ allAllowed [v] [x] = .ok false ∧ branch [v] [x] = .error .valueError := by
  refine ⟨⟨.disc [0, 1], 0, 1, 0⟩, 1 / 2000, by norm_num, by norm_num, ?_, ?_⟩
  · norm_num [allAllowed, bAllowed, pyMin, abs]
  · norm_num [branch, pickVar, pickStep, bViolation, discreteViolation, pyMin, abs]

/-- C19 violated: with a continuous variable in the problem the solver raises before it branches. -/
theorem C19_violated_cont (v : BVar K) (x : K) (vs : List (BVar K)) (xs : List K) (h : v.kind = .cont) :
    allAllowed (v :: vs) (x :: xs) = .error .attributeError := by
  simp [allAllowed, bAllowed, h]

/-! ### C21: optimality -/

/-- A solution of the discrete problem: within the bounds, allowed values, linear constraints, and the remaining constraints. -/
structure IsSol (P : BProb K) (F : List K → Prop) (y : List K) : Prop where
  box : InBox P.vars y
  disc : Discrete P.vars y
  lin : ∀ c ∈ P.lin, LinHolds c y
  rest : F y

/-- The external solvers do their job: tightening keeps solutions, an infeasible relaxation has no solution, and the
    bound of a relaxation is a lower bound. -/
structure ValidOracle (P : BProb K) (O : Oracle K) (F : List K → Prop) : Prop where
  tight : ∀ vs y, IsSol P F y → InBox vs y → InBox (O.optTight vs) y
  none : ∀ vs y, O.lower vs = none → IsSol P F y → ¬ InBox vs y
  some : ∀ vs f x y, O.lower vs = some (f, x) → IsSol P F y → InBox vs y → f ≤ P.obj y

/-- The incumbent is at least as good as the value. -/
def AtLeastAsGood (best : Option (K × List K)) (f : K) : Prop := ∃ b, best = some b ∧ b.1 ≤ f

theorem upperBound_mono (P : BProb K) : ∀ (cands : List (List K)) (best : Option (K × List K)) (f : K),
    AtLeastAsGood best f → AtLeastAsGood (upperBound P best cands) f := by
  intro cands
  induction cands with
  | nil => intro best f h; exact h
  | cons x cands ih =>
    intro best f h
    unfold upperBound
    rw [List.foldl_cons]
    refine ih _ f ?_
    obtain ⟨b, rfl, hb⟩ := h
    split
    · rename_i hc
      simp only [Bool.and_eq_true, improves, decide_eq_true_eq] at hc
      exact ⟨_, rfl, hc.2.le.trans hb⟩
    · exact ⟨b, rfl, hb⟩

theorem any_bounds_false {vs : List (BVar K)} {y : List K} (h : InBox vs y) : (vs.any fun v => decide (v.lb > v.ub)) = false := by
  unfold InBox at h
  induction h with
  | nil => rfl
  | cons h _ ih =>
    simp only [List.any_cons, ih, Bool.or_false, decide_eq_false_iff_not, not_lt]
    exact h.1.trans h.2

theorem SameKinds.len {vs ws : List (BVar K)} (h : SameKinds vs ws) : vs.length = ws.length := by
  have := congrArg List.length h
  simpa using this

/-- A solution in a processed node is in a new node or the incumbent is at least as good. -/
theorem processNode_keeps {P : BProb K} {O : Oracle K} {F : List K → Prop} (hO : ValidOracle P O F)
    (hk : ∀ vs, SameKinds (O.optTight vs) vs)
    (hrow : ∀ c ∈ P.lin, GoodRow P.vars.length c) {path : List (Branching K)} {best : Option (K × List K)}
    {new : List (List (Branching K))} {best' : Option (K × List K)} (h : processNode P O path best = .ok (new, best'))
    {y : List K} (hy : IsSol P F y) (hin : InBox (nodeVars P.vars path) y) :
    (∃ p ∈ new, InBox (nodeVars P.vars p) y) ∨ AtLeastAsGood best' (P.obj y) := by
  have hkn := (nodeVars_sub P.vars path).kinds
  have hdn : Discrete (nodeVars P.vars path) y := Discrete.congr hkn.symm hy.disc
  obtain ⟨vs1, e1, e2, e3⟩ := C27_partial P.lin (nodeVars P.vars path) y
    (fun c hc => ⟨by rw [hkn.len]; exact hrow c hc, hy.lin c hc⟩) hin hdn
  unfold processNode at h
  rw [e1] at h
  simp only at h
  have hin2 := hO.tight vs1 y hy e2
  rw [any_bounds_false hin2] at h
  simp only [Bool.false_eq_true, if_false] at h
  cases hl : O.lower (O.optTight vs1) with
  | none => exact absurd hin2 (hO.none _ _ hl hy)
  | some fx =>
    obtain ⟨f, xR⟩ := fx
    rw [hl] at h
    simp only at h
    have hf := hO.some _ _ _ _ hl hy hin2
    split at h
    · rename_i hex
      cases h
      right
      cases best with
      | none => simp [exceeds] at hex
      | some b =>
        simp only [exceeds, decide_eq_true_eq] at hex
        exact ⟨b, rfl, hex.le.trans hf⟩
    · cases ha : allAllowed (O.optTight vs1) xR with
      | error e => rw [ha] at h; cases h
      | ok r =>
        rw [ha] at h
        cases r with
        | true =>
          cases h
          right
          cases hb : upperBound P best (O.cand xR) with
          | none => exact ⟨(f, xR), by simp [improves], hf⟩
          | some b =>
            by_cases hlt : f < b.1
            · exact ⟨(f, xR), by simp [improves, hlt], hf⟩
            · exact ⟨b, by simp [improves, hlt], (not_lt.1 hlt).trans hf⟩
        | false =>
          simp only at h
          cases hbr : branch (O.optTight vs1) xR with
          | error e => rw [hbr] at h; cases h
          | ok b =>
            obtain ⟨b1, b2⟩ := b
            rw [hbr] at h
            cases h
            left
            have hx := (C19_partial (O.optTight vs1) (nodeVars P.vars path) xR y b1 b2 ((hk vs1).trans e3.kinds) hbr hin hdn).1
            rcases hx with hx | hx
            · exact ⟨b1 :: path, by simp, by rw [nodeVars_cons]; exact hx.1⟩
            · exact ⟨b2 :: path, by simp, by rw [nodeVars_cons]; exact hx.1⟩

/-- The incumbent never gets worse in a pass. -/
theorem processNode_mono {P : BProb K} {O : Oracle K} {path : List (Branching K)} {best : Option (K × List K)}
    {new : List (List (Branching K))} {best' : Option (K × List K)} (h : processNode P O path best = .ok (new, best')) {f : K}
    (hf : AtLeastAsGood best f) : AtLeastAsGood best' f := by
  unfold processNode at h
  cases e1 : feasTighten P.lin (nodeVars P.vars path) with
  | error e => rw [e1] at h; cases h
  | ok vs1 =>
    rw [e1] at h
    simp only at h
    split at h
    · cases h; exact hf
    · cases hl : O.lower (O.optTight vs1) with
      | none => rw [hl] at h; cases h; exact hf
      | some fx =>
        obtain ⟨flb, xR⟩ := fx
        rw [hl] at h
        simp only at h
        split at h
        · cases h; exact hf
        · have hm := upperBound_mono P (O.cand xR) best f hf
          cases ha : allAllowed (O.optTight vs1) xR with
          | error e => rw [ha] at h; cases h
          | ok r =>
            rw [ha] at h
            cases r with
            | true =>
              cases h
              obtain ⟨b, hb, hbf⟩ := hm
              rw [hb]
              by_cases hlt : flb < b.1
              · exact ⟨(flb, xR), by simp [improves, hlt], hlt.le.trans hbf⟩
              · exact ⟨b, by simp [improves, hlt], hbf⟩
            | false =>
              simp only at h
              cases hbr : branch (O.optTight vs1) xR with
              | error e => rw [hbr] at h; cases h
              | ok b =>
                obtain ⟨b1, b2⟩ := b
                rw [hbr] at h
                cases h
                exact hm

/-- Invariant: every solution is in an open node, unless the incumbent is at least as good. -/
theorem reach_keeps {P : BProb K} {O : Oracle K} {F : List K → Prop} (hO : ValidOracle P O F)
    (hk : ∀ vs, SameKinds (O.optTight vs) vs) (hrow : ∀ c ∈ P.lin, GoodRow P.vars.length c) {n : Nat} {s : BState K}
    (hr : BReach P O n s) {y : List K} (hy : IsSol P F y) :
    (∃ p ∈ s.opened, InBox (nodeVars P.vars p) y) ∨ AtLeastAsGood s.best (P.obj y) := by
  induction hr with
  | root => exact Or.inl ⟨[], by simp, hy.box⟩
  | step _ hs ih =>
    cases hs with
    | mk l1 l2 path new best best' hp =>
      simp only at ih ⊢
      rcases ih with ⟨p, hp1, hp2⟩ | h
      · simp only [List.mem_append, List.mem_cons] at hp1
        rcases hp1 with h | h | h
        · exact Or.inl ⟨p, by simp [h], hp2⟩
        · subst h
          rcases processNode_keeps hO hk hrow hp hy hp2 with ⟨q, hq1, hq2⟩ | h
          · exact Or.inl ⟨q, by simp [hq1], hq2⟩
          · exact Or.inr h
        · exact Or.inl ⟨p, by simp [h], hp2⟩
      · exact Or.inr (processNode_mono hp h)

/-- Value that counts as allowed: of a discrete variable within 10⁻⁴ of one of its values, of an integer variable of an integer. -/
def NearAllowed (k : BKind K) (x : K) : Prop :=
  match k with
  | .cont => False
  | .int => ∃ z : ℤ, |x - (z : K)| ≤ max (1 / 10 ^ 9 * max |x| |(z : K)|) (1 / 10000)
  | .disc values => ∃ val ∈ values, |val - x| < 1 / 10000

/-- How an incumbent came about: its value is attained and all its constraint values are within the tolerance, or it
    is the solution of a relaxation of the variables within tighter bounds, with allowed values inside the bounds. -/
def Found (P : BProb K) (O : Oracle K) (b : K × List K) : Prop :=
  (b.1 = P.obj b.2 ∧ ∀ g ∈ P.cons, g b.2 ≤ P.conTol) ∨
  (∃ vs, SameKinds vs P.vars ∧ O.lower vs = some b ∧
    ∀ (j : Nat) (v : BVar K), vs[j]? = some v → ∃ x, b.2[j]? = some x ∧ v.lb ≤ x ∧ x ≤ v.ub ∧ NearAllowed v.kind x)

theorem bAllowed_near {v : BVar K} {x : K} (h : bAllowed v x = .ok true) : v.lb ≤ x ∧ x ≤ v.ub ∧ NearAllowed v.kind x := by
  unfold bAllowed at h
  cases hk : v.kind with
  | cont => rw [hk] at h; cases h
  | int =>
    rw [hk] at h
    simp only [Except.ok.injEq, Bool.and_eq_true, decide_eq_true_eq] at h
    exact ⟨h.1.1, h.1.2, _, h.2⟩
  | disc values =>
    rw [hk] at h
    simp only at h
    split at h
    · rename_i hb
      cases hp : pyMin (values.map fun val => |val - x|) with
      | error e => rw [hp] at h; cases h
      | ok m =>
        rw [hp] at h
        simp only [Except.ok.injEq, decide_eq_true_eq] at h
        obtain ⟨val, hv, hm⟩ := List.mem_map.1 (pyMin_spec _ _ hp).1
        exact ⟨hb.1, hb.2, val, hv, by simpa [hm] using h⟩
    · cases h

theorem allAllowed_near : ∀ (vs : List (BVar K)) (xs : List K), allAllowed vs xs = .ok true →
    ∀ (j : Nat) (v : BVar K), vs[j]? = some v → ∃ x, xs[j]? = some x ∧ v.lb ≤ x ∧ x ≤ v.ub ∧ NearAllowed v.kind x := by
  intro vs
  induction vs with
  | nil => intro xs _ j v hj; simp at hj
  | cons w vs ih =>
    intro xs h j v hj
    cases xs with
    | nil => cases h
    | cons y xs =>
      unfold allAllowed at h
      cases hb : bAllowed w y with
      | error e => rw [hb] at h; cases h
      | ok r =>
        rw [hb] at h
        simp only at h
        cases ha : allAllowed vs xs with
        | error e => rw [ha] at h; cases h
        | ok rs =>
          rw [ha] at h
          simp only [Except.ok.injEq, Bool.and_eq_true] at h
          obtain ⟨rfl, rfl⟩ := h
          cases j with
          | zero => simp at hj; subst hj; exact ⟨y, rfl, bAllowed_near hb⟩
          | succ j => simp at hj; simpa using ih xs ha j v hj

theorem upperBound_found (P : BProb K) (O : Oracle K) : ∀ (cands : List (List K)) (best : Option (K × List K)),
    (∀ b, best = some b → Found P O b) → ∀ b, upperBound P best cands = some b → Found P O b := by
  intro cands
  induction cands with
  | nil => intro best h; exact h
  | cons x cands ih =>
    intro best h
    unfold upperBound
    rw [List.foldl_cons]
    refine ih _ ?_
    split
    · rename_i hc
      simp only [Bool.and_eq_true, List.all_eq_true, decide_eq_true_eq] at hc
      intro b hb
      cases hb
      exact Or.inl ⟨rfl, hc.1⟩
    · exact h

theorem reach_found {P : BProb K} {O : Oracle K} (hk : ∀ vs, SameKinds (O.optTight vs) vs) {n : Nat} {s : BState K} (hr : BReach P O n s) :
    ∀ b, s.best = some b → Found P O b := by
  induction hr with
  | root => intro b hb; cases hb
  | step _ hs ih =>
    cases hs with
    | mk l1 l2 path new best best' h =>
      simp only at ih ⊢
      unfold processNode at h
      cases e1 : feasTighten P.lin (nodeVars P.vars path) with
      | error e => rw [e1] at h; cases h
      | ok vs1 =>
        rw [e1] at h
        simp only at h
        split at h
        · cases h; exact ih
        · cases hl : O.lower (O.optTight vs1) with
          | none => rw [hl] at h; cases h; exact ih
          | some fx =>
            obtain ⟨flb, xR⟩ := fx
            rw [hl] at h
            simp only at h
            split at h
            · cases h; exact ih
            · have hm := upperBound_found P O (O.cand xR) best ih
              cases ha : allAllowed (O.optTight vs1) xR with
              | error e => rw [ha] at h; cases h
              | ok r =>
                rw [ha] at h
                cases r with
                | true =>
                  cases h
                  intro b hb
                  split at hb
                  · cases hb; 
                    refine Or.inr ⟨_, ?_, hl, allAllowed_near _ _ ha⟩
                    exact ((hk vs1).trans (tightenCons_sub _ _ _ _ _ e1).kinds).trans (nodeVars_sub _ _).kinds
                  · exact hm b hb
                | false =>
                  simp only at h
                  cases hbr : branch (O.optTight vs1) xR with
                  | error e => rw [hbr] at h; cases h
                  | ok b =>
                    obtain ⟨b1, b2⟩ := b
                    rw [hbr] at h
                    cases h
                    exact hm

/-- C21 (partial): whatever the order of nodes, when no node is open, no solution of the discrete problem is better than the
    incumbent (so there is an incumbent if there is a solution); every incumbent on the way was found as a candidate whose
    constraint values are all within the tolerance or as a relaxed solution with allowed values. Missing: `>` constraints, with which
    both parts fail (`C21_violated_lost`, `C21_violated_infeasible`), and that no pass raises (C19). -/
theorem C21_partial (P : BProb K) (O : Oracle K) (F : List K → Prop) (hO : ValidOracle P O F)
    (hk : ∀ vs, SameKinds (O.optTight vs) vs) (hrow : ∀ c ∈ P.lin, GoodRow P.vars.length c) (n : Nat) (s : BState K)
    (hr : BReach P O n s) (hdone : s.opened = []) :
    (∀ y, IsSol P F y → ∃ b, s.best = some b ∧ b.1 ≤ P.obj y) ∧ ∀ b, s.best = some b → Found P O b := by
  refine ⟨fun y hy => ?_, reach_found hk hr⟩
  rcases reach_keeps hO hk hrow hr hy with ⟨p, hp, _⟩ | h
  · rw [hdone] at hp; simp at hp
  · exact h

/-! ### C50: termination -/

/-- Number of values between the bounds. -/
def nVals (v : BVar K) : Nat :=
  match v.kind with
  | .disc values => (values.filter fun x => decide (v.lb ≤ x ∧ x ≤ v.ub)).length
  | _ => 0

/-- Total number of values between the bounds. -/
def boxVals (vs : List (BVar K)) : Nat := (vs.map nVals).sum

theorem filter_length_lt {α : Type} (p q : α → Bool) (l : List α) (h : ∀ a ∈ l, p a = true → q a = true) (a : α) (ha : a ∈ l)
    (hq : q a = true) (hp : p a = false) : (l.filter p).length < (l.filter q).length := by
  induction l with
  | nil => simp at ha
  | cons b l ih =>
    have hle : ∀ l : List α, (∀ a ∈ l, p a = true → q a = true) → (l.filter p).length ≤ (l.filter q).length := by
      intro l hl
      induction l with
      | nil => simp
      | cons c l ih2 =>
        have h1 := ih2 (fun a ha => hl a (by simp [ha]))
        have h2 := hl c (by simp)
        by_cases hc : p c = true
        · rw [List.filter_cons_of_pos hc, List.filter_cons_of_pos (h2 hc)]; simpa using h1
        · rw [List.filter_cons_of_neg hc]
          by_cases hc' : q c = true
          · rw [List.filter_cons_of_pos hc']; simp; omega
          · rw [List.filter_cons_of_neg hc']; exact h1
    have hb := h b (by simp)
    have hl := fun a ha => h a (List.mem_cons_of_mem b ha)
    rcases List.mem_cons.1 ha with h' | h'
    · subst h'
      rw [List.filter_cons_of_pos hq, List.filter_cons_of_neg (by simp [hp])]
      have := hle l hl
      simp; omega
    · have := ih hl h'
      by_cases hc : p b = true
      · rw [List.filter_cons_of_pos hc, List.filter_cons_of_pos (hb hc)]; simpa using this
      · rw [List.filter_cons_of_neg hc]
        by_cases hc' : q b = true
        · rw [List.filter_cons_of_pos hc']; simp; omega
        · rw [List.filter_cons_of_neg hc']; exact this

theorem boxVals_modify (f : BVar K → BVar K) : ∀ (vs : List (BVar K)) (i : Nat) (v : BVar K), vs[i]? = some v → nVals (f v) < nVals v →
    boxVals (vs.modify i f) < boxVals vs := by
  intro vs
  induction vs with
  | nil => intro i v h; simp at h
  | cons w vs ih =>
    intro i v h hlt
    cases i with
    | zero =>
      simp at h; subst h
      simp only [boxVals, List.modify_zero_cons, List.map_cons, List.sum_cons]; omega
    | succ i =>
      simp at h
      have := ih i v h hlt
      simp only [boxVals, List.modify_succ_cons, List.map_cons, List.sum_cons] at this ⊢; omega

theorem boundsAllowed_modify (vs : List (BVar K)) (f : BVar K → BVar K) (i : Nat) (h : BoundsAllowed vs)
    (hf : ∀ v, vs[i]? = some v → ∀ values, (f v).kind = .disc values → (f v).lb ∈ values ∧ (f v).ub ∈ values) :
    BoundsAllowed (vs.modify i f) := by
  intro v hv
  obtain ⟨j, hj⟩ := List.mem_iff_getElem?.1 hv
  rw [List.getElem?_modify] at hj
  by_cases hij : i = j
  · subst hij
    simp only [if_true] at hj
    cases hw : vs[i]? with
    | none => rw [hw] at hj; simp at hj
    | some w => rw [hw] at hj; simp at hj; subst hj; exact hf w hw
  · simp only [hij, if_false] at hj
    cases hw : vs[j]? with
    | none => rw [hw] at hj; simp at hj
    | some w => rw [hw] at hj; simp at hj; subst hj; exact h w (List.mem_of_getElem? hw)

/-- The external solvers stay within the bounds they are given. -/
structure TightOracle (O : Oracle K) : Prop where
  tight : ∀ vs, SubBox (O.optTight vs) vs
  within : ∀ vs f x, O.lower vs = some (f, x) → InBox vs x

theorem subBox_getElem {us ws : List (BVar K)} (h : SubBox us ws) {j : Nat} {u : BVar K} (hu : us[j]? = some u) :
    ∃ w, ws[j]? = some w ∧ u.kind = w.kind ∧ w.lb ≤ u.lb ∧ u.ub ≤ w.ub := by
  unfold SubBox at h
  induction h generalizing j with
  | nil => simp at hu
  | cons h _ ih =>
    cases j with
    | zero => simp at hu; subst hu; exact ⟨_, rfl, h⟩
    | succ j => simp at hu; obtain ⟨w, h1, h2⟩ := ih hu; exact ⟨w, by simpa using h1, h2⟩

/-- Branching on a relaxed solution inside the node's box gives boxes with fewer values. -/
theorem branch_fewer {us ws : List (BVar K)} {xR : List K} {b1 b2 : Branching K} (hsub : SubBox us ws) (hba : BoundsAllowed ws)
    (hin : InBox us xR) (h : branch us xR = .ok (b1, b2)) :
    (boxVals (applyBranching ws b1) < boxVals ws ∧ BoundsAllowed (applyBranching ws b1)) ∧
    (boxVals (applyBranching ws b2) < boxVals ws ∧ BoundsAllowed (applyBranching ws b2)) := by
  obtain ⟨j, v, values, x, h1, h2, h3, h4, i1, u1, i2, u2, ⟨m1, l1, l2⟩, ⟨m2, r1, r2⟩⟩ := branch_spec h
  obtain ⟨w, hw, hwk, hwl, hwu⟩ := subBox_getElem hsub h1
  have hb := inBox_getElem hin h1 h2
  rw [h3] at hwk
  obtain ⟨c1, c2⟩ := hba w (List.mem_of_getElem? hw) values hwk.symm
  have hlb : w.lb < x := lt_of_le_of_ne (hwl.trans hb.1) (fun h => h4 (h ▸ c1))
  have hub : x < w.ub := lt_of_le_of_ne (hb.2.trans hwu) (fun h => h4 (h ▸ c2))
  have hlo := l2 _ c1 hlb
  have hhi := r2 _ c2 hub
  unfold applyBranching
  rw [i1, i2, u1, u2]
  simp only [if_true, Bool.false_eq_true, if_false]
  refine ⟨⟨?_, ?_⟩, ?_, ?_⟩
  · refine boxVals_modify _ ws j w hw ?_
    simp only [nVals, ← hwk]
    refine filter_length_lt _ _ values ?_ w.ub c2 ?_ ?_
    · intro a _ ha
      simp only [decide_eq_true_eq, le_min_iff] at ha ⊢
      exact ⟨ha.1, ha.2.1⟩
    · simp only [decide_eq_true_eq]; exact ⟨(hlb.trans hub).le, le_refl _⟩
    · simp only [decide_eq_false_iff_not, le_min_iff, not_and, not_le]
      intro _ _; exact l1.trans hub
  · refine boundsAllowed_modify ws _ j hba ?_
    intro v' hv' vals hk
    rw [hw] at hv'; cases hv'
    simp only at hk ⊢
    rw [← hwk] at hk; cases hk
    refine ⟨c1, ?_⟩
    rcases min_choice w.ub b1.lim with e | e <;> rw [e]
    · exact c2
    · exact m1
  · refine boxVals_modify _ ws j w hw ?_
    simp only [nVals, ← hwk]
    refine filter_length_lt _ _ values ?_ w.lb c1 ?_ ?_
    · intro a _ ha
      simp only [decide_eq_true_eq, max_le_iff] at ha ⊢
      exact ⟨ha.1.1, ha.2⟩
    · simp only [decide_eq_true_eq]; exact ⟨le_refl _, (hlb.trans hub).le⟩
    · simp only [decide_eq_false_iff_not, max_le_iff, not_and, not_le]
      intro hh; exact absurd (hlb.trans r1) (not_lt.2 hh.2)
  · refine boundsAllowed_modify ws _ j hba ?_
    intro v' hv' vals hk
    rw [hw] at hv'; cases hv'
    simp only at hk ⊢
    rw [← hwk] at hk; cases hk
    refine ⟨?_, c2⟩
    rcases max_choice w.lb b2.lim with e | e <;> rw [e]
    · exact c1
    · exact m2

/-- Weight of the open nodes. -/
def weight (P : BProb K) (opened : List (List (Branching K))) : Nat := (opened.map fun p => 3 ^ boxVals (nodeVars P.vars p)).sum

theorem processNode_weight {P : BProb K} {O : Oracle K} (hO : TightOracle O) {path : List (Branching K)}
    {best best' : Option (K × List K)} {new : List (List (Branching K))} (hba : BoundsAllowed (nodeVars P.vars path))
    (h : processNode P O path best = .ok (new, best')) :
    weight P new < 3 ^ boxVals (nodeVars P.vars path) ∧ ∀ p ∈ new, BoundsAllowed (nodeVars P.vars p) := by
  have hpos : 0 < 3 ^ boxVals (nodeVars P.vars path) := by positivity
  unfold processNode at h
  cases e1 : feasTighten P.lin (nodeVars P.vars path) with
  | error e => rw [e1] at h; cases h
  | ok vs1 =>
    rw [e1] at h
    simp only at h
    have hs1 := tightenCons_sub _ _ _ _ _ e1
    have hs := (hO.tight vs1).trans hs1
    split at h
    · cases h; exact ⟨by simpa [weight] using hpos, by simp⟩
    · cases hl : O.lower (O.optTight vs1) with
      | none => rw [hl] at h; cases h; exact ⟨by simpa [weight] using hpos, by simp⟩
      | some fx =>
        obtain ⟨flb, xR⟩ := fx
        rw [hl] at h
        simp only at h
        split at h
        · cases h; exact ⟨by simpa [weight] using hpos, by simp⟩
        · cases ha : allAllowed (O.optTight vs1) xR with
          | error e => rw [ha] at h; cases h
          | ok r =>
            rw [ha] at h
            cases r with
            | true => cases h; exact ⟨by simpa [weight] using hpos, by simp⟩
            | false =>
              simp only at h
              cases hbr : branch (O.optTight vs1) xR with
              | error e => rw [hbr] at h; cases h
              | ok b =>
                obtain ⟨b1, b2⟩ := b
                rw [hbr] at h
                cases h
                obtain ⟨⟨f1, f2⟩, f3, f4⟩ := branch_fewer hs hba (hO.within _ _ _ hl) hbr
                refine ⟨?_, ?_⟩
                · simp only [weight, List.map_cons, List.map_nil, List.sum_cons, List.sum_nil, nodeVars_cons]
                  obtain ⟨m, hm⟩ : ∃ m, boxVals (nodeVars P.vars path) = m + 1 := ⟨_, (Nat.succ_pred (by omega)).symm⟩
                  have g1 : 3 ^ boxVals (applyBranching (nodeVars P.vars path) b1) ≤ 3 ^ m :=
                    Nat.pow_le_pow_right (by norm_num) (by omega)
                  have g2 : 3 ^ boxVals (applyBranching (nodeVars P.vars path) b2) ≤ 3 ^ m :=
                    Nat.pow_le_pow_right (by norm_num) (by omega)
                  have g3 : 0 < 3 ^ m := by positivity
                  rw [hm, pow_succ]
                  omega
                · intro p hp
                  simp only [List.mem_cons, List.not_mem_nil, or_false] at hp
                  rcases hp with rfl | rfl <;> rw [nodeVars_cons]
                  · exact f2
                  · exact f4

/-- C50: with external solvers that stay within the bounds they are given, and discrete variables whose bounds are allowed values,
    the number of passes of any search, in whatever order the nodes are taken, is at most 3 to the number of allowed
    values: the search cannot go on for ever. -/
theorem C50 (P : BProb K) (O : Oracle K) (hO : TightOracle O) (hba : BoundsAllowed P.vars) (n : Nat) (s : BState K)
    (hr : BReach P O n s) : n + s.opened.length ≤ 3 ^ boxVals P.vars := by
  have key : n + weight P s.opened ≤ 3 ^ boxVals P.vars ∧ ∀ p ∈ s.opened, BoundsAllowed (nodeVars P.vars p) := by
    induction hr with
    | root =>
      refine ⟨?_, ?_⟩
      · simp [weight, nodeVars]
      · intro p hp; simp at hp; subst hp; exact hba
    | step _ hs ih =>
      cases hs with
      | mk l1 l2 path new best best' hp =>
        simp only at ih ⊢
        obtain ⟨ih1, ih2⟩ := ih
        obtain ⟨w1, w2⟩ := processNode_weight hO (ih2 path (by simp)) hp
        refine ⟨?_, ?_⟩
        · simp only [weight, List.map_append, List.map_cons, List.sum_append, List.sum_cons] at ih1 w1 ⊢
          omega
        · intro p hp
          simp only [List.mem_append] at hp
          rcases hp with (h | h) | h
          · exact ih2 p (by simp [h])
          · exact ih2 p (by simp [h])
          · exact w2 p h
  have hlen : ∀ l : List (List (Branching K)), l.length ≤ weight P l := by
    intro l
    induction l with
    | nil => simp
    | cons p l ih =>
      have : 0 < 3 ^ boxVals (nodeVars P.vars p) := by positivity
      simp only [weight, List.map_cons, List.sum_cons, List.length_cons] at ih ⊢
      omega
  have := hlen s.opened
  omega

/-! ### A problem that meets the hypotheses, and the violations of C21 -/

/-- One variable with values 0, 5 and 10. -/
def exVars : List (BVar ℚ) := [⟨.disc [0, 5, 10], 0, 10, 0⟩]

/-- Maximise `x` subject to `2x ≤ 15`. -/
def exProb : BProb ℚ := ⟨exVars, [⟨[2], 15, .lt⟩], fun x => - x.headD 0, [fun x => 2 * x.headD 0 - 15], 1 / 10 ^ 8⟩

/-- The relaxation is solved by the upper bound; no tightening, no candidates. -/
def exOracle : Oracle ℚ := ⟨id, fun vs => vs.head?.bind fun v => if v.lb ≤ v.ub ∧ vs.length = 1 then some (-v.ub, [v.ub]) else none, fun _ => []⟩

theorem exOracle_tight : TightOracle exOracle := by
  refine ⟨fun vs => SubBox.refl _, fun vs f x h => ?_⟩
  cases vs with
  | nil => simp [exOracle] at h
  | cons v vs =>
    simp only [exOracle, List.head?_cons, Option.bind_some] at h
    split at h
    · rename_i hc
      cases h
      cases vs with
      | nil => exact .cons ⟨hc.1, le_refl _⟩ .nil
      | cons w vs => simp at hc
    · cases h

theorem exOracle_valid (lin : List (LinCon ℚ)) (cons : List (List ℚ → ℚ)) (tol : ℚ) (F : List ℚ → Prop) :
    ValidOracle ⟨exVars, lin, fun x => - x.headD 0, cons, tol⟩ exOracle F := by
  have hlen : ∀ y, IsSol ⟨exVars, lin, fun x => - x.headD 0, cons, tol⟩ F y → y.length = 1 := by
    intro y hy
    have := List.Forall₂.length_eq hy.box
    simpa [exVars] using this.symm
  have hone : ∀ (vs : List (BVar ℚ)) y, y.length = 1 → InBox vs y → ∃ v x, vs = [v] ∧ y = [x] ∧ v.lb ≤ x ∧ x ≤ v.ub := by
    intro vs y hl h
    unfold InBox at h
    cases h with
    | nil => simp at hl
    | cons h h' =>
      cases h' with
      | nil => exact ⟨_, _, rfl, rfl, h⟩
      | cons => simp at hl
  refine ⟨fun vs y _ h => h, fun vs y h hy hin => ?_, fun vs f x y h hy hin => ?_⟩
  · obtain ⟨v, x, rfl, rfl, h1, h2⟩ := hone vs y (hlen y hy) hin
    simp [exOracle] at h
    linarith
  · obtain ⟨v, z, rfl, rfl, h1, h2⟩ := hone vs y (hlen y hy) hin
    simp [exOracle] at h
    obtain ⟨_, rfl, _⟩ := h
    simp
    exact h2

/-- the search finds `x = 5` in one pass, since tightening already limits `x` to 5 -/
example : ValidOracle exProb exOracle (fun _ => True) ∧ TightOracle exOracle ∧ BoundsAllowed exProb.vars ∧
    (∀ c ∈ exProb.lin, GoodRow exProb.vars.length c) ∧ IsSol exProb (fun _ => True) [5] ∧
    BReach exProb exOracle 1 ⟨[], some (-5, [5])⟩ := by
  refine ⟨exOracle_valid _ _ _ _, exOracle_tight, ?_, ?_, ⟨?_, ?_, ?_, trivial⟩, ?_⟩
  · intro v hv values h
    simp [exProb, exVars] at hv; subst hv; cases h; simp
  · intro c hc
    simp [exProb] at hc; subst hc
    refine ⟨rfl, by decide, ?_⟩
    norm_num
  · unfold InBox; norm_num [exProb, exVars]
  · unfold Discrete; simp [exProb, exVars, AllowedValue]
  · norm_num [exProb, LinHolds, dotp]
  · refine BReach.step BReach.root (BStep.mk [] [] [] [] none (some (-5, [5])) ?_)
    norm_num [processNode, exProb, exVars, exOracle, nodeVars, feasTighten, tightenCons, tightenRow, tightenVar, newBnd, axMin,
      pyMax, List.filter, exceeds, upperBound, allAllowed, bAllowed, pyMin, abs, improves]

/-- Minimise `x²-7x` without constraints: the relaxation has its minimum at 3.5, between two values. -/
def exProb2 : BProb ℚ := ⟨exVars, [], fun x => (x.headD 0) ^ 2 - 7 * x.headD 0, [], 1 / 10 ^ 8⟩

/-- two passes in which the root is branched and a child is solved -/
example : ∃ s, BReach exProb2
    ⟨id, fun vs => vs.head?.bind fun v => some (if v.ub < 7 / 2 then (v.ub ^ 2 - 7 * v.ub, [v.ub]) else
        if v.lb > 7 / 2 then (v.lb ^ 2 - 7 * v.lb, [v.lb]) else (-49 / 4, [7 / 2])), fun _ => []⟩ 2 s ∧
    s.opened = [[⟨0, 0, true⟩]] ∧ s.best = some (-10, [5]) := by
  refine ⟨_, BReach.step (BReach.step BReach.root (BStep.mk [] [] [] [[⟨0, 0, true⟩], [⟨0, 5, false⟩]] none none ?_))
    (BStep.mk [[⟨0, 0, true⟩]] [] [⟨0, 5, false⟩] [] none (some (-10, [5])) ?_), rfl, rfl⟩
  · norm_num [processNode, exProb2, exVars, nodeVars, feasTighten, tightenCons, exceeds, upperBound, allAllowed, bAllowed,
      pyMin, pyMax, abs, branch, pickVar, pickStep, bViolation, discreteViolation, smallerDiscrete, largerDiscrete, List.filter]
  · norm_num [processNode, exProb2, exVars, nodeVars, applyBranching, feasTighten, tightenCons, exceeds, upperBound, allAllowed, bAllowed,
      pyMin, pyMax, abs, improves, List.modify]

/-- C21 violated: with the constraint `x ≥ 5`, maximising `x` ends with 5 as the best design although 10 is a solution. -/
theorem C21_violated_lost :
    ∃ (P : BProb ℚ) (O : Oracle ℚ) (n : Nat) (s : BState ℚ) (y : List ℚ), ValidOracle P O (fun _ => True) ∧ TightOracle O ∧
      BReach P O n s ∧ s.opened = [] ∧ IsSol P (fun _ => True) y ∧ ∃ b, s.best = some b ∧ P.obj y < b.1 := by
  refine ⟨⟨exVars, [⟨[1], 5, .gt⟩], fun x => - x.headD 0, [], 1 / 10 ^ 8⟩, exOracle, 1, ⟨[], some (-5, [5])⟩, [10],
    exOracle_valid _ _ _ _, exOracle_tight, ?_, rfl, ⟨?_, ?_, ?_, trivial⟩, (-5, [5]), rfl, ?_⟩
  · refine BReach.step BReach.root (BStep.mk [] [] [] [] none (some (-5, [5])) ?_)
    norm_num [processNode, exVars, exOracle, nodeVars, feasTighten, tightenCons, tightenRow, tightenVar, newBnd, axMin,
      pyMax, List.filter, exceeds, upperBound, allAllowed, bAllowed, pyMin, abs, improves]
  · unfold InBox; norm_num [exVars]
  · unfold Discrete; simp [exVars, AllowedValue]
  · norm_num [LinHolds, dotp]
  · norm_num

/-- C21 violated: the upper bounding heuristic accepts points that violate a `>` constraint: minimising `x` with `x - 5 ≥ 0`
    and a valid bound of 5, the search ends with `x = 0`. -/
theorem C21_violated_infeasible :
    ∃ (P : BProb ℚ) (O : Oracle ℚ) (g : List ℚ → ℚ) (n : Nat) (s : BState ℚ), P.cons = [g] ∧
      ValidOracle P O (fun y => 0 ≤ g y) ∧ BReach P O n s ∧ s.opened = [] ∧ ∃ b, s.best = some b ∧ ¬ 0 ≤ g b.2 := by
  refine ⟨⟨exVars, [], fun x => x.headD 0, [fun x => x.headD 0 - 5], 1 / 10 ^ 8⟩, ⟨id, fun _ => some (5, [5]), fun _ => [[0]]⟩,
    fun x => x.headD 0 - 5, 1, ⟨[], some (0, [0])⟩, rfl, ⟨fun _ _ _ h => h, fun _ _ h => by simp at h, ?_⟩, ?_, rfl, (0, [0]), rfl, ?_⟩
  · intro vs f x y h hy _
    cases h
    have := hy.rest
    linarith
  · refine BReach.step BReach.root (BStep.mk [] [] [] [] none (some (0, [0])) ?_)
    norm_num [processNode, exVars, nodeVars, feasTighten, tightenCons, exceeds, upperBound, allAllowed, bAllowed, pyMin, abs, improves]
  · norm_num

end Metku.Opt
