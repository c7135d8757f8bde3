import Mathlib.Tactic.Ring
import Mathlib.Tactic.Linarith
import Mathlib.Tactic.NormNum
import Verif.Spec.OptVns
import Verif.Props.OptSlp

/-!
C125 to C129: neighbourhood search and the two-phase solver.
-/
set_option linter.unusedSectionVars false

namespace Metku.Opt

variable {K : Type} [Field K] [LinearOrder K] [IsStrictOrderedRing K]

/-! ### `DiscreteVNS` -/

theorem dvStep_ok {p : DvProb K} {s s1 : Dv K} {a X : List Int} {ok : Bool} {u : Int} {us : List Int} (hu : p.ubs = u :: us)
    (h : dvStep p s a = .ok (X, s1, ok)) :
    X = dvMove u s.X a ∧ ok = dvAccepts s.best s.consVals (p.obj X) (p.cons X) ∧
      s1 = ⟨s.X, if ok then p.obj X else s.best, p.cons X⟩ := by
  unfold dvStep at h
  rw [hu] at h
  simp only at h
  split at h
  · cases h
  · have h := Except.ok.inj h
    simp only [Prod.mk.injEq] at h
    obtain ⟨h1, h2, h3⟩ := h
    subst h1
    refine ⟨rfl, h3.symm, ?_⟩
    rw [← h2, ← h3]

theorem dvAccepts_iff {best : K} {prev c : List K} {f : K} :
    dvAccepts best prev f c = true ↔ f < best ∧ clippedSq c ≤ clippedSq prev ∧ ∀ g ∈ c, g ≤ 0 := by
  unfold dvAccepts
  simp only [Bool.and_eq_true, decide_eq_true_eq, List.all_eq_true, sub_pos, sub_nonneg, and_assoc]

theorem dvMove_bounds {u : Int} (hu : 0 ≤ u) (X a : List Int) : ∀ x ∈ dvMove u X a, 0 ≤ x ∧ x ≤ u := by
  intro x hx
  unfold dvMove at hx
  obtain ⟨y, _, rfl⟩ := List.mem_map.1 hx
  exact ⟨le_min (le_max_right _ _) hu, min_le_right _ _⟩

/-- An improvement found by the search is feasible, strictly better than the best value so far and within the bounds of the first variable. -/
theorem dvSearch_found {p : DvProb K} {u : Int} {us : List Int} (hu : p.ubs = u :: us) (hu0 : 0 ≤ u) :
    ∀ (ds : List (Bool × List Int)) (seen : List (List Int)) {s s' : Dv K} {rest : List (Bool × List Int)},
      dvSearch p ds seen s = .ok (.found s' rest) →
      s'.best = p.obj s'.X ∧ s'.best < s.best ∧ DvFeasible p s'.X ∧ ∀ x ∈ s'.X, 0 ≤ x ∧ x ≤ u := by
  intro ds
  induction ds with
  | nil =>
    intro seen s s' rest h
    simp only [dvSearch] at h
    cases Except.ok.inj h
  | cons d ds ih =>
    obtain ⟨up, a⟩ := d
    intro seen s s' rest h
    unfold dvSearch at h
    split at h
    · cases Except.ok.inj h
    · split at h
      · exact ih _ h
      · split at h
        · cases h
        · rename_i X s1 ok hstep
          obtain ⟨hX, hok, hs1⟩ := dvStep_ok hu hstep
          split at h
          · rename_i hk
            rw [hk] at hok
            obtain ⟨h1, _, h3⟩ := dvAccepts_iff.1 hok.symm
            have h := Except.ok.inj h
            simp only [DvSearch.found.injEq] at h
            obtain ⟨h, _⟩ := h
            subst h
            have hb : s1.best = p.obj X := by rw [hs1, hk]; rfl
            exact ⟨hb, by rw [hb]; exact h1, h3, by rw [hX]; exact dvMove_bounds hu0 _ _⟩
          · rename_i hk
            have hb : s1.best = s.best := by rw [hs1]; exact if_neg hk
            rw [← hb]
            exact ih _ h

/-- Every completed run from the state `s` gives a feasible design, strictly better than the best value of `s`. -/
theorem dvLoop_done {p : DvProb K} {u : Int} {us : List Int} (hu : p.ubs = u :: us) (hu0 : 0 ≤ u) :
    ∀ (k : Nat) (ds : List (Bool × List Int)) {s : Dv K} {f : K} {X : List Int}, dvLoop p (k + 1) ds s = .ok (.objPoint f X) →
      f = p.obj X ∧ f < s.best ∧ DvFeasible p X ∧ ∀ x ∈ X, 0 ≤ x ∧ x ≤ u := by
  intro k
  induction k with
  | zero =>
    intro ds s f X h
    unfold dvLoop at h
    split at h
    · cases h
    · cases Except.ok.inj h
    · cases Except.ok.inj h
    · rename_i s1 rest hf
      obtain ⟨h1, h2, h3, h4⟩ := dvSearch_found hu hu0 ds [] hf
      have h := Except.ok.inj h
      simp only [DvReturn.objPoint.injEq] at h
      obtain ⟨rfl, rfl⟩ := h
      exact ⟨rfl, h1 ▸ h2, h3, h4⟩
  | succ k ih =>
    intro ds s f X h
    unfold dvLoop at h
    split at h
    · cases h
    · cases Except.ok.inj h
    · cases Except.ok.inj h
    · rename_i s1 rest hf
      obtain ⟨_, h2, _, _⟩ := dvSearch_found hu hu0 ds [] hf
      obtain ⟨h5, h6, h7⟩ := ih rest h
      exact ⟨h5, lt_trans h6 h2, h7⟩

/-- C125: a run that completes its iterations gives a feasible design and its objective, which is below 10000. Missing: a feasible start may be
    better (`C125_violation`), no design with an objective of 10000 or more is accepted (`C125_violation_value`), and a run that is out of time
    gives an unchecked design and the pair the other way round (`C125_violation_timeout`). -/
theorem C125_partial {p : DvProb K} {u : Int} {us : List Int} (hu : p.ubs = u :: us) (hu0 : 0 ≤ u) (x0 : List Int) (k : Nat)
    (ds : List (Bool × List Int)) {f : K} {X : List Int} (h : dvSolve p x0 (k + 1) ds = .ok (.objPoint f X)) :
    f = p.obj X ∧ f < 10000 ∧ DvFeasible p X := by
  obtain ⟨h1, h2, h3, _⟩ := dvLoop_done hu hu0 k ds h
  exact ⟨h1, h2, h3⟩

/-- Each iteration improves strictly on the previous one, from the second on: completed runs of `j + 1` and `j + 1 + k` iterations with the same draws. -/
theorem C125_monotone {p : DvProb K} {u : Int} {us : List Int} (hu : p.ubs = u :: us) (hu0 : 0 ≤ u) :
    ∀ (j k : Nat) (ds : List (Bool × List Int)) {s : Dv K} {f f' : K} {X X' : List Int},
      dvLoop p (j + 1) ds s = .ok (.objPoint f X) → dvLoop p (j + 1 + (k + 1)) ds s = .ok (.objPoint f' X') → f' < f := by
  intro j
  induction j with
  | zero =>
    intro k ds s f f' X X' h h'
    rw [show 0 + 1 + (k + 1) = (k + 1) + 1 by omega] at h'
    unfold dvLoop at h h'
    split at h
    · cases h
    · cases Except.ok.inj h
    · cases Except.ok.inj h
    · rename_i s1 rest hf
      rw [hf] at h'
      obtain ⟨h1, _, _, _⟩ := dvSearch_found hu hu0 ds [] hf
      have h := Except.ok.inj h
      simp only [DvReturn.objPoint.injEq] at h
      obtain ⟨rfl, rfl⟩ := h
      rw [← h1]
      exact (dvLoop_done hu hu0 k rest h').2.1
  | succ j ih =>
    intro k ds s f f' X X' h h'
    rw [show j + 1 + 1 + (k + 1) = (j + 1 + (k + 1)) + 1 by omega] at h'
    unfold dvLoop at h h'
    split at h
    · cases h
    · cases Except.ok.inj h
    · cases Except.ok.inj h
    · rename_i s1 rest hf
      rw [hf] at h'
      exact ih k rest h h'

theorem dvSubst_ok {ubs X : List Int} {u : Int} (hs : ∀ v ∈ ubs, v = u) (hX : ∀ x ∈ X, 0 ≤ x ∧ x ≤ u) : dvSubst ubs X = .ok () := by
  unfold dvSubst
  rw [if_neg]
  simp only [List.any_eq_true, decide_eq_true_eq, not_exists, not_and, not_lt]
  intro q hq
  obtain ⟨h1, h2⟩ := List.of_mem_zip hq
  rw [hs _ h2]
  exact (hX _ h1).2

/-- The search never ends if no feasible point in the bounds improves on the best value. -/
theorem dvSearch_endless {p : DvProb K} {u : Int} (hu : SameUb p u) {best : K}
    (hb : ∀ X : List Int, (∀ x ∈ X, 0 ≤ x ∧ x ≤ u) → DvFeasible p X → best ≤ p.obj X) :
    ∀ (ds : List (Bool × List Int)), (∀ d ∈ ds, d.1 = false) → ∀ (seen : List (List Int)) (s : Dv K), s.best = best →
      ∃ s', dvSearch p ds seen s = .ok (.running s') := by
  obtain ⟨hu0, hne, hall⟩ := hu
  obtain ⟨v, us, hus⟩ : ∃ v us, p.ubs = v :: us := by
    cases h : p.ubs with
    | nil => exact absurd h hne
    | cons v us => exact ⟨v, us, rfl⟩
  have hv : v = u := hall v (by rw [hus]; exact List.mem_cons_self)
  subst hv
  intro ds
  induction ds with
  | nil => exact fun _ seen s _ => ⟨s, rfl⟩
  | cons d ds ih =>
    obtain ⟨up, a⟩ := d
    intro ht seen s hs
    have hup : up = false := ht (up, a) List.mem_cons_self
    have ht' : ∀ d ∈ ds, d.1 = false := fun d hd => ht d (List.mem_cons_of_mem _ hd)
    unfold dvSearch
    rw [hup, if_neg (by decide)]
    by_cases hseen : a ∈ seen
    · rw [if_pos hseen]
      exact ih ht' _ _ hs
    · rw [if_neg hseen]
      have hin := dvMove_bounds hu0 s.X a
      have hacc : dvAccepts s.best s.consVals (p.obj (dvMove v s.X a)) (p.cons (dvMove v s.X a)) = false := by
        rw [Bool.eq_false_iff]
        intro hc
        obtain ⟨h1, _, h3⟩ := dvAccepts_iff.1 hc
        exact absurd h1 (not_lt.2 (hs ▸ hb _ hin h3))
      have hstep : dvStep p s a = .ok (dvMove v s.X a, ⟨s.X, s.best, p.cons (dvMove v s.X a)⟩, false) := by
        unfold dvStep
        rw [hus]
        have hsub : dvSubst (v :: us) (dvMove v s.X a) = .ok () := dvSubst_ok (by rw [← hus]; exact hall) hin
        simp only [hsub, hacc]
        rfl
      rw [hstep]
      exact ih ht' _ _ hs

/-- C125, negation: once no feasible point improves on the best value, the solver does not return, unless its time is limited: the loop is still running
    after any number of draws, although iterations are left. -/
theorem C125_violation_endless {p : DvProb K} {u : Int} (hu : SameUb p u) (k : Nat) (s : Dv K)
    (hb : ∀ X : List Int, (∀ x ∈ X, 0 ≤ x ∧ x ≤ u) → DvFeasible p X → s.best ≤ p.obj X)
    (ds : List (Bool × List Int)) (ht : ∀ d ∈ ds, d.1 = false) : dvLoop p (k + 1) ds s = .ok .none := by
  obtain ⟨s', h⟩ := dvSearch_endless hu hb ds ht [] s rfl
  unfold dvLoop
  rw [h]

/-- C125, negation: if all objectives are at least 10000 (a truss of ten tons, in kilograms), the solver does not return whatever the start. -/
theorem C125_violation_value {p : DvProb K} {u : Int} (hu : SameUb p u) (k : Nat) (x0 : List Int) (hb : ∀ X, 10000 ≤ p.obj X)
    (ds : List (Bool × List Int)) (ht : ∀ d ∈ ds, d.1 = false) : dvSolve p x0 (k + 1) ds = .ok .none :=
  C125_violation_endless hu k _ (fun X _ _ => hb X) ds ht

/-- C125, negation: when the time is up, the pair is `(point, objective)` instead of `(objective, point)`, and the point is the start even if it is not feasible. -/
theorem C125_violation_timeout (p : DvProb K) (x0 : List Int) (k : Nat) (a : List Int) (ds : List (Bool × List Int)) :
    dvSolve p x0 (k + 1) ((true, a) :: ds) = .ok (.pointObj x0 (p.obj x0)) := by
  unfold dvSolve dvLoop dvSearch
  rfl

/-- Two profiles of weight 1 and 2, no constraints. -/
def twoProfiles : DvProb K := ⟨fun X => if X = [0] then 1 else 2, fun _ => [], [1]⟩

theorem twoProfiles_one : (twoProfiles (K := K)).obj [1] = 2 := by
  show (if ([1] : List Int) = [0] then (1 : K) else 2) = 2
  exact if_neg (by decide)

/-- C125, negation: the first iteration replaces a feasible start of objective 1 by a design of objective 2. -/
theorem C125_violation : DvFeasible (K := K) twoProfiles [0] ∧
    dvSolve (K := K) twoProfiles [0] 1 [(false, [1])] = .ok (.objPoint 2 [1]) ∧ twoProfiles.obj [0] < (2 : K) := by
  refine ⟨fun g hg => (List.not_mem_nil hg).elim, ?_, ?_⟩
  · have h1 : dvAccepts (10000 : K) [] 2 [] = true := dvAccepts_iff.2 ⟨by norm_num, le_rfl, fun g hg => (List.not_mem_nil hg).elim⟩
    have hX : dvMove 1 [0] [1] = [1] := by decide
    have hstep : dvStep (K := K) twoProfiles ⟨[0], 10000, []⟩ [1] = .ok ([1], ⟨[0], 2, []⟩, true) := by
      unfold dvStep
      have hsub : dvSubst [1] [1] = .ok () := by decide
      have ho : (twoProfiles (K := K)).obj [1] = 2 := twoProfiles_one
      have hc : (twoProfiles (K := K)).cons [1] = [] := rfl
      have hub : (twoProfiles (K := K)).ubs = [1] := rfl
      rw [hub]
      simp only [hX, hsub, ho, hc, h1]
      rfl
    have hs : dvSearch (K := K) twoProfiles [(false, [1])] [] ⟨[0], 10000, []⟩ = .ok (.found ⟨[1], 2, []⟩ []) := by
      unfold dvSearch
      rw [if_neg (by decide), if_neg (by simp), hstep]
      rfl
    have hl : dvLoop (K := K) twoProfiles 1 [(false, [1])] ⟨[0], 10000, []⟩ = .ok (.objPoint 2 [1]) := by
      unfold dvLoop
      rw [hs]
      exact congrArg (fun f => Except.ok (DvReturn.objPoint f [1])) twoProfiles_one
    exact hl
  · show (if ([0] : List Int) = [0] then (1 : K) else 2) < 2
    rw [if_pos rfl]
    norm_num

/-- C126, negation: the search uses the bound of the first variable for all of them, so that no design with a larger index is ever found. -/
theorem C126_violation {p : DvProb K} {u : Int} {us : List Int} (hu : p.ubs = u :: us) (hu0 : 0 ≤ u) (x0 : List Int) (k : Nat)
    (ds : List (Bool × List Int)) {f : K} {X : List Int} (h : dvSolve p x0 (k + 1) ds = .ok (.objPoint f X)) :
    ∀ x ∈ X, 0 ≤ x ∧ x ≤ u := (dvLoop_done hu hu0 k ds h).2.2.2

/-- C126, negation: a step to an index beyond the list of a variable raises. -/
theorem C126_violation_raises {p : DvProb K} {u : Int} {us : List Int} (hu : p.ubs = u :: us) (s : Dv K) (a : List Int)
    {q : Int × Int} (hq : q ∈ List.zip (dvMove u s.X a) p.ubs) (hlt : q.2 < q.1) : dvStep p s a = .error .valueError := by
  have hsub : dvSubst p.ubs (dvMove u s.X a) = .error .valueError := by
    unfold dvSubst
    rw [if_pos]
    simp only [List.any_eq_true, decide_eq_true_eq]
    exact ⟨q, hq, hlt⟩
  unfold dvStep
  rw [hu] at hsub ⊢
  simp only [hsub]

/-- C126: with equal lists of values, no draw makes the search raise, and every design found is within all bounds. Missing: lists of
    different length (`C126_violation`, `C126_violation_raises`). -/
theorem C126_partial {p : DvProb K} {u : Int} (hu : SameUb p u) (s : Dv K) (a : List Int) :
    ∃ X s1 ok, dvStep p s a = .ok (X, s1, ok) ∧ ∀ q ∈ List.zip X p.ubs, 0 ≤ q.1 ∧ q.1 ≤ q.2 := by
  obtain ⟨hu0, hne, hall⟩ := hu
  obtain ⟨v, us, hus⟩ : ∃ v us, p.ubs = v :: us := by
    cases h : p.ubs with
    | nil => exact absurd h hne
    | cons v us => exact ⟨v, us, rfl⟩
  have hv : v = u := hall v (by rw [hus]; exact List.mem_cons_self)
  subst hv
  have hin := dvMove_bounds hu0 s.X a
  have hsub : dvSubst p.ubs (dvMove v s.X a) = .ok () := dvSubst_ok hall hin
  have hstep : ∃ s1 ok, dvStep p s a = .ok (dvMove v s.X a, s1, ok) := by
    unfold dvStep
    rw [hus] at hsub ⊢
    simp only [hsub]
    exact ⟨_, _, rfl⟩
  obtain ⟨s1, ok, hstep⟩ := hstep
  refine ⟨dvMove v s.X a, s1, ok, hstep, fun q hq => ?_⟩
  · obtain ⟨h1, h2⟩ := List.of_mem_zip hq
    rw [hall _ h2]
    exact hin _ h1

/-! ### `VNS` -/

theorem setBounds_boundsOf (vs : List (NVar K)) (bs : List (K × K)) (h : bs.length = vs.length) : boundsOf (setBounds vs bs) = bs := by
  induction vs generalizing bs with
  | nil => cases bs with
    | nil => rfl
    | cons _ _ => simp at h
  | cons v vs ih => cases bs with
    | nil => simp at h
    | cons b bs =>
      have := ih bs (by simpa using h)
      unfold boundsOf setBounds at this ⊢
      simpa using this

theorem setBounds_length (vs : List (NVar K)) (bs : List (K × K)) (h : bs.length = vs.length) : (setBounds vs bs).length = vs.length := by
  unfold setBounds
  simp [h]

theorem setValues_length (vs : List (NVar K)) (xs : List K) (h : xs.length = vs.length) : (setValues vs xs).length = vs.length := by
  unfold setValues
  simp [h]

theorem mapM_length {α β : Type} (f : α → Except PyErr β) : ∀ (l : List α) {r : List β}, l.mapM f = .ok r → r.length = l.length := by
  intro l
  induction l with
  | nil =>
    intro r h
    obtain rfl := Except.ok.inj h
    rfl
  | cons a l ih =>
    intro r h
    rw [List.mapM_cons] at h
    simp only [bind, Except.bind, pure, Except.pure] at h
    split at h
    · cases h
    · split at h
      · cases h
      · rename_i b _ bs hbs
        obtain rfl := Except.ok.inj h
        simp [ih hbs]

/-- C127: whenever `take_action` gives an action, the bounds of the variables are those before the call. Missing: calls that give no
    action (`C127_violation`). -/
theorem vnsAction_bounds {solver : List (K × K) → List K → Inner K} {M : Nat} {prev : List K} :
    ∀ (fuel : Nat) {s s' : Vns K} {a : List K}, KeepsLength solver s.vars.length →
      vnsAction solver M prev fuel s = .ok (s', some a) → boundsOf s'.vars = boundsOf s.vars := by
  intro fuel
  induction fuel with
  | zero =>
    intro s s' a _ h
    have h := Except.ok.inj h
    simp at h
  | succ fuel ih =>
    intro s s' a hk h
    unfold vnsAction at h
    split at h
    · cases h
    · rename_i bs hbs
      have hlen := mapM_length _ _ hbs
      have hl1 : (setBounds s.vars bs).length = s.vars.length := setBounds_length _ _ hlen
      have hl2 : ∀ x, (setValues (setBounds s.vars bs) (solver bs x).values).length = s.vars.length := fun x => by
        rw [setValues_length _ _ (by rw [hk, hl1]), hl1]
      simp only at h
      split at h
      · have h := Except.ok.inj h
        simp at h
      · split at h
        · have h := Except.ok.inj h
          simp only [Prod.mk.injEq] at h
          rw [← h.1]
          exact setBounds_boundsOf _ _ (by rw [hl2]; simp)
        · split at h
          · have h := Except.ok.inj h
            simp at h
          · have hl3 := setBounds_length (setValues (setBounds s.vars bs) (solver bs (s.x0.getD (s.vars.map (·.value)))).values)
              (s.vars.map fun v => (v.lb, v.ub)) (by rw [hl2]; simp)
            have := ih (by
              show KeepsLength solver (setBounds _ _).length
              rw [hl3, hl2]
              exact hk) h
            rw [this]
            exact setBounds_boundsOf _ _ (by rw [hl2]; simp)

theorem C127_partial {solver : List (K × K) → List K → Inner K} {M : Nat} {s s' : Vns K} {a : List K}
    (hk : KeepsLength solver s.vars.length) (h : vnsTake solver M s = .ok (s', some a)) : boundsOf s'.vars = boundsOf s.vars :=
  vnsAction_bounds 11 hk h

/-- The variable of one index with bounds 0 and `u` at `x`. -/
theorem vns_narrow {solver : List (K × K) → List K → Inner K} {M : Nat} (hM : 10 ≤ M) {prev : List K} {x u f : K}
    (hs : ∀ bs y, vnsAccepts f prev (solver bs y) = false ∧ (solver bs y).values = [x]) :
    ∀ (k e : Nat), e + k = 10 → ∀ (step : K) (x0 : Option (List K)),
      ∃ s', vnsAction solver M prev (k + 1) ⟨[⟨0, u, x, .index⟩], f, e, step, x0⟩ = .ok (s', none) ∧
        boundsOf s'.vars = [(max 0 (x - (step + k)), min u (x + (step + k)))] := by
  intro k
  induction k with
  | zero =>
    intro e he step x0
    refine ⟨⟨[⟨max 0 (x - step), min u (x + step), x, .index⟩], f, e, step, x0⟩, ?_, ?_⟩
    · unfold vnsAction
      have hb : ([⟨0, u, x, .index⟩] : List (NVar K)).mapM (vnsBounds step) = .ok [(max 0 (x - step), min u (x + step))] := rfl
      rw [hb]
      simp only
      rw [if_pos (by omega)]
      rfl
    · simp [boundsOf]
  | succ k ih =>
    intro e he step x0
    obtain ⟨s', h1, h2⟩ := ih (e + 1) (by omega) (step + 1) (some (x0.getD [x]))
    refine ⟨s', ?_, ?_⟩
    · unfold vnsAction
      have hb : ([⟨0, u, x, .index⟩] : List (NVar K)).mapM (vnsBounds step) = .ok [(max 0 (x - step), min u (x + step))] := rfl
      rw [hb]
      simp only
      rw [if_neg (by omega), (hs _ _).1, if_neg (by decide), if_neg (by omega), (hs _ _).2]
      exact h1
    · rw [h2]
      push_cast
      rw [show step + 1 + (k : K) = step + (k + 1) by ring]

/-- C127, negation: if the inner solver finds nothing better, the variable keeps the bounds of the last neighbourhood: an index in the middle of a long list can from then
    on only be changed by eleven. -/
theorem C127_violation {solver : List (K × K) → List K → Inner K} {M : Nat} (hM : 10 ≤ M) {x u f : K} (hx : 11 < x) (hu : x + 11 < u)
    (hs : ∀ bs y, vnsAccepts f [x] (solver bs y) = false ∧ (solver bs y).values = [x]) (x0 : Option (List K)) :
    ∃ s', vnsTake solver M ⟨[⟨0, u, x, .index⟩], f, 0, 1, x0⟩ = .ok (s', none) ∧ boundsOf s'.vars = [(x - 11, x + 11)] := by
  obtain ⟨s', h1, h2⟩ := vns_narrow (u := u) hM hs 10 0 rfl 1 x0
  refine ⟨s', h1, ?_⟩
  rw [h2]
  have e : (1 : K) + (10 : Nat) = 11 := by norm_num
  rw [e, max_eq_right (by linarith), min_eq_right (by linarith)]

/-- C128: an action leads from the previous point to a design that is better than the best one known, and becomes the new start. Missing: better designs that
    are dropped (`C128_violation`). -/
theorem vnsAction_better {solver : List (K × K) → List K → Inner K} {M : Nat} {prev : List K} :
    ∀ (fuel : Nat) {s s' : Vns K} {a : List K}, vnsAction solver M prev fuel s = .ok (s', some a) →
      ∃ bs y, s'.fopt = (solver bs y).f ∧ (solver bs y).f < s.fopt ∧ s'.x0 = some (solver bs y).x ∧
        a = List.zipWith (· - ·) (solver bs y).x prev := by
  intro fuel
  induction fuel with
  | zero =>
    intro s s' a h
    have h := Except.ok.inj h
    simp at h
  | succ fuel ih =>
    intro s s' a h
    unfold vnsAction at h
    split at h
    · cases h
    · rename_i bs hbs
      simp only at h
      split at h
      · have h := Except.ok.inj h
        simp at h
      · split at h
        · rename_i hacc
          have h := Except.ok.inj h
          simp only [Prod.mk.injEq, Option.some.injEq] at h
          obtain ⟨h1, h2⟩ := h
          unfold vnsAccepts at hacc
          rw [Bool.and_eq_true, decide_eq_true_eq] at hacc
          refine ⟨bs, _, ?_, hacc.1, ?_, h2.symm⟩ <;> rw [← h1]
        · split at h
          · have h := Except.ok.inj h
            simp at h
          · obtain ⟨bs', y, h1, h2, h3⟩ := ih h
            exact ⟨bs', y, h1, h2, h3⟩

theorem C128_partial {solver : List (K × K) → List K → Inner K} {M : Nat} {s s' : Vns K} {a : List K}
    (h : vnsTake solver M s = .ok (s', some a)) :
    ∃ bs y, s'.fopt = (solver bs y).f ∧ (solver bs y).f < s.fopt ∧ s'.x0 = some (solver bs y).x ∧
      a = List.zipWith (· - ·) (solver bs y).x (s.vars.map (·.value)) := vnsAction_better 11 h

/-- C128, negation: designs of the inner solver that keep the value of a variable are dropped, however good they are: no action is given. -/
theorem vnsAction_drops {solver : List (K × K) → List K → Inner K} {M : Nat} {prev : List K}
    (hs : ∀ (bs : List (K × K)) (y : List K), ∃ (i : Nat) (v : K), (solver bs y).x[i]? = some v ∧ prev[i]? = some v) :
    ∀ (fuel : Nat) {s s' : Vns K} {a : Option (List K)}, vnsAction solver M prev fuel s = .ok (s', a) → a = none := by
  have hno : ∀ f bs y, vnsAccepts f prev (solver bs y) = false := by
    intro f bs y
    obtain ⟨i, v, h1, h2⟩ := hs bs y
    unfold vnsAccepts
    rw [Bool.and_eq_false_iff]
    right
    rw [Bool.eq_false_iff]
    intro hc
    have hm : false ∈ List.zipWith (fun a b => decide (a ≠ b)) (solver bs y).x prev := by
      refine List.mem_of_getElem? (i := i) ?_
      rw [List.getElem?_zipWith, h1, h2]
      simp
    exact Bool.false_ne_true (List.all_eq_true.1 hc false hm)
  intro fuel
  induction fuel with
  | zero =>
    intro s s' a h
    have h := Except.ok.inj h
    simp only [Prod.mk.injEq] at h
    exact h.2.symm
  | succ fuel ih =>
    intro s s' a h
    unfold vnsAction at h
    split at h
    · cases h
    · rename_i bs hbs
      simp only [hno, Bool.false_eq_true, if_false] at h
      split at h
      · have h := Except.ok.inj h
        simp only [Prod.mk.injEq] at h
        exact h.2.symm
      · split at h
        · have h := Except.ok.inj h
          simp only [Prod.mk.injEq] at h
          exact h.2.symm
        · exact ih h

theorem C128_violation {solver : List (K × K) → List K → Inner K} {M : Nat} {s s' : Vns K} {a : Option (List K)}
    (hs : ∀ (bs : List (K × K)) (y : List K), ∃ (i : Nat) (v : K), (solver bs y).x[i]? = some v ∧ (s.vars.map (·.value))[i]? = some v)
    (h : vnsTake solver M s = .ok (s', a)) : a = none := vnsAction_drops hs 11 h

/-! ### `TwoPhase` -/

variable [FloorRing K]

theorem slice_get {values : List K} {idx ll ul j : Nat} (h1 : idx - ll ≤ j) (h2 : j < idx + ul) {v : K} (hv : values[j]? = some v) :
    v ∈ (values.take (min values.length (idx + ul))).drop (idx - ll) := by
  have hj : j < values.length := by
    by_contra hc
    rw [List.getElem?_eq_none (by omega)] at hv
    cases hv
  refine List.mem_of_getElem? (i := j - (idx - ll)) ?_
  rw [List.getElem?_drop, show idx - ll + (j - (idx - ll)) = j by omega, List.getElem?_take, if_pos (by omega), hv]

/-- C129: with a positive upper limit, the second phase can choose the allowed value nearest to the solution of the first phase, `ll` values before and
    `ul - 1` values after it, and only allowed values. Missing: upper limit 0 (`C129_violation`), index variables (`C129_violation_index`). -/
theorem C129_partial {ll ul : Nat} (hul : 1 ≤ ul) {values : List K} (hne : values ≠ []) (x : K) :
    ∃ kept idx near, discretizeVar ll ul (.listed values) x = .ok (some kept) ∧ values[idx]? = some near ∧
      (∀ v ∈ values, (near - x) ^ 2 ≤ (v - x) ^ 2) ∧ near ∈ kept ∧ (∀ v ∈ kept, v ∈ values) ∧
      ∀ j v, values[j]? = some v → idx ≤ j + ll → j + 1 ≤ idx + ul → v ∈ kept := by
  obtain ⟨idx, hidx⟩ : ∃ idx, argminSq x values = .ok idx := by
    cases values with
    | nil => exact absurd rfl hne
    | cons v vs => exact ⟨_, rfl⟩
  obtain ⟨near, hn, hmin⟩ := argminSq_spec x hidx
  have hmem := slice_get (idx := idx) (ll := ll) (ul := ul) (j := idx) (by omega) (by omega) hn
  refine ⟨(values.take (min values.length (idx + ul))).drop (idx - ll), idx, near, ?_, hn, hmin, hmem, fun v hv => List.mem_of_mem_take (List.mem_of_mem_drop hv), fun j v hv h1 h2 =>
    slice_get (idx := idx) (j := j) (by omega) (by omega) hv⟩
  unfold discretizeVar
  simp only [hidx, bind, Except.bind, pure, Except.pure]
  rw [if_neg]
  rw [List.isEmpty_iff]
  intro hc
  rw [hc] at hmem
  cases hmem

/-- C129, negation: with the upper limit 0 the nearest value is not among those of the second phase. -/
theorem C129_violation {ll : Nat} {values kept : List K} (hnd : values.Pairwise (· < ·)) {x : K} {i : Nat} (hx : values[i]? = some x)
    (h : discretizeVar ll 0 (.listed values) x = .ok (some kept)) : x ∉ kept := by
  have hidx := argminSq_exact hnd hx
  unfold discretizeVar at h
  simp only [hidx, bind, Except.bind, pure, Except.pure] at h
  split at h
  · cases h
  · obtain rfl := Option.some.inj (Except.ok.inj h)
    intro hc
    have hc := List.mem_of_mem_drop hc
    obtain ⟨j, hj⟩ := List.mem_iff_getElem?.1 hc
    rw [List.getElem?_take] at hj
    split at hj
    · rename_i hlt
      have hjl : j < values.length := by omega
      have hil : i < values.length := by
        by_contra hcc
        rw [List.getElem?_eq_none (by omega)] at hx
        cases hx
      have := List.pairwise_iff_getElem.1 hnd j i hjl hil (by omega)
      rw [List.getElem?_eq_getElem hjl] at hj
      rw [List.getElem?_eq_getElem hil] at hx
      rw [Option.some.inj hj, Option.some.inj hx] at this
      exact absurd this (lt_irrefl _)
    · cases hj

/-- C129, negation: the values of an index variable are taken for positions: if all of them are larger than the number of values, the second phase raises. -/
theorem C129_violation_index (ll ul : Nat) {values : List K} (hne : values ≠ []) (hv : ∀ v ∈ values, (values.length : K) ≤ v) (x : K) :
    discretizeVar ll ul (.index values) x = .error .valueError := by
  obtain ⟨idx, hidx⟩ : ∃ idx, argminSq x values = .ok idx := by
    cases values with
    | nil => exact absurd rfl hne
    | cons v vs => exact ⟨_, rfl⟩
  obtain ⟨near, hn, _⟩ := argminSq_spec x hidx
  have hle := hv near (List.mem_of_getElem? hn)
  have h0 : (0 : K) ≤ near := le_trans (Nat.cast_nonneg _) hle
  have hfl : (values.length : Int) ≤ ⌊near⌋ := Int.le_floor.2 (by exact_mod_cast hle)
  have hpi : pyIndex values (pyInt near) = none := by
    unfold pyInt pyIndex
    rw [if_pos h0, if_pos (by omega)]
    exact List.getElem?_eq_none (by omega)
  unfold discretizeVar
  simp only [hidx, bind, Except.bind]
  unfold valueAt
  rw [hn]
  simp only
  unfold indexSubst
  rw [hpi]

/-! ### Examples -/

/-- A completed run (C125, C126). -/
example : ∃ f X, dvSolve (K := ℚ) twoProfiles [0] 1 [(false, [1])] = .ok (.objPoint f X) ∧ f = twoProfiles.obj X ∧ ∀ x ∈ X, 0 ≤ x ∧ x ≤ 1 :=
  ⟨2, [1], C125_violation (K := ℚ) |>.2.1, (C125_partial (K := ℚ) rfl (by decide) [0] 0 _ C125_violation.2.1).1,
    C126_violation (K := ℚ) rfl (by decide) [0] 0 _ C125_violation.2.1⟩

/-- Two iterations: the second design is better than the first (C125). -/
example : dvLoop (K := ℚ) ⟨fun X => 5 - X.sum, fun _ => [], [9]⟩ 1 [(false, [1]), (false, [2])] ⟨[0], 10000, []⟩ = .ok (.objPoint 4 [1]) ∧
    dvLoop (K := ℚ) ⟨fun X => 5 - X.sum, fun _ => [], [9]⟩ 2 [(false, [1]), (false, [2])] ⟨[0], 10000, []⟩ = .ok (.objPoint 2 [3]) := by
  constructor <;>
  · norm_num [dvLoop, dvSearch, dvStep, dvMove, dvSubst, dvAccepts, clippedSq]

/-- At the best of two profiles the solver does not return (C125). -/
example (ds : List (Bool × List Int)) (ht : ∀ d ∈ ds, d.1 = false) : dvLoop (K := ℚ) twoProfiles 3 ds ⟨[0], 1, []⟩ = .ok .none := by
  refine C125_violation_endless (u := 1) ⟨by decide, by simp [twoProfiles], by simp [twoProfiles]⟩ 2 _ (fun X _ _ => ?_) ds ht
  show (1 : ℚ) ≤ if X = [0] then 1 else 2
  split <;> norm_num

/-- A heavy structure (C125). -/
example (ds : List (Bool × List Int)) (ht : ∀ d ∈ ds, d.1 = false) :
    dvSolve (K := ℚ) ⟨fun _ => 12000, fun _ => [], [7, 7]⟩ [7, 7] 5 ds = .ok .none :=
  C125_violation_value (u := 7) ⟨by decide, by simp, by simp⟩ 4 _ (fun _ => by norm_num) ds ht

/-- The second list is shorter than the first (C126). -/
example : dvStep (K := ℚ) ⟨fun _ => 0, fun _ => [], [3, 1]⟩ ⟨[0, 1], 10000, []⟩ [0, 1] = .error .valueError :=
  C126_violation_raises (u := 3) rfl _ _ (q := (2, 1)) (by decide) (by decide)

/-- Equal lists (C126). -/
example : SameUb (K := ℚ) twoProfiles 1 := ⟨by decide, by simp [twoProfiles], by simp [twoProfiles]⟩

/-- An action is given (C127, C128). -/
example : ∃ s', vnsTake (K := ℚ) (fun _ _ => ⟨0, [1], [1]⟩) 10 ⟨[⟨0, 1, 0, .cont⟩], 5, 0, 1, none⟩ = .ok (s', some [1]) ∧
    boundsOf s'.vars = [(0, 1)] := by
  have h : ∃ s', vnsTake (K := ℚ) (fun _ _ => ⟨0, [1], [1]⟩) 10 ⟨[⟨0, 1, 0, .cont⟩], 5, 0, 1, none⟩ = .ok (s', some [1]) := by
    unfold vnsTake vnsAction
    have hb : ([⟨0, 1, 0, .cont⟩] : List (NVar ℚ)).mapM (vnsBounds 1) = .ok [(max 0 (0 - (1 - 0) / 10 * 1), min 1 (0 + (1 - 0) / 10 * 1))] := rfl
    simp only [hb]
    exact ⟨_, by simp [vnsAccepts]; rfl⟩
  obtain ⟨s', h⟩ := h
  exact ⟨s', h, C127_partial (fun _ _ => rfl) h⟩

/-- An inner solver without improvement (C127). -/
example : ∃ s', vnsTake (K := ℚ) (fun _ y => ⟨5, y, [50]⟩) 10 ⟨[⟨0, 100, 50, .index⟩], 5, 0, 1, none⟩ = .ok (s', none) ∧
    boundsOf s'.vars = [(50 - 11, 50 + 11)] :=
  C127_violation le_rfl (by norm_num) (by norm_num) (fun _ _ => ⟨by simp [vnsAccepts], rfl⟩) none

/-- A better design that changes one of two variables (C128). -/
example {s' : Vns ℚ} {a : Option (List ℚ)}
    (h : vnsTake (fun _ _ => ⟨0, [1, 7], [1, 7]⟩) 10 ⟨[⟨0, 1, 0, .cont⟩, ⟨0, 9, 7, .cont⟩], 5, 0, 1, none⟩ = .ok (s', a)) : a = none :=
  C128_violation (fun _ _ => ⟨1, 7, rfl, rfl⟩) h

/-- Three values (C129). -/
example : ∃ (kept : List ℚ) (idx : Nat) (near : ℚ), discretizeVar 1 3 (.listed [(10 : ℚ), 20, 30]) 21 = .ok (some kept) ∧ [(10 : ℚ), 20, 30][idx]? = some near ∧ near ∈ kept := by
  obtain ⟨kept, idx, near, h1, h2, _, h3, _⟩ := C129_partial (ll := 1) (ul := 3) (by decide) (values := [(10 : ℚ), 20, 30]) (by simp) 21
  exact ⟨kept, idx, near, h1, h2, h3⟩

/-- Upper limit 0 (C129). -/
example : discretizeVar 1 0 (.listed [(10 : ℚ), 20, 30]) 20 = .ok (some [10]) := by
  norm_num [discretizeVar, argminSq, argminFrom, bind, Except.bind, pure, Except.pure]

/-- Values of an index variable (C129). -/
example : discretizeVar 1 3 (.index [(10 : ℚ), 20, 30]) 21 = .error .valueError :=
  C129_violation_index 1 3 (by simp) (by norm_num) 21

end Metku.Opt
