import Mathlib.Tactic.Linarith
import Mathlib.Tactic.NormNum
import Mathlib.Tactic.GCongr
import Mathlib.Tactic.FieldSimp
import Mathlib.Analysis.InnerProductSpace.Basic
import Verif.Model.OptSolvers
import Verif.Props.OptPenalty

/-! Solvers that call a library, steepest descent, augmented Lagrangian and grid search (C253-C257). -/
namespace Metku.Solve

open Metku

/-! ### What a problem asks for -/

/-- A constraint value meets the type of the constraint. -/
def Sat (t : String) (v : ℝ) : Prop :=
  ((t = "<" ∨ t = "<=") → v ≤ 0) ∧ ((t = ">" ∨ t = ">=") → 0 ≤ v) ∧ (t = "=" → v = 0)

/-- A value is admissible for a variable. -/
def Admissible (v : SVar) (x : ℝ) : Prop :=
  v.lb ≤ x ∧ x ≤ v.ub ∧ match v.kind with
    | .plain => True
    | .integer => ∃ n : ℤ, x = n
    | .binary => x = 0 ∨ x = 1
    | .discrete vs => x ∈ vs

/-- Designs of a problem: one value for each free variable, within its bounds, meeting all constraints. -/
def Feasible (p : Problem) (x : List ℝ) : Prop :=
  List.Forall₂ Admissible p.free x ∧ ∀ c ∈ p.cons, Sat c.type (c.value p.vars x)

/-- Best designs for the objective `c'x`. -/
def IsOptimal (p : Problem) (c : List ℝ) (objType : String) (x : List ℝ) : Prop :=
  Feasible p x ∧ ∀ y, Feasible p y →
    if objType = "MIN" then dot c (fullPoint p.vars x) ≤ dot c (fullPoint p.vars y)
    else dot c (fullPoint p.vars y) ≤ dot c (fullPoint p.vars x)

/-! ### C253: linear and mixed-integer programs -/

/-- Solutions of a linear model. -/
def LinModel.Holds (m : LinModel) (x : List ℝ) : Prop :=
  List.Forall₂ (fun b xi => b.1 ≤ xi ∧ xi ≤ b.2) m.bounds x ∧
  List.Forall₂ (fun b xi => b = true → xi = 0 ∨ xi = 1) m.binary x ∧
  ∀ r ∈ m.rows, match r.2.1 with
    | .le => dot r.1 x ≤ r.2.2
    | .ge => r.2.2 ≤ dot r.1 x
    | .eq => dot r.1 x = r.2.2

/-- What is assumed of the library: it solves the model it is given. -/
def CorrectEngine (e : LinModel → Answer) : Prop :=
  ∀ m, match e m with
    | .optimal x => m.Holds x ∧ ∀ y, m.Holds y → if m.minimise then dot m.c x ≤ dot m.c y else dot m.c y ≤ dot m.c x
    | .infeasible => ∀ x, ¬ m.Holds x
    | .other => True

theorem full_free {vars : List SVar} (h : ∀ v ∈ vars, v.locked = false) {x : List ℝ} (hx : x.length = vars.length) :
    fullPoint vars x = x := by
  induction vars generalizing x with
  | nil => simp at hx; subst hx; rfl
  | cons v vs ih =>
    cases x with
    | nil => simp at hx
    | cons x0 xs =>
      unfold fullPoint
      rw [if_neg (by simp [h v (by simp)])]
      simp only [List.cons.injEq, true_and]
      exact ih (fun w hw => h w (by simp [hw])) (by simpa using hx)

theorem free_all {p : Problem} (h : ∀ v ∈ p.vars, v.locked = false) : p.free = p.vars := by
  unfold Problem.free
  rw [List.filter_eq_self]
  intro v hv
  simp [h v hv]

/-- A problem the linear solvers are made for: no locked variables, linear constraints with one coefficient for each
    variable and one of the three documented types. -/
structure LinearProblem (p : Problem) (c : List ℝ) : Prop where
  unlocked : ∀ v ∈ p.vars, v.locked = false
  costs : c.length = p.vars.length
  linear : ∀ k ∈ p.cons, ∃ a b t, k = .linear a b t ∧ a.length = p.vars.length ∧ (t = "<" ∨ t = ">" ∨ t = "=")

theorem rows_hold {p : Problem} {c : List ℝ} (h : LinearProblem p c) {x : List ℝ} (hx : x.length = p.vars.length) :
    (∀ r ∈ rowsOf p.cons, match r.2.1 with
      | .le => dot r.1 x ≤ r.2.2
      | .ge => r.2.2 ≤ dot r.1 x
      | .eq => dot r.1 x = r.2.2) ↔ ∀ k ∈ p.cons, Sat k.type (k.value p.vars x) := by
  have key : ∀ a b t, (t = "<" ∨ t = ">" ∨ t = "=") → ((match senseOf t with
      | .le => dot a x ≤ b
      | .ge => b ≤ dot a x
      | .eq => dot a x = b) ↔ Sat t (dot a x - b)) := by
    rintro a b t (rfl | rfl | rfl) <;> simp [senseOf, Sat, sub_eq_zero]
  have hf := full_free h.unlocked hx
  constructor
  · intro hr k hk
    obtain ⟨a, b, t, rfl, -, ht⟩ := h.linear k hk
    have := hr (a, senseOf t, b) (List.mem_filterMap.2 ⟨_, hk, rfl⟩)
    simp only [SCon.type, SCon.value, hf]
    exact (key a b t ht).1 this
  · intro hs r hr
    obtain ⟨k, hk, hkr⟩ := List.mem_filterMap.1 hr
    obtain ⟨a, b, t, rfl, -, ht⟩ := h.linear k hk
    simp only [Option.some.injEq] at hkr
    subst hkr
    have := hs _ hk
    simp only [SCon.type, SCon.value, hf] at this
    exact (key a b t ht).2 this

theorem forall₂_map_left {α β γ : Type} {R : β → γ → Prop} {f : α → β} {l : List α} {m : List γ} :
    List.Forall₂ R (l.map f) m ↔ List.Forall₂ (fun a c => R (f a) c) l m := List.forall₂_map_left_iff

theorem forall₂_and {α β : Type} {R S : α → β → Prop} {l : List α} {m : List β} :
    (List.Forall₂ R l m ∧ List.Forall₂ S l m) ↔ List.Forall₂ (fun a b => R a b ∧ S a b) l m := by
  constructor
  · rintro ⟨h1, h2⟩
    induction h1 with
    | nil => exact .nil
    | cons h _ ih => cases h2 with | cons h' t' => exact .cons ⟨h, h'⟩ (ih t')
  · intro h
    exact ⟨h.imp fun _ _ => And.left, h.imp fun _ _ => And.right⟩

theorem forall₂_congr {α β : Type} {R S : α → β → Prop} {l : List α} {m : List β}
    (h : ∀ a ∈ l, ∀ b, R a b ↔ S a b) : List.Forall₂ R l m ↔ List.Forall₂ S l m := by
  induction l generalizing m with
  | nil => simp
  | cons a l ih =>
    cases m with
    | nil => simp
    | cons b m =>
      rw [List.forall₂_cons, List.forall₂_cons, h a (by simp) b, ih fun a' ha' b' => h a' (by simp [ha']) b']

/-- The linear model has the designs of the problem as its solutions. -/
theorem holds_iff (milp : Bool) {p : Problem} {c : List ℝ} (h : LinearProblem p c)
    (hk : ∀ v ∈ p.vars, v.kind = .plain ∨ milp = true ∧ v.kind = .binary) (objType : String) (x : List ℝ) :
    (linModel milp p c objType).Holds x ↔ Feasible p x := by
  unfold LinModel.Holds Feasible linModel
  dsimp only
  rw [free_all h.unlocked, forall₂_map_left, forall₂_map_left, ← and_assoc, forall₂_and]
  have e : List.Forall₂ (fun (v : SVar) (xi : ℝ) => (v.lb ≤ xi ∧ xi ≤ v.ub) ∧ ((milp && match v.kind with
      | .binary => true
      | _ => false) = true → xi = 0 ∨ xi = 1)) p.vars x ↔ List.Forall₂ Admissible p.vars x := by
    apply forall₂_congr
    intro v hv xi
    unfold Admissible
    rcases hk v hv with hp | ⟨hm, hb⟩
    · rw [hp]; simp
    · rw [hb, hm]; simp [and_assoc]
  refine (and_congr e Iff.rfl).trans ?_
  constructor
  · rintro ⟨h1, h2⟩
    exact ⟨h1, (rows_hold h h1.length_eq.symm).1 h2⟩
  · rintro ⟨h1, h2⟩
    exact ⟨h1, (rows_hold h h1.length_eq.symm).2 h2⟩

theorem optimal_of (milp : Bool) {p : Problem} {c : List ℝ} (h : LinearProblem p c)
    (hk : ∀ v ∈ p.vars, v.kind = .plain ∨ milp = true ∧ v.kind = .binary) {objType : String} {e : LinModel → Answer}
    (he : CorrectEngine e) {x : List ℝ} (hx : e (linModel milp p c objType) = .optimal x) : IsOptimal p c objType x := by
  have := he (linModel milp p c objType)
  rw [hx] at this
  obtain ⟨h1, h2⟩ := this
  rw [holds_iff milp h hk] at h1
  refine ⟨h1, fun y hy => ?_⟩
  have hy' := h2 y ((holds_iff milp h hk objType y).2 hy)
  have l1 : x.length = p.vars.length := by rw [← free_all h.unlocked]; exact h1.1.length_eq.symm
  have l2 : y.length = p.vars.length := by rw [← free_all h.unlocked]; exact hy.1.length_eq.symm
  rw [full_free h.unlocked l1, full_free h.unlocked l2]
  simpa [linModel] using hy'

/-- Linear programs: with a library that solves its model, the stored design is optimal for the problem, and designs are
    reported exactly when the library found an optimum. -/
theorem C253_lp_partial {p : Problem} {c : List ℝ} (h : LinearProblem p c) (hk : ∀ v ∈ p.vars, v.kind = .plain)
    (objType : String) {e : LinModel → Answer} (he : CorrectEngine e) :
    (∀ r, solveGurobi false e p c objType = .ok r → IsOptimal p c objType r.X ∧ r.feasible = true) ∧
    (∀ r, solveOrtools e p c objType = r → r.X ≠ [] → IsOptimal p c objType r.X) ∧
    ((∀ x, ¬ Feasible p x) → solveGurobi false e p c objType = .error .attributeError ∧ (solveOrtools e p c objType).X = []) := by
  have hk' : ∀ v ∈ p.vars, v.kind = .plain ∨ false = true ∧ v.kind = .binary := fun v hv => .inl (hk v hv)
  have hlen : ¬ (c.length ≠ p.free.length ∨ ∃ r ∈ (linModel false p c objType).rows, r.1.length ≠ p.free.length) := by
    rw [free_all h.unlocked]
    rintro (hc | ⟨r, hr, hrl⟩)
    · exact hc h.costs
    · obtain ⟨k, hk, hkr⟩ := List.mem_filterMap.1 hr
      obtain ⟨a, b, t, rfl, hl, -⟩ := h.linear k hk
      simp only [Option.some.injEq] at hkr
      subst hkr
      exact hrl hl
  refine ⟨?_, ?_, ?_⟩
  · intro r hr
    unfold solveGurobi at hr
    dsimp only at hr
    rw [if_neg hlen] at hr
    cases hx : e (linModel false p c objType) with
    | optimal x =>
      rw [hx] at hr
      obtain rfl := Except.ok.inj hr
      exact ⟨optimal_of false h hk' he hx, rfl⟩
    | infeasible => rw [hx] at hr; cases hr
    | other => rw [hx] at hr; cases hr
  · rintro r rfl hne
    unfold solveOrtools at hne ⊢
    cases hx : e (linModel false p c objType) with
    | optimal x => exact optimal_of false h hk' he hx
    | infeasible => rw [hx] at hne; exact absurd rfl hne
    | other => rw [hx] at hne; exact absurd rfl hne
  · intro hinf
    have hno : ∀ x, e (linModel false p c objType) ≠ .optimal x := fun x hx => hinf x (optimal_of false h hk' he hx).1
    unfold solveGurobi solveOrtools
    dsimp only
    rw [if_neg hlen]
    cases hx : e (linModel false p c objType) with
    | optimal x => exact absurd hx (hno x)
    | infeasible => exact ⟨rfl, rfl⟩
    | other => exact ⟨rfl, rfl⟩

/-- Mixed-integer programs whose variables are continuous or binary: the stored design is optimal. -/
theorem C253_milp_partial {p : Problem} {c : List ℝ} (h : LinearProblem p c)
    (hk : ∀ v ∈ p.vars, v.kind = .plain ∨ v.kind = .binary) (objType : String) {e : LinModel → Answer} (he : CorrectEngine e)
    (r : LinResult) (hr : solveGurobi true e p c objType = .ok r) : IsOptimal p c objType r.X ∧ r.feasible = true := by
  unfold solveGurobi at hr
  dsimp only at hr
  split at hr
  · cases hr
  · cases hx : e (linModel true p c objType) with
    | optimal x =>
      rw [hx] at hr
      obtain rfl := Except.ok.inj hr
      exact ⟨optimal_of true h (fun v hv => (hk v hv).imp_right fun hb => ⟨rfl, hb⟩) he hx, rfl⟩
    | infeasible => rw [hx] at hr; cases hr
    | other => rw [hx] at hr; cases hr

/-- Nonlinear constraints are dropped without a word: the answer is the same with and without them. -/
theorem C253_violation_nonlinear (milp : Bool) (e : LinModel → Answer) (p : Problem) (c : List ℝ) (objType : String)
    (g : List ℝ → ℝ) (t : String) :
    solveGurobi milp e ⟨p.vars, .nonlinear g t :: p.cons⟩ c objType = solveGurobi milp e p c objType ∧
    solveOrtools e ⟨p.vars, .nonlinear g t :: p.cons⟩ c objType = solveOrtools e p c objType := ⟨rfl, rfl⟩

/-- The types `<=` and `>=`, which other solvers accept, are treated as equations. -/
theorem C253_violation_types (milp : Bool) (e : LinModel → Answer) (p : Problem) (c : List ℝ) (objType : String)
    (a : List ℝ) (b : ℝ) (t : String) (h1 : t ≠ "<") (h2 : t ≠ ">") :
    solveGurobi milp e ⟨p.vars, .linear a b t :: p.cons⟩ c objType =
      solveGurobi milp e ⟨p.vars, .linear a b "=" :: p.cons⟩ c objType ∧
    solveOrtools e ⟨p.vars, .linear a b t :: p.cons⟩ c objType =
      solveOrtools e ⟨p.vars, .linear a b "=" :: p.cons⟩ c objType := by
  have hm : ∀ milp, linModel milp ⟨p.vars, .linear a b t :: p.cons⟩ c objType =
      linModel milp ⟨p.vars, .linear a b "=" :: p.cons⟩ c objType := by
    intro milp
    unfold linModel rowsOf
    simp [senseOf, h1, h2, Problem.free]
  constructor
  · unfold solveGurobi
    rw [hm]
    rfl
  · unfold solveOrtools
    rw [hm]

/-- Integer and discrete variables are relaxed: they make no difference to the answer. -/
theorem C253_violation_integer (milp : Bool) (e : LinModel → Answer) (p : Problem) (c : List ℝ) (objType : String) (v : SVar)
    (k : Kind) (hk : k ≠ .binary) :
    solveGurobi milp e ⟨{ v with kind := k } :: p.vars, p.cons⟩ c objType =
      solveGurobi milp e ⟨{ v with kind := .plain } :: p.vars, p.cons⟩ c objType := by
  have hm : linModel milp ⟨{ v with kind := k } :: p.vars, p.cons⟩ c objType =
      linModel milp ⟨{ v with kind := .plain } :: p.vars, p.cons⟩ c objType := by
    unfold linModel Problem.free
    cases hv : v.locked <;> cases k <;> simp_all
  have hn : (⟨{ v with kind := k } :: p.vars, p.cons⟩ : Problem).free.length =
      (⟨{ v with kind := .plain } :: p.vars, p.cons⟩ : Problem).free.length := by
    unfold Problem.free
    cases hv : v.locked <;> simp
  unfold solveGurobi
  rw [hm, hn]

/-- With a locked variable the rows are matched with the wrong variables: `x1` locked at 5, `x1 + 2*x2 <= 15` and
    `x2 <= 10`, maximise `x1 + x2`.  Every library that solves its model gives `x2 = 10`, which breaks the constraint. -/
theorem C253_violation_locked (e : LinModel → Answer) (he : CorrectEngine e) (x : List ℝ) :
    let p : Problem := ⟨[⟨0, 10, 5, true, .plain⟩, ⟨0, 10, 0, false, .plain⟩], [.linear [1, 2] 15 "<"]⟩
    e (linModel false p [1, 1] "MAX") = .optimal x →
      (solveOrtools e p [1, 1] "MAX").X = [10] ∧ ¬ Feasible p [10] := by
  intro p hx
  have hm := he (linModel false p [1, 1] "MAX")
  rw [hx] at hm
  have hp : linModel false p [1, 1] "MAX" = ⟨[(0, 10)], [false], [1, 1], false, [([1, 2], .le, 15)]⟩ := by
    simp [p, linModel, Problem.free, rowsOf, senseOf]
  rw [hp] at hm
  obtain ⟨h1, h2⟩ := hm
  have h10 : LinModel.Holds ⟨[(0, 10)], [false], [1, 1], false, [([1, 2], .le, 15)]⟩ [10] := by
    refine ⟨by norm_num, by simp, ?_⟩
    intro r hr
    simp at hr
    subst hr
    norm_num [dot]
  have := h2 [10] h10
  obtain ⟨hb, -, -⟩ := h1
  cases hb with
  | cons hb ht =>
    rename_i x0 xs
    cases ht
    norm_num [dot] at this
    have e0 : x0 = 10 := le_antisymm hb.2 this
    subst e0
    constructor
    · unfold solveOrtools
      rw [hx]
    · rintro ⟨-, hc⟩
      have := (hc _ (List.mem_singleton.2 rfl)).1 (.inl rfl)
      norm_num [SCon.value, fullPoint, dot, p] at this

/-- OR-tools: a new solver reports "not feasible" whatever the library found. -/
theorem C253_violation_flag (e : LinModel → Answer) (p : Problem) (c : List ℝ) (objType : String) :
    (solveOrtools e p c objType).feasible = false := by
  unfold solveOrtools
  split <;> rfl

/-! ### C254: SciPy solvers -/

/-- Points SciPy accepts. -/
def ScipyProblem.Holds (q : ScipyProblem) (x : List ℝ) : Prop :=
  (∀ b, q.bounds = some b → List.Forall₂ (fun b xi => b.1 ≤ xi ∧ xi ≤ b.2) b x) ∧
  (∀ h ∈ q.eqs, h x = 0) ∧ ∀ g ∈ q.ineqs, 0 ≤ g x

/-- Bounds and constraints of a problem, for continuous variables. -/
def Meets (p : Problem) (x : List ℝ) : Prop :=
  List.Forall₂ (fun (v : SVar) xi => v.lb ≤ xi ∧ xi ≤ v.ub) p.free x ∧ ∀ c ∈ p.cons, Sat c.type (c.value p.vars x)

theorem cons_iff (p : Problem) (x : List ℝ) :
    ((∀ h ∈ eqCons p, h x = 0) ∧ ∀ g ∈ ineqCons p, 0 ≤ g x) ↔ ∀ c ∈ p.cons, Sat c.type (c.value p.vars x) := by
  constructor
  · rintro ⟨h1, h2⟩ c hc
    refine ⟨fun ht => ?_, fun ht => ?_, fun ht => ?_⟩
    · have := h2 _ (List.mem_filterMap.2 ⟨c, hc, if_pos ht⟩)
      linarith
    · have hn : ¬ (c.type = "<" ∨ c.type = "<=") := by rcases ht with ht | ht <;> rw [ht] <;> decide
      have := h2 _ (List.mem_filterMap.2 ⟨c, hc, (if_neg hn).trans (if_pos ht)⟩)
      exact this
    · exact h1 _ (List.mem_filterMap.2 ⟨c, hc, if_pos ht⟩)
  · intro h
    constructor
    · intro g hg
      obtain ⟨c, hc, hcg⟩ := List.mem_filterMap.1 hg
      split at hcg
      · rename_i ht
        obtain rfl := Option.some.inj hcg
        exact (h c hc).2.2 ht
      · cases hcg
    · intro g hg
      obtain ⟨c, hc, hcg⟩ := List.mem_filterMap.1 hg
      split at hcg
      · rename_i ht
        obtain rfl := Option.some.inj hcg
        exact neg_nonneg.2 ((h c hc).1 ht)
      · split at hcg
        · rename_i ht
          obtain rfl := Option.some.inj hcg
          exact (h c hc).2.1 ht
        · cases hcg

/-- SLSQP: with a library whose successes are points of the problem it was given, a solver that reports "feasible" holds a
    design within bounds that meets every constraint, together with its objective value; locked variables keep their
    values. -/
theorem C254_slsqp (minimize : ScipyProblem → (List ℝ → ℝ) → List ℝ → ScipyResult)
    (hlib : ∀ q f x0, (minimize q f x0).f = f (minimize q f x0).x ∧ ((minimize q f x0).success = true → q.Holds (minimize q f x0).x))
    (p : Problem) (obj : List ℝ → ℝ) (x0 : Option (List ℝ)) :
    (slsqp minimize p obj x0).bestF = obj (fullPoint p.vars (slsqp minimize p obj x0).bestX) ∧
    ((slsqp minimize p obj x0).feasible = true → Meets p (slsqp minimize p obj x0).bestX) := by
  unfold slsqp
  obtain ⟨h1, h2⟩ := hlib ⟨some (boundsOf p), eqCons p, ineqCons p⟩ (fun x => obj (fullPoint p.vars x)) (startPoint p x0)
  refine ⟨h1, fun h => ?_⟩
  obtain ⟨hb, he, hi⟩ := h2 h
  exact ⟨forall₂_map_left.1 (hb _ rfl), (cons_iff p _).1 ⟨he, hi⟩⟩

/-- And nothing is lost: every design of the problem is a point of the problem given to the library. -/
theorem C254_slsqp_complete (p : Problem) (x : List ℝ) (h : Meets p x) :
    ScipyProblem.Holds ⟨some (boundsOf p), eqCons p, ineqCons p⟩ x := by
  obtain ⟨he, hi⟩ := (cons_iff p x).2 h.2
  refine ⟨fun b hb => ?_, he, hi⟩
  obtain rfl := Option.some.inj hb
  exact forall₂_map_left.2 h.1

/-- COBYLA: constraints are kept, but bounds are not passed on; the answer does not depend on lower bounds at all. -/
theorem C254_violation_cobyla (minimize : ScipyProblem → (List ℝ → ℝ) → List ℝ → ScipyResult) (p : Problem)
    (obj : List ℝ → ℝ) (x0 : Option (List ℝ)) (lb : SVar → ℝ) :
    cobyla minimize ⟨p.vars.map fun v => { v with lb := lb v }, p.cons⟩ obj x0 = cobyla minimize p obj x0 := by
  have hf : ∀ (vs : List SVar) x, fullPoint (vs.map fun v => { v with lb := lb v }) x = fullPoint vs x := by
    intro vs
    induction vs with
    | nil => intro x; rfl
    | cons v vs ih =>
      intro x
      simp only [List.map_cons, fullPoint]
      split
      · rw [ih]
      · cases x with
        | nil => rfl
        | cons x0 xs => simp only [ih]
  have hv : ∀ (c : SCon) x, c.value (p.vars.map fun v => { v with lb := lb v }) x = c.value p.vars x := by
    intro c x
    cases c <;> simp only [SCon.value, hf]
  have hs : startPoint ⟨p.vars.map fun v => { v with lb := lb v }, p.cons⟩ x0 = startPoint p x0 := by
    unfold startPoint Problem.free
    dsimp only
    rw [List.filter_map, List.map_map]
    rfl
  unfold cobyla
  rw [hs]
  unfold eqCons ineqCons
  simp only [hv, hf]

/-- Points accepted by the trust-region method. -/
def Interval.Holds (i : Interval) (x : List ℝ) : Prop :=
  (∀ l, i.lo = some l → l ≤ i.f x) ∧ ∀ u, i.hi = some u → i.f x ≤ u

theorem trust_iff (p : Problem) (hu : ∀ v ∈ p.vars, v.locked = false) (x : List ℝ) (hx : x.length = p.vars.length) (c : SCon) :
    (trustCon p c).Holds x ↔ Sat c.type (c.value p.vars x) := by
  have key : ∀ (t : String) (z v : ℝ), ((∀ l, (if t = "<" ∨ t = "<=" then ((none, some z) : Option ℝ × Option ℝ)
      else if t = ">" ∨ t = ">=" then (some z, none) else if t = "=" then (some z, some z) else (none, none)).1 = some l →
      l ≤ v) ∧ ∀ u, (if t = "<" ∨ t = "<=" then ((none, some z) : Option ℝ × Option ℝ)
      else if t = ">" ∨ t = ">=" then (some z, none) else if t = "=" then (some z, some z) else (none, none)).2 = some u →
      v ≤ u) ↔ Sat t (v - z) := by
    intro t z v
    unfold Sat
    by_cases h1 : t = "<" ∨ t = "<="
    · have h2 : ¬ (t = ">" ∨ t = ">=") := by rcases h1 with rfl | rfl <;> decide
      have h3 : t ≠ "=" := by rcases h1 with rfl | rfl <;> decide
      simp [h1, h2, h3]
    · by_cases h2 : t = ">" ∨ t = ">="
      · have h3 : t ≠ "=" := by rcases h2 with rfl | rfl <;> decide
        simp [h1, h2, h3]
      · by_cases h3 : t = "="
        · subst h3
          simp [sub_eq_zero]
          exact ⟨fun h => le_antisymm h.2 h.1, fun h => ⟨h.ge, h.le⟩⟩
        · simp [h1, h2, h3]
  cases c with
  | linear a b t =>
    have := key t b (dot a x)
    simp only [SCon.value, full_free hu hx, SCon.type]
    rw [← this]
    rfl
  | nonlinear g t =>
    have := key t 0 (g (fullPoint p.vars x))
    rw [sub_zero] at this
    simp only [SCon.value, SCon.type]
    rw [← this]
    rfl

/-- Trust region, no locked variables: with a library that returns points within the bounds and a true largest violation, a
    design reported as feasible breaks no constraint by more than the tolerance; with zero violation it meets them all. -/
theorem C254_trust_partial
    (minimize : List Interval → List (ℝ × ℝ) → (List ℝ → ℝ) → List ℝ → Option TrustResult)
    (hlib : ∀ is bs f x0 r, minimize is bs f x0 = some r → r.f = f r.x ∧
      List.Forall₂ (fun (b : ℝ × ℝ) xi => b.1 ≤ xi ∧ xi ≤ b.2) bs r.x ∧
      ∀ i ∈ is, (∀ l, i.lo = some l → l - i.f r.x ≤ r.violation) ∧ ∀ u, i.hi = some u → i.f r.x - u ≤ r.violation)
    (p : Problem) (hu : ∀ v ∈ p.vars, v.locked = false) (obj : List ℝ → ℝ) (x0 : Option (List ℝ)) (f : ℝ)
    (hf : (trust minimize p obj x0).bestF = some f) :
    f = obj (fullPoint p.vars (trust minimize p obj x0).bestX) ∧
    ((trust minimize p obj x0).feasible = true → ∀ c ∈ p.cons,
      (c.type = "<" ∨ c.type = "<=" → c.value p.vars (trust minimize p obj x0).bestX ≤ 1e-8) ∧
      (c.type = ">" ∨ c.type = ">=" → -1e-8 ≤ c.value p.vars (trust minimize p obj x0).bestX) ∧
      (c.type = "=" → |c.value p.vars (trust minimize p obj x0).bestX| ≤ 1e-8)) := by
  unfold trust at hf ⊢
  cases hm : minimize (p.cons.map (trustCon p)) (boundsOf p) (fun x => obj (fullPoint p.vars x)) (startPoint p x0) with
  | none => rw [hm] at hf; cases hf
  | some r =>
    rw [hm] at hf
    obtain ⟨h1, h2, h3⟩ := hlib _ _ _ _ _ hm
    have hlen : r.x.length = p.vars.length := by
      rw [← h2.length_eq, boundsOf, List.length_map, free_all hu]
    refine ⟨(Option.some.inj hf).symm.trans h1, ?_⟩
    intro hfe c hc
    have hfe : r.violation ≤ 1e-8 := of_decide_eq_true hfe
    obtain ⟨hl, hr⟩ := h3 _ (List.mem_map.2 ⟨c, hc, rfl⟩)
    dsimp only
    cases c with
    | linear a b t =>
      simp only [SCon.value, full_free hu hlen, SCon.type]
      simp only [trustCon, SCon.type] at hl hr
      refine ⟨fun ht => ?_, fun ht => ?_, fun ht => ?_⟩
      · have := hr b (by simp [ht])
        linarith
      · have hn : ¬ (t = "<" ∨ t = "<=") := by rcases ht with rfl | rfl <;> decide
        have := hl b (by simp [hn, ht])
        linarith
      · subst ht
        have h1 := hl b (by simp)
        have h2 := hr b (by simp)
        rw [abs_le]
        constructor <;> linarith
    | nonlinear g t =>
      simp only [SCon.value, SCon.type]
      simp only [trustCon, SCon.type, SCon.value] at hl hr
      refine ⟨fun ht => ?_, fun ht => ?_, fun ht => ?_⟩
      · have := hr 0 (by simp [ht])
        linarith
      · have hn : ¬ (t = "<" ∨ t = "<=") := by rcases ht with rfl | rfl <;> decide
        have := hl 0 (by simp [hn, ht])
        linarith
      · subst ht
        have h1 := hl 0 (by simp)
        have h2 := hr 0 (by simp)
        rw [abs_le]
        constructor <;> linarith

/-- And every design of the problem is accepted by the constraints given to the library. -/
theorem C254_trust_complete_partial (p : Problem) (hu : ∀ v ∈ p.vars, v.locked = false) (x : List ℝ) (h : Meets p x) :
    ∀ i ∈ p.cons.map (trustCon p), i.Holds x := by
  intro i hi
  obtain ⟨c, hc, rfl⟩ := List.mem_map.1 hi
  refine (trust_iff p hu x ?_ c).2 (h.2 c hc)
  rw [← h.1.length_eq, free_all hu]

/-- After an exception in the library the solver reports the start point with an objective value of minus infinity, below
    that of every design. -/
theorem C254_violation_trust (minimize : List Interval → List (ℝ × ℝ) → (List ℝ → ℝ) → List ℝ → Option TrustResult)
    (p : Problem) (obj : List ℝ → ℝ) (x0 : List ℝ)
    (h : minimize (p.cons.map (trustCon p)) (boundsOf p) (fun x => obj (fullPoint p.vars x)) x0 = none) :
    (trust minimize p obj (some x0)).bestF = none ∧ (trust minimize p obj (some x0)).bestX = x0 ∧
    (trust minimize p obj (some x0)).feasible = false := by
  unfold trust
  have hs : startPoint p (some x0) = x0 := rfl
  rw [hs, h]
  exact ⟨rfl, rfl, rfl⟩

/-- Linear constraints of a problem with a locked variable: `x1` locked at 5 and `x1 + 2*x2 <= 15`; the row given to the
    library accepts `x2 = 10`. -/
theorem C254_violation_locked :
    let p : Problem := ⟨[⟨0, 10, 5, true, .plain⟩, ⟨0, 10, 0, false, .plain⟩], [.linear [1, 2] 15 "<"]⟩
    (∀ i ∈ p.cons.map (trustCon p), i.Holds [10]) ∧ ¬ Meets p [10] := by
  constructor
  · intro i hi
    simp only [List.map_cons, List.map_nil, List.mem_singleton] at hi
    subst hi
    simp [Interval.Holds, trustCon, SCon.type, dot]
    norm_num
  · rintro ⟨-, hc⟩
    have := (hc _ (List.mem_singleton.2 rfl)).1 (.inl rfl)
    norm_num [SCon.value, fullPoint, dot] at this

/-! ### C255: steepest descent -/

section Steepest
variable {V : Type} [NormedAddCommGroup V] [NormedSpace ℝ V]

/-- What holds at the head of pass `k`. -/
structure Good (obj : V → ℝ) (x0 : V) (k : Nat) (s : Descent V) : Prop where
  len : s.xs.length = k + 1
  first : s.xs.getLast? = some x0
  values : s.fs = s.xs.map obj
  falling : s.fs.Pairwise (· ≤ ·)

theorem pass_good {obj : V → ℝ} {grad : V → V} {search : (ℝ → ℝ) → Bool × ℝ}
    (hok : ∀ x d : V, (search fun a => obj (x + a • d)).1 = true)
    (hdesc : ∀ x d : V, obj (x + (search fun a => obj (x + a • d)).2 • d) ≤ obj x) {x0 : V} {k : Nat} {s : Descent V} (h : Good obj x0 k s) :
    (∃ x xs, s.xs = x :: xs ∧ ‖grad x‖ < 1e-8 ∧ descentPass obj grad search k s = .ok (s, true)) ∨
    ∃ s', Good obj x0 (k + 1) s' ∧ descentPass obj grad search k s = .ok (s', decide (s'.fstop = 2)) := by
  obtain ⟨x, xs, hxs⟩ : ∃ x xs, s.xs = x :: xs := by
    cases hx : s.xs with
    | nil => have := h.len; rw [hx] at this; simp at this
    | cons x xs => exact ⟨x, xs, rfl⟩
  have hxk : s.xk k = .ok x := by
    have hl := h.len
    rw [hxs] at hl
    simp at hl
    unfold Descent.xk
    rw [hxs]
    simp [hl]
  have hfs : s.fs = obj x :: xs.map obj := by rw [h.values, hxs]; rfl
  unfold descentPass
  simp only [hxk, bind, Except.bind, pure, Except.pure]
  by_cases hg : ‖grad x‖ < 1e-8
  · left
    exact ⟨x, xs, hxs, hg, by rw [if_pos hg]⟩
  · right
    rw [if_neg hg]
    generalize hd : -((1 / ‖grad x‖) • grad x) = d
    have hr := hok x d
    have hdes := hdesc x d
    generalize search (fun a => obj (x + a • d)) = r at hr hdes
    simp only [hr, if_true, hfs]
    have hbase : ∀ n, Good obj x0 (k + 1)
        ⟨(x + r.2 • d) :: s.xs, obj (x + r.2 • d) :: obj x :: xs.map obj, n⟩ := by
      intro n
      refine ⟨by simp [h.len], ?_, ?_, ?_⟩
      · have := h.first
        rw [hxs] at this ⊢
        simpa using this
      · simp [hxs]
      · have hp := h.falling
        rw [hfs] at hp
        refine List.Pairwise.cons ?_ hp
        intro f hf
        rcases List.mem_cons.1 hf with rfl | hf
        · exact hdes
        · exact hdes.trans ((List.pairwise_cons.1 hp).1 f hf)
    split
    · exact ⟨_, hbase (s.fstop + 1), rfl⟩
    · exact ⟨_, hbase s.fstop, rfl⟩

/-- Steepest descent with a line search that always succeeds and never goes uphill: the method ends without an exception;
    iterates and values belong together; the first iterate is the start point; the objective never grows; there are at most
    `maxiter` steps, and if there are fewer, the gradient at the last iterate is (nearly) zero or two steps brought next to
    nothing. -/
theorem C255_descent_partial (obj : V → ℝ) (grad : V → V) (search : (ℝ → ℝ) → Bool × ℝ)
    (hok : ∀ x d : V, (search fun a => obj (x + a • d)).1 = true)
    (hdesc : ∀ x d : V, obj (x + (search fun a => obj (x + a • d)).2 • d) ≤ obj x) (x0 : V) (maxiter : Nat) :
    ∃ s k, descent obj grad search x0 maxiter = .ok s ∧ Good obj x0 k s ∧ k ≤ maxiter ∧
      (k = maxiter ∨ s.fstop = 2 ∨ ∃ x xs, s.xs = x :: xs ∧ ‖grad x‖ < 1e-8) := by
  have key : ∀ fuel k s, Good obj x0 k s → ∃ s' k', descentLoop obj grad search fuel k s = .ok s' ∧ Good obj x0 k' s' ∧
      k' ≤ k + fuel ∧ (k' = k + fuel ∨ s'.fstop = 2 ∨ ∃ x xs, s'.xs = x :: xs ∧ ‖grad x‖ < 1e-8) := by
    intro fuel
    induction fuel with
    | zero => intro k s h; exact ⟨s, k, rfl, h, le_rfl, .inl rfl⟩
    | succ fuel ih =>
      intro k s h
      unfold descentLoop
      rcases pass_good (grad := grad) hok hdesc h with ⟨x, xs, hxs, hg, hp⟩ | ⟨s', h', hp⟩
      · rw [hp]
        exact ⟨s, k, rfl, h, by omega, .inr (.inr ⟨x, xs, hxs, hg⟩)⟩
      · rw [hp]
        simp only [bind, Except.bind]
        by_cases hst : s'.fstop = 2
        · simp only [hst, decide_true, if_true]
          exact ⟨s', k + 1, rfl, h', by omega, .inr (.inl hst)⟩
        · simp only [hst, decide_false, Bool.false_eq_true, if_false]
          obtain ⟨t, k', e, g, l, c⟩ := ih (k + 1) s' h'
          exact ⟨t, k', e, g, by omega, by rcases c with rfl | c; exacts [.inl (by omega), .inr c]⟩
  obtain ⟨s, k, e, g, l, c⟩ := key maxiter 0 ⟨[x0], [obj x0], 0⟩ ⟨rfl, rfl, rfl, by simp⟩
  exact ⟨s, k, e, g, by omega, by rcases c with rfl | c; exacts [.inl (by omega), .inr c]⟩

/-- A line search that fails ends in an `IndexError`: at once in the first pass, in the following pass otherwise. -/
theorem C255_violation_search (obj : V → ℝ) (grad : V → V) (search : (ℝ → ℝ) → Bool × ℝ) (hfail : ∀ φ, (search φ).1 = false)
    (x0 : V) (maxiter : Nat) (hg : ¬ ‖grad x0‖ < 1e-8) :
    descent obj grad search x0 (maxiter + 1) = .error .indexError ∧
    ∀ k (s s' : Descent V), s.xs.length = k + 1 → descentPass obj grad search k s = .ok (s', false) →
      descentPass obj grad search (k + 1) s' = .error .indexError := by
  constructor
  · unfold descent descentLoop descentPass
    simp only [Descent.xk, List.reverse_cons, List.reverse_nil, List.nil_append, List.getElem?_cons_zero, bind, Except.bind,
      hg, if_false, hfail, Bool.false_eq_true]
  · intro k s s' hl h
    have hxs : s'.xs = s.xs := by
      unfold descentPass at h
      cases hx : s.xk k with
      | error e => rw [hx] at h; cases h
      | ok x =>
        rw [hx] at h
        simp only [bind, Except.bind, pure, Except.pure, hfail, Bool.false_eq_true, if_false] at h
        split at h
        · cases h
        · split at h
          · obtain ⟨h1, -⟩ := Prod.mk.inj (Except.ok.inj h)
            rw [← h1]
            split <;> rfl
          · cases h
    unfold descentPass Descent.xk
    rw [hxs, List.getElem?_eq_none (by simp [hl])]
    rfl

end Steepest

/-! ### C256: augmented Lagrangian -/

open Opt in
/-- A constraint value meets its type. -/
def CSat (t : CType) (v : ℝ) : Prop :=
  match t with
  | .lt => v ≤ 0
  | .gt => 0 ≤ v
  | .eq => v = 0

/-- Designs of the problem, bounds included. -/
def AlmFeasible (p : AlmProblem) (x : List ℝ) : Prop :=
  (∀ c ∈ p.cons, CSat c.1 (c.2 x)) ∧ List.Forall₂ (fun (b : ℝ × ℝ) xi => b.1 ≤ xi ∧ xi ≤ b.2) p.bounds x

/-- State of the method after some passes. -/
structure AlmGood (p : AlmProblem) (x0 : List ℝ) (R0 Q0 : ℝ) (s : Alm) : Prop where
  values : s.fs = s.xs.map p.obj
  first : s.xs.getLast? = some x0
  mults : Opt.NonnegMults s.mults
  factors : ∃ j, j < s.xs.length ∧ s.Rineq = R0 * 1.5 ^ j ∧ s.Req = Q0 * 1.5 ^ j

theorem almPass_good (p : AlmProblem) (minimize : (List ℝ → ℝ) → List ℝ → List ℝ) (stopX : List ℝ → List ℝ → Bool)
    (stopF : ℝ → ℝ → Bool) {x0 : List ℝ} {R0 Q0 : ℝ} {s : Alm} (h : AlmGood p x0 R0 Q0 s) :
    AlmGood p x0 R0 Q0 (almPass p minimize stopX stopF s).1 ∧
    (almPass p minimize stopX stopF s).1.xs.length = s.xs.length + 1 := by
  obtain ⟨j, hj, hR, hQ⟩ := h.factors
  obtain ⟨x, xs, hxs⟩ : ∃ x xs, s.xs = x :: xs := by
    cases hx : s.xs with
    | nil => rw [hx] at hj; simp at hj
    | cons x xs => exact ⟨x, xs, rfl⟩
  have hfs : s.fs = p.obj x :: xs.map p.obj := by rw [h.values, hxs]; rfl
  have hfirst : (x :: xs).getLast? = some x0 := by rw [← hxs]; exact h.first
  have hl : s.xs.length = xs.length + 1 := by rw [hxs]; rfl
  rw [hl] at hj
  have hfirst' : ∀ y, (y :: x :: xs).getLast? = some x0 := fun y => by simpa using hfirst
  unfold almPass
  rw [hxs, hfs]
  dsimp only
  generalize minimize (almFun p s.mults s.Rineq s.Req) x = y
  have h1 : ∀ n, AlmGood p x0 R0 Q0 ⟨y :: x :: xs, p.obj y :: p.obj x :: xs.map p.obj, s.mults, s.Rineq, s.Req, n⟩ :=
    fun n => ⟨rfl, hfirst' y, h.mults, j, by simp; omega, hR, hQ⟩
  have h2 : ∀ n vals, AlmGood p x0 R0 Q0 ⟨y :: x :: xs, p.obj y :: p.obj x :: xs.map p.obj,
      Opt.updateLagMult s.Rineq s.Req s.mults vals y, s.Rineq * 1.5, s.Req * 1.5, n⟩ := by
    intro n vals
    refine ⟨rfl, hfirst' y, Opt.C23_step _ _ _ h.mults _ _, j + 1, by simp; omega, ?_, ?_⟩
    · rw [hR, pow_succ]; ring
    · rw [hQ, pow_succ]; ring
  by_cases c1 : stopX y x = true
  · rw [if_pos c1]
    exact ⟨h1 _, by simp⟩
  · rw [if_neg c1]
    by_cases c2 : stopF (p.obj x) (p.obj y) = true
    · simp only [c2, if_true]
      split
      · exact ⟨h1 _, by simp⟩
      · exact ⟨h2 _ _, by simp⟩
    · simp only [c2, Bool.false_eq_true, if_false]
      split
      · exact ⟨h1 _, by simp⟩
      · exact ⟨h2 _ _, by simp⟩

/-- Whatever the library does: at most `maxiter` new iterates after the start point, each with its own objective value;
    multipliers of inequalities and bounds stay non-negative; both penalty factors are the start values times the same power
    of 1.5, at most one factor for each step. -/
theorem C256_history (p : AlmProblem) (minimize : (List ℝ → ℝ) → List ℝ → List ℝ) (stopX : List ℝ → List ℝ → Bool)
    (stopF : ℝ → ℝ → Bool) (x0 : List ℝ) (maxiter : Nat) (R0 Q0 : ℝ) :
    AlmGood p x0 R0 Q0 (alm p minimize stopX stopF x0 maxiter R0 Q0) ∧
    (alm p minimize stopX stopF x0 maxiter R0 Q0).xs.length ≤ maxiter + 1 := by
  have key : ∀ fuel s, AlmGood p x0 R0 Q0 s → AlmGood p x0 R0 Q0 (almLoop p minimize stopX stopF fuel s) ∧
      (almLoop p minimize stopX stopF fuel s).xs.length ≤ s.xs.length + fuel := by
    intro fuel
    induction fuel with
    | zero => intro s h; exact ⟨h, le_rfl⟩
    | succ fuel ih =>
      intro s h
      obtain ⟨g, l⟩ := almPass_good p minimize stopX stopF h
      unfold almLoop
      dsimp only
      split
      · exact ⟨g, by omega⟩
      · obtain ⟨g', l'⟩ := ih _ g
        exact ⟨g', by omega⟩
  have h0 := Opt.C23_history (p.cons.map Prod.fst) p.bounds []
  obtain ⟨g, l⟩ := key maxiter ⟨[x0], [p.obj x0], Opt.initMults (p.cons.map Prod.fst) p.bounds, R0, Q0, 0⟩
    ⟨rfl, rfl, h0, 0, by simp, by simp, by simp⟩
  exact ⟨g, by simpa [alm, Nat.add_comm] using l⟩

/-- One constraint: a multiplier that the update leaves alone belongs to a constraint that is met, and no feasible value
    has a larger penalty. -/
theorem fixed_con {R Q : ℝ} (hR : 0 < R) (hQ : 0 < Q) (t : Opt.CType) (v mu : ℝ)
    (h : (Opt.updateConMult R Q ⟨t, v, mu⟩).mult = mu) :
    CSat t v ∧ ∀ w, CSat t w → Opt.alCon R Q mu t w ≤ Opt.alCon R Q mu t v := by
  cases t with
  | eq =>
    simp only [Opt.updateConMult] at h
    have hv : v = 0 := by
      have : Q * v = 0 := by linarith
      rcases mul_eq_zero.1 this with h | h
      · exact absurd h hQ.ne'
      · exact h
    refine ⟨hv, fun w hw => ?_⟩
    simp only [CSat] at hw
    rw [hv, hw]
  | lt =>
    simp only [Opt.updateConMult] at h
    have hmu : 0 ≤ mu := by rw [← h]; exact le_max_right _ _
    have hv : v ≤ 0 := by
      by_contra hv
      rw [not_le] at hv
      have h1 := le_max_left (mu + 2 * R * v) 0
      rw [h] at h1
      nlinarith
    have hval : max (1 / 2 * mu / R + v) 0 = 1 / 2 * mu / R := by
      rcases max_choice (mu + 2 * R * v) 0 with hc | hc
      · rw [hc] at h
        have : R * v = 0 := by linarith
        have hv0 : v = 0 := by
          rcases mul_eq_zero.1 this with h | h
          · exact absurd h hR.ne'
          · exact h
        rw [hv0, add_zero]
        exact max_eq_left (by positivity)
      · rw [hc] at h
        rw [← h]
        simp [hv]
    refine ⟨hv, fun w hw => ?_⟩
    simp only [CSat] at hw
    simp only [Opt.alCon]
    rw [hval]
    have : max (1 / 2 * mu / R + w) 0 ≤ 1 / 2 * mu / R := max_le (by linarith) (by positivity)
    gcongr
  | gt =>
    simp only [Opt.updateConMult] at h
    have hmu : 0 ≤ mu := by rw [← h]; exact le_max_right _ _
    have hv : 0 ≤ v := by
      by_contra hv
      rw [not_le] at hv
      have h1 := le_max_left (mu - 2 * R * v) 0
      rw [h] at h1
      nlinarith
    have hval : max (1 / 2 * mu / R - v) 0 = 1 / 2 * mu / R := by
      rcases max_choice (mu - 2 * R * v) 0 with hc | hc
      · rw [hc] at h
        have : R * v = 0 := by linarith
        have hv0 : v = 0 := by
          rcases mul_eq_zero.1 this with h | h
          · exact absurd h hR.ne'
          · exact h
        rw [hv0, sub_zero]
        exact max_eq_left (by positivity)
      · rw [hc] at h
        rw [← h]
        simp [hv]
    refine ⟨hv, fun w hw => ?_⟩
    simp only [CSat] at hw
    simp only [Opt.alCon]
    rw [hval]
    have : max (1 / 2 * mu / R - w) 0 ≤ 1 / 2 * mu / R := max_le (by linarith) (by positivity)
    gcongr

/-- Bounds beyond ±1e8 are left out of the method. -/
def Unbounded (p : AlmProblem) : Prop := ∀ b ∈ p.bounds, b.1 ≤ -(10 ^ 8) ∧ 10 ^ 8 ≤ b.2

/-- When the library minimises the augmented Lagrangian and the multipliers have settled, the design is feasible and no
    feasible design is better.  (Problems without bounds on the variables.) -/
theorem C256_optimal_partial (p : AlmProblem) (hb : Unbounded p) (mus : List ℝ) (hl : mus.length = p.cons.length) {R Q : ℝ}
    (hR : 0 < R) (hQ : 0 < Q) (m : Opt.Mults ℝ) (hm : m.cons = (p.cons.map Prod.fst).zip mus)
    (hv : ∀ v ∈ m.vars, v.1 ∈ p.bounds) (x : List ℝ)
    (hmin : ∀ y, almFun p m R Q x ≤ almFun p m R Q y)
    (hfix : (Opt.updateLagMult R Q m (p.cons.map fun c => c.2 x) x).cons = m.cons) :
    (∀ c ∈ p.cons, CSat c.1 (c.2 x)) ∧ ∀ y, (∀ c ∈ p.cons, CSat c.1 (c.2 y)) → p.obj x ≤ p.obj y := by
  have hvar : ∀ z, ((List.zipWith (fun (v : (ℝ × ℝ) × (ℝ × ℝ)) xi => (⟨v.1.1, v.1.2, xi, v.2.1, v.2.2⟩ : Opt.PVar ℝ)) m.vars z).map
      fun v => Opt.alVar R v v.x).sum = 0 := by
    intro z
    apply List.sum_eq_zero
    intro q hq
    obtain ⟨v, hv', rfl⟩ := List.mem_map.1 hq
    obtain ⟨i, hi, rfl⟩ := List.getElem_of_mem hv'
    rw [List.getElem_zipWith]
    have hi' : i < m.vars.length := by simp at hi; omega
    obtain ⟨h1, h2⟩ := hb _ (hv _ (List.getElem_mem hi'))
    unfold Opt.alVar
    rw [if_neg (by unfold Opt.XLB; exact not_lt.2 h1), if_neg (by unfold Opt.XUB; exact not_lt.2 h2), add_zero]
  have hcons : ∀ (cs : List (Opt.CType × (List ℝ → ℝ))) (ms : List ℝ), ms.length = cs.length →
      List.zipWith (fun (c : Opt.CType × ℝ) g => (c.1, (Opt.updateConMult R Q ⟨c.1, g, c.2⟩).mult)) ((cs.map Prod.fst).zip ms)
        (cs.map fun c => c.2 x) = (cs.map Prod.fst).zip ms →
      (∀ c ∈ cs, CSat c.1 (c.2 x)) ∧ ∀ y, (∀ c ∈ cs, CSat c.1 (c.2 y)) →
        ((List.zipWith (fun (c : Opt.CType × (List ℝ → ℝ)) (mu : Opt.CType × ℝ) => (⟨c.1, c.2 y, mu.2⟩ : Opt.PCon ℝ)) cs
          ((cs.map Prod.fst).zip ms)).map fun c => Opt.alCon R Q c.mult c.type c.val).sum ≤
        ((List.zipWith (fun (c : Opt.CType × (List ℝ → ℝ)) (mu : Opt.CType × ℝ) => (⟨c.1, c.2 x, mu.2⟩ : Opt.PCon ℝ)) cs
          ((cs.map Prod.fst).zip ms)).map fun c => Opt.alCon R Q c.mult c.type c.val).sum := by
    intro cs
    induction cs with
    | nil => intro ms _ _; simp
    | cons c cs ih =>
      intro ms hms hf
      cases ms with
      | nil => simp at hms
      | cons mu ms =>
        simp only [List.map_cons, List.zip_cons_cons, List.zipWith_cons_cons, List.cons.injEq, Prod.mk.injEq, true_and] at hf
        obtain ⟨ih1, ih2⟩ := ih ms (by simpa using hms) hf.2
        obtain ⟨h1, h2⟩ := fixed_con hR hQ c.1 (c.2 x) mu hf.1
        refine ⟨?_, ?_⟩
        · intro c' hc'
          rcases List.mem_cons.1 hc' with rfl | hc'
          · exact h1
          · exact ih1 c' hc'
        · intro y hy
          simp only [List.map_cons, List.zip_cons_cons, List.zipWith_cons_cons, List.sum_cons]
          exact add_le_add (h2 _ (hy c (by simp))) (ih2 y fun c' hc' => hy c' (by simp [hc']))
  have hfix' := hfix
  unfold Opt.updateLagMult at hfix'
  dsimp only at hfix'
  rw [hm] at hfix'
  obtain ⟨h1, h2⟩ := hcons p.cons mus hl hfix'
  refine ⟨h1, fun y hy => ?_⟩
  have e := hmin y
  unfold almFun Opt.augmentedLagrangian at e
  rw [hvar, hvar, hm] at e
  have := h2 y hy
  linarith

/-- Upper bounds are another matter: their multipliers are computed from those of the lower bounds.  For `min -x` with
    `0 <= x <= 1`, whatever the penalty factor, the method settles at `1 + 1/(4R)`, outside the bounds. -/
theorem C256_violation_upper (R Q : ℝ) (hR : 0 < R) :
    let p : AlmProblem := ⟨fun x => -x.sum, [], [(0, 1)]⟩
    let m : Opt.Mults ℝ := ⟨[], [((0, 1), (0, 1 / 2))]⟩
    let x := 1 + 1 / (4 * R)
    (∀ y, almFun p m R Q [x] ≤ almFun p m R Q [y]) ∧ Opt.updateLagMult R Q m [] [x] = m ∧ ¬ AlmFeasible p [x] := by
  intro p m x
  have hx : 1 < x := by
    have : 0 < 1 / (4 * R) := by positivity
    simp only [x]; linarith
  have hF : ∀ y, almFun p m R Q [y] = -y + (R * max (-y) 0 ^ 2 + R * max (1 / (4 * R) + (y - 1)) 0 ^ 2) := by
    intro y
    simp [almFun, Opt.augmentedLagrangian, p, m, Opt.alVar, Opt.XLB, Opt.XUB]
    norm_num
    field_simp
    norm_num
  refine ⟨?_, ?_, ?_⟩
  · intro y
    rw [hF, hF]
    have e1 : max (-x) 0 = 0 := max_eq_right (by linarith)
    have e2 : max (1 / (4 * R) + (x - 1)) 0 = 1 / (2 * R) := by
      rw [show 1 / (4 * R) + (x - 1) = 1 / (2 * R) by simp only [x]; field_simp; norm_num]
      exact max_eq_left (by positivity)
    rw [e1, e2]
    have e3 : -x + (R * 0 ^ 2 + R * (1 / (2 * R)) ^ 2) = -1 := by simp only [x]; field_simp; ring
    rw [e3]
    have h1 : 0 ≤ R * max (-y) 0 ^ 2 := by positivity
    rcases le_or_gt (1 / (4 * R) + (y - 1)) 0 with hc | hc
    · have : 0 < 1 / (4 * R) := by positivity
      have h2 : 0 ≤ R * max (1 / (4 * R) + (y - 1)) 0 ^ 2 := by positivity
      linarith
    · rw [max_eq_left hc.le]
      have h2 : -y + R * (1 / (4 * R) + (y - 1)) ^ 2 = -1 + R * ((1 / (4 * R) + (y - 1)) - 1 / (2 * R)) ^ 2 := by
        field_simp
        ring
      have h3 : 0 ≤ R * ((1 / (4 * R) + (y - 1)) - 1 / (2 * R)) ^ 2 := by positivity
      linarith
  · have e1 : max (0 + 2 * R * (-x + 0)) 0 = 0 := max_eq_right (by nlinarith)
    have e2 : max (0 + 2 * R * (x - 1)) 0 = 1 / 2 := by
      rw [show 0 + 2 * R * (x - 1) = 1 / 2 by simp only [x]; field_simp; norm_num]
      norm_num
    simp only [m, Opt.updateLagMult, Opt.updateVarMult, List.zipWith_cons_cons, List.zipWith_nil_left]
    rw [if_pos (by unfold Opt.XLB; norm_num), e1, if_pos (by unfold Opt.XUB; norm_num), e2]
  · rintro ⟨-, hb⟩
    simp only [p] at hb
    cases hb with
    | cons h _ => exact absurd h.2 (not_le.2 hx)

/-! ### C257: grid search -/

theorem length_cartesian {α : Type} (ls : List (List α)) : (cartesian ls).length = (ls.map List.length).prod := by
  induction ls with
  | nil => rfl
  | cons l ls ih => simp [cartesian, List.length_flatMap, ih]

theorem mem_cartesian {α : Type} (ls : List (List α)) (v : List α) : v ∈ cartesian ls ↔ List.Forall₂ (fun a l => a ∈ l) v ls := by
  induction ls generalizing v with
  | nil => simp [cartesian]
  | cons l ls ih =>
    simp only [cartesian, List.mem_flatMap, List.mem_map]
    constructor
    · rintro ⟨a, ha, w, hw, rfl⟩
      exact .cons ha ((ih w).1 hw)
    · intro h
      cases h with
      | cons ha ht => exact ⟨_, ha, _, (ih _).2 ht, rfl⟩

theorem nodup_cartesian {α : Type} (ls : List (List α)) (h : ∀ l ∈ ls, l.Nodup) : (cartesian ls).Nodup := by
  induction ls with
  | nil => simp [cartesian]
  | cons l ls ih =>
    have ih := ih fun l hl => h l (by simp [hl])
    unfold cartesian
    rw [List.nodup_flatMap]
    refine ⟨fun a _ => ih.map (fun x y e => (List.cons.inj e).2), ?_⟩
    refine List.Pairwise.imp ?_ (h l (by simp))
    intro a b hab
    rw [Function.onFun, List.disjoint_left]
    intro v hv hv'
    obtain ⟨w, -, rfl⟩ := List.mem_map.1 hv
    obtain ⟨w', -, e⟩ := List.mem_map.1 hv'
    exact hab (List.cons.inj e).1.symm

/-- Grid search: one run for each choice of one value for each parameter of the solver, and no other; no run is repeated
    when the values of each parameter are different; the number of runs is the product of the numbers of values. -/
theorem C257_partial {α : Type} (params : List (String × List α)) (h : params ≠ []) :
    ∃ runs, gridRuns params none = .ok runs ∧ runs.length = (params.map fun p => p.2.length).prod ∧
      (∀ kind opts, (kind, opts) ∈ runs ↔
        kind = "discrete" ∧ List.Forall₂ (fun o (p : String × List α) => o.1 = p.1 ∧ o.2 ∈ p.2) opts params) ∧
      ((∀ p ∈ params, p.2.Nodup) → runs.Nodup) := by
  have hzip : ∀ (ps : List (String × List α)) (v : List α), v.length = ps.length →
      (((ps.map Prod.fst).zip v).map Prod.snd = v) := by
    intro ps v hv
    rw [List.map_snd_zip]
    simp [hv]
  refine ⟨((cartesian (params.map Prod.snd)).map fun v => (params.map Prod.fst).zip v).map fun o => ("discrete", o),
    by simp only [gridRuns, grid, h, if_false, bind, Except.bind, pure, Except.pure], ?_, ?_, ?_⟩
  · simp [length_cartesian, Function.comp_def]
  · intro kind opts
    simp only [List.mem_map, List.map_map, Function.comp_apply, Prod.mk.injEq]
    constructor
    · rintro ⟨v, hv, rfl, rfl⟩
      refine ⟨rfl, ?_⟩
      rw [mem_cartesian, List.forall₂_map_right_iff] at hv
      clear h
      induction hv with
      | nil => exact .nil
      | cons ha _ ih => exact .cons ⟨rfl, ha⟩ ih
    · rintro ⟨rfl, ho⟩
      refine ⟨opts.map Prod.snd, ?_, rfl, ?_⟩
      · rw [mem_cartesian, List.forall₂_map_right_iff, List.forall₂_map_left_iff]
        exact ho.imp fun _ _ h => h.2
      · clear h
        induction ho with
        | nil => rfl
        | cons ha _ ih =>
          simp only [List.map_cons, List.zip_cons_cons, ih, ← ha.1]
  · intro hn
    have hc : (cartesian (params.map Prod.snd)).Nodup := nodup_cartesian _ fun l hl => by
      obtain ⟨p, hp, rfl⟩ := List.mem_map.1 hl
      exact hn p hp
    rw [List.map_map]
    refine List.Nodup.map_on ?_ hc
    intro v hv w hw e
    have lv := ((mem_cartesian _ _).1 hv).length_eq
    have lw := ((mem_cartesian _ _).1 hw).length_eq
    rw [List.length_map] at lv lw
    have e := congrArg (List.map Prod.snd) (Prod.mk.inj e).2
    rwa [hzip _ _ lv, hzip _ _ lw] at e

/-- Parameters of the problem are without effect, and a search without solver parameters fails at once. -/
theorem C257_violation {α : Type} (params q : List (String × List α)) :
    gridRuns params (some q) = gridRuns params none ∧ gridRuns ([] : List (String × List α)) (some q) = .error .valueError := by
  constructor
  · unfold gridRuns
    cases grid params with
    | error e => rfl
    | ok g =>
      cases q with
      | nil => rfl
      | cons a q => simp [grid, bind, Except.bind, pure, Except.pure]
  · rfl

/-! ### Examples -/

/-- Maximise `3*x1 + 2*x2` with `x1 + x2 < 4`, `0 <= x <= 3`. -/
def exLp : Problem := ⟨[⟨0, 3, 0, false, .plain⟩, ⟨0, 3, 0, false, .plain⟩], [.linear [1, 1] 4 "<"]⟩

example : LinearProblem exLp [3, 2] ∧ (∀ v ∈ exLp.vars, v.kind = .plain) := by
  refine ⟨⟨?_, rfl, ?_⟩, ?_⟩
  · simp [exLp]
  · intro k hk
    simp only [exLp, List.mem_singleton] at hk
    exact ⟨[1, 1], 4, "<", hk, rfl, .inl rfl⟩
  · simp [exLp]

/-- A library that solves this model, and the design that the solver stores. -/
example : ∃ e, CorrectEngine e ∧ e (linModel false exLp [3, 2] "MAX") = .optimal [3, 1] ∧
    (solveOrtools e exLp [3, 2] "MAX").X = [3, 1] := by
  classical
  refine ⟨fun m => if m = linModel false exLp [3, 2] "MAX" then .optimal [3, 1] else .other, ?_, by simp, by simp [solveOrtools]⟩
  intro m
  by_cases hm : m = linModel false exLp [3, 2] "MAX"
  · subst hm
    simp only [if_true]
    have hp : linModel false exLp [3, 2] "MAX" = ⟨[(0, 3), (0, 3)], [false, false], [3, 2], false, [([1, 1], .le, 4)]⟩ := by
      simp [exLp, linModel, Problem.free, rowsOf, senseOf]
    rw [hp]
    refine ⟨⟨by norm_num, by simp, ?_⟩, ?_⟩
    · intro r hr
      simp only [List.mem_singleton] at hr
      subst hr
      norm_num [dot]
    · rintro y ⟨hb, -, hr⟩
      cases hb with
      | cons h1 hb =>
        cases hb with
        | cons h2 hb =>
          cases hb
          have := hr _ (List.mem_singleton.2 rfl)
          norm_num [dot] at this ⊢
          norm_num at h1 h2
          linarith [h1.2]
  · simp only [hm, if_false]

/-- A binary variable: maximise `x1 + 4*x2`, `x1 + 3*x2 < 5`. -/
example : LinearProblem ⟨[⟨0, 3, 0, false, .plain⟩, ⟨0, 1, 0, false, .binary⟩], [.linear [1, 3] 5 "<"]⟩ [1, 4] := by
  refine ⟨by simp, rfl, ?_⟩
  intro k hk
  simp only [List.mem_singleton] at hk
  exact ⟨[1, 3], 5, "<", hk, rfl, .inl rfl⟩

/-- A library that gives back its start point, with success if it is a point of the problem: the start point is kept as a
    feasible design of `x1 + x2 <= 4` (first variable locked at 1). -/
example : ∃ minimize : ScipyProblem → (List ℝ → ℝ) → List ℝ → ScipyResult,
    (∀ q f x0, (minimize q f x0).f = f (minimize q f x0).x ∧ ((minimize q f x0).success = true → q.Holds (minimize q f x0).x)) ∧
    (slsqp minimize ⟨[⟨0, 3, 1, true, .plain⟩, ⟨0, 5, 0, false, .plain⟩], [.linear [1, 1] 4 "<="]⟩ List.sum (some [2])).feasible = true := by
  classical
  refine ⟨fun q f x0 => ⟨x0, f x0, decide (q.Holds x0)⟩, fun q f x0 => ⟨rfl, fun h => of_decide_eq_true h⟩, ?_⟩
  apply decide_eq_true
  apply C254_slsqp_complete
  refine ⟨by norm_num [Problem.free, startPoint], ?_⟩
  intro c hc
  simp only [List.mem_singleton] at hc
  subst hc
  refine ⟨fun _ => by norm_num [SCon.value, startPoint, fullPoint, dot], fun h => ?_, fun h => ?_⟩
  · simp only [SCon.type] at h
    exact absurd h (by decide)
  · simp only [SCon.type] at h
    exact absurd h (by decide)

/-- A line search by a parabola through three points meets the hypotheses of `C255_descent_partial` for `x^2`. -/
example : let search : (ℝ → ℝ) → Bool × ℝ := fun φ =>
      (true, -((φ 1 - φ (-1)) / 2) / (2 * ((φ 1 + φ (-1)) / 2 - φ 0)))
    let obj : ℝ → ℝ := fun x => x ^ 2
    (∀ x d : ℝ, (search fun a => obj (x + a • d)).1 = true) ∧
    ∀ x d : ℝ, obj (x + (search fun a => obj (x + a • d)).2 • d) ≤ obj x := by
  refine ⟨fun _ _ => rfl, fun x d => ?_⟩
  by_cases hd : d = 0
  · simp [hd]
  · simp only [smul_eq_mul]
    have : x + -(((x + 1 * d) ^ 2 - (x + -1 * d) ^ 2) / 2) / (2 * (((x + 1 * d) ^ 2 + (x + -1 * d) ^ 2) / 2 - (x + 0 * d) ^ 2)) * d = 0 := by
      have e1 : ((x + 1 * d) ^ 2 - (x + -1 * d) ^ 2) / 2 = 2 * x * d := by ring
      have e2 : 2 * (((x + 1 * d) ^ 2 + (x + -1 * d) ^ 2) / 2 - (x + 0 * d) ^ 2) = 2 * d ^ 2 := by ring
      rw [e1, e2]
      field_simp
      ring
    rw [this]
    nlinarith [sq_nonneg x]

/-- Least `x^2` with `1 - x <= 0`: the multiplier settles at 2 and the design at 1. -/
example (R Q : ℝ) (hR : 0 < R) : let p : AlmProblem := ⟨fun x => (x.headD 0) ^ 2, [(.lt, fun x => 1 - x.headD 0)], [(-(10 ^ 9), 10 ^ 9)]⟩
    let m : Opt.Mults ℝ := ⟨[(.lt, 2)], [((-(10 ^ 9), 10 ^ 9), (0, 0))]⟩
    Unbounded p ∧ (∀ y, almFun p m R Q [1] ≤ almFun p m R Q y) ∧
      (Opt.updateLagMult R Q m (p.cons.map fun c => c.2 [1]) [1]).cons = m.cons := by
  intro p m
  have hF : ∀ y, almFun p m R Q y = (y.headD 0) ^ 2 + R * max (1 / R + (1 - y.headD 0)) 0 ^ 2 := by
    intro y
    have hv : ∀ l : List ℝ, ((List.zipWith (fun (v : (ℝ × ℝ) × (ℝ × ℝ)) xi => (⟨v.1.1, v.1.2, xi, v.2.1, v.2.2⟩ : Opt.PVar ℝ)) m.vars l).map
        fun v => Opt.alVar R v v.x).sum = 0 := by
      intro l
      cases l with
      | nil => rfl
      | cons a l =>
        simp [m, Opt.alVar, Opt.XLB, Opt.XUB]
        norm_num
    unfold almFun Opt.augmentedLagrangian
    rw [hv]
    simp [p, m, Opt.alCon]
  refine ⟨?_, ?_, ?_⟩
  · intro b hb
    simp only [p, List.mem_singleton] at hb
    subst hb
    norm_num
  · intro y
    rw [hF, hF]
    generalize y.headD 0 = t
    have hi : 0 < 1 / R := by positivity
    have e1 : (([1] : List ℝ).headD 0) ^ 2 + R * max (1 / R + (1 - ([1] : List ℝ).headD 0)) 0 ^ 2 = 1 + 1 / R := by
      simp only [List.headD_cons, sub_self, add_zero]
      rw [max_eq_left hi.le]
      field_simp
    rw [e1]
    rcases le_or_gt (1 / R + (1 - t)) 0 with h | h
    · rw [max_eq_right h]
      nlinarith
    · rw [max_eq_left h.le]
      have e : t ^ 2 + R * (1 / R + (1 - t)) ^ 2 = 1 + 1 / R + (1 + R) * (1 - t) ^ 2 := by
        field_simp
        ring
      rw [e]
      have : 0 ≤ (1 + R) * (1 - t) ^ 2 := by positivity
      linarith
  · simp [p, m, Opt.updateLagMult, Opt.updateConMult]

example : gridRuns [("move", [1, 2]), ("step", [(3 : Nat), 4, 5])] none =
    .ok [("discrete", [("move", 1), ("step", 3)]), ("discrete", [("move", 1), ("step", 4)]), ("discrete", [("move", 1), ("step", 5)]),
      ("discrete", [("move", 2), ("step", 3)]), ("discrete", [("move", 2), ("step", 4)]), ("discrete", [("move", 2), ("step", 5)])] := by
  rfl

end Metku.Solve
