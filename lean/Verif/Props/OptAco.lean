import Verif.Model.OptAco
import Mathlib.Tactic.Linarith
import Mathlib.Tactic.Positivity
import Mathlib.Algebra.BigOperators.Group.List.Basic
import Mathlib.Algebra.Order.BigOperators.Group.List
import Mathlib.Algebra.Order.Group.MinMax

/-!
Properties of the ant colony solver (model: `Verif.Model.OptAco`).
-/
open Classical

namespace Metku.Aco

open Metku

/-! ### Specification -/

/-- What `np.random.choice` promises: an index with positive probability. -/
def Fair (pick : ℕ → ℕ → ℕ → List ℝ → ℕ) : Prop :=
  ∀ t k i p, (∀ x ∈ p, 0 ≤ x) → p.sum = 1 → ∃ v, p[pick t k i p]? = some v ∧ 0 < v

/-- The penalised objective function. -/
def total (p : Params) (q : Prob) (x : List ℝ) : ℝ := q.obj x + q.pen x * p.factor

/-- A design vector with one value from the list for each member of the structure. -/
def Design (q : Prob) (vals x : List ℝ) : Prop :=
  x.length = q.members.length ∧ ∀ v ∈ x, v ∈ vals

/-! ### Helpers -/

theorem bind_ok {α β : Type} {x : Except PyErr α} {f : α → Except PyErr β} {b : β}
    (h : (x >>= f) = .ok b) : ∃ a, x = .ok a ∧ f a = .ok b := by
  cases x with
  | error e => cases h
  | ok a => exact ⟨a, rfl, h⟩

theorem chooseOne_mem {pick row vals c} (h : chooseOne pick row vals = .ok c) :
    vals[c.1]? = some c.2 := by
  unfold chooseOne at h
  simp only at h
  split at h
  · cases h
  · split at h
    · cases h
    · split at h
      · next v hv => obtain rfl := Except.ok.inj h; exact hv
      · cases h

theorem chooseAll_spec {pick vals pr} : ∀ {is : List ℕ} {cs : List (ℕ × ℝ)},
    chooseAll pick vals pr is = .ok cs →
      cs.length = is.length ∧ ∀ c ∈ cs, vals[c.1]? = some c.2
  | [], cs, h => by
    obtain rfl := Except.ok.inj h
    exact ⟨rfl, fun _ hc => absurd hc List.not_mem_nil⟩
  | i :: is, cs, h => by
    unfold chooseAll at h
    obtain ⟨row, _, h⟩ := bind_ok h
    obtain ⟨c, hc, h⟩ := bind_ok h
    obtain ⟨cs', hcs, h⟩ := bind_ok h
    obtain rfl := Except.ok.inj h
    obtain ⟨h1, h2⟩ := chooseAll_spec hcs
    refine ⟨by simp [h1], ?_⟩
    intro d hd
    rcases List.mem_cons.1 hd with rfl | hd
    · exact chooseOne_mem hc
    · exact h2 d hd

theorem makeAnts_spec {pick vals pr m} : ∀ {ks : List ℕ} {as : List (List (ℕ × ℝ))},
    makeAnts pick vals pr m ks = .ok as →
      as.length = ks.length ∧
      ∀ a ∈ as, a.length = m ∧ ∀ c ∈ a, vals[c.1]? = some c.2
  | [], as, h => by
    obtain rfl := Except.ok.inj h
    exact ⟨rfl, fun _ hc => absurd hc List.not_mem_nil⟩
  | k :: ks, as, h => by
    unfold makeAnts at h
    obtain ⟨a, ha, h⟩ := bind_ok h
    obtain ⟨as', has, h⟩ := bind_ok h
    obtain rfl := Except.ok.inj h
    obtain ⟨h1, h2⟩ := makeAnts_spec has
    refine ⟨by simp [h1], ?_⟩
    intro d hd
    rcases List.mem_cons.1 hd with rfl | hd
    · have := chooseAll_spec ha
      simpa using this
    · exact h2 d hd

/-- The best one of a list, starting from another one. -/
theorem foldl_better (p : Params) (q : Prob) : ∀ (l : List (List (ℕ × ℝ)))
    (b : Option (ℝ × List ℝ)),
    let r := l.foldl (fun b a => better b (fitness p q a) (getX a)) b
    (r = none ↔ b = none ∧ l = []) ∧
    ∀ f x, r = some (f, x) →
      (b = some (f, x) ∨ ∃ a ∈ l, getX a = x ∧ f = total p q x) ∧
      (∀ g y, b = some (g, y) → f ≤ g) ∧
      ∀ a ∈ l, f ≤ total p q (getX a)
  | [], b => by
    refine ⟨by simp, ?_⟩
    intro f x h
    refine ⟨Or.inl h, ?_, by simp⟩
    intro g y hb
    have h' : b = some (f, x) := h
    rw [h'] at hb
    simp only [Option.some.injEq, Prod.mk.injEq] at hb
    exact le_of_eq hb.1
  | a :: l, b => by
    have ih := foldl_better p q l (better b (fitness p q a) (getX a))
    simp only [List.foldl_cons]
    have hb : better b (fitness p q a) (getX a) ≠ none := by
      unfold better
      split
      · simp
      · split <;> simp
    refine ⟨?_, ?_⟩
    · rw [ih.1]
      simp [hb]
    · intro f x h
      obtain ⟨h1, h2, h3⟩ := ih.2 f x h
      have ha : f ≤ total p q (getX a) := by
        cases hbb : better b (fitness p q a) (getX a) with
        | none => exact absurd hbb hb
        | some gy =>
          obtain ⟨g, y⟩ := gy
          refine le_trans (h2 g y hbb) ?_
          unfold better at hbb
          split at hbb
          · simp only [Option.some.injEq, Prod.mk.injEq] at hbb
            exact le_of_eq hbb.1.symm
          · split at hbb
            · simp only [Option.some.injEq, Prod.mk.injEq] at hbb
              exact le_of_eq hbb.1.symm
            · next hlt =>
              simp only [Option.some.injEq, Prod.mk.injEq] at hbb
              rw [← hbb.1]
              exact not_lt.1 hlt
      refine ⟨?_, ?_, ?_⟩
      · rcases h1 with h1 | ⟨a', ha', h1⟩
        · unfold better at h1
          split at h1
          · simp only [Option.some.injEq, Prod.mk.injEq] at h1
            refine Or.inr ⟨a, List.mem_cons_self, h1.2, ?_⟩
            rw [← h1.1, ← h1.2]; rfl
          · split at h1
            · simp only [Option.some.injEq, Prod.mk.injEq] at h1
              refine Or.inr ⟨a, List.mem_cons_self, h1.2, ?_⟩
              rw [← h1.1, ← h1.2]; rfl
            · exact Or.inl h1
        · exact Or.inr ⟨a', List.mem_cons_of_mem _ ha', h1⟩
      · intro g y hg
        subst hg
        by_cases hlt : fitness p q a < g
        · refine le_trans (h2 (fitness p q a) (getX a) ?_) hlt.le
          simp [better, hlt]
        · refine h2 g y ?_
          simp [better, hlt]
      · intro c hc
        rcases List.mem_cons.1 hc with rfl | hc
        · exact ha
        · exact h3 c hc

/-! ### The result -/

/-- What holds of the state after every iteration. `old` is the best value the solver object had. -/
structure Inv (p : Params) (q : Prob) (vals : List ℝ) (old : Option (ℝ × List ℝ)) (s : St) : Prop where
  design : ∀ x ∈ s.trace.flatten, Design q vals x
  none_iff : s.best = none ↔ old = none ∧ s.trace.flatten = []
  found : ∀ f x, s.best = some (f, x) →
    (s.best = old ∨ (x ∈ s.trace.flatten ∧ f = total p q x ∧ ∀ g y, old = some (g, y) → f < g))
  least : ∀ f x, s.best = some (f, x) → ∀ y ∈ s.trace.flatten, f ≤ total p q y
  mono : ∀ f x g y, s.best = some (f, x) → old = some (g, y) → f ≤ g
  idle : ∃ a b, s.trace = a ++ b ∧ b.length = s.n ∧
    ∀ f x, s.best = some (f, x) → s.best = old ∨ x ∈ a.flatten

theorem iterate_inv {p : Params} {q : Prob} {vals : List ℝ} {pick : ℕ → ℕ → List ℝ → ℕ}
    {old : Option (ℝ × List ℝ)} {s s' : St}
    (hs : Inv p q vals old s) (h : iterate p q vals pick s = .ok s') : Inv p q vals old s' := by
  unfold iterate at h
  obtain ⟨ants, hants, h⟩ := bind_ok h
  obtain ⟨ph', _, h⟩ := bind_ok h
  obtain rfl := Except.ok.inj h
  obtain ⟨_, hspec⟩ := makeAnts_spec hants
  have hev := foldl_better p q ants none
  simp only at hev
  change (evaluate p q ants = none ↔ _) ∧ (∀ f x, evaluate p q ants = some (f, x) → _) at hev
  obtain ⟨hevn, hevs⟩ := hev
  have hd : ∀ x ∈ (s.trace ++ [ants.map getX]).flatten, Design q vals x := by
    intro x hx
    rw [List.flatten_append, List.mem_append] at hx
    rcases hx with hx | hx
    · exact hs.design x hx
    · simp only [List.flatten_cons, List.flatten_nil, List.append_nil, List.mem_map] at hx
      obtain ⟨a, ha, rfl⟩ := hx
      obtain ⟨h1, h2⟩ := hspec a ha
      refine ⟨by simp [getX, h1], ?_⟩
      intro v hv
      simp only [getX, List.mem_map] at hv
      obtain ⟨c, hc, rfl⟩ := hv
      exact List.mem_of_getElem? (h2 c hc)
  have hmem : ∀ y, y ∈ (s.trace ++ [ants.map getX]).flatten ↔
      y ∈ s.trace.flatten ∨ ∃ a ∈ ants, getX a = y := by
    intro y
    simp [List.flatten_append, List.mem_append]
  have hnil : (s.trace ++ [ants.map getX]).flatten = [] ↔ s.trace.flatten = [] ∧ ants = [] := by
    simp [List.flatten_append, List.append_eq_nil_iff]
  cases hb : evaluate p q ants with
  | none =>
    obtain ⟨_, rfl⟩ := hevn.1 hb
    simp only [Bool.false_eq_true, if_false]
    obtain ⟨a, b, hab, hlen, hin⟩ := hs.idle
    refine ⟨hd, ?_, ?_, ?_, ?_, a, b ++ [[]], ?_, ?_, ?_⟩
    · rw [hs.none_iff, hnil]; simp
    · intro f x hfx
      rcases hs.found f x hfx with h | ⟨h1, h2⟩
      · exact Or.inl h
      · exact Or.inr ⟨(hmem x).2 (Or.inl h1), h2⟩
    · intro f x hfx y hy
      rcases (hmem y).1 hy with hy | ⟨a, ha, _⟩
      · exact hs.least f x hfx y hy
      · exact absurd ha List.not_mem_nil
    · exact hs.mono
    · simp [hab]
    · simp [hlen]
    · exact hin
  | some gy =>
    obtain ⟨g, y⟩ := gy
    obtain ⟨h1, _, h3⟩ := hevs g y hb
    obtain ⟨a0, ha0, hx0, hg0⟩ : ∃ a ∈ ants, getX a = y ∧ g = total p q y := by
      rcases h1 with h1 | h1
      · cases h1
      · exact h1
    have hne : ¬ (s.trace ++ [ants.map getX]).flatten = [] := by
      rw [hnil]
      rintro ⟨_, rfl⟩
      exact List.not_mem_nil ha0
    cases hbest : s.best with
    | none =>
      simp only [if_true]
      obtain ⟨hold, htr⟩ := hs.none_iff.1 hbest
      refine ⟨hd, ?_, ?_, ?_, ?_, s.trace ++ [ants.map getX], [], ?_, rfl, ?_⟩
      · exact ⟨fun h => (by cases h), fun h => absurd h.2 hne⟩
      · intro f x hfx
        simp only [Option.some.injEq, Prod.mk.injEq] at hfx
        obtain ⟨rfl, rfl⟩ := hfx
        refine Or.inr ⟨(hmem y).2 (Or.inr ⟨a0, ha0, hx0⟩), hg0, ?_⟩
        intro g' y' ho
        rw [hold] at ho; cases ho
      · intro f x hfx z hz
        simp only [Option.some.injEq, Prod.mk.injEq] at hfx
        obtain ⟨rfl, rfl⟩ := hfx
        rcases (hmem z).1 hz with hz | ⟨a, ha, rfl⟩
        · rw [htr] at hz; exact absurd hz List.not_mem_nil
        · exact h3 a ha
      · intro f x g' y' _ ho
        rw [hold] at ho; cases ho
      · simp
      · intro f x hfx
        simp only [Option.some.injEq, Prod.mk.injEq] at hfx
        obtain ⟨rfl, rfl⟩ := hfx
        exact Or.inr ((hmem y).2 (Or.inr ⟨a0, ha0, hx0⟩))
    | some gy0 =>
      obtain ⟨g0, y0⟩ := gy0
      have hn0 : ¬ old = none ∨ ¬ s.trace.flatten = [] := by
        by_contra hcon
        push Not at hcon
        have := hs.none_iff.2 hcon
        rw [hbest] at this; cases this
      by_cases hlt : g < g0
      · simp only [hlt, decide_true, if_true]
        refine ⟨hd, ?_, ?_, ?_, ?_, s.trace ++ [ants.map getX], [], ?_, rfl, ?_⟩
        · exact ⟨fun h => (by cases h), fun h => absurd h.2 hne⟩
        · intro f x hfx
          simp only [Option.some.injEq, Prod.mk.injEq] at hfx
          obtain ⟨rfl, rfl⟩ := hfx
          exact Or.inr ⟨(hmem y).2 (Or.inr ⟨a0, ha0, hx0⟩), hg0, fun g' y' ho =>
            lt_of_lt_of_le hlt (hs.mono g0 y0 g' y' hbest ho)⟩
        · intro f x hfx z hz
          simp only [Option.some.injEq, Prod.mk.injEq] at hfx
          obtain ⟨rfl, rfl⟩ := hfx
          rcases (hmem z).1 hz with hz | ⟨a, ha, rfl⟩
          · exact le_trans hlt.le (hs.least g0 y0 hbest z hz)
          · exact h3 a ha
        · intro f x g' y' hfx ho
          simp only [Option.some.injEq, Prod.mk.injEq] at hfx
          obtain ⟨rfl, rfl⟩ := hfx
          exact le_trans hlt.le (hs.mono g0 y0 g' y' hbest ho)
        · simp
        · intro f x hfx
          simp only [Option.some.injEq, Prod.mk.injEq] at hfx
          obtain ⟨rfl, rfl⟩ := hfx
          exact Or.inr ((hmem y).2 (Or.inr ⟨a0, ha0, hx0⟩))
      · simp only [hlt, decide_false, Bool.false_eq_true, if_false]
        obtain ⟨a, b, hab, hlen, hin⟩ := hs.idle
        refine ⟨hd, ?_, ?_, ?_, ?_, a, b ++ [ants.map getX], ?_, ?_, ?_⟩
        · exact ⟨fun h => (by cases h), fun h => absurd h.2 hne⟩
        · intro f x hfx
          rw [← hbest] at hfx
          rcases hs.found f x hfx with h | ⟨h1, h2⟩
          · exact Or.inl (by rw [← h, hbest])
          · exact Or.inr ⟨(hmem x).2 (Or.inl h1), h2⟩
        · intro f x hfx z hz
          simp only [Option.some.injEq, Prod.mk.injEq] at hfx
          obtain ⟨rfl, rfl⟩ := hfx
          rcases (hmem z).1 hz with hz | ⟨a, ha, rfl⟩
          · exact hs.least g0 y0 hbest z hz
          · exact le_trans (not_lt.1 hlt) (h3 a ha)
        · intro f x g' y' hfx ho
          rw [← hbest] at hfx
          exact hs.mono f x g' y' hfx ho
        · simp [hab]
        · simp [hlen]
        · intro f x hfx
          rw [← hbest] at hfx
          rcases hin f x hfx with h | h
          · exact Or.inl (by rw [← h, hbest])
          · exact Or.inr h

theorem loop_inv {p : Params} {q : Prob} {vals : List ℝ} {nmax : ℕ}
    {pick : ℕ → ℕ → ℕ → List ℝ → ℕ} {old : Option (ℝ × List ℝ)} :
    ∀ {ts : List ℕ} {s s' : St}, Inv p q vals old s → loop p q vals nmax pick ts s = .ok s' →
      Inv p q vals old s'
  | [], s, s', hs, h => by obtain rfl := Except.ok.inj h; exact hs
  | t :: ts, s, s', hs, h => by
    unfold loop at h
    obtain ⟨s1, h1, h⟩ := bind_ok h
    have hi := iterate_inv hs h1
    by_cases hn : nmax < s1.n
    · rw [if_pos hn] at h
      obtain rfl := Except.ok.inj h
      exact hi
    · rw [if_neg hn] at h
      exact loop_inv hi h

theorem start_inv {p : Params} {q : Prob} {old : Option (ℝ × List ℝ)} {vals : List ℝ} {s : St}
    (h : start p q old = .ok (vals, s)) :
    q.values.head? = some vals ∧ s.n = 0 ∧ s.trace = [] ∧ Inv p q vals old s := by
  unfold start at h
  obtain ⟨v, hv, h⟩ := bind_ok h
  obtain ⟨f, _, h⟩ := bind_ok h
  obtain ⟨_, _, h⟩ := bind_ok h
  obtain ⟨he, _, h⟩ := bind_ok h
  obtain ⟨rfl, rfl⟩ := Prod.mk.inj (Except.ok.inj h)
  refine ⟨?_, rfl, rfl, ⟨by simp, by simp, ?_, by simp, ?_, [], [], rfl, rfl, ?_⟩⟩
  · cases hq : q.values with
    | nil => rw [hq] at hv; cases hv
    | cons a l =>
      rw [hq] at hv
      exact congrArg some (Except.ok.inj hv)
  · intro f x hfx; exact Or.inl rfl
  · intro f x g y h1 h2
    simp only at h1
    rw [h1] at h2
    simp only [Option.some.injEq, Prod.mk.injEq] at h2
    exact le_of_eq h2.1
  · intro f x hfx; exact Or.inl rfl

theorem solve_inv {p : Params} {q : Prob} {old : Option (ℝ × List ℝ)} {maxiter nmax : ℕ}
    {pick : ℕ → ℕ → ℕ → List ℝ → ℕ} {s : St}
    (h : solve p q old maxiter nmax pick = .ok s) :
    ∃ vals, q.values.head? = some vals ∧ Inv p q vals old s := by
  unfold solve at h
  obtain ⟨⟨vals, s0⟩, h0, h⟩ := bind_ok h
  obtain ⟨hv, _, _, hi⟩ := start_inv h0
  exact ⟨vals, hv, loop_inv hi h⟩

/-- A fresh ant colony solver returns the best design among all designs it evaluated: the returned fitness is the penalised objective function of the returned design and no evaluated design has a smaller one. Every evaluated design has one value of the list of the first variable for each member of the structure. -/
theorem aco_result (p : Params) (q : Prob) (maxiter nmax : ℕ)
    (pick : ℕ → ℕ → ℕ → List ℝ → ℕ) (s : St)
    (h : solve p q none maxiter nmax pick = .ok s) :
    (∃ vals, q.values.head? = some vals ∧ ∀ x ∈ s.trace.flatten, Design q vals x) ∧
    (s.best = none ↔ s.trace.flatten = []) ∧
    ∀ f x, s.best = some (f, x) →
      x ∈ s.trace.flatten ∧ f = total p q x ∧ ∀ y ∈ s.trace.flatten, f ≤ total p q y := by
  obtain ⟨vals, hv, hi⟩ := solve_inv h
  refine ⟨⟨vals, hv, hi.design⟩, by simpa using hi.none_iff, ?_⟩
  intro f x hfx
  rcases hi.found f x hfx with h1 | ⟨h1, h2⟩
  · rw [hfx] at h1; cases h1
  · exact ⟨h1, h2.1, hi.least f x hfx⟩

/-- A solver object that is used again returns the fitness and the design of the earlier problem if no design of the new problem has a smaller fitness. -/
theorem aco_again_viol (p : Params) (q : Prob) (maxiter nmax : ℕ)
    (pick : ℕ → ℕ → ℕ → List ℝ → ℕ) (s : St) (g : ℝ) (y : List ℝ)
    (hold : ∀ x, g ≤ total p q x)
    (h : solve p q (some (g, y)) maxiter nmax pick = .ok s) :
    s.best = some (g, y) := by
  obtain ⟨vals, hv, hi⟩ := solve_inv h
  cases hb : s.best with
  | none => have := (hi.none_iff.1 hb).1; cases this
  | some fx =>
    obtain ⟨f, x⟩ := fx
    rcases hi.found f x hb with h1 | ⟨_, h2, h3⟩
    · rw [← h1, hb]
    · exact absurd (h3 g y rfl) (not_lt.2 (h2 ▸ hold x))

/-- The values of the second variable are not respected: if its list has no value in common with the list of the first variable, no evaluated design is allowed. -/
theorem aco_values_viol (p : Params) (q : Prob) (maxiter nmax : ℕ)
    (pick : ℕ → ℕ → ℕ → List ℝ → ℕ) (s : St) (v0 v1 : List ℝ) (vs : List (List ℝ))
    (hq : q.values = v0 :: v1 :: vs) (hdis : ∀ v ∈ v0, v ∉ v1) (hm : 1 < q.members.length)
    (h : solve p q none maxiter nmax pick = .ok s) :
    ∀ x ∈ s.trace.flatten, ∃ v, x[1]? = some v ∧ v ∉ v1 := by
  obtain ⟨vals, hv, hi⟩ := solve_inv h
  rw [hq] at hv
  obtain rfl : v0 = vals := by simpa using hv
  intro x hx
  obtain ⟨h1, h2⟩ := hi.design x hx
  have hl : 1 < x.length := by rw [h1]; exact hm
  refine ⟨x[1], List.getElem?_eq_getElem hl, hdis _ (h2 _ (List.getElem_mem hl))⟩

/-- If all variables have the same list, every value of every evaluated design comes from the list of its variable. -/
theorem aco_values_partial (p : Params) (q : Prob) (maxiter nmax : ℕ)
    (pick : ℕ → ℕ → ℕ → List ℝ → ℕ) (s : St) (v0 : List ℝ)
    (hsame : ∀ v ∈ q.values, v = v0) (h : solve p q none maxiter nmax pick = .ok s) :
    ∀ x ∈ s.trace.flatten, x.length = q.members.length ∧ ∀ (i : ℕ) (v : List ℝ) (a : ℝ),
      q.values[i]? = some v → x[i]? = some a → a ∈ v := by
  obtain ⟨vals, hv, hi⟩ := solve_inv h
  obtain rfl : vals = v0 := hsame vals (List.mem_of_mem_head? hv)
  intro x hx
  obtain ⟨h1, h2⟩ := hi.design x hx
  refine ⟨h1, ?_⟩
  intro i v a hiv hia
  rw [hsame v (List.mem_of_getElem? hiv)]
  exact h2 a (List.mem_of_getElem? hia)

/-- A structure with more members than the problem has variables cannot be treated. -/
theorem aco_members_viol (p : Params) (q : Prob) (old : Option (ℝ × List ℝ)) (maxiter nmax : ℕ)
    (pick : ℕ → ℕ → ℕ → List ℝ → ℕ) (v : ℝ) (vals : List ℝ) (vs : List (List ℝ))
    (hq : q.values = (v :: vals) :: vs) (hm : q.values.length < q.members.length) :
    solve p q old maxiter nmax pick = .error .indexError := by
  have hne : q.members ≠ [] := by
    intro h0; rw [h0] at hm; simp at hm
  have hh : heuristic q.values.length (v :: vals) q.members = .error .indexError := by
    unfold heuristic
    rw [if_pos ⟨by simp, hm⟩]
  have he : entry q.values[0]? = .ok (v :: vals) := by rw [hq]; rfl
  unfold solve start minF firstPheromone
  simp only [he, hh, pyMin, bind, Except.bind, pure, Except.pure, if_neg hne]

/-- The number of iterations is at most `maxiter`. If it is smaller, exactly the last `nmax + 1` iterations brought no improvement: the returned design was found before them. -/
theorem aco_stop (p : Params) (q : Prob) (maxiter nmax : ℕ)
    (pick : ℕ → ℕ → ℕ → List ℝ → ℕ) (s : St)
    (h : solve p q none maxiter nmax pick = .ok s) :
    s.trace.length ≤ maxiter ∧
    (s.trace.length < maxiter → ∃ a b, s.trace = a ++ b ∧ b.length = nmax + 1 ∧
      ∀ f x, s.best = some (f, x) → x ∈ a.flatten ∧ ∀ y ∈ b.flatten, f ≤ total p q y) := by
  obtain ⟨vals, hv, hi⟩ := solve_inv h
  have key : ∀ (ts : List ℕ) (s0 s1 : St), s0.n ≤ nmax →
      loop p q vals nmax pick ts s0 = .ok s1 →
      s1.trace.length ≤ s0.trace.length + ts.length ∧
      (s1.trace.length < s0.trace.length + ts.length → s1.n = nmax + 1) := by
    intro ts
    induction ts with
    | nil =>
      intro s0 s1 _ hl
      obtain rfl := Except.ok.inj hl
      simp
    | cons t ts ih =>
      intro s0 s1 hn hl
      unfold loop at hl
      obtain ⟨s2, h2, hl⟩ := bind_ok hl
      have h3 : s2.trace.length = s0.trace.length + 1 ∧ s2.n ≤ s0.n + 1 := by
        unfold iterate at h2
        obtain ⟨ants, _, h2⟩ := bind_ok h2
        obtain ⟨ph', _, h2⟩ := bind_ok h2
        obtain rfl := Except.ok.inj h2
        refine ⟨by simp, ?_⟩
        have hb : ∀ b : Bool, (if b = true then 0 else s0.n + 1) ≤ s0.n + 1 := by
          intro b; cases b <;> simp
        exact hb _
      by_cases hc : nmax < s2.n
      · rw [if_pos hc] at hl
        obtain rfl := Except.ok.inj hl
        refine ⟨by rw [h3.1]; simp, fun _ => by omega⟩
      · rw [if_neg hc] at hl
        have := ih s2 s1 (not_lt.1 hc) hl
        rw [h3.1] at this
        simp only [List.length_cons]
        constructor
        · omega
        · intro hlt
          exact this.2 (by omega)
  unfold solve at h
  obtain ⟨⟨vals', s0⟩, h0, h⟩ := bind_ok h
  obtain ⟨hv', hn0, ht0, _⟩ := start_inv h0
  have : vals' = vals := by rw [hv] at hv'; exact (Option.some.inj hv').symm
  subst this
  have hk := key _ s0 s (by omega) h
  rw [ht0] at hk
  simp only [List.length_nil, List.length_range, zero_add] at hk
  refine ⟨hk.1, fun hlt => ?_⟩
  obtain ⟨a, b, hab, hlen, hin⟩ := hi.idle
  refine ⟨a, b, hab, by rw [hlen]; exact hk.2 hlt, ?_⟩
  intro f x hfx
  refine ⟨?_, ?_⟩
  · rcases hin f x hfx with h1 | h1
    · rw [hfx] at h1; cases h1
    · exact h1
  · intro y hy
    refine hi.least f x hfx y ?_
    rw [hab, List.flatten_append]
    exact List.mem_append_right _ hy

/-! ### Pheromones -/

/-- A matrix of positive numbers. -/
def Mat (nv nj : ℕ) (m : List (List ℝ)) : Prop :=
  m.length = nv ∧ ∀ r ∈ m, r.length = nj ∧ ∀ x ∈ r, 0 < x

theorem zipRow (p : Params) : ∀ (a b : List ℝ), a.length = b.length → (∀ x ∈ a, 0 < x) →
    (∀ x ∈ b, 0 < x) →
    (List.zipWith (fun a h => a ^ p.alpha * h ^ p.beta) a b).length = a.length ∧
    ∀ x ∈ List.zipWith (fun a h => a ^ p.alpha * h ^ p.beta) a b, 0 < x
  | [], b, _, _, _ => by simp
  | x :: a, [], h, _, _ => by simp at h
  | x :: a, y :: b, h, ha, hb => by
    obtain ⟨h1, h2⟩ := zipRow p a b (by simpa using h)
      (fun z hz => ha z (List.mem_cons_of_mem _ hz)) (fun z hz => hb z (List.mem_cons_of_mem _ hz))
    refine ⟨by simp only [List.zipWith_cons_cons, List.length_cons, h1], ?_⟩
    intro z hz
    rw [List.zipWith_cons_cons] at hz
    rcases List.mem_cons.1 hz with rfl | hz
    · exact mul_pos (Real.rpow_pos_of_pos (ha x List.mem_cons_self) _)
        (Real.rpow_pos_of_pos (hb y List.mem_cons_self) _)
    · exact h2 z hz

theorem probs_mat (p : Params) {nj : ℕ} : ∀ {nv : ℕ} {ph he : List (List ℝ)}, Mat nv nj ph →
    Mat nv nj he → Mat nv nj (probs p ph he)
  | nv, [], he, h1, h2 => by
    obtain ⟨h1, _⟩ := h1
    exact ⟨by simpa [probs] using h1, by simp [probs]⟩
  | nv, r :: ph, [], h1, h2 => by
    have := h1.1; rw [← h2.1] at this; simp at this
  | nv, r :: ph, t :: he, h1, h2 => by
    have hr := h1.2 r List.mem_cons_self
    have ht := h2.2 t List.mem_cons_self
    obtain ⟨z1, z2⟩ := zipRow p r t (by rw [hr.1, ht.1]) hr.2 ht.2
    have ih : Mat ph.length nj (probs p ph he) := by
      refine probs_mat p ⟨rfl, fun r hr => h1.2 r (List.mem_cons_of_mem _ hr)⟩
        ⟨?_, fun r hr => h2.2 r (List.mem_cons_of_mem _ hr)⟩
      have := h1.1.trans h2.1.symm
      simpa using this.symm
    refine ⟨?_, ?_⟩
    · have h3 := ih.1
      have h4 := h1.1
      simp only [List.length_cons] at h4
      simp only [probs, List.zipWith_cons_cons, List.length_cons] at h3 ⊢
      omega
    · intro w hw
      simp only [probs, List.zipWith_cons_cons] at hw
      rcases List.mem_cons.1 hw with rfl | hw
      · exact ⟨by rw [z1, hr.1], z2⟩
      · exact ih.2 w hw

theorem modify_pos {f : ℝ → ℝ} (hf : ∀ x, 0 < x → 0 < f x) : ∀ (r : List ℝ) (j : ℕ),
    (∀ x ∈ r, 0 < x) → ∀ x ∈ r.modify j f, 0 < x
  | [], j, h => by simp
  | a :: r, 0, h => by
    intro x hx
    rw [List.modify_zero_cons] at hx
    rcases List.mem_cons.1 hx with rfl | hx
    · exact hf a (h a List.mem_cons_self)
    · exact h x (List.mem_cons_of_mem _ hx)
  | a :: r, j + 1, h => by
    intro x hx
    rw [List.modify_succ_cons] at hx
    rcases List.mem_cons.1 hx with rfl | hx
    · exact h _ List.mem_cons_self
    · exact modify_pos hf r j (fun x hx => h x (List.mem_cons_of_mem _ hx)) x hx

theorem touch_mat {f : ℝ → ℝ} (hf : ∀ x, 0 < x → 0 < f x) {nj : ℕ} :
    ∀ {nv : ℕ} {ph : List (List ℝ)} (a : List (ℕ × ℝ)), Mat nv nj ph → Mat nv nj (touch f ph a)
  | nv, [], a, h => by cases a <;> exact h
  | nv, r :: ph, [], h => h
  | nv, r :: ph, c :: a, h => by
    have hr := h.2 r List.mem_cons_self
    have ih : Mat ph.length nj (touch f ph a) :=
      touch_mat hf a ⟨rfl, fun r hr => h.2 r (List.mem_cons_of_mem _ hr)⟩
    refine ⟨?_, ?_⟩
    · have h4 := h.1
      simp only [touch, List.length_cons] at h4 ⊢
      rw [ih.1]; exact h4
    · intro w hw
      simp only [touch] at hw
      rcases List.mem_cons.1 hw with rfl | hw
      · exact ⟨by simp [hr.1], modify_pos hf r c.1 hr.2⟩
      · exact ih.2 w hw

theorem local_mat {p : Params} (hxi : 0 < p.xi) {nv nj : ℕ} : ∀ (ants : List (List (ℕ × ℝ)))
    {ph : List (List ℝ)}, Mat nv nj ph → Mat nv nj (ants.foldl (localUpdate p) ph)
  | [], ph, h => h
  | a :: ants, ph, h => by
    rw [List.foldl_cons]
    exact local_mat hxi ants (touch_mat (fun x hx => mul_pos hx hxi) a h)

theorem reinforce_ok {p : Params} {q : Prob} (hrho : 0 ≤ p.rho) (hpos : ∀ x, 0 < total p q x)
    {nv nj : ℕ} {sorted : List (List (ℕ × ℝ))} : ∀ (its : List ℕ) {ph : List (List ℝ)},
    (∀ it ∈ its, it < sorted.length ∧ it < p.top) → Mat nv nj ph →
    ∃ ph', reinforce p q sorted its ph = .ok ph' ∧ Mat nv nj ph'
  | [], ph, _, h => ⟨ph, rfl, h⟩
  | it :: its, ph, hits, h => by
    obtain ⟨h1, h2⟩ := hits it List.mem_cons_self
    unfold reinforce
    rw [List.getElem?_eq_getElem h1]
    refine reinforce_ok hrho hpos its (fun i hi => hits i (List.mem_cons_of_mem _ hi)) ?_
    refine touch_mat ?_ _ h
    intro x hx
    have hf : 0 < fitness p q sorted[it] := hpos _
    have ht : (0 : ℝ) ≤ (p.top : ℝ) - it := by
      have : (it : ℝ) < p.top := by exact_mod_cast h2
      linarith
    have : 0 ≤ p.rho * ((p.top : ℝ) - it) / fitness p q sorted[it] :=
      div_nonneg (mul_nonneg hrho ht) hf.le
    linarith

theorem sum_div (l : List ℝ) (c : ℝ) : (l.map (· / c)).sum = l.sum / c := by
  induction l with
  | nil => simp
  | cons a l ih => simp only [List.map_cons, List.sum_cons, ih, add_div]

theorem sum_pos' : ∀ (l : List ℝ), l ≠ [] → (∀ x ∈ l, 0 < x) → 0 < l.sum
  | [], h, _ => absurd rfl h
  | [a], _, h => by simpa using h a (by simp)
  | a :: b :: l, _, h => by
    rw [List.sum_cons]
    exact add_pos (h a (by simp)) (sum_pos' (b :: l) (by simp)
      (fun x hx => h x (List.mem_cons_of_mem _ hx)))

theorem chooseOne_ok {pick : List ℝ → ℕ} {row vals : List ℝ}
    (hp : ∀ p, (∀ x ∈ p, 0 ≤ x) → p.sum = 1 → ∃ v, p[pick p]? = some v ∧ 0 < v)
    (hl : row.length = vals.length) (hne : row ≠ []) (hpos : ∀ x ∈ row, 0 < x) :
    ∃ c, chooseOne pick row vals = .ok c := by
  have hs : 0 < row.sum := sum_pos' row hne hpos
  have hnn : ∀ x ∈ row.map (· / row.sum), 0 ≤ x := by
    intro x hx
    obtain ⟨y, hy, rfl⟩ := List.mem_map.1 hx
    exact div_nonneg (hpos y hy).le hs.le
  have h1 : (row.map (· / row.sum)).sum = 1 := by
    rw [sum_div, div_self hs.ne']
  obtain ⟨v, hv, _⟩ := hp _ hnn h1
  have hlt : pick (row.map (· / row.sum)) < vals.length := by
    obtain ⟨h, _⟩ := List.getElem?_eq_some_iff.1 hv
    rw [List.length_map, hl] at h
    exact h
  have hno : ¬ ∃ x ∈ row.map (· / row.sum), x < 0 := by
    rintro ⟨x, hx, h0⟩
    exact absurd h0 (not_lt.2 (hnn x hx))
  refine ⟨(pick (row.map (· / row.sum)), vals[pick (row.map (· / row.sum))]), ?_⟩
  unfold chooseOne
  simp only
  rw [if_neg hs.ne', if_neg hno, List.getElem?_eq_getElem hlt]

theorem chooseAll_ok {pick : ℕ → List ℝ → ℕ} {vals : List ℝ} {pr : List (List ℝ)} {nv : ℕ}
    (hp : ∀ i p, (∀ x ∈ p, 0 ≤ x) → p.sum = 1 → ∃ v, p[pick i p]? = some v ∧ 0 < v)
    (hv : vals ≠ []) (hm : Mat nv vals.length pr) : ∀ (is : List ℕ), (∀ i ∈ is, i < nv) →
    ∃ cs, chooseAll pick vals pr is = .ok cs
  | [], _ => ⟨[], rfl⟩
  | i :: is, h => by
    have hi : i < pr.length := by rw [hm.1]; exact h i List.mem_cons_self
    obtain ⟨hr1, hr2⟩ := hm.2 pr[i] (List.getElem_mem hi)
    have hne : pr[i] ≠ [] := by
      intro h0
      rw [h0] at hr1
      exact hv (List.length_eq_zero_iff.1 hr1.symm)
    obtain ⟨c, hc⟩ := chooseOne_ok (hp i) hr1 hne hr2
    obtain ⟨cs, hcs⟩ := chooseAll_ok hp hv hm is (fun i hi => h i (List.mem_cons_of_mem _ hi))
    refine ⟨c :: cs, ?_⟩
    unfold chooseAll
    rw [List.getElem?_eq_getElem hi]
    simp only [entry, bind, Except.bind, hc, hcs, pure, Except.pure]

theorem makeAnts_ok {pick : ℕ → ℕ → List ℝ → ℕ} {vals : List ℝ} {pr : List (List ℝ)} {nv : ℕ}
    (hp : ∀ k i p, (∀ x ∈ p, 0 ≤ x) → p.sum = 1 → ∃ v, p[pick k i p]? = some v ∧ 0 < v)
    (hv : vals ≠ []) (hm : Mat nv vals.length pr) : ∀ (ks : List ℕ),
    ∃ as, makeAnts pick vals pr nv ks = .ok as
  | [] => ⟨[], rfl⟩
  | k :: ks => by
    obtain ⟨a, ha⟩ := chooseAll_ok (hp k) hv hm (List.range nv) (fun i hi => List.mem_range.1 hi)
    obtain ⟨as, has⟩ := makeAnts_ok hp hv hm ks
    refine ⟨a :: as, ?_⟩
    unfold makeAnts
    simp only [bind, Except.bind, ha, has, pure, Except.pure]

/-- What the solver needs: positive areas, lengths and densities, as many members as variables, a positive evaporation factor and positive fitness values. -/
structure Sound (p : Params) (q : Prob) (v : ℝ) (vals : List ℝ) : Prop where
  first : q.values.head? = some (v :: vals)
  area : ∀ a ∈ v :: vals, 0 < a
  member : ∀ m ∈ q.members, 0 < m.1 ∧ 0 < m.2
  count : q.members.length = q.values.length
  xi : 0 < p.xi
  rho : 0 ≤ p.rho
  fit : ∀ x, 0 < total p q x

theorem foldl_min_mem : ∀ (l : List ℝ) (a : ℝ), l.foldl min a ∈ a :: l
  | [], a => by simp
  | b :: l, a => by
    rw [List.foldl_cons]
    have := foldl_min_mem l (min a b)
    rcases List.mem_cons.1 this with h | h
    · rw [h]
      rcases min_choice a b with h' | h' <;> rw [h'] <;> simp
    · exact List.mem_cons_of_mem _ (List.mem_cons_of_mem _ h)

theorem start_ok {p : Params} {q : Prob} {v : ℝ} {vals : List ℝ} (h : Sound p q v vals)
    (old : Option (ℝ × List ℝ)) : ∃ s, start p q old = .ok (v :: vals, s) ∧
      Mat q.values.length (v :: vals).length s.ph ∧ Mat q.values.length (v :: vals).length s.he ∧
      s.pr = probs p s.ph s.he := by
  have hq : q.values[0]? = some (v :: vals) := by
    rw [← List.head?_eq_getElem?]; exact h.first
  have hmne : q.members ≠ [] := by
    intro h0
    have := h.count
    rw [h0] at this
    have h1 := h.first
    rw [List.length_eq_zero_iff.1 this.symm] at h1
    cases h1
  have ha : 0 < vals.foldl min v := h.area _ (foldl_min_mem vals v)
  have hf : 0 < (q.members.map fun m => mass m (vals.foldl min v)).sum := by
    apply sum_pos'
    · simpa using hmne
    · intro x hx
      obtain ⟨m, hm, rfl⟩ := List.mem_map.1 hx
      obtain ⟨h1, h2⟩ := h.member m hm
      exact mul_pos (mul_pos h1 ha) h2
  have hhe : ¬ ((v :: vals) ≠ [] ∧ q.values.length < q.members.length) := by
    rintro ⟨_, hlt⟩
    rw [h.count] at hlt
    exact lt_irrefl _ hlt
  let p0 : ℝ := 1 / (q.members.map fun m => mass m (vals.foldl min v)).sum
  let ph := List.replicate q.values.length (List.replicate (v :: vals).length p0)
  let he := (List.range q.values.length).map fun i =>
    match q.members[i]? with
    | some m => (v :: vals).map fun a => 1 / mass m a
    | none => (v :: vals).map fun _ => 0
  refine ⟨{ ph := ph, he := he, pr := probs p ph he, best := old, n := 0, trace := [] }, ?_, ?_, ?_,
    rfl⟩
  · unfold start minF heuristic firstPheromone
    simp only [hq, entry, bind, Except.bind, pure, Except.pure, if_neg hmne, pyMin, if_neg hhe]
    rfl
  · refine ⟨by simp [ph], ?_⟩
    intro r hr
    obtain rfl := List.eq_of_mem_replicate hr
    refine ⟨by simp, ?_⟩
    intro x hx
    obtain rfl := List.eq_of_mem_replicate hx
    exact one_div_pos.2 hf
  · refine ⟨by simp [he], ?_⟩
    intro r hr
    simp only [he] at hr
    obtain ⟨i, hi, rfl⟩ := List.mem_map.1 hr
    have hi' : i < q.members.length := by rw [h.count]; exact List.mem_range.1 hi
    rw [List.getElem?_eq_getElem hi']
    refine ⟨by simp, ?_⟩
    intro x hx
    obtain ⟨a, ha', rfl⟩ := List.mem_map.1 hx
    obtain ⟨h1, h2⟩ := h.member _ (List.getElem_mem hi')
    exact one_div_pos.2 (mul_pos (mul_pos h1 (h.area a ha')) h2)

theorem iterate_ok {p : Params} {q : Prob} {v : ℝ} {vals : List ℝ} (h : Sound p q v vals)
    (htop : p.top ≤ p.ants) {pick : ℕ → ℕ → List ℝ → ℕ}
    (hp : ∀ k i p, (∀ x ∈ p, 0 ≤ x) → p.sum = 1 → ∃ v, p[pick k i p]? = some v ∧ 0 < v)
    {s : St} (h1 : Mat q.values.length (v :: vals).length s.ph)
    (h2 : Mat q.values.length (v :: vals).length s.he) (h3 : s.pr = probs p s.ph s.he) :
    ∃ s', iterate p q (v :: vals) pick s = .ok s' ∧
      Mat q.values.length (v :: vals).length s'.ph ∧
      Mat q.values.length (v :: vals).length s'.he ∧ s'.pr = probs p s'.ph s'.he ∧
      ∃ xs, s'.trace = s.trace ++ [xs] ∧ xs.length = p.ants := by
  have hpr : Mat q.members.length (v :: vals).length s.pr := by
    rw [h3, h.count]; exact probs_mat p h1 h2
  obtain ⟨ants, hants⟩ := makeAnts_ok hp (by simp) hpr (List.range p.ants)
  have hlen : ants.length = p.ants := by
    have := (makeAnts_spec hants).1
    simpa using this
  have hm := local_mat h.xi ants h1
  obtain ⟨ph', hph, hph'⟩ := reinforce_ok (q := q) (sorted := ranked p q ants) h.rho h.fit
    (List.range p.top) (by
      intro it hit
      have := List.mem_range.1 hit
      refine ⟨?_, this⟩
      rw [ranked, List.length_mergeSort, hlen]
      omega) hm
  have hit : ∃ s', iterate p q (v :: vals) pick s = .ok s' := by
    unfold iterate globalUpdate
    simp only [bind, Except.bind, hants, hph, pure, Except.pure]
    exact ⟨_, rfl⟩
  obtain ⟨s', hs'⟩ := hit
  refine ⟨s', hs', ?_⟩
  unfold iterate globalUpdate at hs'
  simp only [bind, Except.bind, hants, hph, pure, Except.pure] at hs'
  obtain rfl := Except.ok.inj hs'
  exact ⟨hph', h2, rfl, ants.map getX, rfl, by simp [hlen]⟩

theorem loop_ok {p : Params} {q : Prob} {v : ℝ} {vals : List ℝ} (h : Sound p q v vals)
    (htop : p.top ≤ p.ants) {pick : ℕ → ℕ → ℕ → List ℝ → ℕ} (hp : Fair pick) (nmax : ℕ) :
    ∀ (ts : List ℕ) {s : St}, Mat q.values.length (v :: vals).length s.ph →
      Mat q.values.length (v :: vals).length s.he → s.pr = probs p s.ph s.he →
      ∃ s', loop p q (v :: vals) nmax pick ts s = .ok s' ∧
        Mat q.values.length (v :: vals).length s'.ph ∧ (ts ≠ [] → 0 < p.ants →
          s'.trace.flatten ≠ []) ∧ (s.trace.flatten ≠ [] → s'.trace.flatten ≠ [])
  | [], s, h1, _, _ => ⟨s, rfl, h1, fun h => absurd rfl h, id⟩
  | t :: ts, s, h1, h2, h3 => by
    obtain ⟨s1, hs1, g1, g2, g3, xs, hxs, hlen⟩ := iterate_ok h htop (hp t) h1 h2 h3
    have hne : 0 < p.ants → s1.trace.flatten ≠ [] := by
      intro ha h0
      rw [hxs, List.flatten_append] at h0
      have := (List.append_eq_nil_iff.1 h0).2
      simp only [List.flatten_cons, List.flatten_nil, List.append_nil] at this
      rw [this] at hlen
      simp only [List.length_nil] at hlen
      omega
    have hkeep : s.trace.flatten ≠ [] → s1.trace.flatten ≠ [] := by
      intro h0 h4
      rw [hxs, List.flatten_append] at h4
      exact h0 (List.append_eq_nil_iff.1 h4).1
    unfold loop
    by_cases hc : nmax < s1.n
    · refine ⟨s1, ?_, g1, fun _ => hne, hkeep⟩
      simp only [bind, Except.bind, hs1, if_pos hc, pure, Except.pure]
    · obtain ⟨s', h4, h5, _, h7⟩ := loop_ok h htop hp nmax ts g1 g2 g3
      refine ⟨s', ?_, h5, fun _ ha => h7 (hne ha), fun h0 => h7 (hkeep h0)⟩
      simp only [bind, Except.bind, hs1, if_neg hc]
      exact h4

/-- The search runs to its end for every outcome of the random choices and finds a design, if there are as many members as variables and as many ants as ants that leave pheromones. All pheromones stay positive. -/
theorem aco_runs (p : Params) (q : Prob) (v : ℝ) (vals : List ℝ) (old : Option (ℝ × List ℝ))
    (maxiter nmax : ℕ) (pick : ℕ → ℕ → ℕ → List ℝ → ℕ) (hpick : Fair pick)
    (h : Sound p q v vals) (htop : p.top ≤ p.ants) (hants : 0 < p.ants) (hit : 0 < maxiter) :
    ∃ s, solve p q old maxiter nmax pick = .ok s ∧ s.best ≠ none ∧
      ∀ r ∈ s.ph, ∀ x ∈ r, 0 < x := by
  obtain ⟨s0, h0, h1, h2, h3⟩ := start_ok h old
  obtain ⟨s, hs, h4, h5, _⟩ := loop_ok h htop hpick nmax (List.range maxiter) h1 h2 h3
  have hsolve : solve p q old maxiter nmax pick = .ok s := by
    unfold solve
    simp only [bind, Except.bind, h0]
    exact hs
  refine ⟨s, hsolve, ?_, fun r hr => (h4.2 r hr).2⟩
  obtain ⟨vs, _, hi⟩ := solve_inv hsolve
  intro hb
  refine h5 ?_ hants (hi.none_iff.1 hb).2
  intro h0
  have := congrArg List.length h0
  simp at this
  omega

/-- Fewer ants than ants that leave pheromones: the first iteration fails. -/
theorem aco_top_viol (p : Params) (q : Prob) (v : ℝ) (vals : List ℝ)
    (old : Option (ℝ × List ℝ)) (maxiter nmax : ℕ) (pick : ℕ → ℕ → ℕ → List ℝ → ℕ)
    (hpick : Fair pick) (h : Sound p q v vals) (htop : p.ants < p.top) (hit : 0 < maxiter) :
    solve p q old maxiter nmax pick = .error .indexError := by
  obtain ⟨s0, h0, h1, h2, h3⟩ := start_ok h old
  obtain ⟨n, rfl⟩ : ∃ n, maxiter = n + 1 := ⟨maxiter - 1, by omega⟩
  have hpr : Mat q.members.length (v :: vals).length s0.pr := by
    rw [h3, h.count]; exact probs_mat p h1 h2
  obtain ⟨ants, hants⟩ := makeAnts_ok (hpick 0) (by simp) hpr (List.range p.ants)
  have hlen : ants.length = p.ants := by
    have := (makeAnts_spec hants).1
    simpa using this
  have hre : ∀ (its : List ℕ) (ph : List (List ℝ)), (∃ it ∈ its, ants.length ≤ it) →
      reinforce p q (ranked p q ants) its ph = .error .indexError := by
    intro its
    induction its with
    | nil => rintro ph ⟨it, hmem, _⟩; exact absurd hmem List.not_mem_nil
    | cons i its ih =>
      rintro ph ⟨it, hmem, hle⟩
      unfold reinforce
      by_cases hi : i < ants.length
      · have hi' : i < (ranked p q ants).length := by rw [ranked, List.length_mergeSort]; exact hi
        rw [List.getElem?_eq_getElem hi']
        refine ih _ ⟨it, ?_, hle⟩
        rcases List.mem_cons.1 hmem with rfl | hm
        · omega
        · exact hm
      · have hi' : (ranked p q ants).length ≤ i := by rw [ranked, List.length_mergeSort]; omega
        rw [List.getElem?_eq_none hi']
  have hg := hre (List.range p.top) (ants.foldl (localUpdate p) s0.ph)
    ⟨p.ants, List.mem_range.2 htop, by omega⟩
  unfold solve
  simp only [bind, Except.bind, h0]
  rw [List.range_succ_eq_map]
  unfold loop iterate globalUpdate
  simp only [bind, Except.bind, hants, hg]

/-! ### The global update -/

theorem touch_entry (f : ℝ → ℝ) : ∀ (ph : List (List ℝ)) (a : List (ℕ × ℝ)) (i j : ℕ)
    (r : List ℝ) (x : ℝ), ph[i]? = some r → r[j]? = some x →
    ∃ r', (touch f ph a)[i]? = some r' ∧
      r'[j]? = some (if (a[i]?).map Prod.fst = some j then f x else x)
  | [], a, i, j, r, x, h, _ => by simp at h
  | r0 :: ph, [], i, j, r, x, h, hx => ⟨r, h, by simp [hx]⟩
  | r0 :: ph, c :: a, 0, j, r, x, h, hx => by
    obtain rfl : r0 = r := by simpa using h
    refine ⟨r0.modify c.1 f, by simp [touch], ?_⟩
    rw [List.getElem?_modify, hx]
    by_cases hc : c.1 = j <;> simp [hc]
  | r0 :: ph, c :: a, i + 1, j, r, x, h, hx => by
    have := touch_entry f ph a i j r x (by simpa using h) hx
    simpa [touch] using this

theorem touch_shape (f : ℝ → ℝ) : ∀ (ph : List (List ℝ)) (a : List (ℕ × ℝ)),
    (touch f ph a).length = ph.length
  | [], a => by cases a <;> rfl
  | r0 :: ph, [] => rfl
  | r0 :: ph, c :: a => by simp [touch, touch_shape f ph a]

/-- The update after each iteration: the ants are ordered by fitness, and the ant with rank `k` among the first `top` ones adds `rho * (top - k) / fitness` to the pheromone of each of its choices; nothing else changes. -/
theorem aco_update (p : Params) (q : Prob) (ants : List (List (ℕ × ℝ))) (ph ph' : List (List ℝ))
    (h : globalUpdate p q ants ph = .ok ph') :
    ∃ sorted : List (List (ℕ × ℝ)), sorted.Perm ants ∧
      sorted.Pairwise (fun a b => total p q (a.map (·.2)) ≤ total p q (b.map (·.2))) ∧
      p.top ≤ sorted.length ∧
      ∀ (i j : ℕ) (r : List ℝ) (x : ℝ), ph[i]? = some r → r[j]? = some x →
        ∃ r', ph'[i]? = some r' ∧ r'[j]? = some (x +
          ((sorted.take p.top).zipIdx.map fun (ak : List (ℕ × ℝ) × ℕ) =>
            if (ak.1[i]?).map Prod.fst = some j then
              p.rho * ((p.top : ℝ) - ak.2) / total p q (ak.1.map (·.2)) else 0).sum) := by
  refine ⟨ranked p q ants, List.mergeSort_perm _ _, ?_, ?_⟩
  · have := List.pairwise_mergeSort (le := fun a b => decide (fitness p q a ≤ fitness p q b))
      (by intro a b c hab hbc; simp only [decide_eq_true_eq] at *; exact le_trans hab hbc)
      (by intro a b; simp only [Bool.or_eq_true, decide_eq_true_eq]; exact le_total _ _) ants
    refine this.imp ?_
    intro a b hab
    have hab' : fitness p q a ≤ fitness p q b := by simpa using hab
    exact hab'
  unfold globalUpdate at h
  have key : ∀ (n m : ℕ) (ph0 ph1 : List (List ℝ)),
      reinforce p q (ranked p q ants) (List.range' m n) ph0 = .ok ph1 →
      (n = 0 ∨ m + n ≤ (ranked p q ants).length) ∧
      ∀ (i j : ℕ) (r : List ℝ) (x : ℝ), ph0[i]? = some r → r[j]? = some x →
        ∃ r', ph1[i]? = some r' ∧ r'[j]? = some (x +
          ((((ranked p q ants).drop m).take n).zipIdx m |>.map fun (ak : List (ℕ × ℝ) × ℕ) =>
            if (ak.1[i]?).map Prod.fst = some j then
              p.rho * ((p.top : ℝ) - ak.2) / total p q (ak.1.map (·.2)) else 0).sum) := by
    intro n
    induction n with
    | zero =>
      intro m ph0 ph1 h0
      obtain rfl := Except.ok.inj h0
      refine ⟨Or.inl rfl, fun i j r x hr hx => ⟨r, hr, by simpa using hx⟩⟩
    | succ n ih =>
      intro m ph0 ph1 h0
      rw [List.range'_succ] at h0
      unfold reinforce at h0
      cases ha : (ranked p q ants)[m]? with
      | none => rw [ha] at h0; cases h0
      | some a =>
        rw [ha] at h0
        obtain ⟨h1, h2⟩ := ih (m + 1) _ ph1 h0
        obtain ⟨hm, hma⟩ := List.getElem?_eq_some_iff.1 ha
        refine ⟨Or.inr (by omega), ?_⟩
        intro i j r x hr hx
        obtain ⟨r1, hr1, hx1⟩ := touch_entry
          (· + p.rho * ((p.top : ℝ) - m) / fitness p q a) ph0 a i j r x hr hx
        obtain ⟨r', hr', hx'⟩ := h2 i j r1 _ hr1 hx1
        refine ⟨r', hr', ?_⟩
        rw [hx', List.drop_eq_getElem_cons hm, List.take_succ_cons, List.zipIdx_cons,
          List.map_cons, List.sum_cons, hma]
        by_cases hc : (a[i]?).map Prod.fst = some j
        · simp only [hc, if_true]
          congr 1
          rw [add_assoc]; rfl
        · simp only [hc, if_false, zero_add]
  rw [List.range_eq_range'] at h
  obtain ⟨h1, h2⟩ := key p.top 0 ph ph' h
  refine ⟨by omega, ?_⟩
  intro i j r x hr hx
  have := h2 i j r x hr hx
  simpa using this

/-- The update by the ants themselves: each ant multiplies the pheromones of its choices by `xi`, so that an entry is multiplied by `xi` once for each ant that chose it. -/
theorem aco_local (p : Params) (ants : List (List (ℕ × ℝ))) :
    ∀ (ph : List (List ℝ)) (i j : ℕ) (r : List ℝ) (x : ℝ), ph[i]? = some r → r[j]? = some x →
      ∃ r', (ants.foldl (localUpdate p) ph)[i]? = some r' ∧ r'[j]? = some (x *
        p.xi ^ (ants.countP fun a => decide ((a[i]?).map Prod.fst = some j))) := by
  induction ants with
  | nil => intro ph i j r x hr hx; exact ⟨r, hr, by simp [hx]⟩
  | cons a ants ih =>
    intro ph i j r x hr hx
    obtain ⟨r1, hr1, hx1⟩ := touch_entry (· * p.xi) ph a i j r x hr hx
    obtain ⟨r', hr', hx'⟩ := ih (localUpdate p ph a) i j r1 _ hr1 hx1
    refine ⟨r', by rw [List.foldl_cons]; exact hr', ?_⟩
    rw [hx', List.countP_cons]
    by_cases hc : (a[i]?).map Prod.fst = some j
    · simp only [hc, if_true, decide_true]
      rw [pow_succ]
      congr 1
      ring
    · simp only [hc, if_false, decide_false, Bool.false_eq_true, add_zero]

theorem foldl_min_le : ∀ (l : List ℝ) (a : ℝ), ∀ b ∈ a :: l, l.foldl min a ≤ b
  | [], a => by simp
  | c :: l, a => by
    intro b hb
    rw [List.foldl_cons]
    have h := foldl_min_le l (min a c)
    rcases List.mem_cons.1 hb with rfl | hb
    · exact le_trans (h _ List.mem_cons_self) (min_le_left _ _)
    · rcases List.mem_cons.1 hb with rfl | hb
      · exact le_trans (h _ List.mem_cons_self) (min_le_right _ _)
      · exact h b (List.mem_cons_of_mem _ hb)

/-- At the start all pheromones are the reciprocal of the smallest possible mass, and the weight of value `j` for member `i` is `pheromone ^ alpha * (1 / mass) ^ beta`. -/
theorem aco_start (p : Params) (q : Prob) (v : ℝ) (vals : List ℝ) (old : Option (ℝ × List ℝ))
    (h : Sound p q v vals) : ∃ s a, start p q old = .ok (v :: vals, s) ∧ s.best = old ∧
      a ∈ v :: vals ∧ (∀ b ∈ v :: vals, a ≤ b) ∧
      ∀ (i j : ℕ) (m : ℝ × ℝ) (b : ℝ), q.members[i]? = some m → (v :: vals)[j]? = some b →
        ∃ r t, s.ph[i]? = some r ∧ s.pr[i]? = some t ∧
          r[j]? = some (1 / (q.members.map fun m => m.1 * a * m.2).sum) ∧
          t[j]? = some ((1 / (q.members.map fun m => m.1 * a * m.2).sum) ^ p.alpha *
            (1 / (m.1 * b * m.2)) ^ p.beta) := by
  obtain ⟨s, hs, _, _, _⟩ := start_ok h old
  have hq : q.values[0]? = some (v :: vals) := by
    rw [← List.head?_eq_getElem?]; exact h.first
  have hmne : q.members ≠ [] := by
    intro h0
    have := h.count
    rw [h0] at this
    have h1 := h.first
    rw [List.length_eq_zero_iff.1 this.symm] at h1
    cases h1
  have hhe : ¬ ((v :: vals) ≠ [] ∧ q.values.length < q.members.length) := by
    rintro ⟨_, hlt⟩
    rw [h.count] at hlt
    exact lt_irrefl _ hlt
  refine ⟨s, vals.foldl min v, hs, ?_, foldl_min_mem vals v, foldl_min_le vals v, ?_⟩
  · unfold start minF heuristic firstPheromone at hs
    simp only [hq, entry, bind, Except.bind, pure, Except.pure, if_neg hmne, pyMin, if_neg hhe] at hs
    obtain rfl := (Prod.mk.inj (Except.ok.inj hs)).2
    rfl
  intro i j m b hm hb
  unfold start minF heuristic firstPheromone at hs
  simp only [hq, entry, bind, Except.bind, pure, Except.pure, if_neg hmne, pyMin, if_neg hhe] at hs
  obtain rfl := (Prod.mk.inj (Except.ok.inj hs)).2
  have hi : i < q.values.length := by
    obtain ⟨hi, _⟩ := List.getElem?_eq_some_iff.1 hm
    rw [← h.count]; exact hi
  have hj : j < (v :: vals).length := (List.getElem?_eq_some_iff.1 hb).1
  refine ⟨List.replicate (v :: vals).length
      (1 / (q.members.map fun m => m.1 * (vals.foldl min v) * m.2).sum), ?_, ?_, ?_, ?_, ?_⟩
  · exact List.zipWith (fun a h => a ^ p.alpha * h ^ p.beta)
      (List.replicate (v :: vals).length
        (1 / (q.members.map fun m => m.1 * (vals.foldl min v) * m.2).sum))
      ((v :: vals).map fun a => 1 / mass m a)
  · simp only [mass]
    rw [List.getElem?_replicate, if_pos hi]
  · simp only [probs]
    rw [List.getElem?_zipWith, List.getElem?_replicate, if_pos hi, List.getElem?_map,
      List.getElem?_range hi]
    simp only [Option.map_some, hm, mass]
  · rw [List.getElem?_replicate, if_pos hj]
  · rw [List.getElem?_zipWith, List.getElem?_replicate, if_pos hj, List.getElem?_map, hb]
    rfl

/-! ### Examples -/

/-- A random choice: the first entry with positive probability. -/
noncomputable def firstPick : ℕ → ℕ → ℕ → List ℝ → ℕ := fun _ _ _ p => p.findIdx fun x => decide (0 < x)

theorem firstPick_fair : Fair firstPick := by
  intro t k i p hnn hs
  have hex : ∃ x ∈ p, decide (0 < x) = true := by
    by_contra hcon
    push Not at hcon
    have : p.sum = 0 := by
      apply List.sum_eq_zero
      intro x hx
      have h1 := hcon x hx
      have h1 : ¬ 0 < x := by simpa using h1
      have h1 := not_lt.1 h1
      exact le_antisymm h1 (hnn x hx)
    rw [this] at hs
    exact zero_ne_one hs
  have hlt : p.findIdx (fun x => decide (0 < x)) < p.length := List.findIdx_lt_length.2 hex
  refine ⟨p[p.findIdx fun x => decide (0 < x)], List.getElem?_eq_getElem hlt, ?_⟩
  have := List.findIdx_getElem (w := hlt)
  simpa using this

/-- Parameters with the given numbers of ants. -/
noncomputable def demo (ants top : ℕ) : Params :=
  { ants := ants, rho := 1, alpha := 1, beta := 1 / 2, xi := 3 / 4, top := top, factor := 10000 }

/-- Two bars; the mass is the sum of the areas. -/
def twoBars (v0 v1 : List ℝ) : Prob :=
  { values := [v0, v1], members := [(1, 1), (2, 1)], obj := fun x => 1 + |x.sum|, pen := fun _ => 0 }

theorem demo_sound (ants top : ℕ) : Sound (demo ants top) (twoBars [1, 2] [1, 2]) 1 [2] := by
  refine ⟨rfl, ?_, ?_, rfl, ?_, ?_, ?_⟩
  · intro a ha; simp at ha; rcases ha with rfl | rfl <;> norm_num
  · intro m hm; simp [twoBars] at hm; rcases hm with rfl | rfl <;> norm_num
  · norm_num [demo]
  · norm_num [demo]
  · intro x; simp only [total, twoBars, demo]; positivity

example : ∃ s, solve (demo 10 4) (twoBars [1, 2] [1, 2]) none 100 10 firstPick = .ok s ∧
    s.best ≠ none ∧ ∀ r ∈ s.ph, ∀ x ∈ r, 0 < x :=
  aco_runs _ _ 1 [2] none 100 10 firstPick firstPick_fair (demo_sound 10 4) (by decide)
    (by decide) (by decide)

example : ∃ s, solve (demo 10 4) (twoBars [1, 2] [1, 2]) none 100 10 firstPick = .ok s ∧
    s.trace.length ≤ 100 ∧ (∀ x ∈ s.trace.flatten, ∀ a, x[1]? = some a → a ∈ [(1 : ℝ), 2]) := by
  obtain ⟨s, h, _, _⟩ := aco_runs _ _ 1 [2] none 100 10 firstPick firstPick_fair (demo_sound 10 4)
    (by decide) (by decide) (by decide)
  refine ⟨s, h, (aco_stop _ _ _ _ _ s h).1, ?_⟩
  intro x hx a ha
  exact (aco_values_partial _ _ _ _ _ s [1, 2] (by intro v hv; simpa [twoBars] using hv) h x hx).2 1
    [1, 2] a rfl ha

example : solve (demo 3 4) (twoBars [1, 2] [1, 2]) none 100 10 firstPick = .error .indexError :=
  aco_top_viol _ _ 1 [2] none 100 10 firstPick firstPick_fair (demo_sound 3 4) (by decide)
    (by decide)

example : ∃ s, solve (demo 10 4) (twoBars [1, 2] [3]) none 100 10 firstPick = .ok s ∧
    s.trace.flatten ≠ [] ∧ ∀ x ∈ s.trace.flatten, ∃ v, x[1]? = some v ∧ v ∉ [(3 : ℝ)] := by
  have hs : Sound (demo 10 4) (twoBars [1, 2] [3]) 1 [2] :=
    ⟨rfl, (demo_sound 10 4).area, (demo_sound 10 4).member, rfl, (demo_sound 10 4).xi,
      (demo_sound 10 4).rho, (demo_sound 10 4).fit⟩
  obtain ⟨s, h, hb, _⟩ := aco_runs _ _ 1 [2] none 100 10 firstPick firstPick_fair hs (by decide)
    (by decide) (by decide)
  refine ⟨s, h, fun h0 => hb ((aco_result _ _ _ _ _ _ h).2.1.2 h0), ?_⟩
  exact aco_values_viol _ _ _ _ _ s [1, 2] [3] [] rfl (by
    intro v hv; simp at hv; rcases hv with rfl | rfl <;> norm_num) (by decide) h

example : ∃ s, solve (demo 10 4) (twoBars [1, 2] [1, 2]) (some (1 / 2, [7])) 100 10 firstPick = .ok s ∧
    s.best = some (1 / 2, [7]) := by
  obtain ⟨s, h, _, _⟩ := aco_runs _ _ 1 [2] (some (1 / 2, [7])) 100 10 firstPick firstPick_fair
    (demo_sound 10 4) (by decide) (by decide) (by decide)
  refine ⟨s, h, aco_again_viol _ _ _ _ _ s _ _ ?_ h⟩
  intro x
  simp only [total, twoBars, demo]
  have := abs_nonneg x.sum
  linarith

example : solve (demo 10 4) { twoBars [1, 2] [1, 2] with members := [(1, 1), (1, 1), (1, 1)] } none
    100 10 firstPick = .error .indexError :=
  aco_members_viol _ _ none 100 10 firstPick 1 [2] [[1, 2]] rfl (by decide)

example : ∃ s, start (demo 10 4) (twoBars [1, 2] [1, 2]) none = .ok ([1, 2], s) ∧ s.best = none := by
  obtain ⟨s, _, h1, h2, _⟩ := aco_start _ _ 1 [2] none (demo_sound 10 4)
  exact ⟨s, h1, h2⟩

example : ∃ r', ([[(0, 5)], [(1, 7)]].foldl (localUpdate (demo 10 4)) [[1, 1]])[0]? = some r' ∧
    r'[1]? = some (1 * (demo 10 4).xi ^ ([[(0, (5 : ℝ))], [(1, 7)]].countP fun a =>
      decide ((a[0]?).map Prod.fst = some 1))) :=
  aco_local (demo 10 4) [[(0, 5)], [(1, 7)]] [[1, 1]] 0 1 [1, 1] 1 rfl rfl

example : ∃ ph', globalUpdate (demo 2 1) (twoBars [1, 2] [1, 2]) [[(0, 1), (1, 2)], [(0, 1), (0, 1)]]
    [[1, 1], [1, 1]] = .ok ph' := by
  obtain ⟨ph', h, _⟩ := reinforce_ok (p := demo 2 1) (q := twoBars [1, 2] [1, 2])
    (sorted := ranked (demo 2 1) (twoBars [1, 2] [1, 2]) [[(0, 1), (1, 2)], [(0, 1), (0, 1)]])
    (demo_sound 2 1).rho (demo_sound 2 1).fit (nv := 2) (nj := 2) (List.range 1)
    (ph := [[1, 1], [1, 1]]) (by
      intro it hit
      have := List.mem_range.1 hit
      rw [ranked, List.length_mergeSort]
      simp [demo]; omega) (by
      refine ⟨rfl, ?_⟩
      intro r hr
      simp at hr
      subst hr
      exact ⟨rfl, by simp⟩)
  exact ⟨ph', h⟩

end Metku.Aco
