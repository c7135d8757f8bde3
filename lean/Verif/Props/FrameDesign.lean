import Verif.Model.FrameDesign
import Mathlib.Tactic.Linarith
import Mathlib.Tactic.NormNum
import Mathlib.Tactic.Ring
import Mathlib.Algebra.Order.Ring.Unbundled.Rat
import Mathlib.Data.Rat.Floor
import Mathlib.Data.List.Induction

/-!
Properties C358-C363: results and design of `frame2d` members, names of profiles.
-/
set_option linter.unusedSimpArgs false
set_option linter.unusedVariables false
set_option linter.unusedSectionVars false

namespace Metku.FDesign

open Metku

variable {K P : Type} [Field K] [LinearOrder K] [IsStrictOrderedRing K]

/-! ## Specification -/

/-- A value of the list that is largest in magnitude. -/
def IsExtreme (vals : List K) (x : K) : Prop := x ∈ vals ∧ ∀ v ∈ vals, |v| ≤ |x|

/-- Values at both ends of all elements. -/
def ends (f : EF K → K × K) (es : List (EF K)) : List K := es.flatMap (fun e => [(f e).1, (f e).2])

/-- The force has no jumps at the nodes between the elements. -/
def Continuous (f : EF K → K × K) (es : List (EF K)) : Prop :=
  ∀ i a b, es[i]? = some a → es[i + 1]? = some b → (f a).2 = (f b).1

/-- The first profile of the list that satisfies a condition. -/
def FirstFit {α : Type} (ps : List α) (fits : α → Prop) (p : α) : Prop :=
  ∃ pre post, ps = pre ++ p :: post ∧ fits p ∧ ∀ q ∈ pre, ¬ fits q

/-- Utilization of member `m` in load case `l` with section `p`, when the analysis uses the sections `secs`. -/
def utilIn (E : Env K P) (secs : ℕ → P) (m l : ℕ) (p : P) : K := E.util m p (secsOf (E.loc m) 0 (E.analysis secs l m))

/-! ## Helper lemmas -/

theorem absmax_spec (v : K × K) : (absmax v = v.1 ∨ absmax v = v.2) ∧ |v.1| ≤ |absmax v| ∧ |v.2| ≤ |absmax v| := by
  unfold absmax
  rcases le_total v.1 v.2 with h | h
  · rw [min_eq_left h, max_eq_right h]
    by_cases h1 : max |v.1| |v.2| = |v.1|
    · rw [if_pos h1]; exact ⟨Or.inl rfl, le_refl _, h1 ▸ le_max_right _ _⟩
    · rw [if_neg h1]
      refine ⟨Or.inr rfl, ?_, le_refl _⟩
      rcases le_total |v.1| |v.2| with h2 | h2
      · exact h2
      · exact absurd (max_eq_left h2) h1
  · rw [min_eq_right h, max_eq_left h]
    by_cases h1 : max |v.2| |v.1| = |v.2|
    · rw [if_pos h1]; exact ⟨Or.inr rfl, h1 ▸ le_max_right _ _, le_refl _⟩
    · rw [if_neg h1]
      refine ⟨Or.inl rfl, le_refl _, ?_⟩
      rcases le_total |v.2| |v.1| with h2 | h2
      · exact h2
      · exact absurd (max_eq_left h2) h1

theorem larger_spec (c v : K) : (larger c v = c ∨ larger c v = v) ∧ |c| ≤ |larger c v| ∧ |v| ≤ |larger c v| := by
  unfold larger
  by_cases h : |v| > |c|
  · rw [if_pos h]; exact ⟨Or.inr rfl, h.le, le_refl _⟩
  · rw [if_neg h]; exact ⟨Or.inl rfl, le_refl _, not_lt.1 h⟩

theorem maxFold_spec (f : EF K → K × K) (es : List (EF K)) (c : K) :
    let x := es.foldl (fun cur e => larger cur (absmax (f e))) c
    (x = c ∨ x ∈ ends f es) ∧ |c| ≤ |x| ∧ ∀ v ∈ ends f es, |v| ≤ |x| := by
  induction es generalizing c with
  | nil => simp [ends]
  | cons e es ih =>
    obtain ⟨h1, h2, h3⟩ := ih (larger c (absmax (f e)))
    obtain ⟨a1, a2, a3⟩ := absmax_spec (f e)
    obtain ⟨l1, l2, l3⟩ := larger_spec c (absmax (f e))
    simp only [List.foldl_cons]
    refine ⟨?_, l2.trans h2, ?_⟩
    · rcases h1 with h1 | h1
      · rcases l1 with l1 | l1
        · exact Or.inl (h1.trans l1)
        · refine Or.inr ?_
          rw [h1, l1]
          rcases a1 with a1 | a1 <;> simp [ends, a1]
      · exact Or.inr (by simp only [ends, List.flatMap_cons, List.mem_append]; exact Or.inr h1)
    · intro v hv
      simp only [ends, List.flatMap_cons, List.mem_append, List.mem_cons, List.not_mem_nil, or_false] at hv
      rcases hv with (rfl | rfl) | hv
      · exact a2.trans (l3.trans h2)
      · exact a3.trans (l3.trans h2)
      · exact h3 v hv

theorem maxOf_extreme (f : EF K → K × K) (es : List (EF K)) (hne : es ≠ []) : IsExtreme (ends f es) (maxOf f es) := by
  obtain ⟨h1, -, h3⟩ := maxFold_spec f es 0
  refine ⟨?_, h3⟩
  rcases h1 with h1 | h1
  · obtain ⟨e, es', rfl⟩ := List.exists_cons_of_ne_nil hne
    have h0 : (f e).1 = 0 := by
      have := h3 (f e).1 (by simp [ends])
      rw [h1, abs_zero] at this
      exact abs_eq_zero.1 (le_antisymm this (abs_nonneg _))
    change maxOf f (e :: es') = 0 at h1
    rw [h1, ← h0]; simp [ends]
  · exact h1

theorem calculate_sec (E : Env K P) (s : ℕ → Member K P) (l m : ℕ) : (calculate E s l m).sec = (s m).sec := rfl

theorem calculateAll_sec (E : Env K P) (loads : List ℕ) (s : ℕ → Member K P) (m : ℕ) : (calculateAll E loads s m).sec = (s m).sec := by
  unfold calculateAll
  induction loads generalizing s with
  | nil => rfl
  | cons l ls ih => rw [List.foldl_cons, ih]; rfl

theorem calculateAll_secs (E : Env K P) (loads : List ℕ) (s : ℕ → Member K P) : (fun i => (calculateAll E loads s i).sec) = fun i => (s i).sec :=
  funext (calculateAll_sec E loads s)

theorem calculateAll_append (E : Env K P) (loads : List ℕ) (l : ℕ) (s : ℕ → Member K P) :
    calculateAll E (loads ++ [l]) s = calculate E (calculateAll E loads s) l := by
  simp [calculateAll, List.foldl_append]

theorem getKey_setKey {α : Type} (d : List (ℕ × α)) (k j : ℕ) (v : α) : getKey (setKey d k v) j = if j = k then some v else getKey d j := by
  unfold getKey setKey
  by_cases h : k = j
  · subst h; simp
  · rw [List.find?_cons_of_neg (by simpa using h), if_neg (Ne.symm h), List.find?_filter]
    congr 1
    congr 1
    funext p
    by_cases hp : p.1 = j
    · simp [hp, Ne.symm h]
    · simp [hp]

/-! ## C358: largest forces of a member -/

/-- **C358** (partial). After a calculation the axial force, shear force and bending moment reported for a member are, each, one of
the values at the ends of its elements in the load case calculated last, and none of these is larger in magnitude. -/
theorem max_forces_partial (E : Env K P) (loads : List ℕ) (l m : ℕ) (s : ℕ → Member K P)
    (hne : E.analysis (fun i => (s i).sec) l m ≠ []) :
    IsExtreme (ends EF.fx (E.analysis (fun i => (s i).sec) l m)) (calculateAll E (loads ++ [l]) s m).ned ∧
    IsExtreme (ends EF.fz (E.analysis (fun i => (s i).sec) l m)) (calculateAll E (loads ++ [l]) s m).ved ∧
    IsExtreme (ends EF.my (E.analysis (fun i => (s i).sec) l m)) (calculateAll E (loads ++ [l]) s m).med := by
  rw [calculateAll_append]
  have h := calculateAll_secs E loads s
  refine ⟨?_, ?_, ?_⟩
  · show IsExtreme _ (maxOf EF.fx (E.analysis (fun i => (calculateAll E loads s i).sec) l m))
    rw [h]; exact maxOf_extreme _ _ hne
  · show IsExtreme _ (maxOf EF.fz (E.analysis (fun i => (calculateAll E loads s i).sec) l m))
    rw [h]; exact maxOf_extreme _ _ hne
  · show IsExtreme _ (maxOf EF.my (E.analysis (fun i => (calculateAll E loads s i).sec) l m))
    rw [h]; exact maxOf_extreme _ _ hne

/-- An element under a constant axial force. -/
def bar (n : ℚ) : EF ℚ := ⟨(n, n), (0, 0), (0, 0)⟩

/-- Frame of bars: axial force of a member from a function of section, case and member; utilization is the axial force divided by the section. -/
def barEnv (force : (ℕ → ℚ) → ℕ → ℕ → ℚ) (cat : List ℚ) : Env ℚ ℚ where
  analysis secs l m := [bar (force secs l m)]
  util _ p ss := (ss.map (fun x => |x.2.n|)).foldl max 0 / p
  loc _ i := i
  nid _ i := i
  cat _ := cat
  cls _ := .ipe
  name p := p.num.natAbs

/-- A member that has not been calculated. -/
def fresh (p : ℚ) : Member ℚ ℚ := { sec := p, secs := [], nodal := [], ned := 0, ved := 0, med := 0, r := [], strong := false }

example : (calculateAll (barEnv (fun _ l _ => if l = 0 then -10 else 3) []) ([0] ++ [1]) (fun _ => fresh 5) 0).ned = 3 := by
  norm_num [calculateAll, calculate, design, assign, calcForces, barEnv, fresh, maxOf, bar, larger, absmax]

/-- **C358** (negation): after `calculate('all')` an earlier load case may have a larger force than the one reported. -/
theorem last_case_viol : ∃ (E : Env ℚ ℚ) (s : ℕ → Member ℚ ℚ), ∃ x ∈ ends EF.fx (E.analysis (fun i => (s i).sec) 0 0),
    |(calculateAll E [0, 1] s 0).ned| < |x| := by
  refine ⟨barEnv (fun _ l _ => if l = 0 then -10 else 3) [], fun _ => fresh 5, -10, ?_, ?_⟩
  · simp [ends, barEnv, bar]
  · norm_num [calculateAll, calculate, design, assign, calcForces, barEnv, fresh, maxOf, bar, larger, absmax]

theorem nodalOf_get (nid : ℕ → ℕ) (es : List (EF K)) (i k : ℕ) (e : EF K) (h : es[k]? = some e) :
    (nodalOf nid i es)[k]? = some (nid (i + k), nodeForce e) := by
  induction es generalizing i k with
  | nil => simp at h
  | cons a es ih =>
    cases k with
    | zero =>
      simp only [List.getElem?_cons_zero, Option.some.injEq] at h
      subst h
      cases es <;> simp [nodalOf]
    | succ k =>
      simp only [List.getElem?_cons_succ] at h
      cases es with
      | nil => simp at h
      | cons b es =>
        have := ih (i + 1) k h
        show ((nid i, nodeForce a) :: nodalOf nid (i + 1) (b :: es))[k + 1]? = _
        rw [List.getElem?_cons_succ, this]
        rw [show i + 1 + k = i + (k + 1) by omega]

theorem nodalOf_length (nid : ℕ → ℕ) (es : List (EF K)) (i : ℕ) (hne : es ≠ []) : (nodalOf nid i es).length = es.length + 1 := by
  induction es generalizing i with
  | nil => simp at hne
  | cons a es ih =>
    cases es with
    | nil => simp [nodalOf]
    | cons b es => simp [nodalOf, ih (i + 1) (by simp)]

/-- **C358** (partial). The forces recorded for a load case have one entry for every node; the entry of node `k` bounds both end
forces of the element that starts there and is one of them. -/
theorem nodal_forces_partial (E : Env K P) (s : ℕ → Member K P) (l m k : ℕ) (e : EF K)
    (h : (E.analysis (fun i => (s i).sec) l m)[k]? = some e) :
    ∃ nf x, getKey (calculate E s l m).nodal l = some nf ∧ nf.length = (E.analysis (fun i => (s i).sec) l m).length + 1 ∧
      nf[k]? = some (E.nid m k, x) ∧ IsExtreme [e.fx.1, e.fx.2] x.n ∧ IsExtreme [e.fz.1, e.fz.2] x.v ∧ IsExtreme [e.my.1, e.my.2] x.m := by
  have key : ∀ v : K × K, IsExtreme [v.1, v.2] (absmax v) := fun v => by
    obtain ⟨a1, a2, a3⟩ := absmax_spec v
    refine ⟨by simpa using a1, ?_⟩
    intro w hw
    simp only [List.mem_cons, List.not_mem_nil, or_false] at hw
    rcases hw with rfl | rfl
    · exact a2
    · exact a3
  refine ⟨nodalOf (E.nid m) 0 (E.analysis (fun i => (s i).sec) l m), nodeForce e, ?_, nodalOf_length _ _ _ ?_, ?_, key _, key _, key _⟩
  · show getKey (setKey (s m).nodal l _) l = _
    rw [getKey_setKey, if_pos rfl]
  · intro hn; rw [hn] at h; simp at h
  · rw [nodalOf_get _ _ _ _ _ h, Nat.zero_add]

example : (nodalOf (fun i => i) 0 [bar 1, bar 2]).map (fun p => (p.1, p.2.n)) = [(0, 1), (1, 2), (2, 2)] := by
  norm_num [nodalOf, nodeForce, absmax, bar]

/-- **C358** (negation): the force recorded for a node need not be the force at that node. Whenever the element that starts at node 1 carries
a larger force at its far end, the far value is recorded, although the force is continuous at the node. -/
theorem node_value_viol (nid : ℕ → ℕ) (a b : EF K) (hc : a.fx.2 = b.fx.1) (hb : |b.fx.1| < |b.fx.2|) :
    ∃ x, (nodalOf nid 0 [a, b])[1]? = some (nid 1, x) ∧ x.n = b.fx.2 ∧ x.n ≠ a.fx.2 := by
  refine ⟨nodeForce b, by simp [nodalOf], ?_, ?_⟩
  all_goals
    obtain ⟨a1, a2, a3⟩ := absmax_spec b.fx
    have h : absmax b.fx = b.fx.2 := by
      rcases a1 with a1 | a1
      · rw [a1] at a3; exact absurd (lt_of_lt_of_le hb a3) (lt_irrefl _)
      · exact a1
  · exact h
  · show absmax b.fx ≠ _
    rw [h, hc]
    intro he
    rw [he] at hb
    exact lt_irrefl _ hb

example : ∃ a b : EF ℚ, a.fx.2 = b.fx.1 ∧ |b.fx.1| < |b.fx.2| := ⟨bar 1, ⟨(1, 2), (0, 0), (0, 0)⟩, rfl, by norm_num⟩

/-! ## C359: design forces by load case -/

theorem foldMin_spec (l : List K) (a : K) : (l.foldl min a = a ∨ l.foldl min a ∈ l) ∧ l.foldl min a ≤ a ∧ ∀ x ∈ l, l.foldl min a ≤ x := by
  induction l generalizing a with
  | nil => simp
  | cons b l ih =>
    obtain ⟨h1, h2, h3⟩ := ih (min a b)
    simp only [List.foldl_cons, List.mem_cons]
    refine ⟨?_, h2.trans (min_le_left _ _), ?_⟩
    · rcases h1 with h1 | h1
      · rcases le_total a b with h | h
        · left; rw [h1, min_eq_left h]
        · right; left; rw [h1, min_eq_right h]
      · exact Or.inr (Or.inr h1)
    · rintro x (rfl | hx)
      · exact h2.trans (min_le_right _ _)
      · exact h3 x hx

theorem foldMax_spec (l : List K) (a : K) : (l.foldl max a = a ∨ l.foldl max a ∈ l) ∧ a ≤ l.foldl max a ∧ ∀ x ∈ l, x ≤ l.foldl max a := by
  induction l generalizing a with
  | nil => simp
  | cons b l ih =>
    obtain ⟨h1, h2, h3⟩ := ih (max a b)
    simp only [List.foldl_cons, List.mem_cons]
    refine ⟨?_, (le_max_left _ _).trans h2, ?_⟩
    · rcases h1 with h1 | h1
      · rcases le_total a b with h | h
        · right; left; rw [h1, max_eq_right h]
        · left; rw [h1, max_eq_left h]
      · exact Or.inr (Or.inr h1)
    · rintro x (rfl | hx)
      · exact (le_max_right _ _).trans h2
      · exact h3 x hx

theorem absMax_listed (c : Comp) (e : EF K) (es : List (EF K)) (x : K) (h : absMaxValue c (e :: es) = .ok x) :
    IsExtreme ((e.get c).1 :: (e :: es).map (fun y => (y.get c).2)) x := by
  unfold absMaxValue at h
  simp only [Except.ok.injEq] at h
  obtain ⟨m1, m2, m3⟩ := foldMin_spec ((e :: es).map (fun y => (y.get c).2)) (e.get c).1
  obtain ⟨n1, n2, n3⟩ := foldMax_spec ((e :: es).map (fun y => (y.get c).2)) (e.get c).1
  set lo := ((e :: es).map (fun y => (y.get c).2)).foldl min (e.get c).1 with hlo
  set hi := ((e :: es).map (fun y => (y.get c).2)).foldl max (e.get c).1 with hhi
  have hb : ∀ v ∈ (e.get c).1 :: (e :: es).map (fun y => (y.get c).2), lo ≤ v ∧ v ≤ hi := by
    intro v hv
    rcases List.mem_cons.1 hv with rfl | hv
    · exact ⟨m2, n2⟩
    · exact ⟨m3 v hv, n3 v hv⟩
  by_cases hc : hi > |lo|
  · rw [if_pos hc] at h
    subst h
    refine ⟨List.mem_cons.2 n1, fun v hv => ?_⟩
    obtain ⟨b1, b2⟩ := hb v hv
    have hp : 0 ≤ hi := (abs_nonneg lo).trans hc.le
    rw [abs_of_nonneg hp, abs_le]
    have := neg_abs_le lo
    exact ⟨by linarith, b2⟩
  · rw [if_neg hc] at h
    subst h
    refine ⟨List.mem_cons.2 m1, fun v hv => ?_⟩
    obtain ⟨b1, b2⟩ := hb v hv
    have hc := not_lt.1 hc
    rw [abs_le]
    refine ⟨?_, b2.trans hc⟩
    rcases le_total 0 lo with h0 | h0
    · have := abs_nonneg lo; linarith
    · rw [abs_of_nonpos h0, neg_neg]; exact b1

theorem ends_of_continuous (f : EF K → K × K) (e : EF K) (es : List (EF K)) (hc : Continuous f (e :: es)) (v : K) :
    v ∈ ends f (e :: es) ↔ v ∈ (f e).1 :: (e :: es).map (fun y => (f y).2) := by
  induction es generalizing e with
  | nil => simp [ends]
  | cons b es ih =>
    have hb := ih b (fun i x y hx hy => hc (i + 1) x y (by simpa using hx) (by simpa using hy))
    have h0 := hc 0 e b (by simp) (by simp)
    have : v ∈ ends f (e :: b :: es) ↔ v = (f e).1 ∨ v = (f e).2 ∨ v ∈ ends f (b :: es) := by
      simp only [ends, List.flatMap_cons, List.mem_append, List.mem_cons, List.not_mem_nil, or_false, or_assoc]
    rw [this, hb, ← h0]
    simp only [List.map_cons, List.mem_cons]
    tauto

/-- **C359** (partial). Where a force has no jump between the elements of a member, the design value reported for a load case is one of the
values at the element ends and largest in magnitude. -/
theorem design_force_partial (c : Comp) (es : List (EF K)) (hne : es ≠ []) (hc : Continuous (fun e => e.get c) es) :
    ∃ x, absMaxValue c es = .ok x ∧ IsExtreme (ends (fun e => e.get c) es) x := by
  obtain ⟨e, es', rfl⟩ := List.exists_cons_of_ne_nil hne
  refine ⟨_, rfl, ?_⟩
  have h := absMax_listed c e es' _ rfl
  have hm := ends_of_continuous (fun e => e.get c) e es' hc
  exact ⟨(hm _).2 h.1, fun v hv => h.2 v ((hm v).1 hv)⟩

/-- **C359** (partial). `NEd` and `MEd` are the largest axial force and the largest moment of a load case, when these have no jumps. -/
theorem ned_med_partial (es : List (EF K)) (hne : es ≠ []) (hn : Continuous EF.fx es) (hm : Continuous EF.my es) :
    (∃ x, NEd es = .ok x ∧ IsExtreme (ends EF.fx es) x) ∧ ∃ x, MEd es = .ok x ∧ IsExtreme (ends EF.my es) x :=
  ⟨design_force_partial .fx es hne hn, design_force_partial .my es hne hm⟩

example : ∃ es : List (EF ℚ), es ≠ [] ∧ Continuous EF.fx es ∧ Continuous EF.my es ∧ ends EF.my es = [0, -5, -5, 2] := by
  refine ⟨[⟨(1, 1), (0, 0), (0, -5)⟩, ⟨(1, 1), (0, 0), (-5, 2)⟩], by simp, ?_, ?_, by simp [ends]⟩ <;>
  · intro i a b ha hb
    rcases i with _ | i
    · simp at ha hb; subst ha hb; rfl
    · simp at hb

/-- **C359** (negation): a force that is largest just after a point load inside the member is missed. -/
theorem jump_viol (a b : EF K) (h1 : |a.fx.1| < |b.fx.1|) (h2 : |a.fx.2| < |b.fx.1|) (h3 : |b.fx.2| < |b.fx.1|) :
    ∃ x, NEd [a, b] = .ok x ∧ b.fx.1 ∈ ends EF.fx [a, b] ∧ |x| < |b.fx.1| := by
  obtain ⟨x, hx0⟩ : ∃ x, absMaxValue .fx [a, b] = .ok x := ⟨_, rfl⟩
  refine ⟨x, hx0, by simp [ends], ?_⟩
  have hx := (absMax_listed .fx a [b] x hx0).1
  simp only [List.map_cons, List.map_nil, List.mem_cons, List.not_mem_nil, or_false] at hx
  rcases hx with hx | hx | hx
  · rw [hx]; exact h1
  · rw [hx]; exact h2
  · rw [hx]; exact h3

example : ∃ a b : EF ℚ, |a.fx.1| < |b.fx.1| ∧ |a.fx.2| < |b.fx.1| ∧ |b.fx.2| < |b.fx.1| :=
  ⟨bar 1, ⟨(5, 4), (0, 0), (0, 0)⟩, by norm_num [bar], by norm_num [bar], by norm_num⟩

/-- **C359** (negation): the design shear force reported is zero for every member in every load case. -/
theorem shear_zero_viol (es : List (EF K)) (hne : es ≠ []) : VEd es = .ok 0 := by
  obtain ⟨e, es', rfl⟩ := List.exists_cons_of_ne_nil hne
  have h := (absMax_listed .fy e es' _ rfl).1
  unfold VEd
  show Except.ok _ = Except.ok _
  congr 1
  rcases List.mem_cons.1 h with h | h
  · exact h
  · rw [List.mem_map] at h
    obtain ⟨y, -, hy⟩ := h
    rw [← hy]; rfl

/-! ## C360: utilization by load case -/

theorem calculate_r (E : Env K P) (s : ℕ → Member K P) (l m j : ℕ) : getKey (calculate E s l m).r j =
    if j = l then some (utilIn E (fun i => (s i).sec) m l (s m).sec) else getKey (s m).r j := by
  show getKey (setKey (s m).r l _) j = _
  rw [getKey_setKey]
  rfl

/-- **C360** (partial). After all load cases have been calculated, the utilization recorded for each of them is that of the
member's section under the forces of this load case. -/
theorem utilization_partial (E : Env K P) (loads : List ℕ) (s : ℕ → Member K P) (m l : ℕ) (hl : l ∈ loads) :
    getKey (calculateAll E loads s m).r l = some (utilIn E (fun i => (s i).sec) m l (s m).sec) := by
  induction loads using List.reverseRecOn with
  | nil => simp at hl
  | append_singleton ls a ih =>
    rw [calculateAll_append, calculate_r, calculateAll_secs, calculateAll_sec]
    by_cases h : l = a
    · subst h; rw [if_pos rfl]
    · rw [if_neg h]
      refine ih ?_
      simpa [h] using hl

/-- **C360** (partial). The verdict of a member says whether its utilization in the load case calculated last is at most one. -/
theorem verdict_partial (E : Env K P) (loads : List ℕ) (l m : ℕ) (s : ℕ → Member K P) :
    (calculateAll E (loads ++ [l]) s m).strong = true ↔ utilIn E (fun i => (s i).sec) m l (s m).sec ≤ 1 := by
  rw [calculateAll_append]
  have h := calculateAll_secs E loads s
  show (!decide (E.util m (calculateAll E loads s m).sec (secsOf (E.loc m) 0 (E.analysis (fun i => (calculateAll E loads s i).sec) l m)) > 1)) = true ↔ _
  rw [h, calculateAll_sec]
  simp [utilIn]

/-- **C360** (negation): a member is called strong enough after `calculate('all')` although it is overloaded in one of the load cases. -/
theorem verdict_viol : ∃ (E : Env ℚ ℚ) (s : ℕ → Member ℚ ℚ), (calculateAll E [0, 1] s 0).strong = true ∧
    ∃ u, getKey (calculateAll E [0, 1] s 0).r 0 = some u ∧ 1 < u := by
  refine ⟨barEnv (fun _ l _ => if l = 0 then -10 else 3) [], fun _ => fresh 5, ?_, ?_⟩
  · rw [show [0, 1] = [0] ++ [1] from rfl, verdict_partial]
    norm_num [utilIn, barEnv, bar, secsOf, fresh]
  · rw [utilization_partial _ _ _ _ _ (by simp)]
    exact ⟨_, rfl, by norm_num [utilIn, barEnv, bar, secsOf, fresh]⟩

/-! ## C361: choice of a profile for a member -/

theorem designAll_secs (E : Env K P) (m : ℕ) (loads : List ℕ) (s : Member K P) :
    (designAll E m loads s).sec = s.sec ∧ (designAll E m loads s).secs = s.secs := by
  unfold designAll
  induction loads generalizing s with
  | nil => exact ⟨rfl, rfl⟩
  | cons l ls ih => rw [List.foldl_cons]; exact ih _

theorem designAll_mem (E : Env K P) (m : ℕ) (loads : List ℕ) (s : Member K P) (x : ℕ × K) :
    x ∈ (designAll E m loads s).r ↔ (x.1 ∈ loads ∧ x.2 = E.util m s.sec s.secs) ∨ (x.1 ∉ loads ∧ x ∈ s.r) := by
  unfold designAll
  induction loads generalizing s with
  | nil => simp
  | cons l ls ih =>
    rw [List.foldl_cons, ih]
    have hd : ∀ y, y ∈ (design E m s l).r ↔ y = (l, E.util m s.sec s.secs) ∨ (y ∈ s.r ∧ y.1 ≠ l) := by
      intro y; simp [design, setKey]
    rw [hd]
    show (x.1 ∈ ls ∧ x.2 = E.util m s.sec s.secs) ∨ _ ↔ _
    obtain ⟨a, b⟩ := x
    simp only [List.mem_cons, Prod.mk.injEq, not_or]
    by_cases h1 : a = l <;> by_cases h2 : a ∈ ls <;> simp [h1, h2]
    · subst h1; simp [h2]
    · subst h1; simp [h2]

/-- Every recorded load case is among the given ones. -/
def KeysIn (r : List (ℕ × K)) (loads : List ℕ) : Prop := ∀ x ∈ r, x.1 ∈ loads

theorem designAll_all (E : Env K P) (m : ℕ) (loads : List ℕ) (hne : loads ≠ []) (s : Member K P) (hk : KeysIn s.r loads) :
    (designAll E m loads s).r.all (fun x => decide (x.2 ≤ 1)) = true ↔ E.util m s.sec s.secs ≤ 1 := by
  rw [List.all_eq_true]
  constructor
  · intro h
    obtain ⟨l, ls, rfl⟩ := List.exists_cons_of_ne_nil hne
    have := h (l, E.util m s.sec s.secs) ((designAll_mem E m _ s _).2 (Or.inl ⟨by simp, rfl⟩))
    simpa using this
  · intro h x hx
    rcases (designAll_mem E m _ s x).1 hx with ⟨-, h2⟩ | ⟨h1, h2⟩
    · simpa [h2] using h
    · exact absurd (hk x h2) h1

theorem designAll_keys (E : Env K P) (m : ℕ) (loads : List ℕ) (s : Member K P) (hk : KeysIn s.r loads) : KeysIn (designAll E m loads s).r loads := by
  intro x hx
  rcases (designAll_mem E m _ s x).1 hx with ⟨h, -⟩ | ⟨h1, h2⟩
  · exact h
  · exact hk x h2

theorem search_spec (E : Env K P) (m : ℕ) (loads : List ℕ) (hne : loads ≠ []) (ps : List P) (s : Member K P) (hk : KeysIn s.r loads) :
    (search E m loads ps s).secs = s.secs ∧ KeysIn (search E m loads ps s).r loads ∧
    ((FirstFit ps (fun p => E.util m p s.secs ≤ 1) (search E m loads ps s).sec) ∨
      ((∀ p ∈ ps, 1 < E.util m p s.secs) ∧ (search E m loads ps s).sec = ps.getLast?.getD s.sec)) ∧
    (ps ≠ [] → ∀ l ∈ loads, ∀ u, (l, u) ∈ (search E m loads ps s).r → u = E.util m (search E m loads ps s).sec s.secs) := by
  induction ps generalizing s with
  | nil => exact ⟨rfl, hk, Or.inr ⟨by simp, rfl⟩, by simp⟩
  | cons p ps ih =>
    have hd := designAll_secs E m loads { s with sec := p }
    have ha := designAll_all E m loads hne { s with sec := p } hk
    have hk' := designAll_keys E m loads { s with sec := p } hk
    unfold search
    simp only
    by_cases hu : E.util m p s.secs ≤ 1
    · rw [if_pos (ha.2 hu)]
      refine ⟨hd.2, hk', Or.inl ⟨[], ps, by rw [hd.1]; rfl, by rw [hd.1]; exact hu, by simp⟩, ?_⟩
      intro _ l hl u h
      rcases (designAll_mem E m _ _ _).1 h with ⟨-, h2⟩ | ⟨h1, -⟩
      · rw [hd.1]; exact h2
      · exact absurd hl h1
    · rw [if_neg (fun h => hu (ha.1 h))]
      obtain ⟨i1, i2, i3, i4⟩ := ih (designAll E m loads { s with sec := p }) hk'
      rw [hd.2] at i1 i3 i4
      refine ⟨i1, i2, ?_, ?_⟩
      · rcases i3 with ⟨pre, post, h1, h2, h3⟩ | ⟨h1, h2⟩
        · exact Or.inl ⟨p :: pre, post, by rw [List.cons_append, ← h1], h2, by
            intro q hq
            rcases List.mem_cons.1 hq with rfl | hq
            · exact hu
            · exact h3 q hq⟩
        · refine Or.inr ⟨?_, ?_⟩
          · intro q hq
            rcases List.mem_cons.1 hq with rfl | hq
            · exact not_le.1 hu
            · exact h1 q hq
          · rw [h2, hd.1]
            cases ps with
            | nil => rfl
            | cons b ps => simp [List.getLast?_cons_cons, List.getLast?_eq_some_getLast]
      · intro _ l hl u h
        cases ps with
        | nil =>
          simp only [search] at h ⊢
          rcases (designAll_mem E m _ _ _).1 h with ⟨-, h2⟩ | ⟨h1, -⟩
          · rw [hd.1]; exact h2
          · exact absurd hl h1
        | cons b ps => exact i4 (by simp) l hl u h

theorem calculateAll_keys (E : Env K P) (loads : List ℕ) (s : ℕ → Member K P) (m : ℕ) (all : List ℕ) (hk : KeysIn (s m).r all)
    (hs : ∀ l ∈ loads, l ∈ all) : KeysIn (calculateAll E loads s m).r all := by
  unfold calculateAll
  induction loads generalizing s with
  | nil => exact hk
  | cons l ls ih =>
    rw [List.foldl_cons]
    refine ih _ ?_ (fun x hx => hs x (by simp [hx]))
    intro x hx
    have : x ∈ setKey (s m).r l _ := hx
    simp only [setKey, List.mem_cons, List.mem_filter] at this
    rcases this with rfl | h
    · exact hs l (by simp)
    · exact hk x h.1

theorem calculateAll_forces (E : Env K P) (loads : List ℕ) (l m : ℕ) (s : ℕ → Member K P) :
    (calculateAll E (loads ++ [l]) s m).secs = secsOf (E.loc m) 0 (E.analysis (fun i => (s i).sec) l m) := by
  rw [calculateAll_append]
  have h := calculateAll_secs E loads s
  show secsOf (E.loc m) 0 (E.analysis (fun i => (calculateAll E loads s i).sec) l m) = _
  rw [h]

/-- **C361** (partial). After the load cases of the frame have been calculated, choosing a profile for a member takes the first profile of
the list that carries the forces of the load case calculated last; when none does, the last one of the list. A change is reported when the name of the
profile is another one. -/
theorem optimum_partial (E : Env K P) (loads : List ℕ) (l m : ℕ) (t : Option Fam) (s : ℕ → Member K P) (hk : KeysIn (s m).r (loads ++ [l])) :
    let o := optimum E m (loads ++ [l]) t (calculateAll E (loads ++ [l]) s m)
    let ps := profiles E t (s m).sec
    (FirstFit ps (fun p => utilIn E (fun i => (s i).sec) m l p ≤ 1) o.1.sec ∨
      ((∀ p ∈ ps, 1 < utilIn E (fun i => (s i).sec) m l p) ∧ o.1.sec = ps.getLast?.getD (s m).sec)) ∧
    (o.2 = true ↔ E.name o.1.sec ≠ E.name (s m).sec) := by
  intro o ps
  have h := search_spec E m (loads ++ [l]) (by simp) ps (calculateAll E (loads ++ [l]) s m) (calculateAll_keys E _ s m _ hk (fun _ h => h))
  rw [calculateAll_forces] at h
  have hs := calculateAll_sec E (loads ++ [l]) s m
  have ho : o.1 = search E m (loads ++ [l]) ps (calculateAll E (loads ++ [l]) s m) := by
    show (optimum E m (loads ++ [l]) t (calculateAll E (loads ++ [l]) s m)).1 = _
    unfold optimum
    simp only [hs]; rfl
  refine ⟨?_, ?_⟩
  · rw [ho]
    rcases h.2.2.1 with h1 | ⟨h1, h2⟩
    · exact Or.inl h1
    · exact Or.inr ⟨h1, by rw [h2, hs]⟩
  · rw [← hs]
    show decide (E.name (search E m (loads ++ [l]) (profiles E t (calculateAll E (loads ++ [l]) s m).sec) _).sec ≠ _) = true ↔ E.name o.1.sec ≠ _
    rw [decide_eq_true_iff, ho, hs]

/-- **C361** (negation): with two load cases the chosen profile may fail in one of them, although both recorded utilizations are at most one. -/
theorem two_cases_viol : ∃ (E : Env ℚ ℚ) (s : ℕ → Member ℚ ℚ), let o := optimum E 0 [0, 1] none (calculateAll E [0, 1] s 0)
    (∀ u, getKey o.1.r 0 = some u → u ≤ 1) ∧ getKey o.1.r 0 ≠ none ∧ 1 < utilIn E (fun i => (s i).sec) 0 0 o.1.sec ∧
    ∃ p ∈ profiles E none (s 0).sec, utilIn E (fun i => (s i).sec) 0 0 p ≤ 1 ∧ utilIn E (fun i => (s i).sec) 0 1 p ≤ 1 := by
  refine ⟨barEnv (fun _ l _ => if l = 0 then -10 else 3) [2, 4, 20], fun _ => fresh 5, ?_⟩
  norm_num [optimum, search, profiles, designAll, design, calculateAll, calculate, assign, calcForces, barEnv, fresh, utilIn, secsOf, bar,
    setKey, getKey, familyOf]
  simp

/-- **C361** (negation): all load cases get the same utilization, that of the load case calculated last. -/
theorem same_ratio_viol (E : Env K P) (loads : List ℕ) (l m : ℕ) (t : Option Fam) (s : ℕ → Member K P) (hk : KeysIn (s m).r (loads ++ [l]))
    (hp : profiles E t (s m).sec ≠ []) : let o := optimum E m (loads ++ [l]) t (calculateAll E (loads ++ [l]) s m)
    ∀ j ∈ loads ++ [l], ∀ u, (j, u) ∈ o.1.r → u = utilIn E (fun i => (s i).sec) m l o.1.sec := by
  intro o j hj u hu
  have hs := calculateAll_sec E (loads ++ [l]) s m
  have h := search_spec E m (loads ++ [l]) (by simp) (profiles E t (s m).sec) (calculateAll E (loads ++ [l]) s m)
    (calculateAll_keys E _ s m _ hk (fun _ h => h))
  rw [calculateAll_forces] at h
  have ho : o.1 = search E m (loads ++ [l]) (profiles E t (s m).sec) (calculateAll E (loads ++ [l]) s m) := by
    show (optimum E m (loads ++ [l]) t (calculateAll E (loads ++ [l]) s m)).1 = _
    unfold optimum
    simp only [hs]
  rw [ho] at hu ⊢
  exact h.2.2.2 hp j hj u hu

/-- **C361** (negation): when no profile of the list carries the forces, the member gets the last one, overloaded, and no error is raised. -/
theorem no_fit_viol (E : Env K P) (loads : List ℕ) (l m : ℕ) (t : Option Fam) (s : ℕ → Member K P) (hk : KeysIn (s m).r (loads ++ [l]))
    (p : P) (hp : (profiles E t (s m).sec).getLast? = some p) (hn : ∀ q ∈ profiles E t (s m).sec, 1 < utilIn E (fun i => (s i).sec) m l q) :
    (optimum E m (loads ++ [l]) t (calculateAll E (loads ++ [l]) s m)).1.sec = p ∧ 1 < utilIn E (fun i => (s i).sec) m l p := by
  refine ⟨?_, hn p (List.mem_of_getLast? hp)⟩
  rcases (optimum_partial E loads l m t s hk).1 with ⟨pre, post, h1, h2, -⟩ | ⟨-, h⟩
  · have hmem : (optimum E m (loads ++ [l]) t (calculateAll E (loads ++ [l]) s m)).1.sec ∈ profiles E t (s m).sec := by
      rw [h1]; simp
    exact absurd h2 (not_le.2 (hn _ hmem))
  · rw [h, hp]; rfl

example : ∃ (E : Env ℚ ℚ) (s : ℕ → Member ℚ ℚ), KeysIn (s 0).r ([] ++ [0]) ∧ (profiles E none (s 0).sec).getLast? = some 4 ∧
    ∀ q ∈ profiles E none (s 0).sec, 1 < utilIn E (fun i => (s i).sec) 0 0 q := by
  refine ⟨barEnv (fun _ _ _ => 10) [2, 4], fun _ => fresh 5, by simp [KeysIn, fresh], by simp [profiles, barEnv], ?_⟩
  norm_num [profiles, barEnv, utilIn, bar, secsOf]

/-- **C361** (negation): the list for the current profile is not that of its family for square hollow sections (rectangular ones are taken) and for
HE AA, HE C, HE M, built-up and welded I-sections (the IPE list is taken). -/
theorem family_viol (E : Env K P) (p : P) :
    (E.cls p = .shs → profiles E none p = E.cat .rhs) ∧
    ((E.cls p = .heaa ∨ E.cls p = .hec ∨ E.cls p = .hem ∨ E.cls p = .customI ∨ E.cls p = .wi) → profiles E none p = E.cat .ipe) := by
  constructor
  · intro h; simp [profiles, h, familyOf]
  · rintro (h | h | h | h | h) <;> simp [profiles, h, familyOf]

/-- **C361** (partial). For IPE, HE A, HE B, rectangular and circular hollow sections the list is that of the family; a named family gives its list. -/
theorem family_partial (E : Env K P) (p : P) (f : Fam) :
    profiles E (some f) p = E.cat f ∧ (E.cls p = .ipe → profiles E none p = E.cat .ipe) ∧
    (E.cls p = .hea ∨ E.cls p = .heb → profiles E none p = E.cat .h) ∧ (E.cls p = .rhs → profiles E none p = E.cat .rhs) ∧
    (E.cls p = .chs → profiles E none p = E.cat .chs) := by
  refine ⟨rfl, ?_, ?_, ?_, ?_⟩
  · intro h; simp [profiles, h, familyOf]
  · rintro (h | h) <;> simp [profiles, h, familyOf]
  · intro h; simp [profiles, h, familyOf]
  · intro h; simp [profiles, h, familyOf]

/-! ## C362: choice of profiles for a frame -/

theorem passFold_other (E : Env K P) (loads : List ℕ) (t : Option Fam) (ids : List ℕ) (st : (ℕ → Member K P) × Bool) (m : ℕ) (hm : m ∉ ids) :
    (ids.foldl (passStep E loads t) st).1 m = st.1 m := by
  induction ids generalizing st with
  | nil => rfl
  | cons a ids ih =>
    rw [List.foldl_cons, ih _ (fun h => hm (by simp [h]))]
    simp only [passStep]
    rw [Function.update_of_ne (fun h => hm (by simp [h]))]

theorem passFold_mem (E : Env K P) (loads : List ℕ) (t : Option Fam) (ids : List ℕ) (hd : ids.Nodup) (st : (ℕ → Member K P) × Bool) (m : ℕ) (hm : m ∈ ids) :
    (ids.foldl (passStep E loads t) st).1 m = (optimum E m loads t (st.1 m)).1 := by
  induction ids generalizing st with
  | nil => simp at hm
  | cons a ids ih =>
    rw [List.foldl_cons]
    by_cases h : m = a
    · subst h
      rw [passFold_other E loads t ids _ m (List.nodup_cons.1 hd).1]
      simp [passStep]
    · rw [ih (List.nodup_cons.1 hd).2 _ (by simpa [h] using hm)]
      simp only [passStep]
      rw [Function.update_of_ne h]

/-- **C362** (partial). An iteration that leaves all sections as they are ends with a frame in which every member carries the forces that the
analysis with the present sections gives in the load case calculated last, unless no profile of its list does. -/
theorem pass_partial (E : Env K P) (ids loads : List ℕ) (l : ℕ) (t : Option Fam) (s : ℕ → Member K P) (hd : ids.Nodup)
    (hk : ∀ m, KeysIn (s m).r (loads ++ [l])) (hsame : ∀ m ∈ ids, ((pass E ids (loads ++ [l]) t s).1 m).sec = (s m).sec) :
    (∀ m, ((pass E ids (loads ++ [l]) t s).1 m).sec = (s m).sec) ∧
    ∀ m ∈ ids, utilIn E (fun i => ((pass E ids (loads ++ [l]) t s).1 i).sec) m l (s m).sec ≤ 1 ∨
      ∀ p ∈ profiles E t (s m).sec, 1 < utilIn E (fun i => (s i).sec) m l p := by
  have hall : ∀ m, ((pass E ids (loads ++ [l]) t s).1 m).sec = (s m).sec := by
    intro m
    by_cases hm : m ∈ ids
    · exact hsame m hm
    · unfold pass
      rw [passFold_other _ _ _ _ _ _ hm]
      exact calculateAll_sec E _ s m
  refine ⟨hall, ?_⟩
  rw [show (fun i => ((pass E ids (loads ++ [l]) t s).1 i).sec) = fun i => (s i).sec from funext hall]
  intro m hm
  have h1 : (pass E ids (loads ++ [l]) t s).1 m = (optimum E m (loads ++ [l]) t (calculateAll E (loads ++ [l]) s m)).1 := by
    unfold pass
    rw [passFold_mem _ _ _ _ hd _ _ hm]
  have h2 := hsame m hm
  rw [h1] at h2
  rcases (optimum_partial E loads l m t s (hk m)).1 with ⟨pre, post, -, h3, -⟩ | ⟨h3, -⟩
  · left
    rw [← h2]; exact h3
  · exact Or.inr h3

/-- Ten passes at most: the result of the loop is that of some number of passes. -/
theorem loop_passes (E : Env K P) (ids loads : List ℕ) (t : Option Fam) (k : ℕ) (s : ℕ → Member K P) :
    ((optimizeLoop E ids loads t k s).2 = false →
      ∃ j < k, (optimizeLoop E ids loads t k s) = pass E ids loads t ((fun x => (pass E ids loads t x).1)^[j] s) ∧
        (pass E ids loads t ((fun x => (pass E ids loads t x).1)^[j] s)).2 = false) ∧
    ((optimizeLoop E ids loads t k s).2 = true → (optimizeLoop E ids loads t k s).1 = (fun x => (pass E ids loads t x).1)^[k] s) := by
  induction k generalizing s with
  | zero => exact ⟨by simp [optimizeLoop], fun _ => rfl⟩
  | succ k ih =>
    unfold optimizeLoop
    by_cases h : (pass E ids loads t s).2 = true
    · rw [if_pos h]
      obtain ⟨i1, i2⟩ := ih (pass E ids loads t s).1
      refine ⟨fun hf => ?_, fun ht => ?_⟩
      · obtain ⟨j, hj, h1, h2⟩ := i1 hf
        exact ⟨j + 1, by omega, by rw [Function.iterate_succ_apply]; exact h1, by rw [Function.iterate_succ_apply]; exact h2⟩
      · rw [i2 ht, Function.iterate_succ_apply]
    · rw [if_neg h]
      refine ⟨fun _ => ⟨0, by omega, rfl, by simpa using h⟩, fun ht => absurd ht h⟩

theorem pass_keys (E : Env K P) (ids loads : List ℕ) (hne : loads ≠ []) (t : Option Fam) (s : ℕ → Member K P) (hd : ids.Nodup)
    (hk : ∀ m, KeysIn (s m).r loads) : ∀ m, KeysIn ((pass E ids loads t s).1 m).r loads := by
  intro m
  have hc := calculateAll_keys E loads s m loads (hk m) (fun _ h => h)
  unfold pass
  by_cases hm : m ∈ ids
  · rw [passFold_mem _ _ _ _ hd _ _ hm]
    exact (search_spec E m loads hne _ _ hc).2.1
  · rw [passFold_other _ _ _ _ _ _ hm]; exact hc

theorem iterate_keys (E : Env K P) (ids loads : List ℕ) (hne : loads ≠ []) (t : Option Fam) (hd : ids.Nodup) (j : ℕ) (s : ℕ → Member K P)
    (hk : ∀ m, KeysIn (s m).r loads) : ∀ m, KeysIn ((fun x => (pass E ids loads t x).1)^[j] s m).r loads := by
  induction j generalizing s with
  | zero => exact hk
  | succ j ih => rw [Function.iterate_succ_apply]; exact ih _ (pass_keys E ids loads hne t s hd hk)

/-- **C362** (partial). A frame of one member with one load case whose profiles have different names: when the search for profiles
stops before its limit of ten iterations, the member carries the forces that the analysis with its present section gives, unless
no profile of its list does. -/
theorem optimize_single_partial (E : Env K P) (m l : ℕ) (t : Option Fam) (s : ℕ → Member K P) (hk : ∀ i, KeysIn (s i).r [l])
    (hinj : Function.Injective E.name) (hstop : (optimizeMembers E [m] [l] t s).2 = false) :
    let r := (optimizeMembers E [m] [l] t s).1
    utilIn E (fun i => (r i).sec) m l (r m).sec ≤ 1 ∨ ∀ p ∈ profiles E t (r m).sec, 1 < utilIn E (fun i => (r i).sec) m l p := by
  intro r
  obtain ⟨j, -, h1, h2⟩ := (loop_passes E [m] [l] t 10 s).1 hstop
  set s' := (fun x => (pass E [m] [l] t x).1)^[j] s with hs'
  have hr : r = (pass E [m] [l] t s').1 := congrArg Prod.fst h1
  have hk' := iterate_keys E [m] [l] (by simp) t (by simp) j s hk
  have hflag : (optimum E m [l] t (calculateAll E [l] s' m)).2 = false := h2
  have hsec : (optimum E m [l] t (calculateAll E [l] s' m)).1.sec = (s' m).sec := by
    have := (optimum_partial E [] l m t s' (hk' m)).2
    simp only [List.nil_append] at this
    by_contra hne
    have := this.2 (fun h => hne (hinj h))
    rw [hflag] at this
    exact absurd this (by simp)
  have hpm : (pass E [m] [l] t s').1 m = (optimum E m [l] t (calculateAll E [l] s' m)).1 := by
    simp [pass, passStep]
  have := pass_partial E [m] [] l t s' (by simp) hk' (by
    intro i hi
    obtain rfl := List.mem_singleton.1 hi
    show ((pass E [i] [l] t s').1 i).sec = _
    rw [hpm, hsec])
  simp only [List.nil_append] at this
  obtain ⟨h3, h4⟩ := this
  rw [hr]
  rw [show (fun i => ((pass E [m] [l] t s').1 i).sec) = fun i => (s' i).sec from funext h3] at h4 ⊢
  rw [h3 m]
  exact h4 m (by simp)

/-- Frame of one bar with numbered profiles. -/
def numEnv : Env ℚ ℕ where
  analysis _ _ _ := [bar 3]
  util _ p ss := 3 / p
  loc _ i := i
  nid _ i := i
  cat _ := [2, 4]
  cls _ := .ipe
  name p := p

example : Function.Injective numEnv.name ∧ (optimizeMembers numEnv [0] [0] none (fun _ => { sec := 1, secs := [], nodal := [], ned := 0, ved := 0, med := 0, r := [], strong := false })).2 = false := by
  refine ⟨fun _ _ h => h, ?_⟩
  norm_num [optimizeMembers, optimizeLoop, pass, passStep, optimum, search, profiles, designAll, design, calculateAll, calculate, assign,
      calcForces, numEnv, fresh, secsOf, bar, setKey, familyOf, Function.update]

/-- **C362** (negation): the search stops as soon as the member considered last keeps its profile. Here the profile of the other member was just
reduced, the forces move to the last member, which is left overloaded although its list has a profile that would do. -/
theorem last_member_viol : ∃ (E : Env ℚ ℚ) (s : ℕ → Member ℚ ℚ), (optimizeMembers E [0, 1] [0] none s).2 = false ∧
    (let r := (optimizeMembers E [0, 1] [0] none s).1
     1 < utilIn E (fun i => (r i).sec) 1 0 (r 1).sec ∧ ∃ p ∈ profiles E none (r 1).sec, utilIn E (fun i => (r i).sec) 1 0 p ≤ 1) := by
  refine ⟨barEnv (fun secs _ m => if m = 0 then 1 else if secs 0 < 4 then 10 else 3) [3, 20], fun m => if m = 0 then fresh 20 else fresh 3, ?_, ?_⟩
  · norm_num [optimizeMembers, optimizeLoop, pass, passStep, optimum, search, profiles, designAll, design, calculateAll, calculate, assign,
      calcForces, barEnv, fresh, secsOf, bar, setKey, familyOf, Function.update]
  · norm_num [optimizeMembers, optimizeLoop, pass, passStep, optimum, search, profiles, designAll, design, calculateAll, calculate, assign,
      calcForces, barEnv, fresh, utilIn, secsOf, bar, setKey, familyOf, Function.update]

/-! ## C363: names and heights of profiles -/

section Names

variable [FloorRing K]

theorem pyRound_int (n : ℤ) : Opt.pyRound (n : K) = n := by
  unfold Opt.pyRound
  rw [Int.floor_intCast, sub_self, if_pos (by norm_num)]

/-- The section has a name that says everything about it: rolled profile of the catalogue whose height is its number, HE A of the catalogue or
HE B, or a hollow section with whole dimensions and a thickness in tenths. -/
inductive WellNamed (C : Catalogue K) : Sec K → Prop
  | ipe (n : ℤ) (h : C.ipe n = some (n : K)) : WellNamed C (.ipe n)
  | hea (n : ℤ) (h : (C.he n .A).isSome) : WellNamed C (.he n .A)
  | heb (n : ℤ) : WellNamed C (.he n .B)
  | rhs (H B T : ℤ) : WellNamed C (.rhs (H : K) (B : K) ((T : K) / 10))
  | chs (D T : ℤ) : WellNamed C (.chs (D : K) ((T : K) / 10))

/-- **C363** (partial). For such a section, giving a member the name of its own profile leaves the section as it is. -/
theorem rename_partial (C : Catalogue K) (s : Sec K) (h : WellNamed C s) : setProfile C s (nameOf C s) = .ok s := by
  have h10 : ∀ T : ℤ, (10 : K) * ((T : K) / 10) = (T : K) := fun T => by ring
  cases h with
  | ipe n h =>
    simp only [setProfile, nameOf, fmt0, h, Option.getD_some, pyRound_int, parse, Option.isSome_some, if_true]
  | hea n h => simp [setProfile, nameOf, parse, h]
  | heb n => simp [setProfile, nameOf, parse]
  | rhs H B T => simp only [setProfile, nameOf, fmt0, fmt1, h10, pyRound_int, parse]
  | chs D T => simp only [setProfile, nameOf, fmt0, fmt1, h10, pyRound_int, parse]

example : ∃ C : Catalogue ℚ, WellNamed C (.ipe 200) ∧ WellNamed C (.he 200 .A) ∧ WellNamed C (.rhs ((100 : ℤ) : ℚ) ((50 : ℤ) : ℚ) (((45 : ℤ) : ℚ) / 10)) :=
  ⟨⟨fun n => some n, fun n _ => some (n - 10)⟩, .ipe 200 rfl, .hea 200 rfl, .rhs 100 50 45⟩

/-- **C363** (negation): the names of HE AA, HE C, HE M and of built-up I-sections are refused, those of welded I-sections too; a square
hollow section becomes a rectangular one. -/
theorem rename_viol (C : Catalogue K) (n : ℤ) (H B tf tw r h b1 tf1 b2 tf2 T : K) :
    setProfile C (.he n .AA) (nameOf C (.he n .AA)) = .error .typeError ∧
    setProfile C (.he n .C) (nameOf C (.he n .C)) = .error .typeError ∧
    setProfile C (.he n .M) (nameOf C (.he n .M)) = .error .typeError ∧
    setProfile C (.customI H B tf tw r) (nameOf C (.customI H B tf tw r)) = .error .typeError ∧
    setProfile C (.wi h tw b1 tf1 b2 tf2) (nameOf C (.wi h tw b1 tf1 b2 tf2)) = .error .indexError ∧
    ∃ a b c, setProfile C (.shs H T) (nameOf C (.shs H T)) = .ok (.rhs a b c) := by
  refine ⟨rfl, rfl, rfl, rfl, rfl, _, _, _, rfl⟩

/-- **C363** (negation): the name of a circular section rounds its diameter, so giving the name back changes the section. -/
theorem rename_chs_viol (C : Catalogue K) (D T : K) (hD : ∀ n : ℤ, D ≠ n) : setProfile C (.chs D T) (nameOf C (.chs D T)) ≠ .ok (.chs D T) := by
  intro h
  simp only [setProfile, nameOf, parse, Except.ok.injEq, Sec.chs.injEq] at h
  exact hD _ h.1.symm

/-- The diameter 26.9 mm of the catalogue. -/
example : ∀ n : ℤ, (269 / 10 : ℚ) ≠ n := by
  intro n h
  have h2 : (269 : ℚ) = ((10 * n : ℤ) : ℚ) := by push_cast; linarith
  have h3 : (269 : ℤ) = 10 * n := by exact_mod_cast h2
  omega

/-- **C363** (negation): a text with an unknown HE letter changes nothing and raises no error. -/
theorem letter_viol (C : Catalogue K) (s : Sec K) (n : ℤ) : setProfile C s (.he n .other) = .ok s := rfl

/-- **C363** (partial). Setting the height of an IPE member to a height of the catalogue, or of a square hollow section to at least 25 mm, gives
a member of that height. -/
theorem height_partial (C : Catalogue K) (v : ℤ) :
    (∀ n, C.ipe v = some (v : K) → ∃ s, setHeight C (.ipe n) v = .ok s ∧ height C s = .ok (v : K)) ∧
    (∀ H T : K, 25 ≤ v → ∃ s, setHeight C (.shs H T) v = .ok s ∧ height C s = .ok (v : K)) := by
  constructor
  · intro n h
    refine ⟨.ipe v, ?_, ?_⟩
    · simp [setHeight, nameOf, setProfile, parse, h]
    · simp [height, h]
  · intro H T h
    refine ⟨_, rfl, ?_⟩
    show Except.ok (((max v 25 : ℤ) : K)) = _
    rw [max_eq_left h]

example : ∃ C : Catalogue ℚ, C.ipe 300 = some ((300 : ℤ) : ℚ) := ⟨⟨fun n => some n, fun _ _ => none⟩, rfl⟩

/-- **C363** (negation): setting the height of a rectangular or circular hollow section, of an HE AA, HE C or HE M profile or of a built-up or welded
I-section changes nothing and raises no error. -/
theorem height_ignored_viol (C : Catalogue K) (v n : ℤ) (H B T tf tw r h b1 tf1 b2 tf2 : K) :
    setHeight C (.rhs H B T) v = .ok (.rhs H B T) ∧ setHeight C (.chs H T) v = .ok (.chs H T) ∧
    setHeight C (.he n .AA) v = .ok (.he n .AA) ∧ setHeight C (.he n .C) v = .ok (.he n .C) ∧ setHeight C (.he n .M) v = .ok (.he n .M) ∧
    setHeight C (.customI H B tf tw r) v = .ok (.customI H B tf tw r) ∧
    setHeight C (.wi h tw b1 tf1 b2 tf2) v = .ok (.wi h tw b1 tf1 b2 tf2) := ⟨rfl, rfl, rfl, rfl, rfl, rfl, rfl⟩

/-- **C363** (negation): an HE A member whose height is set gets the profile with this number, whose height is another one. -/
theorem height_he_viol (C : Catalogue K) (n v : ℤ) (h : K) (hc : C.he v .A = some h) (hv : h ≠ v) :
    ∃ s, setHeight C (.he n .A) v = .ok s ∧ height C s = .ok h ∧ height C s ≠ .ok (v : K) := by
  refine ⟨.he v .A, ?_, ?_, ?_⟩
  · simp [setHeight, nameOf, setProfile, parse, hc]
  · simp [height, hc]
  · simpa [height, hc] using hv

/-- HE 200 A is 190 mm high. -/
example : ∃ C : Catalogue ℚ, C.he 200 .A = some 190 ∧ (190 : ℚ) ≠ ((200 : ℤ) : ℚ) := ⟨⟨fun n => some n, fun n _ => some (n - 10)⟩, by norm_num, by norm_num⟩

/-- **C363** (negation): a square hollow section whose height is set becomes a rectangular one; setting its height again changes nothing. -/
theorem height_twice_viol (C : Catalogue K) (H T : K) (v w : ℤ) : ∃ s, setHeight C (.shs H T) v = .ok s ∧ setHeight C s w = .ok s := ⟨_, rfl, rfl⟩

end Names

end Metku.FDesign
