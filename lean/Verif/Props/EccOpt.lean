import Mathlib.Analysis.Calculus.Deriv.Pow
import Mathlib.Analysis.Calculus.Deriv.Add
import Mathlib.Analysis.Calculus.Deriv.Mul
import Mathlib.Algebra.BigOperators.Group.List.Basic
import Verif.Model.EccOpt

/-! Properties of the eccentricity problem of tubular trusses (`metku/raami/raami_truss_opt.py`). -/
namespace Metku.Ecc

open Metku Metku.Truss

/-! ## Specification -/

/-- Joints of the left half of the truss at which braces meet with a gap. -/
def Free (span : ℝ) (js : List EJoint) (j : EJoint) : Prop := j ∈ js ∧ j.point.node.1 ≤ span / 2 ∧ (j.isRidge = true ∨ j.isK = true)

/-- Every joint has its own number and its own node. -/
structure Distinct (js : List EJoint) : Prop where
  key : (js.map (·.key)).Nodup
  node : (js.map (·.node)).Nodup

/-- The value of one coordinate of one joint is changed. -/
def change (x : Vec) (k : ℕ) (c : Coord) (t : ℝ) : Vec := fun k' c' => if k' = k ∧ c' = c then t else x k' c'

/-! ## Helpers -/

theorem mem_gapJoints {span : ℝ} {js : List EJoint} {j : EJoint} : j ∈ gapJoints span js ↔ Free span js j := by
  unfold gapJoints Free
  rw [List.mem_filter]
  simp only [Bool.and_eq_true, decide_eq_true_eq, Bool.or_eq_true]
  rw [show (1 : ℝ) / 2 * span = span / 2 by ring]

theorem yvars (span : ℝ) : ∀ js : List EJoint, (vars span js).filter (fun v => v.prop = .yloc) = (gapJoints span js).map yVar
  | [] => rfl
  | j :: js => by
      have ih := yvars span js
      unfold vars at ih ⊢
      rw [List.flatMap_cons, List.filter_append, ih]
      unfold gapJoints jointVars
      generalize hs : (1 : ℝ) / 2 * span = m
      by_cases h : j.point.node.1 ≤ m
      · cases h1 : j.isRidge <;> cases h2 : j.isK <;> simp [h, h1, h2, yVar, xVar]
      · simp [h]

theorem objValue_eq (span : ℝ) (js : List EJoint) (x : Vec) : objValue (vars span js) x = 1 / 100 * ((gapJoints span js).map fun j => x j.key .yloc ^ 2).sum := by
  unfold objValue
  rw [yvars, List.map_map]
  rfl

theorem sum_sq_nonneg {α : Type} (f : α → ℝ) : ∀ l : List α, 0 ≤ (l.map fun a => f a ^ 2).sum ∧ ((l.map fun a => f a ^ 2).sum = 0 ↔ ∀ a ∈ l, f a = 0)
  | [] => by simp
  | a :: l => by
      obtain ⟨h1, h2⟩ := sum_sq_nonneg f l
      have h3 := sq_nonneg (f a)
      rw [List.map_cons, List.sum_cons]
      refine ⟨by linarith, ?_⟩
      constructor
      · intro h
        have e1 : f a ^ 2 = 0 := by linarith
        have e2 : (l.map fun a => f a ^ 2).sum = 0 := by linarith
        intro b hb
        rcases List.mem_cons.1 hb with rfl | hb
        · exact pow_eq_zero_iff (two_ne_zero) |>.1 e1
        · exact h2.1 e2 b hb
      · intro h
        rw [h a List.mem_cons_self, h2.2 fun b hb => h b (List.mem_cons_of_mem _ hb)]
        norm_num

theorem sum_change {js : List EJoint} (x : Vec) : ∀ l : List EJoint, (l.map (·.key)).Nodup → ∀ j ∈ l, ∃ c, ∀ t, (l.map fun i => change x j.key .yloc t i.key .yloc ^ 2).sum = t ^ 2 + c
  | [], _, j, h => by simp at h
  | i :: l, hn, j, h => by
      rw [List.map_cons, List.nodup_cons] at hn
      rcases List.mem_cons.1 h with rfl | h
      · refine ⟨(l.map fun i => x i.key .yloc ^ 2).sum, fun t => ?_⟩
        rw [List.map_cons, List.sum_cons]
        congr 1
        · simp [change]
        · congr 1
          apply List.map_congr_left
          intro q hq
          have : q.key ≠ j.key := fun e => hn.1 (by rw [← e]; exact List.mem_map.2 ⟨q, hq, rfl⟩)
          simp [change, this]
      · obtain ⟨c, hc⟩ := sum_change (js := js) x l hn.2 j h
        have : i.key ≠ j.key := fun e => hn.1 (by rw [e]; exact List.mem_map.2 ⟨j, h, rfl⟩)
        refine ⟨x i.key .yloc ^ 2 + c, fun t => ?_⟩
        rw [List.map_cons, List.sum_cons, hc]
        simp only [change, this, false_and, if_false]
        ring

theorem gapJoints_keys {span : ℝ} {js : List EJoint} (h : (js.map (·.key)).Nodup) : ((gapJoints span js).map (·.key)).Nodup :=
  List.Nodup.sublist (List.Sublist.map _ List.filter_sublist) h

/-! ## Variables and constraints -/

/-- The problem has an eccentricity variable for every K joint of the left half of the truss and for the ridge joint, with the start value within its bounds, and a variable along the chord for those that are not the ridge;
the problem cannot be created if a ridge joint of this half has three braces. -/
theorem ecc_variables {span : ℝ} {js : List EJoint} (hk : ∀ j ∈ js, 0 < j.h0) :
    ((∃ j, Free span js j ∧ j.isK = false) → build span js = .error .typeError) ∧
    ((∀ j, Free span js j → j.isK = true) → ∃ vs, build span js = .ok vs ∧
      (∀ j, Free span js j ↔ ∃ v ∈ vs, v.joint = j ∧ v.prop = .yloc) ∧ (∀ j, (Free span js j ∧ j.isRidge = false) ↔ ∃ v ∈ vs, v.joint = j ∧ v.prop = .xloc) ∧
      ∀ v ∈ vs, v.lb ≤ v.value ∧ v.value ≤ v.ub ∧ v.lb < 0 ∧ 0 < v.ub) := by
  have half : (1 : ℝ) / 2 * span = span / 2 := by ring
  constructor
  · rintro ⟨j, ⟨h1, h2, h3⟩, h4⟩
    unfold build
    rw [if_pos]
    refine ⟨j, h1, by rw [half]; exact h2, ?_, h4⟩
    rcases h3 with h3 | h3
    · exact h3
    · rw [h4] at h3; cases h3
  · intro hall
    refine ⟨vars span js, ?_, ?_, ?_, ?_⟩
    · unfold build
      rw [if_neg]
      rintro ⟨j, h1, h2, h3, h4⟩
      have := hall j ⟨h1, by rw [← half]; exact h2, Or.inl h3⟩
      rw [h4] at this; cases this
    · intro j
      rw [← mem_gapJoints]
      have e := yvars span js
      constructor
      · intro h
        have : yVar j ∈ (vars span js).filter (fun v => v.prop = .yloc) := by rw [e]; exact List.mem_map.2 ⟨j, h, rfl⟩
        exact ⟨yVar j, (List.mem_filter.1 this).1, rfl, rfl⟩
      · rintro ⟨v, hv, rfl, hp⟩
        have : v ∈ (vars span js).filter (fun v => v.prop = .yloc) := List.mem_filter.2 ⟨hv, by simpa using hp⟩
        rw [e] at this
        obtain ⟨q, hq, rfl⟩ := List.mem_map.1 this
        exact hq
    · intro j
      constructor
      · rintro ⟨⟨h1, h2, h3⟩, h4⟩
        refine ⟨xVar j, List.mem_flatMap.2 ⟨j, h1, ?_⟩, rfl, rfl⟩
        have hK : j.isK = true := by
          rcases h3 with h3 | h3
          · rw [h4] at h3; cases h3
          · exact h3
        unfold jointVars
        rw [half, if_pos h2, h4, hK]
        simp
      · rintro ⟨v, hv, rfl, hp⟩
        obtain ⟨q, hq, hv⟩ := List.mem_flatMap.1 hv
        unfold jointVars at hv
        split at hv
        · rename_i h2
          split at hv
          · rw [List.mem_singleton] at hv; subst hv; cases hp
          · rename_i h4
            split at hv
            · rename_i h5
              rcases List.mem_cons.1 hv with rfl | hv
              · cases hp
              · rw [List.mem_singleton] at hv; subst hv
                exact ⟨⟨hq, by rw [← half]; exact h2, Or.inr h5⟩, Bool.eq_false_of_not_eq_true h4⟩
            · simp at hv
        · simp at hv
    · intro v hv
      obtain ⟨j, hj, hv⟩ := List.mem_flatMap.1 hv
      have hpos := hk j hj
      have hv' : v = yVar j ∨ v = xVar j := by
        unfold jointVars at hv
        split at hv
        · split at hv
          · exact Or.inl (List.mem_singleton.1 hv)
          · split at hv
            · rcases List.mem_cons.1 hv with h | h
              · exact Or.inl h
              · exact Or.inr (List.mem_singleton.1 h)
            · simp at hv
        · simp at hv
      rcases hv' with rfl | rfl
      · simp only [yVar]; refine ⟨by linarith, by linarith, by linarith, by linarith⟩
      · simp only [xVar]; norm_num

/-- The constraints of a joint hold exactly if the gap lies between 0.5 and 1.5 times b0(1-β) and is at least the sum of the wall thicknesses and the smallest gap asked for. -/
theorem gap_constraints (minGap : ℝ) (j : EJoint) (g : ℝ) :
    (gapUb j g ≤ 0 ∧ gapLb minGap j g ≤ 0) ↔ (j.b0 * (1 - j.beta) / 2 ≤ g ∧ g ≤ 3 * (j.b0 * (1 - j.beta)) / 2 ∧ j.tsum ≤ g ∧ minGap ≤ g) := by
  unfold gapUb gapLb gub glb
  constructor
  · rintro ⟨h1, h2⟩
    have h3 : max (max (1 / 2 * j.b0 * (1 - j.beta)) minGap) j.tsum ≤ g := by linarith
    rw [max_le_iff, max_le_iff] at h3
    obtain ⟨⟨a, b⟩, c⟩ := h3
    exact ⟨by linarith, by linarith, c, b⟩
  · rintro ⟨a, b, c, d⟩
    refine ⟨by linarith, ?_⟩
    have : max (max (1 / 2 * j.b0 * (1 - j.beta)) minGap) j.tsum ≤ g := max_le (max_le (by linarith) d) c
    linarith

/-- Braces that are almost as wide as the chord leave no admissible gap, whatever the eccentricity; the problem is created all the same. -/
theorem gap_constraints_viol {span : ℝ} {js : List EJoint} (hK : ∀ j, Free span js j → j.isK = true) {minGap : ℝ} {j : EJoint} (hj : Free span js j)
    (wide : 3 * (j.b0 * (1 - j.beta)) / 2 < max minGap j.tsum) :
    (∃ vs, build span js = .ok vs ∧ ∃ v ∈ vs, v.joint = j) ∧ ∀ g, ¬ (gapUb j g ≤ 0 ∧ gapLb minGap j g ≤ 0) := by
  constructor
  · refine ⟨vars span js, ?_, yVar j, ?_, rfl⟩
    · unfold build
      rw [if_neg]
      rintro ⟨i, h1, h2, h3, h4⟩
      have := hK i ⟨h1, by linarith, Or.inl h3⟩
      rw [h4] at this; cases this
    · have : yVar j ∈ (vars span js).filter (fun v => v.prop = .yloc) := by rw [yvars]; exact List.mem_map.2 ⟨j, mem_gapJoints.2 hj, rfl⟩
      exact (List.mem_filter.1 this).1
  · intro g h
    obtain ⟨h1, h2, h3, h4⟩ := (gap_constraints minGap j g).1 h
    rcases lt_max_iff.1 wide with h | h <;> linarith

/-! ## Objective -/

/-- The objective is never negative, it is zero exactly if no joint has an eccentricity, it does not depend on the coordinates along the chords, and the gradient holds its partial derivatives. -/
theorem ecc_objective {span : ℝ} {js : List EJoint} (hd : Distinct js) (x : Vec) :
    0 ≤ objValue (vars span js) x ∧ (objValue (vars span js) x = 0 ↔ ∀ j, Free span js j → x j.key .yloc = 0) ∧
    ∀ v ∈ vars span js, HasDerivAt (fun t => objValue (vars span js) (change x v.joint.key v.prop t)) (objGrad x v) (x v.joint.key v.prop) := by
  obtain ⟨h1, h2⟩ := sum_sq_nonneg (fun j : EJoint => x j.key .yloc) (gapJoints span js)
  rw [objValue_eq]
  refine ⟨by linarith, ?_, ?_⟩
  · rw [show (1 / 100 * ((gapJoints span js).map fun j => x j.key .yloc ^ 2).sum = 0) ↔ (((gapJoints span js).map fun j => x j.key .yloc ^ 2).sum = 0) by
      constructor <;> intro h <;> linarith, h2]
    exact ⟨fun h j hj => h j (mem_gapJoints.2 hj), fun h j hj => h j (mem_gapJoints.1 hj)⟩
  · intro v hv
    cases hp : v.prop with
    | xloc =>
      have : (fun t => objValue (vars span js) (change x v.joint.key .xloc t)) = fun _ => objValue (vars span js) x := by
        funext t
        rw [objValue_eq, objValue_eq]
        simp [change]
      rw [this]
      unfold objGrad
      rw [hp]
      exact hasDerivAt_const _ _
    | yloc =>
      have hm : v.joint ∈ gapJoints span js := by
        have : v ∈ (vars span js).filter (fun v => v.prop = .yloc) := List.mem_filter.2 ⟨hv, by simpa using hp⟩
        rw [yvars] at this
        obtain ⟨q, hq, rfl⟩ := List.mem_map.1 this
        exact hq
      obtain ⟨c, hc⟩ := sum_change (js := js) x (gapJoints span js) (gapJoints_keys hd.key) v.joint hm
      have : (fun t => objValue (vars span js) (change x v.joint.key .yloc t)) = fun t => 1 / 100 * (t ^ 2 + c) := by
        funext t
        rw [objValue_eq, hc]
      rw [this]
      unfold objGrad
      rw [hp, if_pos rfl]
      have h : HasDerivAt (fun t : ℝ => t ^ 2 + c) (2 * x v.joint.key .yloc) (x v.joint.key .yloc) := by
        simpa using (hasDerivAt_pow 2 (x v.joint.key .yloc)).add_const c
      rw [show (2 : ℝ) / 100 * x v.joint.key .yloc = 1 / 100 * (2 * x v.joint.key .yloc) by ring]
      exact h.const_mul (1 / 100)

/-! ## Vertical braces -/

theorem braceForm_joints (span : ℝ) (n1 n2 : ℕ) (x : Vec) : ∀ js : List EJoint,
    braceForm (vars span js) n1 n2 x = (js.map fun j => braceForm (jointVars span j) n1 n2 x).sum
  | [] => rfl
  | j :: js => by
      have ih := braceForm_joints span n1 n2 x js
      unfold braceForm vars at *
      rw [List.flatMap_cons, List.map_append, List.sum_append, ih, List.map_cons, List.sum_cons]

theorem braceForm_other {span : ℝ} {n1 n2 : ℕ} {x : Vec} {j : EJoint} (h1 : j.node ≠ n1) (h2 : j.node ≠ n2) : braceForm (jointVars span j) n1 n2 x = 0 := by
  unfold braceForm
  apply List.sum_eq_zero
  intro y hy
  obtain ⟨v, hv, rfl⟩ := List.mem_map.1 hy
  have : v.joint = j := by
    unfold jointVars at hv
    split at hv
    · split at hv
      · rw [List.mem_singleton.1 hv]; rfl
      · split at hv
        · rcases List.mem_cons.1 hv with rfl | hv
          · rfl
          · rw [List.mem_singleton.1 hv]; rfl
        · simp at hv
    · simp at hv
  unfold coeff
  rw [this, if_neg h1, if_neg h2, zero_mul]

theorem sum_single {α : Type} {f : α → ℝ} : ∀ (l : List α), (∀ a ∈ l, f a = 0) → (l.map f).sum = 0
  | [], _ => rfl
  | a :: l, h => by
      rw [List.map_cons, List.sum_cons, h a List.mem_cons_self, sum_single l fun b hb => h b (List.mem_cons_of_mem _ hb), zero_add]

theorem sum_one {f : EJoint → ℝ} {j : EJoint} : ∀ (l : List EJoint), (l.map (·.node)).Nodup → j ∈ l → (∀ a ∈ l, a.node ≠ j.node → f a = 0) → (l.map f).sum = f j
  | [], _, h, _ => by simp at h
  | a :: l, hn, h, hf => by
      rw [List.map_cons, List.nodup_cons] at hn
      rw [List.map_cons, List.sum_cons]
      rcases List.mem_cons.1 h with rfl | h
      · rw [sum_single l, add_zero]
        intro b hb
        exact hf b (List.mem_cons_of_mem _ hb) fun e => hn.1 (by rw [← e]; exact List.mem_map.2 ⟨b, hb, rfl⟩)
      · rw [sum_one l hn.2 h fun b hb => hf b (List.mem_cons_of_mem _ hb), hf a List.mem_cons_self, zero_add]
        intro e
        exact hn.1 (by rw [e]; exact List.mem_map.2 ⟨j, h, rfl⟩)

theorem sum_pair {f : EJoint → ℝ} {i j : EJoint} : ∀ (l : List EJoint), (l.map (·.node)).Nodup → i ∈ l → j ∈ l → i.node ≠ j.node →
    (∀ a ∈ l, a.node ≠ i.node → a.node ≠ j.node → f a = 0) → (l.map f).sum = f i + f j
  | [], _, h, _, _, _ => by simp at h
  | a :: l, hn, hi, hj, hij, hf => by
      rw [List.map_cons, List.nodup_cons] at hn
      rw [List.map_cons, List.sum_cons]
      have notin : ∀ b ∈ l, b.node ≠ a.node := fun b hb e => hn.1 (by rw [← e]; exact List.mem_map.2 ⟨b, hb, rfl⟩)
      rcases List.mem_cons.1 hi with rfl | hi <;> rcases List.mem_cons.1 hj with rfl | hj
      · exact absurd rfl hij
      · rw [sum_one l hn.2 hj fun b hb h => hf b (List.mem_cons_of_mem _ hb) (notin b hb) h]
      · rw [sum_one l hn.2 (by assumption) fun b hb h => hf b (List.mem_cons_of_mem _ hb) h (notin b hb), add_comm]
      · rw [sum_pair l hn.2 hi hj hij fun b hb => hf b (List.mem_cons_of_mem _ hb), hf a List.mem_cons_self (notin i hi).symm (notin j hj).symm, zero_add]

/-- The displacement along x of the brace intersection of a joint that is not the ridge. -/
theorem place_x (x : Vec) (j : EJoint) (s : Option KPoint) (h : j.isRidge = false) :
    (place x j s).1.xp.1 = j.point.node.1 + x j.key .xloc * j.point.u.1 + x j.key .yloc * j.point.p.1 := by
  unfold place
  rw [h]
  simp only [Bool.false_eq_true, if_false]
  cases hr : j.point.ridge <;> simp [setY, setX, KPoint.local, KPoint.p, shift, hr]

theorem form_first {span : ℝ} {n2 : ℕ} {x : Vec} {j : EJoint} (h : j.point.node.1 ≤ span / 2) (hr : j.isRidge = false) (hk : j.isK = true) :
    braceForm (jointVars span j) j.node n2 x = x j.key .xloc * j.point.u.1 + x j.key .yloc * j.point.p.1 := by
  unfold jointVars braceForm
  rw [if_pos (by linarith), hr, hk]
  simp [coeff, dirX, yVar, xVar]
  ring

theorem form_second {span : ℝ} {n1 : ℕ} {x : Vec} {j : EJoint} (h : j.point.node.1 ≤ span / 2) (hr : j.isRidge = false) (hk : j.isK = true) (hn : j.node ≠ n1) :
    braceForm (jointVars span j) n1 j.node x = -(x j.key .xloc * j.point.u.1 + x j.key .yloc * j.point.p.1) := by
  unfold jointVars braceForm
  rw [if_pos (by linarith), hr, hk]
  simp [coeff, dirX, yVar, xVar, hn]
  ring

/-- A brace between K joints of the left half whose nodes lie above each other stays vertical exactly if the constraint holds; the same if its other end is a joint without variables, whose brace end is its node. -/
theorem vertical_braces {span : ℝ} {js : List EJoint} (hd : Distinct js) {i : EJoint} (hi : i ∈ js) (hx : i.point.node.1 ≤ span / 2) (ri : i.isRidge = false) (ki : i.isK = true) (x : Vec) :
    (∀ j, j ∈ js → j.point.node.1 ≤ span / 2 → j.isRidge = false → j.isK = true → i.node ≠ j.node → i.point.node.1 = j.point.node.1 → ∀ s t,
      (braceForm (vars span js) i.node j.node x = 0 ↔ (place x i s).1.xp.1 = (place x j t).1.xp.1)) ∧
    (∀ n, n ≠ i.node → (∀ j ∈ js, j.node = n → ¬ Free span js j) → ∀ s,
      (braceForm (vars span js) i.node n x = 0 ↔ (place x i s).1.xp.1 = i.point.node.1) ∧ (braceForm (vars span js) n i.node x = 0 ↔ (place x i s).1.xp.1 = i.point.node.1)) := by
  constructor
  · intro j hj hxj rj kj hne hv s t
    rw [braceForm_joints, sum_pair js hd.node hi hj hne fun a _ h1 h2 => braceForm_other h1 h2, form_first hx ri ki, form_second hxj rj kj hne.symm, place_x x i s ri, place_x x j t rj]
    constructor <;> intro h <;> linarith
  · intro n hn hf s
    have hz : ∀ a ∈ js, a.node ≠ i.node → braceForm (jointVars span a) i.node n x = 0 ∧ braceForm (jointVars span a) n i.node x = 0 := by
      intro a ha h1
      by_cases h2 : a.node = n
      · have : jointVars span a = [] := by
          unfold jointVars
          by_cases h3 : a.point.node.1 ≤ 1 / 2 * span
          · rw [if_pos h3]
            have := hf a ha h2
            unfold Free at this
            have h4 : ¬ (a.isRidge = true ∨ a.isK = true) := fun h => this ⟨ha, by linarith, h⟩
            cases e1 : a.isRidge <;> cases e2 : a.isK <;> simp [e1, e2] at h4 ⊢
          · rw [if_neg h3]
        rw [this]
        exact ⟨rfl, rfl⟩
      · exact ⟨braceForm_other h1 h2, braceForm_other h2 h1⟩
    rw [braceForm_joints, braceForm_joints, sum_one js hd.node hi fun a ha h => (hz a ha h).1, sum_one js hd.node hi fun a ha h => (hz a ha h).2, form_first hx ri ki, form_second hx ri ki hn.symm, place_x x i s ri]
    constructor <;> constructor <;> intro h <;> linarith

/-- At the ridge of a truss with sloped chords the constraint does the opposite of what it is for: the brace intersection moves straight up, but the constraint takes it to move perpendicular to the chord; with an eccentricity at
the ridge a brace for which the constraint holds is not vertical. -/
theorem vertical_ridge_viol {span : ℝ} {js : List EJoint} (hd : Distinct js) {i j : EJoint} (hi : i ∈ js) (hj : j ∈ js) (hxi : i.point.node.1 ≤ span / 2) (hxj : j.point.node.1 ≤ span / 2)
    (ri : i.isRidge = true) (apex : i.point.ridge = true) (rj : j.isRidge = false) (kj : j.isK = true) (hne : i.node ≠ j.node) (hv : i.point.node.1 = j.point.node.1)
    (x : Vec) (slope : i.point.p.1 ≠ 0) (ecc : x i.key .yloc ≠ 0) (s t : Option KPoint) (h : braceForm (vars span js) i.node j.node x = 0) :
    (place x i s).1.xp.1 ≠ (place x j t).1.xp.1 := by
  have hi' : braceForm (jointVars span i) i.node j.node x = x i.key .yloc * i.point.p.1 := by
    unfold jointVars braceForm
    rw [if_pos (by linarith), ri]
    simp [coeff, dirX, yVar]
    ring
  rw [braceForm_joints, sum_pair js hd.node hi hj hne fun a _ h1 h2 => braceForm_other h1 h2, hi', form_second hxj rj kj hne.symm] at h
  have hp : (place x i s).1.xp.1 = i.point.node.1 := by
    unfold place setY
    simp [ri, apex]
  rw [hp, place_x x j t rj]
  intro e
  have : x i.key .yloc * i.point.p.1 = 0 := by linarith
  rcases mul_eq_zero.1 this with h | h
  · exact ecc h
  · exact slope h

/-- A joint of the bottom chord below a joint of a top chord with slope 3:4 (as unit vector). -/
noncomputable def lower : EJoint := ⟨1, 11, newK (2000, 0) false (1, 0) false 150, false, true, 150, 150, 2 / 3, 10⟩

/-- The joint above. -/
noncomputable def upper (ridge : Bool) : EJoint := ⟨2, 12, newK (2000, 1500) true (4 / 5, 3 / 5) ridge 150, ridge, true, 150, 150, 2 / 3, 10⟩

/-- Two joints with one brace. -/
theorem pair_distinct (ridge : Bool) : Distinct [lower, upper ridge] := ⟨by simp [lower, upper], by simp [lower, upper]⟩

example : (upper false) ∈ [lower, upper false] ∧ (upper false).point.node.1 ≤ 10000 / 2 ∧ (upper false).isRidge = false ∧ (upper false).point.node.1 = lower.point.node.1 ∧ Free 10000 [lower, upper false] lower := by
  refine ⟨by simp, ?_, rfl, ?_, by simp, ?_, Or.inr rfl⟩ <;> simp [upper, lower, newK, setY] <;> norm_num

/-- The ridge over a joint of the bottom chord: with the eccentricity 20 at the ridge the constraint moves the lower end sideways. -/
theorem vertical_ridge_viol_witness : ∃ x : Vec, x (upper true).key .yloc = 20 ∧ braceForm (vars 4000 [lower, upper true]) (upper true).node lower.node x = 0 ∧
    ∀ s t, (place x (upper true) s).1.xp.1 ≠ (place x lower t).1.xp.1 := by
  have hx : ∀ b, (upper b).point.node = (2000, 1500) := by intro b; cases b <;> simp [upper, newK, setY]
  have hl : lower.point.node = (2000, 0) := by simp [lower, newK, setY]
  have hu : lower.point.u = (1, 0) := by simp [lower, newK, setY]
  have hlp : lower.point.p = (0, -1) := by simp [lower, newK, setY, KPoint.p, perp]
  have hup : (upper true).point.p = (-(3 / 5), 4 / 5) := by simp [upper, newK, setY, KPoint.p, perp]
  have hz : braceForm (vars 4000 [lower, upper true]) (upper true).node lower.node (fun k c => if k = 2 then 20 else if c = .xloc then -12 else 0) = 0 := by
    have e : ∀ n1 n2 x, braceForm (vars 4000 [lower, upper true]) n1 n2 x = braceForm [yVar lower, xVar lower, yVar (upper true)] n1 n2 x := by
      intro n1 n2 x
      unfold vars
      simp only [List.flatMap_cons, List.flatMap_nil, jointVars, hx, hl]
      rw [if_pos (show (2000 : ℝ) ≤ 1 / 2 * 4000 by norm_num), if_pos (show (2000 : ℝ) ≤ 1 / 2 * 4000 by norm_num), if_neg (show ¬ lower.isRidge = true from fun h => nomatch h), if_pos (show lower.isK = true from rfl), if_pos (show (upper true).isRidge = true from rfl)]
      rfl
    rw [e]
    simp only [braceForm, List.map_cons, List.map_nil, List.sum_cons, List.sum_nil, coeff, dirX, yVar, xVar, hu, hlp, hup]
    simp [lower, upper]
    norm_num
  refine ⟨_, rfl, hz, fun s t => ?_⟩
  exact vertical_ridge_viol (pair_distinct true) (by simp) (by simp) (by rw [hx]; norm_num) (by rw [hl]; norm_num) rfl (by simp [upper, newK, setY]) rfl rfl (by simp [upper, lower]) (by rw [hx, hl])
    _ (by rw [hup]; norm_num) (by simp [upper]) s t hz

end Metku.Ecc
