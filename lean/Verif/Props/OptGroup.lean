import Mathlib.Data.Rat.Floor
import Mathlib.Tactic.Linarith
import Verif.Model.OptGroup
import Verif.Lemmas.OptVars

/-! Properties of groups of design variables (`metku/optimization/variable_group.py`). -/
namespace Metku.Grp

open Metku Metku.Opt

set_option linter.unusedSectionVars false

variable {K : Type} [Field K] [LinearOrder K] [IsStrictOrderedRing K]

/-! ## Specification -/

/-- The names of an attribute: one or several. -/
def names : PropSpec → List String
  | .one p => [p]
  | .many ps => ps

/-- The objects of a group: those of the list, or the single object. -/
def Objects (G : Spec K) (l : List Nat) : Prop := (G.objects ≠ [] ∧ l = G.objects) ∨ (G.objects = [] ∧ ∃ o, G.object = some o ∧ l = [o])

/-- The attributes of a group: those of the list, or the single attribute. -/
def Attributes (G : Spec K) (l : List PropSpec) : Prop := (G.attributes ≠ [] ∧ l = G.attributes) ∨ (G.attributes = [] ∧ ∃ a, G.attr = some a ∧ l = [a])

/-- Every object has every attribute. -/
def AllHave (has : Nat → String → Bool) (objs : List Nat) (as : List PropSpec) : Prop := ∀ a ∈ as, ∀ o ∈ objs, ∀ p ∈ names a, has o p = true

/-! ## Helpers -/

theorem objs_eq {G : Spec K} {l : List Nat} (h : Objects G l) : G.objs = l.map some ∧ G.targets = l := by
  have : G.objs = l.map some := by
    unfold Spec.objs
    rcases h with ⟨h1, rfl⟩ | ⟨h1, o, h2, rfl⟩
    · rw [if_neg h1]
    · rw [if_pos h1, h2]; rfl
  refine ⟨this, ?_⟩
  unfold Spec.targets
  rw [this]
  simp [List.filterMap_map]

theorem attrs_eq {G : Spec K} {l : List PropSpec} (h : Attributes G l) : G.attrs = l.map some := by
  unfold Spec.attrs
  rcases h with ⟨h1, rfl⟩ | ⟨h1, a, h2, rfl⟩
  · cases hl : G.attributes with
    | nil => exact absurd hl h1
    | cons a l => rfl
  · rw [h1, h2]; rfl

theorem hasAttribute_iff (has : Nat → String → Bool) (o : Nat) (a : PropSpec) : hasAttribute has o a = true ↔ ∀ p ∈ names a, has o p = true := by
  cases a with
  | one p => simp [hasAttribute, names]
  | many ps => simp [hasAttribute, names]

theorem attributesOk_iff {G : Spec K} {objs : List Nat} {as : List PropSpec} (ho : Objects G objs) (ha : Attributes G as) (has : Nat → String → Bool) :
    G.attributesOk has = true ↔ AllHave has objs as := by
  unfold Spec.attributesOk AllHave
  rw [(objs_eq ho).1, attrs_eq ha]
  simp only [List.all_map, List.all_eq_true, Function.comp_apply, Spec.accepts]
  constructor
  · intro h a h1 o h2
    exact (hasAttribute_iff has o a).1 (h a h1 o h2)
  · intro h a h1 o h2
    exact (hasAttribute_iff has o a).2 (h a h1 o h2)

theorem continuousVars_get (objs : List Nat) : ∀ (as : List (Option PropSpec)) (l u v : List K) (i : Nat),
    (Spec.continuousVars objs as l u v)[i]? =
      match as[i]?, l[i]?, u[i]?, v[i]? with
      | some a, some x, some y, some z => some ⟨a, objs, .cont, some (x, y), .num z⟩
      | _, _, _, _ => none
  | [], _, _, _, i => by cases i <;> simp [Spec.continuousVars]
  | _ :: _, [], _, _, i => by cases i <;> simp [Spec.continuousVars]
  | _ :: as, _ :: _, [], _, i => by
      cases i with
      | zero => simp [Spec.continuousVars]
      | succ i => simp only [Spec.continuousVars, List.getElem?_nil, List.getElem?_cons_succ]; split <;> simp_all
  | _ :: as, _ :: l, _ :: u, [], i => by
      cases i with
      | zero => simp [Spec.continuousVars]
      | succ i => simp only [Spec.continuousVars, List.getElem?_nil, List.getElem?_cons_succ]; split <;> simp_all
  | a :: as, x :: l, y :: u, z :: v, i => by
      cases i with
      | zero => simp [Spec.continuousVars]
      | succ i => simp only [Spec.continuousVars, List.getElem?_cons_succ]; exact continuousVars_get objs as l u v i

theorem continuousVars_length (objs : List Nat) : ∀ (as : List (Option PropSpec)) (l u v : List K),
    (Spec.continuousVars objs as l u v).length = min (min as.length l.length) (min u.length v.length)
  | [], _, _, _ => by simp [Spec.continuousVars]
  | _ :: _, [], _, _ => by simp [Spec.continuousVars]
  | _ :: as, _ :: _, [], _ => by simp [Spec.continuousVars]
  | _ :: as, _ :: l, _ :: u, [] => by simp [Spec.continuousVars]
  | a :: as, x :: l, y :: u, z :: v => by
      have := continuousVars_length objs as l u v
      simp only [Spec.continuousVars, List.length_cons, this]
      omega

theorem make_continuous {G : Spec K} {objs : List Nat} {as : List PropSpec} (ht : G.vtype = .continuous) (ho : Objects G objs) (ha : Attributes G as) {has : Nat → String → Bool}
    (hh : AllHave has objs as) {l u v : List K} (hl : G.lower = some l) (hu : G.upper = some u) (hv : G.startValue = .list v) :
    G.make has = .ok (Spec.continuousVars objs (as.map some) l u v) := by
  unfold Spec.make
  rw [(attributesOk_iff ho ha has).2 hh, ht, hl, hu, hv, (objs_eq ho).2, attrs_eq ha]
  rfl

theorem make_discrete {G : Spec K} {objs : List Nat} {as : List PropSpec} (ht : G.vtype = .discrete) (ho : Objects G objs) (ha : Attributes G as) {has : Nat → String → Bool}
    (hh : AllHave has objs as) {v : List K} {w : List (List K)} (hw : G.valueLists = some w) (hv : G.startValue = .list v) :
    G.make has = Spec.discreteVars objs (as.map some) v w := by
  unfold Spec.make
  rw [(attributesOk_iff ho ha has).2 hh, ht, hw, hv, (objs_eq ho).2, attrs_eq ha]
  rfl

theorem make_index {G : Spec K} {objs : List Nat} {as : List PropSpec} (ht : G.vtype = .index) (ho : Objects G objs) (ha : Attributes G as) {has : Nat → String → Bool}
    (hh : AllHave has objs as) : G.make has = .ok [G.indexVar] := by
  unfold Spec.make
  rw [(attributesOk_iff ho ha has).2 hh, ht]
  rfl

theorem foldl_min_le : ∀ (l : List K) (x : K), l.foldl min x ≤ x ∧ (∀ y ∈ l, l.foldl min x ≤ y) ∧ l.foldl min x ∈ x :: l
  | [], x => by simp
  | y :: l, x => by
      obtain ⟨h1, h2, h3⟩ := foldl_min_le l (min x y)
      refine ⟨le_trans h1 (min_le_left _ _), ?_, ?_⟩
      · intro z hz
        rcases List.mem_cons.1 hz with rfl | hz
        · exact le_trans h1 (min_le_right _ _)
        · exact h2 z hz
      · simp only [List.foldl_cons]
        rcases List.mem_cons.1 h3 with h3 | h3
        · rw [h3]; rcases min_choice x y with h | h <;> rw [h] <;> simp
        · simp [h3]

theorem foldl_max_le : ∀ (l : List K) (x : K), x ≤ l.foldl max x ∧ (∀ y ∈ l, y ≤ l.foldl max x) ∧ l.foldl max x ∈ x :: l
  | [], x => by simp
  | y :: l, x => by
      obtain ⟨h1, h2, h3⟩ := foldl_max_le l (max x y)
      refine ⟨le_trans (le_max_left _ _) h1, ?_, ?_⟩
      · intro z hz
        rcases List.mem_cons.1 hz with rfl | hz
        · exact le_trans (le_max_right _ _) h1
        · exact h2 z hz
      · simp only [List.foldl_cons]
        rcases List.mem_cons.1 h3 with h3 | h3
        · rw [h3]; rcases max_choice x y with h | h <;> rw [h] <;> simp
        · simp [h3]

/-- Smallest and largest of the values are the bounds. -/
def Bounds (w : List K) (b : K × K) : Prop := b.1 ∈ w ∧ b.2 ∈ w ∧ ∀ x ∈ w, b.1 ≤ x ∧ x ≤ b.2

theorem bounds_of (x : K) (xs : List K) : Bounds (x :: xs) (xs.foldl min x, xs.foldl max x) := by
  obtain ⟨a1, a2, a3⟩ := foldl_min_le xs x
  obtain ⟨b1, b2, b3⟩ := foldl_max_le xs x
  refine ⟨a3, b3, fun y hy => ?_⟩
  rcases List.mem_cons.1 hy with rfl | hy
  · exact ⟨a1, b1⟩
  · exact ⟨a2 y hy, b2 y hy⟩

theorem discreteVars_spec (objs : List Nat) : ∀ (as : List (Option PropSpec)) (v : List K) (w : List (List K)), as.length = v.length → as.length = w.length →
    ((∃ l ∈ w, l = []) → Spec.discreteVars objs as v w = .error (.py .valueError)) ∧
    ((∀ l ∈ w, l ≠ []) → ∃ r, Spec.discreteVars objs as v w = .ok r ∧ r.length = as.length ∧
      ∀ (i : Nat) (a : Option PropSpec) (x : K) (l : List K), as[i]? = some a → v[i]? = some x → w[i]? = some l → ∃ b, Bounds l b ∧ r[i]? = some (⟨a, objs, .discrete l, some b, .num x⟩ : GVar K))
  | [], v, w, h1, h2 => by
      have e1 : w = [] := List.length_eq_zero_iff.1 (by simpa using h2.symm)
      subst e1
      refine ⟨by simp, fun _ => ⟨[], rfl, rfl, ?_⟩⟩
      simp
  | a :: as, [], w, h1, h2 => by simp at h1
  | a :: as, x :: v, [], h1, h2 => by simp at h2
  | a :: as, x :: v, l :: w, h1, h2 => by
      obtain ⟨k1, k2⟩ := discreteVars_spec objs as v w (by simpa using h1) (by simpa using h2)
      cases l with
      | nil =>
        refine ⟨fun _ => rfl, fun h => absurd rfl (h [] List.mem_cons_self)⟩
      | cons y ys =>
        constructor
        · rintro ⟨l, hl, rfl⟩
          rcases List.mem_cons.1 hl with hl | hl
          · cases hl
          · simp only [Spec.discreteVars, k1 ⟨[], hl, rfl⟩]; rfl
        · intro h
          obtain ⟨r, e, er, hr⟩ := k2 fun l hl => h l (List.mem_cons_of_mem _ hl)
          refine ⟨⟨a, objs, .discrete (y :: ys), some (ys.foldl min y, ys.foldl max y), .num x⟩ :: r, ?_, by simp [er], ?_⟩
          · simp only [Spec.discreteVars, e]; rfl
          · intro i a' x' l' q1 q2 q3
            cases i with
            | zero =>
              simp only [List.getElem?_cons_zero, Option.some.injEq] at q1 q2 q3
              subst q1 q2 q3
              exact ⟨_, bounds_of y ys, rfl⟩
            | succ i =>
              simp only [List.getElem?_cons_succ] at q1 q2 q3 ⊢
              exact hr i a' x' l' q1 q2 q3

/-! ## Variables of a group -/

/-- With one lower bound, upper bound and start value for each attribute, a continuous group has exactly one variable for each attribute, in the given order, with the given bounds and start value,
for all objects of the group. With one start value and one list of values for each attribute the same holds for a discrete group, whose bounds are the smallest and largest value; an empty list is refused. -/
theorem group_variables {G : Spec K} {objs : List Nat} {as : List PropSpec} (ho : Objects G objs) (ha : Attributes G as) {has : Nat → String → Bool}
    (hh : AllHave has objs as) {v : List K} (hv : G.value = some (.list v)) (n : as.length = v.length) :
    (G.vtype = .continuous → ∀ l u, G.lower = some l → G.upper = some u → as.length = l.length → as.length = u.length →
      ∃ r, G.make has = .ok r ∧ r.length = as.length ∧
        ∀ (i : Nat) (a : PropSpec) (x y z : K), as[i]? = some a → l[i]? = some x → u[i]? = some y → v[i]? = some z → r[i]? = some (⟨some a, objs, .cont, some (x, y), .num z⟩ : GVar K)) ∧
    (G.vtype = .discrete → ∀ w, G.valueLists = some w → as.length = w.length →
      ((∃ l ∈ w, l = []) → G.make has = .error (.py .valueError)) ∧
      ((∀ l ∈ w, l ≠ []) → ∃ r, G.make has = .ok r ∧ r.length = as.length ∧
        ∀ (i : Nat) (a : PropSpec) (x : K) (l : List K), as[i]? = some a → v[i]? = some x → w[i]? = some l → ∃ b, Bounds l b ∧ r[i]? = some (⟨some a, objs, .discrete l, some b, .num x⟩ : GVar K))) := by
  have hs : G.startValue = .list v := by unfold Spec.startValue; rw [hv]
  constructor
  · intro ht l u hl hu n1 n2
    refine ⟨_, make_continuous ht ho ha hh hl hu hs, ?_, ?_⟩
    · rw [continuousVars_length, List.length_map]; omega
    · intro i a x y z h1 h2 h3 h4
      rw [continuousVars_get, List.getElem?_map, h1, h2, h3, h4]
      rfl
  · intro ht w hw n1
    rw [make_discrete ht ho ha hh hw hs]
    obtain ⟨k1, k2⟩ := discreteVars_spec objs (as.map some) v w (by simpa using n) (by simpa using n1)
    refine ⟨k1, fun h => ?_⟩
    obtain ⟨r, e, er, hr⟩ := k2 h
    refine ⟨r, e, by simpa using er, fun i a x l h1 h2 h3 => hr i (some a) x l ?_ h2 h3⟩
    rw [List.getElem?_map, h1]; rfl

/-- Two attributes (one of them a list of two names) of two objects. -/
example : ∃ (G : Spec ℚ) (has : Nat → String → Bool), Objects G [3, 4] ∧ Attributes G [.many ["Iy", "Iz"], .one "A"] ∧ AllHave has [3, 4] [.many ["Iy", "Iz"], .one "A"] ∧
    G.value = some (.list [10, 200]) ∧ G.vtype = .continuous ∧ G.lower = some [0, 123] ∧ G.upper = some [1000000, 456] := by
  refine ⟨⟨.continuous, none, [3, 4], none, [.many ["Iy", "Iz"], .one "A"], some (.list [10, 200]), none, none, some [0, 123], some [1000000, 456]⟩, fun _ _ => true,
    Or.inl ⟨by simp, rfl⟩, Or.inl ⟨by simp, rfl⟩, fun _ _ _ _ _ _ => rfl, rfl, rfl, rfl, rfl⟩

/-- A list of bounds that is too short makes the attributes at the end of the list disappear: whatever the group, it is created without an exception and has fewer variables than attributes. -/
theorem group_drop_viol {G : Spec K} {objs : List Nat} {as : List PropSpec} (ht : G.vtype = .continuous) (ho : Objects G objs) (ha : Attributes G as) {has : Nat → String → Bool}
    (hh : AllHave has objs as) {l u : List K} (hl : G.lower = some l) (hu : G.upper = some u) (hv : G.value = none) (short : l.length < as.length) :
    ∃ r, G.make has = .ok r ∧ r.length < as.length := by
  have hs : G.startValue = .list (List.replicate as.length 0) := by
    unfold Spec.startValue; rw [hv, attrs_eq ha, List.length_map]
  refine ⟨_, make_continuous ht ho ha hh hl hu hs, ?_⟩
  rw [continuousVars_length, List.length_map]
  omega

/-- A group of two attributes with one lower bound has one variable. -/
theorem group_drop_viol_witness : ∃ (G : Spec ℚ) (r : List (GVar ℚ)), G.make (fun _ _ => true) = .ok r ∧ G.attributes.length = 2 ∧ r.length = 1 :=
  ⟨⟨.continuous, some 3, [], none, [.one "Iy", .one "A"], none, none, none, some [0], some [1000000, 456]⟩, _, rfl, rfl, rfl⟩

/-! ## Start values -/

/-- Without given start values every variable of a continuous group starts at zero, also when zero lies outside its bounds; with given ones a variable starts where it is asked to. -/
theorem group_start_viol {G : Spec K} {objs : List Nat} {as : List PropSpec} (ht : G.vtype = .continuous) (ho : Objects G objs) (ha : Attributes G as) {has : Nat → String → Bool}
    (hh : AllHave has objs as) {l u : List K} (hl : G.lower = some l) (hu : G.upper = some u) (n1 : as.length = l.length) (n2 : as.length = u.length) (hv : G.value = none)
    {i : Nat} {x y : K} (hx : l[i]? = some x) (hy : u[i]? = some y) (pos : 0 < x) :
    ∃ r g, G.make has = .ok r ∧ r[i]? = some g ∧ g.bounds = some (x, y) ∧ ∃ s, g.start = .num s ∧ s < x := by
  have hs : G.startValue = .list (List.replicate as.length 0) := by
    unfold Spec.startValue; rw [hv, attrs_eq ha, List.length_map]
  have hi : i < as.length := by
    rw [n1]; by_contra h
    rw [List.getElem?_eq_none (by omega)] at hx; cases hx
  refine ⟨_, ⟨some as[i], objs, .cont, some (x, y), .num 0⟩, make_continuous ht ho ha hh hl hu hs, ?_, rfl, 0, rfl, pos⟩
  rw [continuousVars_get, List.getElem?_map, List.getElem?_eq_getElem hi, hx, hy, List.getElem?_replicate, if_pos hi]
  rfl

/-- A group whose attribute has bounds 123 and 456. -/
theorem group_start_viol_witness : ∃ (G : Spec ℚ) (g : GVar ℚ), G.make (fun _ _ => true) = .ok [g] ∧ g.bounds = some (123, 456) ∧ ∃ s, g.start = .num s ∧ s < 123 :=
  ⟨⟨.continuous, some 3, [], some (.one "A"), [], none, none, none, some [123], some [456]⟩, _, rfl, rfl, 0, rfl, by norm_num⟩

/-- An index variable of a group never starts at an index unless a number is given: without a start value it starts at a list of zeros. -/
theorem index_start_viol {G : Spec K} {objs : List Nat} {as : List PropSpec} (ht : G.vtype = .index) (ho : Objects G objs) (ha : Attributes G as) {has : Nat → String → Bool}
    (hh : AllHave has objs as) (hv : G.value = none) : ∃ g, G.make has = .ok [g] ∧ g.start = .list (List.replicate as.length 0) := by
  refine ⟨_, make_index ht ho ha hh, ?_⟩
  show G.startValue = _
  unfold Spec.startValue; rw [hv, attrs_eq ha, List.length_map]

/-! ## Refused groups -/

/-- A group is refused with `TypeError` if one of its objects lacks one of the attributes, whatever its type and other arguments; groups of binary and boolean variables are never made. -/
theorem group_refused {G : Spec K} {objs : List Nat} {as : List PropSpec} (ho : Objects G objs) (ha : Attributes G as) {has : Nat → String → Bool} :
    (¬ AllHave has objs as → G.make has = .error (.py .typeError)) ∧
    (AllHave has objs as → (G.vtype = .binary ∨ G.vtype = .boolean → G.make has = .error .notImplemented) ∧ (G.vtype = .other → G.make has = .error (.py .valueError)) ∧
      (G.vtype = .continuous → (G.lower = none ∨ G.upper = none) → G.make has = .error (.py .typeError)) ∧
      (G.vtype = .discrete → G.valueLists = none → G.make has = .error (.py .typeError))) := by
  constructor
  · intro h
    unfold Spec.make
    rw [if_pos]
    rw [← attributesOk_iff ho ha has] at h
    simpa using h
  · intro hh
    have h0 := (attributesOk_iff ho ha has).2 hh
    unfold Spec.make
    rw [h0]
    refine ⟨?_, ?_, ?_, ?_⟩
    · rintro (h | h) <;> rw [h] <;> rfl
    · intro h; rw [h]; rfl
    · intro h
      rw [h]
      rintro (h | h) <;> rw [h]
      · rfl
      · cases G.lower <;> rfl
    · intro h h'
      rw [h, h']
      cases G.startValue <;> rfl

/-- An object without the attribute. -/
example : ∃ (G : Spec ℚ), Objects G [3, 4] ∧ Attributes G [.one "A"] ∧ ¬ AllHave (fun o _ => decide (o = 3)) [3, 4] [.one "A"] :=
  ⟨⟨.continuous, none, [3, 4], some (.one "A"), [], none, none, none, none, none⟩, Or.inl ⟨by simp, rfl⟩, Or.inr ⟨rfl, _, rfl, rfl⟩, by
    intro h
    have := h _ List.mem_cons_self 4 (by simp) "A" (by simp [names])
    simp at this⟩

/-! ## Substitution -/

/-- The named attributes of the objects have the value `y`, everything else is unchanged. -/
def Assigned (s s' : Struct K) (objs : List Nat) (ps : List String) (y : K) : Prop := ∀ o a, s' o a = if o ∈ objs ∧ a ∈ ps then y else s o a

theorem foldl_names (o : Nat) (y : K) : ∀ (ps : List String) (s : Struct K) (o' : Nat) (a : String),
    (ps.foldl (fun s p => setAttr s o p y) s) o' a = if o' = o ∧ a ∈ ps then y else s o' a
  | [], s, o', a => by simp
  | p :: ps, s, o', a => by
      rw [List.foldl_cons, foldl_names o y ps]
      unfold setAttr
      by_cases h1 : o' = o <;> by_cases h2 : a ∈ ps <;> by_cases h3 : a = p <;> simp [h1, h2, h3]

theorem foldl_objs (f : Struct K → Nat → Struct K) (ps : List String) (y : K) (hf : ∀ s o o' a, f s o o' a = if o' = o ∧ a ∈ ps then y else s o' a) :
    ∀ (l : List Nat) (s : Struct K), Assigned s (l.foldl f s) l ps y
  | [], s, o, a => by simp
  | q :: l, s, o, a => by
      rw [List.foldl_cons, foldl_objs f ps y hf l, hf]
      by_cases h1 : o = q <;> by_cases h2 : a ∈ ps <;> by_cases h3 : o ∈ l <;> simp [h1, h2, h3]

variable [FloorRing K]

theorem writeObj_names (k : VKind K) (hk : (∃ l, k = .index l) ∨ k = .cont ∨ ∃ l, k = .discrete l) (p : PropSpec) (objs : List Nat) (y : K) (s : Struct K) (o o' : Nat) (a : String) :
    writeObj (newVar k 0 0 none (some ⟨p, objs⟩)) ⟨p, objs⟩ y s o o' a = if o' = o ∧ a ∈ names p then y else s o' a := by
  unfold writeObj
  cases p with
  | many ps =>
    simp only [newVar, names]
    exact foldl_names o y ps s o' a
  | one p =>
    rcases hk with ⟨l, rfl⟩ | rfl | ⟨l, rfl⟩ <;> simp [newVar, names, setAttr]

theorem substBase_names (k : VKind K) (hk : (∃ l, k = .index l) ∨ k = .cont ∨ ∃ l, k = .discrete l) (p : PropSpec) (objs : List Nat) (y : K) (s : Struct K) :
    Assigned s (substBase (newVar k 0 0 none (some ⟨p, objs⟩)) y s).2 objs (names p) y := by
  exact foldl_objs _ (names p) y (fun s o o' a => writeObj_names k hk p objs y s o o' a) objs s

/-- Substituting a number for a variable of a continuous or discrete group gives exactly the attribute of that variable (each of its names) of all objects of the group this value, and changes nothing else. -/
theorem group_substitute {G : Spec K} {objs : List Nat} {as : List PropSpec} (ht : G.vtype = .continuous ∨ G.vtype = .discrete) (ho : Objects G objs) (ha : Attributes G as)
    {has : Nat → String → Bool} {r : List (GVar K)} (hr : G.make has = .ok r) {i : Nat} {g : GVar K} (hg : r[i]? = some g) (x : K) (s : Struct K) :
    ∃ a s', as[i]? = some a ∧ g.substitute x s = .ok s' ∧ Assigned s s' objs (names a) x := by
  have key : ∃ a, as[i]? = some a ∧ g.prop = some a ∧ g.objects = objs ∧ (g.kind = .cont ∨ ∃ l, g.kind = .discrete l) := by
    unfold Spec.make at hr
    split at hr
    · cases hr
    rw [(objs_eq ho).2, attrs_eq ha] at hr
    rcases ht with ht | ht <;> rw [ht] at hr <;> simp only at hr
    · split at hr
      · obtain rfl := Except.ok.inj hr
        rw [continuousVars_get, List.getElem?_map] at hg
        cases h : as[i]? with
        | none => rw [h] at hg; simp at hg
        | some a =>
          rw [h] at hg
          simp only [Option.map_some] at hg
          split at hg
          · rename_i e _ _ _
            obtain rfl := Option.some.inj hg
            obtain rfl := Option.some.inj e
            exact ⟨a, rfl, rfl, rfl, Or.inl rfl⟩
          · cases hg
      · cases hr
    · split at hr
      · clear ht
        rename_i v w _ _
        have gen : ∀ (as : List PropSpec) (v : List K) (w : List (List K)) (r : List (GVar K)) (i : Nat), Spec.discreteVars objs (as.map some) v w = .ok r → r[i]? = some g →
            ∃ a, as[i]? = some a ∧ g.prop = some a ∧ g.objects = objs ∧ (g.kind = .cont ∨ ∃ l, g.kind = .discrete l) := by
          intro as
          induction as with
          | nil => intro v w r i e hg; simp only [List.map_nil, Spec.discreteVars] at e; obtain rfl := Except.ok.inj e; simp at hg
          | cons a as ih =>
            intro v w r i e hg
            cases v with
            | nil => simp only [List.map_cons, Spec.discreteVars] at e; obtain rfl := Except.ok.inj e; simp at hg
            | cons x v =>
              cases w with
              | nil => simp only [List.map_cons, Spec.discreteVars] at e; obtain rfl := Except.ok.inj e; simp at hg
              | cons l w =>
                cases l with
                | nil => simp only [List.map_cons, Spec.discreteVars] at e; cases e
                | cons y ys =>
                  simp only [List.map_cons, Spec.discreteVars] at e
                  cases e' : Spec.discreteVars objs (as.map some) v w with
                  | error q => rw [e'] at e; cases e
                  | ok q =>
                    rw [e'] at e
                    obtain rfl := Except.ok.inj e
                    cases i with
                    | zero =>
                      obtain rfl := Option.some.inj hg
                      exact ⟨a, rfl, rfl, rfl, Or.inr ⟨_, rfl⟩⟩
                    | succ i => exact ih v w q i e' hg
        exact gen as v w r i hr hg
      · cases hr
  obtain ⟨a, h1, h2, h3, h4⟩ := key
  have hk : (∃ l, g.kind = .index l) ∨ g.kind = .cont ∨ ∃ l, g.kind = .discrete l := Or.inr h4
  refine ⟨a, (substBase (newVar g.kind 0 0 none (some ⟨a, objs⟩)) x s).2, h1, ?_, substBase_names g.kind hk a objs x s⟩
  unfold GVar.substitute
  rw [h2, h3]
  rcases h4 with h | ⟨l, h⟩ <;> rw [h] <;> rfl

/-- An index group with a single attribute: an index within the list gives the attribute of all objects the value with this index, any other one is refused with `ValueError`. -/
theorem index_substitute {G : Spec K} {objs : List Nat} {a : PropSpec} (ht : G.vtype = .index) (ho : Objects G objs) (hn : G.attributes = []) (ha : G.attr = some a)
    {has : Nat → String → Bool} (hh : AllHave has objs [a]) {l : List K} (hl : G.values = some l) :
    ∃ g, G.make has = .ok [g] ∧ g.bounds = some (0, (l.length : K) - 1) ∧ (∀ (i : Nat) y (s : Struct K), l[i]? = some y → ∃ s', g.substitute (i : K) s = .ok s' ∧ Assigned s s' objs (names a) y) ∧
      ∀ (i : Nat) (s : Struct K), l.length ≤ i → g.substitute (i : K) s = .error .valueError := by
  have hA : Attributes G [a] := Or.inr ⟨hn, a, ha, rfl⟩
  have hint : ∀ i : Nat, pyInt (i : K) = (i : Int) := by
    intro i
    unfold pyInt
    rw [if_pos (Nat.cast_nonneg i)]
    simp
  have hidx : ∀ i : Nat, pyIndex l (i : Int) = l[i]? := by
    intro i; unfold pyIndex
    rw [if_pos (Int.natCast_nonneg i)]
    simp
  refine ⟨_, make_index ht ho hA hh, ?_, ?_, ?_⟩
  · simp [Spec.indexVar, hl]
  · intro i y s hy
    refine ⟨(substBase (newVar (.index l) 0 0 none (some ⟨a, objs⟩)) y s).2, ?_, substBase_names _ (Or.inl ⟨l, rfl⟩) a objs y s⟩
    unfold GVar.substitute Spec.indexVar
    simp only [ha, hl, (objs_eq ho).2, Option.getD_some, newVar, substVar, hint, hidx, hy]
    rfl
  · intro i s hi
    unfold GVar.substitute Spec.indexVar
    simp only [ha, hl, (objs_eq ho).2, Option.getD_some, newVar, substVar, hint, hidx, List.getElem?_eq_none hi]
    rfl

/-- Three profiles for two members. -/
example : ∃ (G : Spec ℚ) (has : Nat → String → Bool), G.vtype = .index ∧ Objects G [1, 2] ∧ G.attributes = [] ∧ G.attr = some (.one "profile") ∧ AllHave has [1, 2] [.one "profile"] ∧ G.values = some [10, 20, 30] :=
  ⟨⟨.index, none, [1, 2], some (.one "profile"), [], none, some [10, 20, 30], none, none, none⟩, fun _ _ => true, rfl, Or.inl ⟨by simp, rfl⟩, rfl, rfl, fun _ _ _ _ _ _ => rfl, rfl⟩

/-- An index group whose attribute is given by `attributes` is created, and nothing can ever be substituted for its variable. -/
theorem index_attributes_viol {G : Spec K} {objs : List Nat} (ht : G.vtype = .index) (ho : Objects G objs) (hn : G.attributes ≠ []) (ha : G.attr = none)
    {has : Nat → String → Bool} (hh : AllHave has objs G.attributes) : ∃ g, G.make has = .ok [g] ∧ ∀ x s, g.substitute x s = .error .valueError := by
  refine ⟨_, make_index ht ho (Or.inl ⟨hn, rfl⟩) hh, fun x s => ?_⟩
  unfold GVar.substitute Spec.indexVar
  rw [ha]

/-- The profiles of two members by `attributes`. -/
theorem index_attributes_viol_witness : ∃ (G : Spec ℚ) (g : GVar ℚ), G.vtype = .index ∧ G.attributes.length = 1 ∧ G.values = some [10, 20, 30] ∧ G.make (fun _ _ => true) = .ok [g] ∧
    ∀ x s, g.substitute x s = .error .valueError :=
  ⟨⟨.index, none, [1, 2], none, [.one "profile"], none, some [10, 20, 30], none, none, none⟩, _, rfl, rfl, rfl, rfl, fun _ _ => rfl⟩

end Metku.Grp
