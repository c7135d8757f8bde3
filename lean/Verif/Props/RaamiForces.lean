import Mathlib.Tactic.Linarith
import Mathlib.Tactic.LinearCombination
import Mathlib.Tactic.FieldSimp
import Mathlib.Tactic.NormNum
import Mathlib.Data.Rat.Floor
import Mathlib.Algebra.Order.Ring.Rat
import Mathlib.Data.List.Pairwise
import Verif.Model.RaamiDesign

/-! Internal forces, design values and displacements of the members of a `Raami` frame. -/
set_option linter.unusedSectionVars false

namespace Metku.Raami

variable {K : Type} [Field K] [LinearOrder K] [IsStrictOrderedRing K]

/-! ### Smallest and largest values -/

/-- The value is one of the list, and none of the list is smaller (larger, for `isMax`). -/
def IsExtreme (isMax : Bool) (l : List K) (v : K) : Prop := v ∈ l ∧ ∀ w ∈ l, if isMax then w ≤ v else v ≤ w

theorem foldl_min_spec : ∀ (xs : List K) (x : K), xs.foldl min x ∈ x :: xs ∧ ∀ w ∈ x :: xs, xs.foldl min x ≤ w
  | [], x => by simp
  | y :: ys, x => by
    rw [List.foldl_cons]
    obtain ⟨h1, h2⟩ := foldl_min_spec ys (min x y)
    refine ⟨?_, fun w hw => ?_⟩
    · rcases List.mem_cons.mp h1 with h | h
      · rw [h]
        rcases min_choice x y with e | e <;> rw [e] <;> simp
      · simp [h]
    · have h0 := h2 (min x y) (by simp)
      rcases List.mem_cons.mp hw with rfl | hw
      · exact h0.trans (min_le_left ..)
      · rcases List.mem_cons.mp hw with rfl | hw
        · exact h0.trans (min_le_right ..)
        · exact h2 w (by simp [hw])

theorem foldl_max_spec : ∀ (xs : List K) (x : K), xs.foldl max x ∈ x :: xs ∧ ∀ w ∈ x :: xs, w ≤ xs.foldl max x
  | [], x => by simp
  | y :: ys, x => by
    rw [List.foldl_cons]
    obtain ⟨h1, h2⟩ := foldl_max_spec ys (max x y)
    refine ⟨?_, fun w hw => ?_⟩
    · rcases List.mem_cons.mp h1 with h | h
      · rw [h]
        rcases max_choice x y with e | e <;> rw [e] <;> simp
      · simp [h]
    · have h0 := h2 (max x y) (by simp)
      rcases List.mem_cons.mp hw with rfl | hw
      · exact (le_max_left ..).trans h0
      · rcases List.mem_cons.mp hw with rfl | hw
        · exact (le_max_right ..).trans h0
        · exact h2 w (by simp [hw])

theorem extreme_spec (isMax : Bool) (x : K) (xs : List K) : IsExtreme isMax (x :: xs) (extreme isMax x xs) := by
  cases isMax with
  | false => exact foldl_min_spec xs x
  | true => exact foldl_max_spec xs x

theorem isExtreme_unique {isMax : Bool} {l : List K} {v w : K} (hv : IsExtreme isMax l v) (hw : IsExtreme isMax l w) : v = w := by
  have h1 := hv.2 w hw.1
  have h2 := hw.2 v hv.1
  cases isMax
  · exact le_antisymm h1 h2
  · exact le_antisymm h2 h1

/-! ### The forces of a member over several load cases -/

/-- The forces of a member in a load case: as many values of each kind, at least one. -/
def WellFormed (f : Forces K) : Prop := f.N ≠ [] ∧ f.Vz.length = f.N.length ∧ f.My.length = f.N.length

/-- The entry holds the forces of the member at one place, in the load case that it names. -/
def Simultaneous (cases : List (ℕ × Forces K)) (e : Entry K) : Prop :=
  ∃ c ∈ cases, ∃ i : ℕ, e.load = some c.1 ∧ c.2.N[i]? = some e.N ∧ c.2.Vz[i]? = some e.Vz ∧ c.2.My[i]? = some e.My

theorem entryAt_ok {f : Forces K} (hf : WellFormed f) {key : FKey} {i l : ℕ} {v : K} (hi : (f.get key)[i]? = some v) :
    ∃ e : Entry K, entryAt f i l = .ok e ∧ e.get key = v ∧ e.load = some l ∧ f.N[i]? = some e.N ∧ f.Vz[i]? = some e.Vz ∧ f.My[i]? = some e.My := by
  have hlt : i < f.N.length := by
    have := (List.getElem?_eq_some_iff.mp hi).1
    cases key
    · exact this
    · exact lt_of_lt_of_eq this hf.2.1
    · exact lt_of_lt_of_eq this hf.2.2
  have h1 := List.getElem?_eq_getElem hlt
  have h2 := List.getElem?_eq_getElem (l := f.Vz) (i := i) (by rw [hf.2.1]; exact hlt)
  have h3 := List.getElem?_eq_getElem (l := f.My) (i := i) (by rw [hf.2.2]; exact hlt)
  refine ⟨⟨f.N[i], f.Vz[i]'(by rw [hf.2.1]; exact hlt), f.My[i]'(by rw [hf.2.2]; exact hlt), some l⟩, ?_, ?_, rfl, h1, h2, h3⟩
  · unfold entryAt
    rw [h1, h2, h3]
  · cases key
    · rw [show f.get .N = f.N from rfl, h1] at hi; exact Option.some.inj hi
    · rw [show f.get .Vz = f.Vz from rfl, h2] at hi; exact Option.some.inj hi
    · rw [show f.get .My = f.My from rfl, h3] at hi; exact Option.some.inj hi

/-- The state of the loop after some load cases. -/
def LoopInv (key : FKey) (isMax : Bool) (done : List (ℕ × Forces K)) (e : Entry K) : Prop :=
  (done = [] ∧ e.load = none) ∨ (e.load ≠ none ∧ Simultaneous done e ∧ (∃ c ∈ done, IsExtreme isMax (c.2.get key) (e.get key))
    ∧ ∀ c ∈ done, ∀ v, IsExtreme isMax (c.2.get key) v → |v| ≤ |e.get key|)

theorem get_ne_nil {f : Forces K} (hf : WellFormed f) (key : FKey) : f.get key ≠ [] := by
  have h0 := List.length_pos_iff.mpr hf.1
  cases key
  · exact hf.1
  · exact List.length_pos_iff.mp (by rw [show f.get .Vz = f.Vz from rfl, hf.2.1]; exact h0)
  · exact List.length_pos_iff.mp (by rw [show f.get .My = f.My from rfl, hf.2.2]; exact h0)

theorem simultaneous_mono {c1 c2 : List (ℕ × Forces K)} (h : ∀ c ∈ c1, c ∈ c2) {e : Entry K} (hs : Simultaneous c1 e) : Simultaneous c2 e := by
  obtain ⟨c, hc, r⟩ := hs
  exact ⟨c, h c hc, r⟩

theorem maxStep_spec {key : FKey} {isMax : Bool} {done : List (ℕ × Forces K)} {e : Entry K} {c : ℕ × Forces K} (hc : WellFormed c.2) (hi : LoopInv key isMax done e) :
    ∃ e', maxStep key isMax e c = .ok e' ∧ LoopInv key isMax (done ++ [c]) e' := by
  unfold maxStep
  cases hl : c.2.get key with
  | nil => exact absurd hl (get_ne_nil hc key)
  | cons x xs =>
    simp only
    have hx := extreme_spec isMax x xs
    split
    · rename_i hcond
      have hidx : ((x :: xs)[(x :: xs).idxOf (extreme isMax x xs)]?) = some (extreme isMax x xs) := by
        rw [List.getElem?_eq_getElem (List.idxOf_lt_length_iff.mpr hx.1), List.getElem_idxOf]
      obtain ⟨e', h1, h2, h3, h4, h5, h6⟩ := entryAt_ok (l := c.1) hc (key := key) (by rw [hl]; exact hidx)
      refine ⟨e', h1, .inr ⟨by rw [h3]; simp, ⟨c, by simp, _, h3, h4, h5, h6⟩, ⟨c, by simp, by rw [hl, h2]; exact hx⟩, fun d hd v hv => ?_⟩⟩
      rcases List.mem_append.mp hd with hd | hd
      · rcases hi with ⟨rfl, -⟩ | ⟨g1, -, -, g4⟩
        · simp at hd
        · rcases hcond with hcond | hcond
          · exact absurd hcond g1
          · rw [h2]
            exact (g4 d hd v hv).trans hcond.le
      · obtain rfl := List.mem_singleton.mp hd
        rw [h2]
        rw [hl] at hv
        rw [isExtreme_unique hv hx]
    · rename_i hcond
      rw [not_or, not_lt] at hcond
      rcases hi with ⟨-, h⟩ | ⟨g1, g2, ⟨d, hd, g3⟩, g4⟩
      · exact absurd h hcond.1
      · refine ⟨e, rfl, .inr ⟨g1, simultaneous_mono (fun d hd => by simp [hd]) g2, ⟨d, by simp [hd], g3⟩, fun d hd v hv => ?_⟩⟩
        rcases List.mem_append.mp hd with hd | hd
        · exact g4 d hd v hv
        · obtain rfl := List.mem_singleton.mp hd
          rw [hl] at hv
          rw [isExtreme_unique hv hx]
          exact hcond.2

theorem foldlM_spec {key : FKey} {isMax : Bool} : ∀ (cases done : List (ℕ × Forces K)) (e : Entry K), (∀ c ∈ cases, WellFormed c.2) → LoopInv key isMax done e →
    ∃ e', cases.foldlM (maxStep key isMax) e = .ok e' ∧ LoopInv key isMax (done ++ cases) e'
  | [], done, e, _, h => ⟨e, rfl, by simpa using h⟩
  | c :: cases, done, e, hw, h => by
    obtain ⟨e1, h1, h2⟩ := maxStep_spec (hw c (by simp)) h
    obtain ⟨e2, h3, h4⟩ := foldlM_spec cases (done ++ [c]) e1 (fun d hd => hw d (by simp [hd])) h2
    refine ⟨e2, ?_, by simpa using h4⟩
    rw [List.foldlM_cons, h1]
    exact h3

/-- C196: an entry of `get_max_forces` holds the forces at one node of the member in the load case that it names; and if the smallest value of each load case is not positive (for
`max`: the largest is not negative), its value of the named force is the smallest (largest) of all nodes and load cases. -/
theorem C196_partial {key : FKey} {isMax : Bool} {cases : List (ℕ × Forces K)} (hne : cases ≠ []) (hw : ∀ c ∈ cases, WellFormed c.2) :
    ∃ e : Entry K, maxForces key isMax cases = .ok e ∧ Simultaneous cases e
    ∧ ((∀ c ∈ cases, ∃ v ∈ c.2.get key, if isMax then 0 ≤ v else v ≤ 0) → IsExtreme isMax (cases.flatMap (fun c => c.2.get key)) (e.get key)) := by
  obtain ⟨e, h1, h2⟩ := foldlM_spec (key := key) (isMax := isMax) cases [] ⟨0, 0, 0, none⟩ hw (.inl ⟨rfl, rfl⟩)
  rw [List.nil_append] at h2
  rcases h2 with ⟨h, -⟩ | ⟨-, g2, ⟨c, hc, g3⟩, g4⟩
  · exact absurd h hne
  · refine ⟨e, h1, g2, fun hs => ⟨List.mem_flatMap.mpr ⟨c, hc, g3.1⟩, fun w hwm => ?_⟩⟩
    obtain ⟨d, hd, hwd⟩ := List.mem_flatMap.mp hwm
    obtain ⟨x, xs, hl⟩ := List.exists_cons_of_ne_nil (get_ne_nil (hw d hd) key)
    have hx := extreme_spec isMax x xs
    rw [← hl] at hx
    have ha := g4 d hd _ hx
    have hb := hx.2 w hwd
    obtain ⟨v, hv, hv0⟩ := hs d hd
    have hb' := hx.2 v hv
    obtain ⟨v', hv', hv0'⟩ := hs c hc
    have hc' := g3.2 v' hv'
    cases isMax with
    | false =>
      simp only [Bool.false_eq_true, if_false] at *
      rw [abs_of_nonpos (hb'.trans hv0), abs_of_nonpos (hc'.trans hv0')] at ha
      linarith
    | true =>
      simp only [if_true] at *
      rw [abs_of_nonneg (hv0.trans hb'), abs_of_nonneg (hv0'.trans hc')] at ha
      linarith

/-- With tension of 5 in one load case and 10 in another one, the entry `'min N'` is 10; with a compression of 3 and a tension of 5 it is 5, and no entry shows the compression. -/
theorem C196_violation : maxForces (K := ℚ) .N false [(0, ⟨[5], [0], [0]⟩), (1, ⟨[10], [0], [0]⟩)] = .ok ⟨10, 0, 0, some 1⟩
    ∧ maxForces (K := ℚ) .N false [(0, ⟨[-3], [0], [0]⟩), (1, ⟨[5], [0], [0]⟩)] = .ok ⟨5, 0, 0, some 1⟩
    ∧ maxForces (K := ℚ) .N true [(0, ⟨[-3], [0], [0]⟩), (1, ⟨[5], [0], [0]⟩)] = .ok ⟨5, 0, 0, some 1⟩ := by
  refine ⟨?_, ?_, ?_⟩ <;> decide +kernel

/-- Two load cases of a beam in bending: the hypotheses of `C196_partial` are met. -/
example : ∃ e : Entry ℚ, maxForces .My true [(0, ⟨[-1, -1, -1], [2, 0, -2], [0, 4, 0]⟩), (1, ⟨[1, 1, 1], [4, 0, -4], [0, 8, 0]⟩)] = .ok e ∧ e = ⟨1, 0, 8, some 1⟩ ∧
    IsExtreme true [0, 4, 0, 0, 8, 0] e.My := by
  obtain ⟨e, h1, h2, h3⟩ := C196_partial (K := ℚ) (key := .My) (isMax := true) (cases := [(0, ⟨[-1, -1, -1], [2, 0, -2], [0, 4, 0]⟩), (1, ⟨[1, 1, 1], [4, 0, -4], [0, 8, 0]⟩)]) (by simp)
    (by unfold WellFormed; decide +kernel)
  refine ⟨e, h1, ?_, h3 ?_⟩
  · have : maxForces (K := ℚ) .My true [(0, ⟨[-1, -1, -1], [2, 0, -2], [0, 4, 0]⟩), (1, ⟨[1, 1, 1], [4, 0, -4], [0, 8, 0]⟩)] = .ok ⟨1, 0, 8, some 1⟩ := by decide +kernel
    rw [this] at h1
    exact (Except.ok.inj h1).symm
  · intro c hc
    rcases List.mem_cons.mp hc with rfl | hc
    · exact ⟨4, by simp [Forces.get], by norm_num⟩
    · obtain rfl := List.mem_singleton.mp hc
      exact ⟨8, by simp [Forces.get], by norm_num⟩

/-! ### Design values -/

/-- Neighbouring elements have the same value at their common node. -/
def Continuous (elems : List (K × K)) : Prop := ∀ (i : ℕ) (a b : K × K), elems[i]? = some a → elems[i + 1]? = some b → a.2 = b.1

/-- C197: if neighbouring elements of a member agree at their common node, the design value of a force is one of the values at the ends of its elements, none of them is larger in absolute value, and it is
negative if the negative of it is among them too; the forces are given at one more node than there are elements. -/
theorem C197 {elems : List (K × K)} (hne : elems ≠ []) (hc : Continuous elems) :
    (∃ vs, nodalValues elems = .ok vs ∧ vs.length = elems.length + 1
      ∧ ∀ (i : ℕ) (e : K × K), elems[i]? = some e → vs[i]? = some e.1 ∧ vs[i + 1]? = some e.2)
    ∧ ∃ v, designValue elems = .ok v ∧ (∃ e ∈ elems, v = e.1 ∨ v = e.2) ∧ (∀ e ∈ elems, |e.1| ≤ |v| ∧ |e.2| ≤ |v|)
      ∧ ((∃ e ∈ elems, e.1 = -|v| ∨ e.2 = -|v|) → v ≤ 0) := by
  obtain ⟨es, last, rfl⟩ := List.eq_nil_or_concat'  elems |>.resolve_left hne
  have hv : nodalValues (es ++ [last]) = .ok ((es ++ [last]).map (fun e => e.1) ++ [last.2]) := by
    unfold nodalValues
    rw [List.getLast?_concat]
  have hat : ∀ (i : ℕ) (e : K × K), (es ++ [last])[i]? = some e → ((es ++ [last]).map (fun e => e.1) ++ [last.2])[i]? = some e.1
      ∧ ((es ++ [last]).map (fun e => e.1) ++ [last.2])[i + 1]? = some e.2 := by
    intro i e he
    have hlt := (List.getElem?_eq_some_iff.mp he).1
    constructor
    · rw [List.getElem?_append_left (by rw [List.length_map]; exact hlt), List.getElem?_map, he]
      rfl
    · by_cases h1 : i + 1 < (es ++ [last]).length
      · have hb := List.getElem?_eq_getElem h1
        rw [List.getElem?_append_left (by rw [List.length_map]; exact h1), List.getElem?_map, hb, Option.map_some, hc i _ _ he hb]
      · rw [List.length_append, List.length_singleton] at h1 hlt
        have hi : i = es.length := by omega
        subst hi
        rw [List.getElem?_append_right (by simp), List.length_map, List.length_append, List.length_singleton, Nat.sub_self]
        rw [List.getElem?_append_right le_rfl, Nat.sub_self] at he
        obtain rfl := Option.some.inj he
        rfl
  refine ⟨⟨_, hv, by simp, hat⟩, ?_⟩
  generalize hvs : (es ++ [last]).map (fun e => e.1) ++ [last.2] = vs at hv hat
  have hmem : ∀ w, w ∈ vs ↔ ∃ e ∈ es ++ [last], w = e.1 ∨ w = e.2 := by
    intro w
    constructor
    · intro h
      rw [← hvs, List.mem_append, List.mem_map, List.mem_singleton] at h
      rcases h with ⟨e, he, rfl⟩ | rfl
      · exact ⟨e, he, .inl rfl⟩
      · exact ⟨last, by simp, .inr rfl⟩
    · rintro ⟨e, he, h⟩
      obtain ⟨i, hi⟩ := List.mem_iff_getElem?.mp he
      obtain ⟨a, b⟩ := hat i e hi
      rcases h with rfl | rfl
      · exact List.mem_of_getElem? a
      · exact List.mem_of_getElem? b
  obtain ⟨x, xs, rfl⟩ : ∃ x xs, vs = x :: xs := by
    cases vs with
    | nil => simp at hvs
    | cons x xs => exact ⟨x, xs, rfl⟩
  have hd : designValue (es ++ [last]) = .ok (absmax (xs.foldl min x) (xs.foldl max x)) := by
    unfold designValue
    rw [hv]
    rfl
  obtain ⟨m1, m2⟩ := foldl_min_spec xs x
  obtain ⟨n1, n2⟩ := foldl_max_spec xs x
  have habs : ∀ w ∈ x :: xs, |w| ≤ max |xs.foldl min x| |xs.foldl max x| := by
    intro w hw
    exact abs_le_max_abs_abs (m2 w hw) (n2 w hw)
  refine ⟨_, hd, ?_, ?_, ?_⟩
  · rw [← hmem]
    unfold absmax
    split
    · exact m1
    · exact n1
  · have hle : ∀ w ∈ x :: xs, |w| ≤ |absmax (xs.foldl min x) (xs.foldl max x)| := by
      intro w hw
      refine (habs w hw).trans ?_
      unfold absmax
      split
      · rename_i h; exact h.le
      · rename_i h
        rcases max_choice |xs.foldl min x| |xs.foldl max x| with e | e
        · exact absurd e h
        · exact e.le
    intro e he
    exact ⟨hle _ ((hmem _).mpr ⟨e, he, .inl rfl⟩), hle _ ((hmem _).mpr ⟨e, he, .inr rfl⟩)⟩
  · rintro ⟨e, he, h⟩
    have hw : -|absmax (xs.foldl min x) (xs.foldl max x)| ∈ x :: xs := by
      rcases h with h | h
      · exact (hmem _).mpr ⟨e, he, .inl h.symm⟩
      · exact (hmem _).mpr ⟨e, he, .inr h.symm⟩
    have hm := m2 _ hw
    unfold absmax at hw hm ⊢
    by_cases hcase : max |xs.foldl min x| |xs.foldl max x| = |xs.foldl min x|
    · rw [if_pos hcase] at hm ⊢
      have := neg_nonpos.mpr (abs_nonneg (xs.foldl min x))
      linarith
    · rw [if_neg hcase] at hm ⊢
      exfalso
      apply hcase
      apply max_eq_left
      have := neg_le_abs (xs.foldl min x)
      linarith

/-- A beam of three elements with moments −2, 1, 1, −2. -/
example : Continuous [((-2 : ℚ), (1 : ℚ)), (1, 1), (1, -2)] ∧ designValue [((-2 : ℚ), (1 : ℚ)), (1, 1), (1, -2)] = .ok (-2) := by
  refine ⟨?_, by decide +kernel⟩
  intro i a b ha hb
  match i with
  | 0 => cases ha; cases hb; rfl
  | 1 => cases ha; cases hb; rfl
  | i + 2 => simp at hb

/-! ### Local coordinates and displacements -/

theorem toLocal_toGlobal {p q : K × K} {l : K} (hl : l ≠ 0) (hlen : l ^ 2 = (q.1 - p.1) ^ 2 + (q.2 - p.2) ^ 2) (t : K) : toLocal p q l (toGlobal p q l t) = t := by
  unfold toLocal toGlobal
  field_simp
  linear_combination (-t) * hlen

theorem insertBy_sorted {α : Type} (a : K × α) : ∀ (l : List (K × α)), l.Pairwise (fun x y => x.1 ≤ y.1) → (insertBy a l).Pairwise (fun x y => x.1 ≤ y.1) ∧ (insertBy a l).Perm (a :: l)
  | [], _ => ⟨by simp [insertBy], List.Perm.refl _⟩
  | b :: l, h => by
    obtain ⟨hb, hl⟩ := List.pairwise_cons.mp h
    unfold insertBy
    split
    · rename_i hab
      refine ⟨List.pairwise_cons.mpr ⟨fun x hx => ?_, h⟩, List.Perm.refl _⟩
      rcases List.mem_cons.mp hx with rfl | hx
      · exact hab
      · exact hab.trans (hb x hx)
    · rename_i hab
      obtain ⟨h1, h2⟩ := insertBy_sorted a l hl
      refine ⟨List.pairwise_cons.mpr ⟨fun x hx => ?_, h1⟩, (h2.cons b).trans (List.Perm.swap a b l)⟩
      rcases List.mem_cons.mp (h2.mem_iff.mp hx) with rfl | hx
      · exact (not_le.mp hab).le
      · exact hb x hx

theorem sortBy_sorted {α : Type} : ∀ (l : List (K × α)), (sortBy l).Pairwise (fun x y => x.1 ≤ y.1) ∧ (sortBy l).Perm l
  | [] => ⟨List.Pairwise.nil, List.Perm.refl _⟩
  | a :: l => by
    obtain ⟨h1, h2⟩ := sortBy_sorted l
    obtain ⟨g1, g2⟩ := insertBy_sorted a (sortBy l) h1
    exact ⟨g1, g2.trans (h2.cons a)⟩

theorem sorted_unique {α : Type} : ∀ {a b : List (K × α)}, a.Perm b → a.Pairwise (fun x y => x.1 ≤ y.1) → b.Pairwise (fun x y => x.1 < y.1) → a = b
  | [], b, hp, _, _ => (List.nil_perm.mp hp).symm
  | x :: a, [], hp, _, _ => absurd hp.length_eq (by simp)
  | x :: a, y :: b, hp, ha, hb => by
    obtain ⟨ha1, ha2⟩ := List.pairwise_cons.mp ha
    obtain ⟨hb1, hb2⟩ := List.pairwise_cons.mp hb
    have hxy : x = y := by
      rcases List.mem_cons.mp (hp.mem_iff.mp (List.mem_cons_self ..) : x ∈ y :: b) with h | h
      · exact h
      · rcases List.mem_cons.mp (hp.mem_iff.mpr (List.mem_cons_self ..) : y ∈ x :: a) with h' | h'
        · exact h'.symm
        · exact absurd (hb1 x h) (not_lt.mpr (ha1 y h'))
    subst hxy
    rw [sorted_unique (List.Perm.cons_inv hp) ha2 hb2]

/-- C198: the local coordinate of a point of a member is that from which the point was computed, and the displacements that a member shows are those of its FEM nodes from its start to its end,
in whatever order the member has the nodes. -/
theorem C198 {α : Type} {p q : K × K} {l : K} (hl : l ≠ 0) (hlen : l ^ 2 = (q.1 - p.1) ^ 2 + (q.2 - p.2) ^ 2) :
    (∀ t : K, toLocal p q l (toGlobal p q l t) = t ∧ toGlobal p q l t = (p.1 + t * (q.1 - p.1), p.2 + t * (q.2 - p.2)))
    ∧ ∀ (ts : List (K × α)) (nodes : List ((K × K) × α)), ts.Pairwise (fun x y => x.1 < y.1) →
      nodes.Perm (ts.map (fun x => ((p.1 + x.1 * (q.1 - p.1), p.2 + x.1 * (q.2 - p.2)), x.2))) → nodalDisplacements p q l nodes = ts.map (fun x => x.2) := by
  have hg : ∀ t : K, toGlobal p q l t = (p.1 + t * (q.1 - p.1), p.2 + t * (q.2 - p.2)) := by
    intro t
    unfold toGlobal
    ext <;> simp only <;> field_simp
  refine ⟨fun t => ⟨toLocal_toGlobal hl hlen t, hg t⟩, fun ts nodes hts hn => ?_⟩
  have hm : (nodes.map (fun n => (toLocal p q l n.1, n.2))).Perm ts := by
    refine (hn.map _).trans ?_
    rw [List.map_map]
    have : ∀ x : K × α, ((fun n : (K × K) × α => (toLocal p q l n.1, n.2)) ∘ fun x : K × α => ((p.1 + x.1 * (q.1 - p.1), p.2 + x.1 * (q.2 - p.2)), x.2)) x = x := by
      intro x
      have := toLocal_toGlobal hl hlen x.1
      rw [hg] at this
      exact Prod.ext this rfl
    rw [List.map_congr_left (g := id) (fun x _ => this x), List.map_id]
  unfold nodalDisplacements
  obtain ⟨h1, h2⟩ := sortBy_sorted (nodes.map (fun n => (toLocal p q l n.1, n.2)))
  rw [sorted_unique (h2.trans hm) h1 hts]

/-- A member of length 5 with its end nodes first. -/
example : nodalDisplacements ((0 : ℚ), (0 : ℚ)) (3, 4) 5 [((0, 0), "start"), ((3, 4), "end"), ((3 / 2, 2), "middle")] = ["start", "middle", "end"] :=
  (C198 (p := ((0 : ℚ), (0 : ℚ))) (q := (3, 4)) (l := 5) (by norm_num) (by norm_num)).2 [(0, "start"), (1 / 2, "middle"), (1, "end")] _
    (by norm_num) (by norm_num; exact List.Perm.swap _ _ _)

end Metku.Raami
