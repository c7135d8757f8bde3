import Verif.Model.PlaneTruss
import Mathlib.Data.List.Basic
import Mathlib.Tactic.LinearCombination
import Mathlib.Tactic.FieldSimp
import Mathlib.Tactic.NormNum
import Mathlib.Tactic.Positivity

/-! Lists of nodes given by a formula, for the proofs of properties of trusses. -/

namespace Metku.Truss

open Metku.Steel Metku.Rhs

/-- The list `[f 0, ..., f (n - 1)]`. -/
def tab {α : Type} (n : ℕ) (f : ℕ → α) : List α := (List.range n).map f

section

variable {α β : Type}

theorem tab_length (n : ℕ) (f : ℕ → α) : (tab n f).length = n := by simp [tab]

theorem tab_congr {n : ℕ} {f g : ℕ → α} (h : ∀ i < n, f i = g i) : tab n f = tab n g := by
  unfold tab
  exact List.map_congr_left fun i hi => h i (List.mem_range.1 hi)

theorem tab_append (n m : ℕ) (f g h : ℕ → α) (hf : ∀ i < n, f i = h i) (hg : ∀ i < m, g i = h (n + i)) : tab n f ++ tab m g = tab (n + m) h := by
  unfold tab
  rw [List.range_add, List.map_append, List.map_map]
  congr 1
  · exact List.map_congr_left fun i hi => hf i (List.mem_range.1 hi)
  · exact List.map_congr_left fun i hi => hg i (List.mem_range.1 hi)

theorem tab_cons (n : ℕ) (x : α) (f h : ℕ → α) (hx : x = h 0) (hf : ∀ i < n, f i = h (i + 1)) : x :: tab n f = tab (n + 1) h := by
  unfold tab
  rw [List.range_succ_eq_map, List.map_cons, List.map_map, hx]
  congr 1
  exact List.map_congr_left fun i hi => hf i (List.mem_range.1 hi)

theorem tab_snoc (n : ℕ) (x : α) (f h : ℕ → α) (hf : ∀ i < n, f i = h i) (hx : x = h n) : tab n f ++ [x] = tab (n + 1) h := by
  have : [x] = tab 1 fun _ => x := by simp [tab]
  rw [this]
  exact tab_append n 1 f _ h hf fun i hi => by
    obtain rfl : i = 0 := by omega
    exact hx

theorem tab_take (n k : ℕ) (f : ℕ → α) (h : k ≤ n) : (tab n f).take k = tab k f := by
  unfold tab
  rw [← List.map_take, List.take_range, Nat.min_eq_left h]

theorem tab_drop (n k : ℕ) (f : ℕ → α) : (tab n f).drop k = tab (n - k) fun i => f (k + i) := by
  apply List.ext_getElem
  · simp [tab]
  · intro i h1 h2
    simp [tab]

theorem tab_tail (n : ℕ) (f : ℕ → α) : (tab n f).tail = tab (n - 1) fun i => f (i + 1) := by
  rw [← List.drop_one, tab_drop]
  exact tab_congr fun i _ => by rw [add_comm]

theorem tab_dropLast (n : ℕ) (f : ℕ → α) : (tab n f).dropLast = tab (n - 1) f := by
  rw [List.dropLast_eq_take, tab_length, tab_take _ _ _ (Nat.sub_le n 1)]

theorem tab_map (n : ℕ) (f : ℕ → α) (g : α → β) : (tab n f).map g = tab n fun i => g (f i) := by
  unfold tab
  rw [List.map_map]
  rfl

theorem tab_zip (n m : ℕ) (f : ℕ → α) (g : ℕ → β) : (tab n f).zip (tab m g) = tab (min n m) fun i => (f i, g i) := by
  apply List.ext_getElem
  · simp [tab]
  · intro i h1 h2
    simp [tab]

theorem tab_getElem? (n : ℕ) (f : ℕ → α) {i : ℕ} (h : i < n) : (tab n f)[i]? = some (f i) := by simp [tab, h]

theorem tab_getLast? (n : ℕ) (f : ℕ → α) (h : 0 < n) : (tab n f).getLast? = some (f (n - 1)) := by
  rw [List.getLast?_eq_getElem?, tab_length, tab_getElem? _ _ (by omega)]

theorem mem_tab {n : ℕ} {f : ℕ → α} {x : α} : x ∈ tab n f ↔ ∃ i < n, f i = x := by simp [tab]

theorem tab_zero (f : ℕ → α) : tab 0 f = [] := rfl

end

noncomputable section

theorem linspace_tab (n : ℕ) : linspace n = tab n fun i => (i : ℝ) / (n - 1) := by
  rfl

theorem along_tab (A v : Pt) (n : ℕ) (s : ℕ → ℝ) : along A v (tab n s) = tab n fun i => (A.1 + s i * v.1, A.2 + s i * v.2) := tab_map _ _ _

theorem refs_tab (f : ℕ → Ref) (l : List Pt) : refs f l = tab l.length f := rfl

theorem chord_tab (n : ℕ) (f : ℕ → Ref) : chord (tab n f) = tab (n - 1) fun i => (f i, f (i + 1)) := by
  unfold chord
  rw [tab_tail, tab_zip, Nat.min_eq_right (Nat.sub_le n 1)]

theorem mids_tab (n m : ℕ) (f g : ℕ → Pt) : mids (tab n f) (tab m g) = tab (min n m) fun i => (1 / 2 * ((f i).1 + (g i).1), (f i).2) := by
  unfold mids
  rw [tab_zip, tab_map]

theorem idx_tab {n : ℕ} {f : ℕ → Ref} {i : ℕ} (h : i < n) : idx (tab n f) i = .ok (f i) := by
  unfold idx
  rw [tab_getElem? _ _ h]

theorem lastIdx_tab {n : ℕ} {f : ℕ → Ref} (h : 0 < n) : lastIdx (tab n f) = .ok (f (n - 1)) := by
  unfold lastIdx
  rw [tab_getLast? _ _ h]

theorem lastOf_tab (X0 : Pt) {n : ℕ} {f : ℕ → Pt} (h : 0 < n) : lastOf X0 (tab n f) = f (n - 1) := by
  unfold lastOf
  have e : ∀ (l : List Pt) (hl : l ≠ []), l = tab n f → (X0 :: l).getLast (List.cons_ne_nil _ _) = f (n - 1) := by
    intro l hl hl'
    have : (X0 :: l).getLast? = some (f (n - 1)) := by
      rw [List.getLast?_cons, hl', tab_getLast? _ _ h]
      rfl
    rw [List.getLast?_eq_some_getLast (List.cons_ne_nil _ _)] at this
    exact Option.some.inj this
  refine e _ ?_ rfl
  intro hn
  have := congrArg List.length hn
  rw [tab_length] at this
  simp at this
  omega

theorem pairs_tab (Dx : ℝ) (n : ℕ) (f : ℕ → Pt) (h : ℕ → Pt) (h0 : ∀ i < n, f i = h (2 * i)) (h1 : ∀ i < n, ((f i).1 + 1 / 2 * Dx, (f i).2) = h (2 * i + 1)) :
    pairs Dx (tab n f) = tab (2 * n) h := by
  induction n with
  | zero => rfl
  | succ n ih =>
    have e : tab (n + 1) f = tab n f ++ [f n] := (tab_snoc n _ f f (fun _ _ => rfl) rfl).symm
    have e' : tab (2 * (n + 1)) h = tab (2 * n) h ++ [h (2 * n), h (2 * n + 1)] := by
      rw [show 2 * (n + 1) = 2 * n + 1 + 1 by ring, ← tab_snoc (2 * n + 1) _ h h (fun _ _ => rfl) rfl, ← tab_snoc (2 * n) _ h h (fun _ _ => rfl) rfl]
      simp
    rw [e, e']
    unfold pairs at ih ⊢
    rw [List.flatMap_append, ih (fun i hi => h0 i (by omega)) (fun i hi => h1 i (by omega)), List.flatMap_singleton, ← h0 n (by omega), ← h1 n (by omega)]

theorem everySecond_tab (n : ℕ) (f : ℕ → Ref) : everySecond (tab n f) = tab ((n + 1) / 2) fun i => f (2 * i) := by
  induction n using Nat.strong_induction_on generalizing f with
  | _ n ih =>
    match n with
    | 0 => rfl
    | 1 => simp [tab, everySecond]
    | n + 2 =>
      rw [← tab_cons (n + 1) (f 0) (fun i => f (i + 1)) f rfl (fun _ _ => rfl), ← tab_cons n (f 1) (fun i => f (i + 2)) (fun i => f (i + 1)) rfl (fun _ _ => rfl), everySecond, ih n (by omega)]
      rw [show (n + 2 + 1) / 2 = (n + 1) / 2 + 1 by omega]
      exact tab_cons _ _ _ _ rfl fun i _ => by
        congr 1

theorem loop_ok {f : ℕ → Except PyErr (List (Ref × Ref))} {g : ℕ → List (Ref × Ref)} {l : List ℕ} (h : ∀ i ∈ l, f i = .ok (g i)) : loop f l = .ok (l.flatMap g) := by
  induction l with
  | nil => rfl
  | cons i l ih =>
    rw [loop, h i List.mem_cons_self, ih fun j hj => h j (List.mem_cons_of_mem _ hj)]
    rfl

/-- The point of a line that is not vertical at the x-coordinate of a point. -/
theorem topPoint_value {p v X : Pt} (hv : v.1 ≠ 0) : topPoint p v X = .ok (X.1, p.2 + (X.1 - p.1) * (v.2 / v.1)) := by
  obtain ⟨a, b⟩ := v
  obtain ⟨x, y⟩ := X
  obtain ⟨c, d⟩ := p
  dsimp only at hv
  have h1 : 0 < a ^ 2 + b ^ 2 := by positivity
  have h2 : √(a ^ 2 + b ^ 2) ≠ 0 := (Real.sqrt_pos.2 h1).ne'
  unfold topPoint Line.intersect Line.ofDir Line.at
  dsimp only
  rw [if_neg (by
    simp only [neg_zero, zero_mul, sub_zero, mul_neg, mul_one, neg_eq_zero]
    exact div_ne_zero hv h2)]
  simp only [bind, Except.bind]
  generalize √(a ^ 2 + b ^ 2) = r at h2
  have e : a / r * -1 - -0 * (b / r) = -(a / r) := by ring
  rw [e]
  congr 1
  refine Prod.ext ?_ ?_
  · dsimp only
    field_simp
    ring
  · dsimp only
    field_simp
    ring

theorem topPoints_tab {p v : Pt} (hv : v.1 ≠ 0) (n : ℕ) (X : ℕ → Pt) : topPoints p v (tab n X) = .ok (tab n fun i => ((X i).1, p.2 + ((X i).1 - p.1) * (v.2 / v.1))) := by
  induction n generalizing X with
  | zero => rfl
  | succ n ih =>
    rw [← tab_cons n (X 0) (fun i => X (i + 1)) X rfl (fun _ _ => rfl), topPoints, topPoint_value hv, ih]
    simp only [bind, Except.bind]
    rw [← tab_cons n ((X 0).1, p.2 + ((X 0).1 - p.1) * (v.2 / v.1)) _ (fun i => ((X i).1, p.2 + ((X i).1 - p.1) * (v.2 / v.1))) rfl (fun _ _ => rfl)]

end

end Metku.Truss
