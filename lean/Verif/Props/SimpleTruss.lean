import Verif.Model.SimpleTruss
import Mathlib.Tactic.LinearCombination
import Mathlib.Tactic.Linarith
import Mathlib.Tactic.FieldSimp
import Mathlib.Tactic.FinCases
import Mathlib.LinearAlgebra.FiniteDimensional.Lemmas
import Mathlib.LinearAlgebra.Dimension.Constructions
import Mathlib.Algebra.BigOperators.Fin

/-!
Properties of pin-jointed trusses (model: `Verif.Model.SimpleTruss`).
-/
namespace Metku.STruss

open Metku Matrix

/-! ### Members -/

section build

variable {S : Type}

theorem bind_ok' {α β : Type} {x : Except PyErr α} {f : α → Except PyErr β} {b : β}
    (h : (x >>= f) = .ok b) : ∃ a, x = .ok a ∧ f a = .ok b := by
  cases x with
  | error e => cases h
  | ok a => exact ⟨a, rfl, h⟩

theorem buildLoop_ok {n : ℕ} {t : TType} (ht : t ≠ .other) :
    ∀ {ms : List (ℤ × ℤ)} {ps : List S} {acc r : List (Mem n S)},
      (∀ (k : ℕ) (m : Mem n S), acc[k]? = some m → m.id = k) →
      buildLoop n t ms ps acc = .ok r →
      r.length = acc.length + min ms.length ps.length ∧
      (∀ (k : ℕ) (m : Mem n S), acc[k]? = some m → r[k]? = some m) ∧
      (∀ (k : ℕ) (m : Mem n S), r[k]? = some m → m.id = k) ∧
      ∀ (k : ℕ) (e : ℤ × ℤ) (p : S), ms[k]? = some e → ps[k]? = some p →
        ∃ a b, resolve n e.1 = .ok a ∧ resolve n e.2 = .ok b ∧
          r[acc.length + k]? = some ⟨acc.length + k, a, b, p⟩
  | [], ps, acc, r, hid, h => by
    obtain rfl := Except.ok.inj h
    refine ⟨by simp, fun k m hm => hm, hid, ?_⟩
    intro k e p hk _
    simp at hk
  | m :: ms, [], acc, r, hid, h => by
    obtain rfl := Except.ok.inj h
    refine ⟨by simp, fun k m hm => hm, hid, ?_⟩
    intro k e p _ hk
    simp at hk
  | m :: ms, p :: ps, acc, r, hid, h => by
    unfold buildLoop at h
    obtain ⟨a, ha, h⟩ := bind_ok' h
    obtain ⟨b, hb, h⟩ := bind_ok' h
    rw [if_neg ht] at h
    have hacc : ∀ (k : ℕ) (m : Mem n S), acc[k]? = some m → (addMem acc a b p)[k]? = some m := by
      intro k m hm
      unfold addMem
      rw [List.getElem?_append_left (List.getElem?_eq_some_iff.1 hm).1]
      exact hm
    have hid' : ∀ (k : ℕ) (m : Mem n S), (addMem acc a b p)[k]? = some m → m.id = k := by
      intro k m' hm
      unfold addMem at hm
      rcases lt_trichotomy k acc.length with hk | hk | hk
      · rw [List.getElem?_append_left hk] at hm
        exact hid k m' hm
      · subst hk
        rw [List.getElem?_append_right le_rfl] at hm
        simp at hm
        rw [← hm]
      · rw [List.getElem?_append_right hk.le] at hm
        rw [List.getElem?_eq_none (by simp; omega)] at hm
        cases hm
    obtain ⟨h1, h2, h3, h4⟩ := buildLoop_ok ht hid' h
    have hl : (addMem acc a b p).length = acc.length + 1 := by simp [addMem]
    refine ⟨by rw [h1, hl]; simp only [List.length_cons]; omega, fun k m hm => h2 k m (hacc k m hm), h3, ?_⟩
    intro k e q hk hq
    cases k with
    | zero =>
      simp only [List.getElem?_cons_zero, Option.some.injEq] at hk hq
      subst hk; subst hq
      refine ⟨a, b, ha, hb, ?_⟩
      apply h2
      unfold addMem
      rw [add_zero, List.getElem?_append_right le_rfl]
      simp
    | succ k =>
      obtain ⟨a', b', ha', hb', hr⟩ := h4 k e q (by simpa using hk) (by simpa using hq)
      refine ⟨a', b', ha', hb', ?_⟩
      rw [hl] at hr
      rw [show acc.length + (k + 1) = acc.length + 1 + k by omega]
      exact hr

/-- A truss has one member for each pair of nodes, numbered in the given order, between these nodes and with the profile of the same place; negative node numbers count from the end. -/
theorem truss_members {n : ℕ} {t : TType} (ht : t ≠ .other) {ms : List (ℤ × ℤ)} {ps : List S}
    (hl : ms.length = ps.length) {r : List (Mem n S)} (h : build n t ms ps = .ok r) :
    r.length = ms.length ∧
    ∀ (k : ℕ) (e : ℤ × ℤ) (p : S), ms[k]? = some e → ps[k]? = some p →
      ∃ m, r[k]? = some m ∧ m.id = k ∧ m.sec = p ∧
        (((m.a : ℕ) : ℤ) = e.1 ∨ ((m.a : ℕ) : ℤ) = e.1 + n) ∧
        (((m.b : ℕ) : ℤ) = e.2 ∨ ((m.b : ℕ) : ℤ) = e.2 + n) := by
  obtain ⟨h1, _, _, h4⟩ := buildLoop_ok ht (by intro k m hm; simp at hm) h
  have hres : ∀ (i : ℤ) (a : Fin n), resolve n i = .ok a →
      ((a : ℕ) : ℤ) = i ∨ ((a : ℕ) : ℤ) = i + n := by
    intro i a hi
    unfold resolve at hi
    split at hi
    · obtain rfl := Except.ok.inj hi
      left; simp; omega
    · split at hi
      · obtain rfl := Except.ok.inj hi
        right; simp; omega
      · cases hi
  refine ⟨by rw [h1, hl]; simp, ?_⟩
  intro k e p hk hp
  obtain ⟨a, b, ha, hb, hr⟩ := h4 k e p hk hp
  simp only [List.length_nil, Nat.zero_add] at hr
  exact ⟨_, hr, rfl, rfl, hres _ _ ha, hres _ _ hb⟩

/-- Members between existing nodes are accepted; a node number outside the list raises IndexError. -/
theorem truss_accepts (n : ℕ) (t : TType) (ms : List (ℤ × ℤ)) (ps : List S) (hl : ms.length = ps.length) :
    ((∃ r : List (Mem n S), build n t ms ps = .ok r) ↔
      ∀ e ∈ ms, (-(n : ℤ) ≤ e.1 ∧ e.1 < n) ∧ -(n : ℤ) ≤ e.2 ∧ e.2 < n) ∧
    ((∃ e ∈ ms, ¬ ((-(n : ℤ) ≤ e.1 ∧ e.1 < n) ∧ -(n : ℤ) ≤ e.2 ∧ e.2 < n)) →
      build (S := S) n t ms ps = .error .indexError) := by
  have hres : ∀ i : ℤ, ((-(n : ℤ) ≤ i ∧ i < n) → ∃ a, resolve n i = .ok a) ∧
      (¬ (-(n : ℤ) ≤ i ∧ i < n) → resolve n i = .error .indexError) := by
    intro i
    unfold resolve
    constructor
    · intro h
      split
      · exact ⟨_, rfl⟩
      · split
        · exact ⟨_, rfl⟩
        · omega
    · intro h
      rw [dif_neg (by omega), dif_neg (by omega)]
  have key : ∀ (ms : List (ℤ × ℤ)) (ps : List S) (acc : List (Mem n S)), ms.length = ps.length →
      ((∀ e ∈ ms, (-(n : ℤ) ≤ e.1 ∧ e.1 < n) ∧ -(n : ℤ) ≤ e.2 ∧ e.2 < n) →
        ∃ r, buildLoop n t ms ps acc = .ok r) ∧
      ((∃ e ∈ ms, ¬ ((-(n : ℤ) ≤ e.1 ∧ e.1 < n) ∧ -(n : ℤ) ≤ e.2 ∧ e.2 < n)) →
        buildLoop n t ms ps acc = .error .indexError) := by
    intro ms
    induction ms with
    | nil => intro ps acc _; exact ⟨fun _ => ⟨acc, by unfold buildLoop; rfl⟩, by simp⟩
    | cons e ms ih =>
      intro ps acc hl
      cases ps with
      | nil => simp at hl
      | cons p ps =>
        simp only [List.length_cons, Nat.add_right_cancel_iff] at hl
        by_cases h1 : -(n : ℤ) ≤ e.1 ∧ e.1 < n
        · obtain ⟨a, ha⟩ := (hres e.1).1 h1
          by_cases h2 : -(n : ℤ) ≤ e.2 ∧ e.2 < n
          · obtain ⟨b, hb⟩ := (hres e.2).1 h2
            have hstep : buildLoop n t (e :: ms) (p :: ps) acc =
                buildLoop n t ms ps (if t = .other then acc else addMem acc a b p) := by
              rw [buildLoop, ha, hb]; rfl
            rw [hstep]
            obtain ⟨i1, i2⟩ := ih ps (if t = .other then acc else addMem acc a b p) hl
            refine ⟨fun h => i1 (fun e he => h e (List.mem_cons_of_mem _ he)), ?_⟩
            rintro ⟨e', he', hne⟩
            rcases List.mem_cons.1 he' with rfl | he'
            · exact absurd ⟨h1, h2⟩ hne
            · exact i2 ⟨e', he', hne⟩
          · have hstep : buildLoop n t (e :: ms) (p :: ps) acc = .error .indexError := by
              rw [buildLoop, ha, (hres e.2).2 h2]; rfl
            exact ⟨fun h => absurd (h e List.mem_cons_self).2 h2, fun _ => hstep⟩
        · have hstep : buildLoop n t (e :: ms) (p :: ps) acc = .error .indexError := by
            rw [buildLoop, (hres e.1).2 h1]; rfl
          exact ⟨fun h => absurd (h e List.mem_cons_self).1 h1, fun _ => hstep⟩
  obtain ⟨k1, k2⟩ := key ms ps [] hl
  refine ⟨⟨?_, k1⟩, k2⟩
  rintro ⟨r, hr⟩
  by_contra hne
  rw [not_forall] at hne
  obtain ⟨e, he⟩ := hne
  rw [Classical.not_imp] at he
  have := k2 ⟨e, he.1, he.2⟩
  unfold build at hr
  rw [this] at hr
  cases hr

/-- With fewer profiles than members the remaining members are left out without notice. -/
theorem truss_short_viol {n : ℕ} {t : TType} (ht : t ≠ .other) {ms : List (ℤ × ℤ)} {ps : List S}
    (hl : ps.length < ms.length) {r : List (Mem n S)} (h : build n t ms ps = .ok r) :
    r.length = ps.length := by
  obtain ⟨h1, _, _, _⟩ := buildLoop_ok ht (by intro k m hm; simp at hm) h
  rw [h1]; simp; omega

/-- With an unknown type the truss has no members at all. -/
theorem truss_type_viol {n : ℕ} {ms : List (ℤ × ℤ)} {ps : List S} {r : List (Mem n S)}
    (h : build n .other ms ps = .ok r) : r = [] := by
  have key : ∀ (ms : List (ℤ × ℤ)) (ps : List S) (acc r : List (Mem n S)),
      buildLoop n .other ms ps acc = .ok r → r = acc := by
    intro ms
    induction ms with
    | nil => intro ps acc r h; exact (Except.ok.inj h).symm
    | cons e ms ih =>
      intro ps acc r h
      cases ps with
      | nil => exact (Except.ok.inj h).symm
      | cons p ps =>
        unfold buildLoop at h
        obtain ⟨a, _, h⟩ := bind_ok' h
        obtain ⟨b, _, h⟩ := bind_ok' h
        exact ih ps acc r h
  exact key ms ps [] r h

example : ∃ r : List (Mem 4 ℕ), build 4 .steel [(0, 1), (0, -1)] [7, 8] = .ok r ∧ r.length = 2 ∧
    ∃ m, r[1]? = some m ∧ m.id = 1 ∧ m.sec = 8 ∧ m.b = 3 := by
  refine ⟨_, rfl, rfl, _, rfl, rfl, rfl, rfl⟩

example : build (S := ℕ) 4 .general [(0, 1), (0, 4)] [7, 8] = .error .indexError :=
  (truss_accepts 4 .general [(0, 1), (0, 4)] ([7, 8] : List ℕ) rfl).2 ⟨(0, 4), by simp, by omega⟩

end build

/-! ### Stiffness -/

set_option linter.unusedSectionVars false

variable {K : Type} [Field K] [LinearOrder K] [IsStrictOrderedRing K]

/-- Elongation of a member times its length, to first order. -/
def stretch {n : ℕ} (pos u : Fin n → K × K) (a b : Fin n) : K :=
  ((pos b).1 - (pos a).1) * ((u b).1 - (u a).1) + ((pos b).2 - (pos a).2) * ((u b).2 - (u a).2)

/-- No node can move unless a member changes its length. -/
def Stable {n : ℕ} {S : Type} (pos : Fin n → K × K) (ms : List (Mem n S)) (fixed : Fin n → Bool) : Prop :=
  ∀ u : Fin n → K × K, (∀ i, fixed i = true → u i = 0) → (∀ m ∈ ms, stretch pos u m.a m.b = 0) → ∀ i, u i = 0

theorem rodNodal_eq {n : ℕ} (pos : Fin n → K × K) (len : ℕ → K) (u : Fin n → K × K) (m : Mem n (K × K)) :
    rodNodal pos len u m =
      ![-(axial pos len u m * (((pos m.b).1 - (pos m.a).1) / len m.id)),
        -(axial pos len u m * (((pos m.b).2 - (pos m.a).2) / len m.id)),
        axial pos len u m * (((pos m.b).1 - (pos m.a).1) / len m.id),
        axial pos len u m * (((pos m.b).2 - (pos m.a).2) / len m.id)] := by
  funext k
  fin_cases k <;>
  · simp [rodNodal, axial, Fem.rodK2, Fem.rodForces2, Fem.congrT, Fem.rodT2, Fem.rodKloc, Fem.dirCos, mulVec,
      dotProduct, Fin.sum_univ_succ, Matrix.mul_apply]
    ring

theorem axial_eq {n : ℕ} (pos : Fin n → K × K) (len : ℕ → K) (u : Fin n → K × K) (m : Mem n (K × K)) :
    axial pos len u m = m.sec.1 * m.sec.2 / len m.id * (stretch pos u m.a m.b / len m.id) := by
  simp only [axial, Fem.rodForces2, Fem.rodT2, Fem.dirCos, mulVec, dotProduct, Fin.sum_univ_succ, stretch]
  simp [-mul_eq_mul_left_iff, -mul_eq_mul_right_iff]
  ring

/-- Scalar product in the plane. -/
def dot2 (a b : K × K) : K := a.1 * b.1 + a.2 * b.2

theorem work {n : ℕ} (pos : Fin n → K × K) (len : ℕ → K) (u w : Fin n → K × K) :
    ∀ ms : List (Mem n (K × K)), ∑ i, dot2 (w i) (nodal pos len ms u i) =
      (ms.map fun m => axial pos len u m * (stretch pos w m.a m.b / len m.id)).sum
  | [] => by simp [nodal, dot2]
  | m :: ms => by
    have ih := work pos len u w ms
    have hsplit : ∀ i, dot2 (w i) (nodal pos len (m :: ms) u i) =
        (if m.a = i then dot2 (w i) (rodNodal pos len u m 0, rodNodal pos len u m 1) else 0) +
        (if m.b = i then dot2 (w i) (rodNodal pos len u m 2, rodNodal pos len u m 3) else 0) +
        dot2 (w i) (nodal pos len ms u i) := by
      intro i
      unfold nodal
      rw [List.map_cons, List.sum_cons]
      split <;> split <;> simp [dot2] <;> ring
    simp only [hsplit]
    rw [Finset.sum_add_distrib, Finset.sum_add_distrib, ih, List.map_cons, List.sum_cons]
    congr 1
    rw [Finset.sum_ite_eq, Finset.sum_ite_eq, if_pos (Finset.mem_univ _), if_pos (Finset.mem_univ _),
      rodNodal_eq]
    simp [dot2, stretch]
    ring

/-- Stiffness of sections and lengths are positive. -/
def Pos {n : ℕ} (len : ℕ → K) (ms : List (Mem n (K × K))) : Prop :=
  ∀ m ∈ ms, 0 < m.sec.1 ∧ 0 < m.sec.2 ∧ 0 < len m.id

theorem energy_zero {n : ℕ} (pos : Fin n → K × K) (len : ℕ → K) (u : Fin n → K × K) :
    ∀ ms : List (Mem n (K × K)), Pos len ms →
      0 ≤ (ms.map fun m => axial pos len u m * (stretch pos u m.a m.b / len m.id)).sum ∧
      ((ms.map fun m => axial pos len u m * (stretch pos u m.a m.b / len m.id)).sum = 0 →
        ∀ m ∈ ms, stretch pos u m.a m.b = 0)
  | [], _ => by simp
  | m :: ms, hp => by
    obtain ⟨i1, i2⟩ := energy_zero pos len u ms (fun m hm => hp m (List.mem_cons_of_mem _ hm))
    obtain ⟨h1, h2, h3⟩ := hp m List.mem_cons_self
    have hk : 0 < m.sec.1 * m.sec.2 / len m.id := div_pos (mul_pos h1 h2) h3
    have he : axial pos len u m * (stretch pos u m.a m.b / len m.id) =
        m.sec.1 * m.sec.2 / len m.id * (stretch pos u m.a m.b / len m.id) ^ 2 := by
      rw [axial_eq]; ring
    have hn : 0 ≤ axial pos len u m * (stretch pos u m.a m.b / len m.id) := by
      rw [he]; exact mul_nonneg hk.le (sq_nonneg _)
    rw [List.map_cons, List.sum_cons]
    refine ⟨add_nonneg hn i1, ?_⟩
    intro hs m' hm'
    have e1 : axial pos len u m * (stretch pos u m.a m.b / len m.id) = 0 := by linarith
    rcases List.mem_cons.1 hm' with rfl | hm'
    · rw [he] at e1
      rcases mul_eq_zero.1 e1 with h | h
      · exact absurd h hk.ne'
      · rcases div_eq_zero_iff.1 (pow_eq_zero_iff (two_ne_zero) |>.1 h) with h | h
        · exact h
        · exact absurd h h3.ne'
    · exact i2 (by linarith) m' hm'

theorem stretch_add {n : ℕ} (pos u v : Fin n → K × K) (a b : Fin n) :
    stretch pos (u + v) a b = stretch pos u a b + stretch pos v a b := by
  simp [stretch]; ring

theorem stretch_smul {n : ℕ} (pos u : Fin n → K × K) (c : K) (a b : Fin n) :
    stretch pos (c • u) a b = c * stretch pos u a b := by
  simp [stretch]; ring

theorem rodNodal_add {n : ℕ} (pos : Fin n → K × K) (len : ℕ → K) (u v : Fin n → K × K) (m : Mem n (K × K)) (k : Fin 4) :
    rodNodal pos len (u + v) m k = rodNodal pos len u m k + rodNodal pos len v m k := by
  rw [rodNodal_eq, rodNodal_eq, rodNodal_eq, axial_eq, axial_eq, axial_eq, stretch_add]
  fin_cases k <;> simp <;> ring

theorem rodNodal_smul {n : ℕ} (pos : Fin n → K × K) (len : ℕ → K) (u : Fin n → K × K) (c : K) (m : Mem n (K × K)) (k : Fin 4) :
    rodNodal pos len (c • u) m k = c * rodNodal pos len u m k := by
  rw [rodNodal_eq, rodNodal_eq, axial_eq, axial_eq, stretch_smul]
  fin_cases k <;> simp <;> ring

theorem nodal_cons {n : ℕ} (pos : Fin n → K × K) (len : ℕ → K) (u : Fin n → K × K) (i : Fin n) (m : Mem n (K × K))
    (ms : List (Mem n (K × K))) : nodal pos len (m :: ms) u i =
      (if m.a = i then (rodNodal pos len u m 0, rodNodal pos len u m 1) else 0) +
      (if m.b = i then (rodNodal pos len u m 2, rodNodal pos len u m 3) else 0) + nodal pos len ms u i := by
  unfold nodal
  rw [List.map_cons, List.sum_cons]

theorem nodal_add {n : ℕ} (pos : Fin n → K × K) (len : ℕ → K) (u v : Fin n → K × K) (i : Fin n) :
    ∀ ms : List (Mem n (K × K)), nodal pos len ms (u + v) i = nodal pos len ms u i + nodal pos len ms v i
  | [] => by simp [nodal]
  | m :: ms => by
    rw [nodal_cons, nodal_cons, nodal_cons, nodal_add pos len u v i ms,
      rodNodal_add, rodNodal_add, rodNodal_add, rodNodal_add]
    split <;> split <;> ext <;> simp <;> ring

theorem nodal_smul {n : ℕ} (pos : Fin n → K × K) (len : ℕ → K) (u : Fin n → K × K) (c : K) (i : Fin n) :
    ∀ ms : List (Mem n (K × K)), nodal pos len ms (c • u) i = c • nodal pos len ms u i
  | [] => by simp [nodal]
  | m :: ms => by
    rw [nodal_cons, nodal_cons, nodal_smul pos len u c i ms,
      rodNodal_smul, rodNodal_smul, rodNodal_smul, rodNodal_smul]
    split <;> split <;> ext <;> simp <;> ring

/-- The system of equations as a linear map. -/
noncomputable def sysMap {n : ℕ} (pos : Fin n → K × K) (len : ℕ → K) (ms : List (Mem n (K × K))) (fixed : Fin n → Bool) :
    (Fin n → K × K) →ₗ[K] (Fin n → K × K) where
  toFun u i := if fixed i then u i else nodal pos len ms u i
  map_add' u v := by
    funext i
    by_cases h : fixed i = true
    · simp [h]
    · simp [h, nodal_add]
  map_smul' c u := by
    funext i
    by_cases h : fixed i = true
    · simp [h]
    · simp [h, nodal_smul]

theorem sysMap_inj {n : ℕ} (pos : Fin n → K × K) (len : ℕ → K) (ms : List (Mem n (K × K))) (fixed : Fin n → Bool)
    (hp : Pos len ms) (hs : Stable pos ms fixed) : Function.Injective (sysMap pos len ms fixed) := by
  rw [← LinearMap.ker_eq_bot, LinearMap.ker_eq_bot']
  intro u hu
  have hi : ∀ i, (if fixed i then u i else nodal pos len ms u i) = 0 := fun i => congrFun hu i
  have hf : ∀ i, fixed i = true → u i = 0 := by
    intro i h
    have := hi i
    rwa [if_pos h] at this
  have hw : ∑ i, dot2 (u i) (nodal pos len ms u i) = 0 := by
    apply Finset.sum_eq_zero
    intro i _
    by_cases h : fixed i = true
    · rw [hf i h]; simp [dot2]
    · have := hi i
      rw [if_neg h] at this
      rw [this]; simp [dot2]
  rw [work] at hw
  funext i
  exact hs u hf ((energy_zero pos len u ms hp).2 hw) i

/-- A stable truss has, for positive stiffnesses and lengths and all loads, exactly one state of displacements with unmoved supports and all other nodes in equilibrium. -/
theorem truss_response {n : ℕ} (pos : Fin n → K × K) (len : ℕ → K) (ms : List (Mem n (K × K))) (fixed : Fin n → Bool)
    (hp : Pos len ms) (hs : Stable pos ms fixed) (load : Fin n → K × K) :
    ∃! u, Solves pos len ms fixed load u := by
  have hinj := sysMap_inj pos len ms fixed hp hs
  have hsurj := LinearMap.injective_iff_surjective.1 hinj
  have hiff : ∀ u, Solves pos len ms fixed load u ↔
      sysMap pos len ms fixed u = fun i => if fixed i then 0 else load i := by
    intro u
    constructor
    · intro h
      funext i
      have := h i
      by_cases hf : fixed i = true
      · simp only [hf, if_true] at this
        simp [sysMap, hf, this]
      · simp only [hf] at this
        simpa [sysMap, hf] using this
    · intro h i
      have := congrFun h i
      by_cases hf : fixed i = true
      · simp [sysMap, hf] at this
        simp [hf, this]
      · simp [sysMap, hf] at this
        simp [hf, this]
  obtain ⟨u, hu⟩ := hsurj fun i => if fixed i then 0 else load i
  refine ⟨u, (hiff u).2 hu, ?_⟩
  intro v hv
  exact hinj (((hiff v).1 hv).trans hu.symm)

/-- In this state the axial forces of the members at a free node balance its load: the pull of every member points from the node to its other end. -/
theorem truss_equilibrium {n : ℕ} (pos : Fin n → K × K) (len : ℕ → K) (ms : List (Mem n (K × K))) (fixed : Fin n → Bool)
    (load u : Fin n → K × K) (h : Solves pos len ms fixed load u) (i : Fin n) (hi : fixed i = false) :
    load i + (ms.map fun m =>
      (if m.a = i then (axial pos len u m / len m.id) • (pos m.b - pos m.a) else 0) +
      (if m.b = i then (axial pos len u m / len m.id) • (pos m.a - pos m.b) else 0)).sum = 0 := by
  have h1 := h i
  rw [hi] at h1
  simp only [Bool.false_eq_true, if_false] at h1
  rw [← h1]
  unfold nodal
  clear h h1
  induction ms with
  | nil => simp
  | cons m ms ih =>
    rw [List.map_cons, List.sum_cons, List.map_cons, List.sum_cons]
    rw [add_add_add_comm, ih, add_zero, rodNodal_eq]
    split <;> split <;> ext <;> simp <;> ring

/-- Loads can be superimposed: the sum of the states of two load cases is the state of the sum of the loads. -/
theorem truss_superposition {n : ℕ} (pos : Fin n → K × K) (len : ℕ → K) (ms : List (Mem n (K × K))) (fixed : Fin n → Bool)
    (p q u v : Fin n → K × K) (hu : Solves pos len ms fixed p u) (hv : Solves pos len ms fixed q v) :
    Solves pos len ms fixed (p + q) (u + v) ∧
      ∀ m, axial pos len (u + v) m = axial pos len u m + axial pos len v m := by
  constructor
  · intro i
    have h1 := hu i
    have h2 := hv i
    by_cases hf : fixed i = true
    · simp only [hf, if_true] at h1 h2 ⊢
      simp [h1, h2]
    · simp only [hf] at h1 h2 ⊢
      simp at h1 h2 ⊢
      rw [nodal_add, h1, h2]
  · intro m
    rw [axial_eq, axial_eq, axial_eq, stretch_add]; ring

/-! ### The example trusses -/

theorem cancel {L x : K} (hL : L ≠ 0) (h : L * x = 0) : x = 0 := (mul_eq_zero.1 h).resolve_left hL

/-- The three bar truss: three members, stable for every length and every place of the third support. -/
theorem three_bar {S : Type} (L c : K) (hL : L ≠ 0) (t : TType) (ht : t ≠ .other) (ps : List S) (hp : ps.length = 3) :
    ∃ ms, build 4 t threeMems ps = .ok ms ∧ ms.length = 3 ∧ ms.map Mem.sec = ps ∧
      Stable (threePos L c) ms threeFixed := by
  match ps, hp with
  | [p0, p1, p2], _ =>
    have hb : build 4 t threeMems [p0, p1, p2] = .ok [⟨0, 0, 1, p0⟩, ⟨1, 0, 2, p1⟩, ⟨2, 0, 3, p2⟩] := by
      cases t with
      | general => rfl
      | steel => rfl
      | other => exact absurd rfl ht
    refine ⟨_, hb, rfl, rfl, ?_⟩
    intro u hf hs
    have f1 : u 1 = 0 := hf 1 rfl
    have f2 : u 2 = 0 := hf 2 rfl
    have f3 : u 3 = 0 := hf 3 rfl
    have s0 := hs ⟨0, 0, 1, p0⟩ (by simp)
    have s1 := hs ⟨1, 0, 2, p1⟩ (by simp)
    simp [stretch, threePos, f1, f2] at s0 s1
    have y0 : (u 0).2 = 0 := s1.resolve_left hL
    have x0 : (u 0).1 = 0 := by
      rw [y0] at s0; simpa [hL] using s0
    intro i
    fin_cases i
    · exact Prod.ext x0 y0
    · exact f1
    · exact f2
    · exact f3

/-- The ten bar truss: ten members, stable for every length. -/
theorem ten_bar {S : Type} (L : K) (hL : L ≠ 0) (t : TType) (ht : t ≠ .other) (ps : List S) (hp : ps.length = 10) :
    ∃ ms, build 6 t tenMems ps = .ok ms ∧ ms.length = 10 ∧ ms.map Mem.sec = ps ∧
      Stable (tenPos L) ms tenFixed := by
  match ps, hp with
  | [p0, p1, p2, p3, p4, p5, p6, p7, p8, p9], _ =>
    have hb : build 6 t tenMems [p0, p1, p2, p3, p4, p5, p6, p7, p8, p9] =
        .ok [⟨0, 4, 2, p0⟩, ⟨1, 2, 0, p1⟩, ⟨2, 5, 3, p2⟩, ⟨3, 3, 1, p3⟩, ⟨4, 2, 3, p4⟩, ⟨5, 0, 1, p5⟩,
          ⟨6, 4, 3, p6⟩, ⟨7, 5, 2, p7⟩, ⟨8, 2, 1, p8⟩, ⟨9, 3, 0, p9⟩] := by
      cases t with
      | general => rfl
      | steel => rfl
      | other => exact absurd rfl ht
    refine ⟨_, hb, rfl, rfl, ?_⟩
    intro u hf hs
    have f4 : u 4 = 0 := hf 4 rfl
    have f5 : u 5 = 0 := hf 5 rfl
    simp only [List.mem_cons, List.not_mem_nil, or_false, forall_eq_or_imp, forall_eq, stretch, tenPos,
      f4, f5] at hs
    simp at hs
    obtain ⟨s0, s1, s2, s3, s4, s5, s6, s7, s8, s9⟩ := hs
    have x2 : (u 2).1 = 0 := by simpa [hL] using s7
    have x3 : (u 3).1 = 0 := by simpa [hL] using s6
    have y2 : (u 2).2 = 0 := cancel hL (by rw [x2] at s0; linear_combination s0)
    have y3 : (u 3).2 = 0 := cancel hL (by rw [x3] at s2; linear_combination -s2)
    have x0 : (u 0).1 = 0 := cancel hL (by
      rcases s1 with h | h
      · exact absurd (by linear_combination h) hL
      · rw [x2] at h; rw [show (u 0).1 = 0 by linear_combination h]; ring)
    have x1 : (u 1).1 = 0 := cancel hL (by
      rcases s3 with h | h
      · exact absurd (by linear_combination h) hL
      · rw [x3] at h; rw [show (u 1).1 = 0 by linear_combination h]; ring)
    have y1 : (u 1).2 = 0 := cancel hL (by rw [x1, x2, y2] at s8; linear_combination -s8)
    have y0 : (u 0).2 = 0 := cancel hL (by rw [x0, x3, y3] at s9; linear_combination s9)
    intro i
    fin_cases i
    · exact Prod.ext x0 y0
    · exact Prod.ext x1 y1
    · exact Prod.ext x2 y2
    · exact Prod.ext x3 y3
    · exact f4
    · exact f5

/-- The fifteen bar truss: fifteen members, stable for every length and height. -/
theorem fifteen_bar {S : Type} (L h : K) (hL : L ≠ 0) (hh : h ≠ 0) (t : TType) (ht : t ≠ .other) (p : S) :
    ∃ ms, build 8 t fifteenMems (List.replicate 15 p) = .ok ms ∧ ms.length = 15 ∧
      Stable (fifteenPos L h) ms fifteenFixed := by
  have hb : build 8 t fifteenMems (List.replicate 15 p) =
      .ok [⟨0, 0, 1, p⟩, ⟨1, 1, 2, p⟩, ⟨2, 2, 3, p⟩, ⟨3, 4, 5, p⟩, ⟨4, 5, 6, p⟩, ⟨5, 6, 7, p⟩,
        ⟨6, 5, 1, p⟩, ⟨7, 6, 2, p⟩, ⟨8, 7, 3, p⟩, ⟨9, 0, 5, p⟩, ⟨10, 4, 1, p⟩, ⟨11, 1, 6, p⟩, ⟨12, 5, 2, p⟩,
        ⟨13, 2, 7, p⟩, ⟨14, 6, 3, p⟩] := by
    cases t with
    | general => rfl
    | steel => rfl
    | other => exact absurd rfl ht
  refine ⟨_, hb, rfl, ?_⟩
  intro u hf hs
  have f0 : u 0 = 0 := hf 0 rfl
  have f4 : u 4 = 0 := hf 4 rfl
  simp only [List.mem_cons, List.not_mem_nil, or_false, forall_eq_or_imp, forall_eq, stretch, fifteenPos,
    f0, f4] at hs
  simp only [Fin.isValue, Matrix.cons_val, Prod.fst_zero, Prod.snd_zero] at hs
  obtain ⟨s0, s1, s2, s3, s4, s5, s6, s7, s8, s9, s10, s11, s12, s13, s14⟩ := hs
  have x1 : (u 1).1 = 0 := cancel hL (by linear_combination 3 * s0)
  have x5 : (u 5).1 = 0 := cancel hL (by linear_combination 3 * s3)
  have x2 : (u 2).1 = 0 := cancel hL (by linear_combination 3 * s1 + L * x1)
  have x6 : (u 6).1 = 0 := cancel hL (by linear_combination 3 * s4 + L * x5)
  have x3 : (u 3).1 = 0 := cancel hL (by linear_combination 3 * s2 + L * x2)
  have x7 : (u 7).1 = 0 := cancel hL (by linear_combination 3 * s5 + L * x6)
  have y5 : (u 5).2 = 0 := cancel hh (by linear_combination -s9 + L / 3 * x5)
  have y1 : (u 1).2 = 0 := cancel hh (by linear_combination s10 - L / 3 * x1)
  have y6 : (u 6).2 = 0 := cancel hh (by linear_combination -s11 + L / 3 * (x6 - x1) + h * y1)
  have y2 : (u 2).2 = 0 := cancel hh (by linear_combination s12 - L / 3 * (x2 - x5) + h * y5)
  have y7 : (u 7).2 = 0 := cancel hh (by linear_combination -s13 + L / 3 * (x7 - x2) + h * y2)
  have y3 : (u 3).2 = 0 := cancel hh (by linear_combination s14 - L / 3 * (x3 - x6) + h * y6)
  intro i
  fin_cases i
  · exact f0
  · exact Prod.ext x1 y1
  · exact Prod.ext x2 y2
  · exact Prod.ext x3 y3
  · exact f4
  · exact Prod.ext x5 y5
  · exact Prod.ext x6 y6
  · exact Prod.ext x7 y7

theorem pos_of {n : ℕ} {len : ℕ → K} {ms : List (Mem n (K × K))} {ps : List (K × K)}
    (hm : ms.map Mem.sec = ps) (hp : ∀ p ∈ ps, 0 < p.1 ∧ 0 < p.2) (hl : ∀ i, 0 < len i) : Pos len ms := by
  intro m h
  have := hp m.sec (hm ▸ List.mem_map_of_mem h)
  exact ⟨this.1, this.2, hl _⟩

/-- The three bar truss has exactly one response for each load case; the response to both loads at once is the sum of the responses to the two load cases of the variant with two load cases. -/
theorem three_response (L c F1 F2 : K) (hL : L ≠ 0) (t : TType) (ht : t ≠ .other) (ps : List (K × K))
    (hp : ps.length = 3) (hpos : ∀ p ∈ ps, 0 < p.1 ∧ 0 < p.2) (len : ℕ → K) (hl : ∀ i, 0 < len i) :
    ∃ ms, build 4 t threeMems ps = .ok ms ∧
      (∀ nlc, ∀ p ∈ threeLoads F1 F2 nlc, ∃! u, Solves (threePos L c) len ms threeFixed (threeLoad p.2) u) ∧
      ∀ nlc, nlc ≠ 1 → ∀ u, Solves (threePos L c) len ms threeFixed (threeLoad (F2, F1)) u →
        ∃ v w, Solves (threePos L c) len ms threeFixed (threeLoad (F2, 0)) v ∧
          Solves (threePos L c) len ms threeFixed (threeLoad (0, F1)) w ∧
          threeLoads F1 F2 1 = [(0, (F2, F1))] ∧ (threeLoads F1 F2 nlc).map Prod.snd = [(F2, 0), (0, F1)] ∧
          u = v + w ∧ ∀ m, axial (threePos L c) len u m = axial (threePos L c) len v m + axial (threePos L c) len w m := by
  obtain ⟨ms, hb, _, hsec, hs⟩ := three_bar L c hL t ht ps hp
  have hP := pos_of hsec hpos hl
  refine ⟨ms, hb, fun nlc p _ => truss_response _ _ _ _ hP hs _, ?_⟩
  intro nlc hn u hu
  obtain ⟨v, hv, _⟩ := truss_response _ _ _ _ hP hs (threeLoad (F2, 0))
  obtain ⟨w, hw, _⟩ := truss_response _ _ _ _ hP hs (threeLoad (0, F1))
  obtain ⟨hvw, hax⟩ := truss_superposition _ _ _ _ _ _ _ _ hv hw
  have hload : threeLoad (F2, (0 : K)) + threeLoad (0, F1) = threeLoad (F2, F1) := by
    funext i
    fin_cases i <;> simp [threeLoad]
  rw [hload] at hvw
  have huv : u = v + w := (truss_response _ _ _ _ hP hs (threeLoad (F2, F1))).unique hu hvw
  refine ⟨v, w, hv, hw, by simp [threeLoads], by simp [threeLoads, hn], huv, ?_⟩
  intro m
  rw [huv, hax]

/-- The ten bar truss has exactly one response. -/
theorem ten_response (L F : K) (hL : L ≠ 0) (t : TType) (ht : t ≠ .other) (ps : List (K × K))
    (hp : ps.length = 10) (hpos : ∀ p ∈ ps, 0 < p.1 ∧ 0 < p.2) (len : ℕ → K) (hl : ∀ i, 0 < len i) :
    ∃ ms, build 6 t tenMems ps = .ok ms ∧ ∃! u, Solves (tenPos L) len ms tenFixed (tenLoad F) u := by
  obtain ⟨ms, hb, _, hsec, hs⟩ := ten_bar L hL t ht ps hp
  exact ⟨ms, hb, truss_response _ _ _ _ (pos_of hsec hpos hl) hs _⟩

/-- Statics of the ten bar truss, with `q` the axial force divided by the length of each member. At the free end the top chord, bottom chord and vertical balance the two diagonals and the load; a cut through the bay at the wall carries the shear `2 F`, no axial force and the moment `3 F L`. -/
theorem ten_statics (L F : K) (hL : L ≠ 0) (t : TType) (ht : t ≠ .other) (ps : List (K × K)) (hp : ps.length = 10)
    (len : ℕ → K) (hl : ∀ i, 0 < len i) (u : Fin 6 → K × K) (ms : List (Mem 6 (K × K)))
    (hb : build 6 t tenMems ps = .ok ms) (hu : Solves (tenPos L) len ms tenFixed (tenLoad F) u)
    (q : ℕ → K) (hq : ∀ m ∈ ms, q m.id * len m.id = axial (tenPos L) len u m) :
    (q 1 + q 9 = 0 ∧ q 5 + q 9 = 0 ∧ q 3 + q 8 = 0 ∧ L * (q 5 + q 8) = F) ∧
    L * (q 2 - q 0) = 2 * F ∧ q 0 + q 2 + q 6 + q 7 = 0 ∧ L * (q 7 + q 2) = 3 * F := by
  match ps, hp with
  | [p0, p1, p2, p3, p4, p5, p6, p7, p8, p9], _ =>
    have hb' : build 6 t tenMems [p0, p1, p2, p3, p4, p5, p6, p7, p8, p9] =
        .ok [⟨0, 4, 2, p0⟩, ⟨1, 2, 0, p1⟩, ⟨2, 5, 3, p2⟩, ⟨3, 3, 1, p3⟩, ⟨4, 2, 3, p4⟩, ⟨5, 0, 1, p5⟩,
          ⟨6, 4, 3, p6⟩, ⟨7, 5, 2, p7⟩, ⟨8, 2, 1, p8⟩, ⟨9, 3, 0, p9⟩] := by
      cases t with
      | general => rfl
      | steel => rfl
      | other => exact absurd rfl ht
    obtain rfl := Except.ok.inj (hb.symm.trans hb')
    have hq' : ∀ m ∈ _, axial (tenPos L) len u m / len m.id = q m.id := fun m hm =>
      (div_eq_iff (hl m.id).ne').2 (hq m hm).symm
    have e0 := truss_equilibrium _ _ _ _ _ _ hu 0 rfl
    have e1 := truss_equilibrium _ _ _ _ _ _ hu 1 rfl
    have e2 := truss_equilibrium _ _ _ _ _ _ hu 2 rfl
    have e3 := truss_equilibrium _ _ _ _ _ _ hu 3 rfl
    simp only [List.mem_cons, List.not_mem_nil, or_false, forall_eq_or_imp, forall_eq] at hq'
    obtain ⟨q0, q1, q2, q3, q4, q5, q6, q7, q8, q9⟩ := hq'
    simp only [List.map_cons, List.map_nil, List.sum_cons, List.sum_nil, q0, q1, q2, q3, q4, q5, q6, q7, q8, q9] at e0 e1 e2 e3
    have e0x := congrArg Prod.fst e0
    have e0y := congrArg Prod.snd e0
    have e1x := congrArg Prod.fst e1
    have e1y := congrArg Prod.snd e1
    have e2x := congrArg Prod.fst e2
    have e2y := congrArg Prod.snd e2
    have e3x := congrArg Prod.fst e3
    have e3y := congrArg Prod.snd e3
    simp [tenLoad, tenPos] at e0x e0y e1x e1y e2x e2y e3x e3y
    have a1 : q 1 + q 9 = 0 := cancel hL (by linear_combination -e0x)
    have a2 : q 5 + q 9 = 0 := cancel hL (by linear_combination -e0y)
    have a3 : q 3 + q 8 = 0 := cancel hL (by linear_combination -e1x)
    have a4 : L * (q 5 + q 8) = F := by linear_combination e1y
    refine ⟨⟨a1, a2, a3, a4⟩, ?_, ?_, ?_⟩
    · linear_combination e2y + e3y + e0y + e1y
    · exact cancel hL (by linear_combination -(e2x + e3x + e0x + e1x))
    · linear_combination (2 * e0y + 2 * e1y + e2y + e3y) - (e0x + e2x)

/-- With fewer profiles than eight the ten bar truss is a mechanism: the nodes can move although no member changes its length, so the response is not unique. -/
theorem ten_mechanism_viol (L : K) (t : TType) (ps : List (K × K)) (hp : ps.length < 8) (len : ℕ → K)
    (ms : List (Mem 6 (K × K))) (hb : build 6 t tenMems ps = .ok ms) :
    ¬ Stable (tenPos L) ms tenFixed ∧
    ∀ load u, Solves (tenPos L) len ms tenFixed load u → ∃ v, v ≠ u ∧ Solves (tenPos L) len ms tenFixed load v := by
  have hlen : ms.length < 8 := by
    by_cases ht : t = .other
    · subst ht; rw [truss_type_viol hb]; simp
    · rw [truss_short_viol ht (by simp [tenMems]; omega) hb]; exact hp
  let ext : (Fin 4 → K × K) →ₗ[K] (Fin 6 → K × K) :=
    { toFun := fun w => ![w 0, w 1, w 2, w 3, 0, 0]
      map_add' := by intro a b; funext i; fin_cases i <;> simp
      map_smul' := by intro a b; funext i; fin_cases i <;> simp }
  let T : (Fin 4 → K × K) →ₗ[K] (Fin ms.length → K) :=
    { toFun := fun w k => stretch (tenPos L) (ext w) (ms.get k).a (ms.get k).b
      map_add' := by intro a b; funext k; simp [map_add, stretch_add]
      map_smul' := by intro c b; funext k; simp [map_smul, stretch_smul] }
  have hker : LinearMap.ker T ≠ ⊥ := by
    apply LinearMap.ker_ne_bot_of_finrank_lt
    rw [Module.finrank_pi_fintype, Module.finrank_pi_fintype]
    simp only [Module.finrank_prod, Module.finrank_self, Finset.sum_const, Finset.card_univ, Fintype.card_fin, smul_eq_mul]
    omega
  obtain ⟨w, hw, hw0⟩ := (Submodule.ne_bot_iff _).1 hker
  have hst : ∀ m ∈ ms, stretch (tenPos L) (ext w) m.a m.b = 0 := by
    intro m hm
    obtain ⟨k, hk⟩ := List.get_of_mem hm
    have := congrFun (LinearMap.mem_ker.1 hw) k
    rw [← hk]
    exact this
  have hne : ext w ≠ 0 := by
    intro h
    apply hw0
    funext i
    fin_cases i
    · exact congrFun h 0
    · exact congrFun h 1
    · exact congrFun h 2
    · exact congrFun h 3
  have hfix : ∀ i, tenFixed i = true → ext w i = 0 := by
    intro i hi
    fin_cases i <;> first | rfl | simp [tenFixed] at hi
  constructor
  · intro h
    exact hne (funext (h (ext w) hfix hst))
  · intro load u hu
    refine ⟨u + ext w, by simpa using hne, ?_⟩
    have hz : ∀ i, nodal (tenPos L) len ms (ext w) i = 0 := by
      intro i
      have : ∀ ms' : List (Mem 6 (K × K)), (∀ m ∈ ms', stretch (tenPos L) (ext w) m.a m.b = 0) →
          nodal (tenPos L) len ms' (ext w) i = 0 := by
        intro ms'
        induction ms' with
        | nil => intro _; simp [nodal]
        | cons m ms' ih =>
          intro h
          rw [nodal_cons, ih (fun m hm => h m (List.mem_cons_of_mem _ hm)), rodNodal_eq, axial_eq,
            h m List.mem_cons_self]
          split <;> split <;> ext <;> simp
      exact this ms hst
    have hz' : Solves (tenPos L) len ms tenFixed 0 (ext w) := by
      intro i
      by_cases hf : tenFixed i = true
      · simp only [hf, if_true]; exact hfix i hf
      · simp only [hf]; simpa using hz i
    have := (truss_superposition _ _ _ _ _ _ _ _ hu hz').1
    rwa [add_zero] at this

example : ∃ ms, build 4 .general threeMems [((2 : ℚ), (3 : ℚ)), (1, 1), (1, 2)] = .ok ms ∧
    Stable (threePos (5 : ℚ) 8) ms threeFixed ∧ Pos (fun _ => (5 : ℚ)) ms ∧
    ∃! u, Solves (threePos (5 : ℚ) 8) (fun _ => 5) ms threeFixed (threeLoad (1, -2)) u := by
  obtain ⟨ms, h1, _, h2, h3⟩ := three_bar (5 : ℚ) 8 (by norm_num) .general (by simp) [((2 : ℚ), (3 : ℚ)), (1, 1), (1, 2)] rfl
  have hp : Pos (fun _ => (5 : ℚ)) ms := pos_of h2 (by simp) (by simp)
  exact ⟨ms, h1, h3, hp, truss_response _ _ _ _ hp h3 _⟩

example : ∃ ms, build 6 .steel tenMems (List.replicate 10 ((2 : ℚ), (3 : ℚ))) = .ok ms ∧
    ∃! u, Solves (tenPos (5 : ℚ)) (fun _ => 5) ms tenFixed (tenLoad 7) u :=
  ten_response 5 7 (by norm_num) .steel (by simp) _ (by simp) (by simp) _ (by simp)

example : ∃ ms : List (Mem 6 (ℚ × ℚ)), build 6 .steel tenMems [(2, 3), (1, 1)] = .ok ms ∧
    ¬ Stable (tenPos (5 : ℚ)) ms tenFixed :=
  ⟨_, rfl, (ten_mechanism_viol 5 .steel [(2, 3), (1, 1)] (by simp) (fun _ => 1) _ rfl).1⟩

end Metku.STruss
