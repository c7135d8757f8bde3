import Verif.Lemmas.Statics
import Mathlib.Algebra.BigOperators.Fin

/-! Helper lemmas about `remDofs`, `keepDofs`, `scatter`, `linearStaticsREM`. -/
namespace Metku.Fem

set_option linter.unusedSectionVars false

open Matrix

theorem mapM_ok_iff {α β : Type} (f : α → Except PyErr β) : ∀ (l : List α) (r : List β),
    l.mapM f = .ok r ↔ List.Forall₂ (fun a b => f a = .ok b) l r := by
  intro l
  induction l with
  | nil =>
    intro r
    rw [List.mapM_nil]
    constructor
    · intro h; cases h; exact .nil
    · intro h; cases h; rfl
  | cons a l ih =>
    intro r
    rw [List.mapM_cons]
    constructor
    · intro h
      cases hfa : f a with
      | error e => rw [hfa] at h; cases h
      | ok b =>
        rw [hfa] at h
        cases hl : l.mapM f with
        | error e => rw [hl] at h; cases h
        | ok bs => rw [hl] at h; cases h; exact .cons hfa ((ih bs).mp hl)
    · intro h
      cases h with
      | cons h1 h2 => rw [h1, (ih _).mpr h2]; rfl

theorem getOr_ok {α : Type} {o : Option α} {e : PyErr} {a : α} : getOr o e = .ok a ↔ o = some a := by
  unfold getOr
  cases o with
  | none => simp
  | some b => simp

/-- Degree of freedom `d` is supported by a support of set `sid`. -/
def Supported (dofv : List (List Int)) (supports : List Support) (sid d : Nat) : Prop :=
  ∃ s ∈ supports, s.sid = sid ∧ ∃ j ∈ s.dof, entry dofv (s.node, j) = some (d : Int)

theorem mem_remDofs {dofv : List (List Int)} {supports : List Support} {sid : Nat} {rem : List Nat}
    (h : remDofs dofv supports sid = .ok rem) (d : Nat) :
    d ∈ rem ↔ Supported dofv supports sid d := by
  have hentry : ∀ (i j : Nat), ((dofv[i]?).getD [])[j]? = entry dofv (i, j) := by
    intro i j
    cases h : dofv[i]? with
    | none => simp [entry, h]
    | some l => simp [entry, h]
  unfold remDofs at h
  cases hm : ((supports.filter (·.sid = sid)).mapM fun s => do
      let is ← s.dof.mapM fun j => getOr ((dofv[s.node]?).getD [])[j]? .indexError
      pure (is.filterMap fun i => if i > -1 then some i.toNat else none)) with
  | error e => rw [hm] at h; cases h
  | ok ls =>
    rw [hm] at h
    cases h
    rw [mapM_ok_iff] at hm
    -- each support
    have hone : ∀ (s : Support) (l : List Nat),
        (do let is ← s.dof.mapM fun j => getOr ((dofv[s.node]?).getD [])[j]? .indexError
            pure (is.filterMap fun i => if i > -1 then some i.toNat else none)) = Except.ok l →
        (d ∈ l ↔ ∃ j ∈ s.dof, entry dofv (s.node, j) = some (d : Int)) := by
      intro s l hl
      cases his : (s.dof.mapM fun j => getOr ((dofv[s.node]?).getD [])[j]? PyErr.indexError) with
      | error e => rw [his] at hl; cases hl
      | ok is =>
        rw [his] at hl
        cases hl
        rw [mapM_ok_iff] at his
        simp only [List.mem_filterMap]
        constructor
        · rintro ⟨i, hi, hif⟩
          split at hif
          · rename_i hpos
            simp at hif
            obtain ⟨n, hn, rfl⟩ := List.getElem_of_mem hi
            have hlen := his.length_eq
            have hf := his.get (by rw [hlen]; exact hn) hn
            refine ⟨s.dof[n], List.getElem_mem _, ?_⟩
            have := getOr_ok.mp hf
            rw [hentry] at this
            simp only [List.get_eq_getElem] at this
            rw [this]
            simp only [Option.some.injEq]
            omega
          · simp at hif
        · rintro ⟨j, hj, hje⟩
          obtain ⟨n, hn, rfl⟩ := List.getElem_of_mem hj
          have hlen := his.length_eq
          have hf := his.get hn (by rw [← hlen]; exact hn)
          have := getOr_ok.mp hf
          rw [hentry] at this
          simp only [List.get_eq_getElem] at this
          rw [hje] at this
          refine ⟨is[n], List.getElem_mem _, ?_⟩
          simp only [Option.some.injEq] at this
          rw [← this]
          simp
          omega
    rw [List.mem_flatten]
    constructor
    · rintro ⟨l, hl, hd⟩
      obtain ⟨n, hn, rfl⟩ := List.getElem_of_mem hl
      have hlen := hm.length_eq
      have hf := hm.get (by rw [hlen]; exact hn) hn
      have hmem := List.getElem_mem (l := supports.filter (·.sid = sid)) (n := n) (by rw [hlen]; exact hn)
      rw [List.mem_filter] at hmem
      exact ⟨_, hmem.1, by simpa using hmem.2, (hone _ _ hf).mp hd⟩
    · rintro ⟨s, hs, hsid, hj⟩
      have hmem : s ∈ supports.filter (·.sid = sid) := by
        rw [List.mem_filter]; exact ⟨hs, by simpa using hsid⟩
      obtain ⟨n, hn, rfl⟩ := List.getElem_of_mem hmem
      have hlen := hm.length_eq
      have hf := hm.get hn (by rw [← hlen]; exact hn)
      exact ⟨_, List.getElem_mem _, (hone _ _ hf).mpr hj⟩

theorem keepDofs_nodup (n : Nat) (rem : List Nat) : (keepDofs n rem).Nodup :=
  List.Nodup.filter _ List.nodup_range

theorem mem_keepDofs {n : Nat} {rem : List Nat} {d : Nat} : d ∈ keepDofs n rem ↔ d < n ∧ d ∉ rem := by
  unfold keepDofs
  rw [List.mem_filter, List.mem_range]
  simp

variable {K : Type} [Field K]

theorem entryU_scatter_step (dofv : List (List Int)) (u : List (List K)) (d : Nat) (x : K) (ij : Nat × Nat)
    (k : Int) (y : K) (hk : entry dofv ij = some k) (hy : entryU u ij = some y) :
    entryU (List.zipWith (fun ds v => scatterNode ds v d x) dofv u) ij = some (if k = (d : Int) then x else y) := by
  unfold entry at hk
  unfold entryU at hy ⊢
  cases h1 : dofv[ij.1]? with
  | none => simp [h1] at hk
  | some ds =>
    cases h2 : u[ij.1]? with
    | none => simp [h2] at hy
    | some v =>
      simp [h1] at hk
      simp [h2] at hy
      simp [List.getElem?_zipWith, h1, h2, scatterNode, hk, hy]

theorem entryU_scatter (dofv : List (List Int)) (ij : Nat × Nat) (k : Int) (hk : entry dofv ij = some k) :
    ∀ (sol : List (Nat × K)) (u : List (List K)) (y : K), entryU u ij = some y →
      ((∀ p ∈ sol, (p.1 : Int) ≠ k) → entryU (scatter dofv u sol) ij = some y) ∧
      ((sol.map Prod.fst).Nodup → ∀ p ∈ sol, (p.1 : Int) = k → entryU (scatter dofv u sol) ij = some p.2) := by
  intro sol
  induction sol with
  | nil => intro u y hy; simp [scatter, hy]
  | cons q sol ih =>
    intro u y hy
    have hstep := entryU_scatter_step dofv u q.1 q.2 ij k y hk hy
    have hrec := ih _ _ hstep
    have hsc : scatter dofv u (q :: sol) =
      scatter dofv (List.zipWith (fun ds v => scatterNode ds v q.1 q.2) dofv u) sol := rfl
    rw [hsc]
    constructor
    · intro hne
      rw [hrec.1 (fun p hp => hne p (List.mem_cons_of_mem _ hp)), if_neg]
      exact fun h => hne q List.mem_cons_self h.symm
    · intro hnd p hp hpk
      rw [List.map_cons, List.nodup_cons] at hnd
      rcases List.mem_cons.mp hp with rfl | hp
      · rw [hrec.1, if_pos hpk.symm]
        intro p' hp' hpk'
        apply hnd.1
        have : p'.1 = p.1 := by omega
        rw [← this]
        exact List.mem_map_of_mem hp'
      · exact hrec.2 hnd.2 p hp hpk

/-- Everything a successful `REM` run did, spelled out. -/
theorem staticsREM_ok {solve : Solver K} {m m' : Model K} {lc : Nat}
    (h : staticsREM solve m lc = .ok m') :
    ∃ (case : LoadCase) (p : Nat → K) (rem : List Nat) (u0 : List (List K))
      (sol : Fin (keepDofs m.dofs rem).length → K),
      m.loadcases lc = some case ∧
      globalLoad m.dofv m.elems m.loads case.load = .ok p ∧
      remDofs m.dofv m.supports case.support = .ok rem ∧
      solve _ (reducedK (globalStiffness m.dofv m.elems) (keepDofs m.dofs rem))
        (fun a => p (keepDofs m.dofs rem)[a]) = some sol ∧
      m.u lc = some u0 ∧
      m' = { m with
        u := Function.update m.u lc (some (scatter m.dofv u0
          (List.ofFn fun a : Fin (keepDofs m.dofs rem).length => ((keepDofs m.dofs rem)[a], sol a))))
        p := some [List.ofFn fun a : Fin (keepDofs m.dofs rem).length => p (keepDofs m.dofs rem)[a]] } := by
  unfold staticsREM at h
  simp only [bind, Except.bind] at h
  cases h1 : m.loadcases lc with
  | none => simp only [h1, getOr] at h; cases h
  | some case =>
    cases h2 : globalLoad m.dofv m.elems m.loads case.load with
    | error e => simp only [h1, getOr, h2] at h; cases h
    | ok p =>
      cases h3 : remDofs m.dofv m.supports case.support with
      | error e => simp only [h1, getOr, h2, h3] at h; cases h
      | ok rem =>
        cases h4 : solve _ (reducedK (globalStiffness m.dofv m.elems) (keepDofs m.dofs rem))
            (fun a => p (keepDofs m.dofs rem)[a]) with
        | none => simp only [h1, getOr, h2, h3, h4] at h; cases h
        | some sol =>
          cases h5 : m.u lc with
          | none => simp only [h1, getOr, h2, h3, h4, h5] at h; cases h
          | some u0 =>
            simp only [h1, getOr, h2, h3, h4, h5] at h
            cases h
            exact ⟨case, p, rem, u0, sol, rfl, h2, h3, h4, rfl, rfl⟩

/-- Global displacement vector: solution at kept numbers, zero elsewhere. -/
def expand (keep : List Nat) (sol : Fin keep.length → K) (c : Nat) : K :=
  ∑ a, if keep[a] = c then sol a else 0

theorem expand_keep {keep : List Nat} (hnd : keep.Nodup) (sol : Fin keep.length → K) (a : Fin keep.length) :
    expand keep sol keep[a] = sol a := by
  unfold expand
  rw [Finset.sum_eq_single a]
  · simp
  · intro b _ hb
    rw [if_neg]
    intro hab
    apply hb
    exact Fin.ext ((List.Nodup.getElem_inj_iff hnd).mp hab)
  · intro h; exact absurd (Finset.mem_univ _) h

theorem expand_off {keep : List Nat} (sol : Fin keep.length → K) {c : Nat} (hc : c ∉ keep) :
    expand keep sol c = 0 := by
  unfold expand
  apply Finset.sum_eq_zero
  intro a _
  rw [if_neg]
  rintro rfl
  exact hc (List.getElem_mem _)

theorem sum_expand (n : Nat) {keep : List Nat} (hlt : ∀ d ∈ keep, d < n) (sol : Fin keep.length → K) (g : Nat → K) :
    ∑ c ∈ Finset.range n, g c * expand keep sol c = ∑ a, g keep[a] * sol a := by
  unfold expand
  simp only [Finset.mul_sum]
  rw [Finset.sum_comm]
  apply Finset.sum_congr rfl
  intro a _
  rw [Finset.sum_eq_single keep[a]]
  · simp
  · intro b _ hb; rw [if_neg (Ne.symm hb), mul_zero]
  · intro h; exact absurd (Finset.mem_range.mpr (hlt _ (List.getElem_mem _))) h

end Metku.Fem
