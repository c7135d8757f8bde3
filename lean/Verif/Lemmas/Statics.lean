import Verif.Lemmas.Assembly

/-! Helper lemmas about load vectors and the REM solution. -/
namespace Metku.Fem

set_option linter.unusedSectionVars false

open Matrix

variable {K : Type} [Field K]

theorem fancyAdd_apply {ι : Type} [DecidableEq ι] (A : ι → K) (W : List (ι × K))
    (hnd : (W.map Prod.fst).Nodup) (i : ι) :
    fancyAdd A W i = A i + (W.map fun w => if w.1 = i then w.2 else 0).sum := by
  have h := fancyAdd_functional (insert i (W.map Prod.fst).toFinset) (fun j => if j = i then (1 : K) else 0) A W hnd
    (fun w hw => Finset.mem_insert_of_mem (List.mem_toFinset.mpr (List.mem_map_of_mem hw)))
  have hi : i ∈ insert i (W.map Prod.fst).toFinset := Finset.mem_insert_self _ _
  simp only [ite_mul, one_mul, zero_mul, Finset.sum_ite_eq', hi, if_true] at h
  exact h

/-- The entries of a mask-restricted load. -/
def maskPairs (dofs : List Int) (F : List K) : List (Nat × K) :=
  (dofs.zip F).filterMap fun dx => if 0 ≤ dx.1 then some (dx.1.toNat, dx.2) else none

theorem maskLoad_ok {dofs : List Int} {F : List K} {W : List (Nat × K)} (h : maskLoad dofs F = .ok W) :
    dofs.length = F.length ∧ W = maskPairs dofs F := by
  unfold maskLoad at h
  split at h
  · rename_i hl; cases h; exact ⟨hl, rfl⟩
  · cases h

theorem maskPairs_sum (dofs : List Int) (F : List K) (i : Nat) (hl : dofs.length = F.length) :
    ((maskPairs dofs F).map fun w => if w.1 = i then w.2 else 0).sum =
      ∑ a ∈ Finset.range F.length, if dofs[a]? = some (i : Int) then F.getD a 0 else 0 := by
  induction F generalizing dofs with
  | nil => simp [maskPairs]
  | cons x F ih =>
    cases dofs with
    | nil => simp at hl
    | cons d dofs =>
      rw [List.length_cons, Finset.sum_range_succ']
      have := ih dofs (by simpa using hl)
      unfold maskPairs at this ⊢
      rw [List.zip_cons_cons]
      by_cases h0 : 0 ≤ d
      · rw [List.filterMap_cons_some (b := (d.toNat, x)) (by simp [h0]), List.map_cons, List.sum_cons, this, add_comm]
        simp only [List.getElem?_cons_succ, List.getD_cons_succ, List.getElem?_cons_zero, List.getD_cons_zero,
          Option.some.injEq]
        congr 1
        have : d.toNat = i ↔ d = (i : Int) := by omega
        simp [this]
      · rw [List.filterMap_cons_none (by simp [h0]), this]
        simp only [List.getElem?_cons_succ, List.getD_cons_succ, List.getElem?_cons_zero, List.getD_cons_zero,
          Option.some.injEq]
        have : ¬ d = (i : Int) := by omega
        simp [this]

theorem maskPairs_mem {dofs : List Int} {F : List K} {k : Nat} (h : k ∈ (maskPairs dofs F).map Prod.fst) :
    ∃ a : Nat, dofs[a]? = some (k : Int) := by
  unfold maskPairs at h
  rw [List.mem_map] at h
  obtain ⟨⟨k', x⟩, hm, rfl⟩ := h
  rw [List.mem_filterMap] at hm
  obtain ⟨⟨d, y⟩, hz, h⟩ := hm
  simp only at h
  split at h
  · rename_i h0
    simp at h
    have := (List.of_mem_zip hz).1
    obtain ⟨a, ha⟩ := List.getElem?_of_mem this
    refine ⟨a, ?_⟩
    rw [ha]
    simp only [Option.some.injEq]
    omega
  · simp at h

theorem maskPairs_nodup (dofs : List Int) (F : List K) (h : ActiveNodup dofs) :
    ((maskPairs dofs F).map Prod.fst).Nodup := by
  induction F generalizing dofs with
  | nil => simp [maskPairs]
  | cons x F ih =>
    cases dofs with
    | nil => simp [maskPairs]
    | cons d dofs =>
      have htail : ActiveNodup dofs := by
        intro a b k ha hb hk
        have := h (a+1) (b+1) k (by simpa using ha) (by simpa using hb) hk
        omega
      have hrec := ih dofs htail
      by_cases h0 : 0 ≤ d
      · have : maskPairs (d :: dofs) (x :: F) = (d.toNat, x) :: maskPairs dofs F := by
          unfold maskPairs
          rw [List.zip_cons_cons, List.filterMap_cons_some (b := (d.toNat, x)) (by simp [h0])]
        rw [this, List.map_cons, List.nodup_cons]
        refine ⟨fun hm => ?_, hrec⟩
        obtain ⟨a, ha⟩ := maskPairs_mem hm
        have := h 0 (a+1) d (by simp) (by simp [ha]; omega) h0
        omega
      · have : maskPairs (d :: dofs) (x :: F) = maskPairs dofs F := by
          unfold maskPairs
          rw [List.zip_cons_cons, List.filterMap_cons_none (by simp [h0])]
        rw [this]; exact hrec

theorem node_activeNodup {dofv : List (List Int)} {n : Nat} (hn : Numbered dofv n) (i : Nat) :
    ActiveNodup ((dofv[i]?).getD []) := by
  intro a b k ha hb hk
  have key : ∀ a : Nat, ((dofv[i]?).getD [])[a]? = some k → entry dofv (i, a) = some k := by
    intro a h
    cases h' : dofv[i]? with
    | none => simp [h'] at h
    | some l => simpa [entry, h'] using h
  have ha := key a ha
  have hb := key b hb
  have hkn := hn.1 _ k ha hk
  obtain ⟨k', rfl⟩ := Int.eq_ofNat_of_zero_le hk
  obtain ⟨ij, _, huniq⟩ := hn.2 k' (by exact_mod_cast hkn)
  have := (huniq _ ha).trans (huniq _ hb).symm
  simpa using this

theorem node_bound {dofv : List (List Int)} {n : Nat} (hn : Numbered dofv n) (i : Nat) :
    ∀ (a : Nat) (k : Int), ((dofv[i]?).getD [])[a]? = some k → 0 ≤ k → k < n := by
  intro a k h hk
  cases h' : dofv[i]? with
  | none => simp [h'] at h
  | some l => exact hn.1 (i, a) k (by simpa [entry, h'] using h) hk

/-- The dof vector a load acts on and its force vector. -/
def loadTarget (dofv : List (List Int)) (elems : List (Elem K)) : Load K → List Int × List K
  | .point _ n v f => ((dofv[n]?).getD [], v.map (f * ·))
  | .line _ e F => ((elems[e]?).elim [] (globalDofs dofv), F)

theorem loadAndDofs_ok {dofv : List (List Int)} {elems : List (Elem K)} {l : Load K} {W : List (Nat × K)}
    (h : loadAndDofs dofv elems l = .ok W) :
    (loadTarget dofv elems l).1.length = (loadTarget dofv elems l).2.length ∧
      W = maskPairs (loadTarget dofv elems l).1 (loadTarget dofv elems l).2 := by
  cases l with
  | point s n v f => exact maskLoad_ok h
  | line s e F =>
    unfold loadAndDofs at h
    cases he : elems[e]? with
    | none => simp [he] at h
    | some el =>
      simp only [he] at h
      have := maskLoad_ok h
      simpa [loadTarget, he] using this

theorem loadTarget_nodup {dofv : List (List Int)} {n : Nat} (hn : Numbered dofv n) {elems : List (Elem K)}
    (he : ∀ e ∈ elems, e.n1 ≠ e.n2) (l : Load K) : ActiveNodup (loadTarget dofv elems l).1 := by
  cases l with
  | point s i v f => exact node_activeNodup hn i
  | line s e F =>
    simp only [loadTarget]
    cases h : elems[e]? with
    | none => intro a b k ha; simp at ha
    | some el => exact globalDofs_activeNodup hn el (he el (List.mem_of_getElem? h))

theorem loadTarget_bound {dofv : List (List Int)} {n : Nat} (hn : Numbered dofv n) (elems : List (Elem K))
    (l : Load K) : ∀ (a : Nat) (k : Int), (loadTarget dofv elems l).1[a]? = some k → 0 ≤ k → k < n := by
  cases l with
  | point s i v f => exact node_bound hn i
  | line s e F =>
    simp only [loadTarget]
    cases h : elems[e]? with
    | none => intro a k ha; simp at ha
    | some el => exact globalDofs_bound hn el

/-- Contribution of one load to entry `d` of the load vector. -/
def contrib (dofv : List (List Int)) (elems : List (Elem K)) (l : Load K) (d : Nat) : K :=
  ∑ a ∈ Finset.range (loadTarget dofv elems l).2.length,
    if (loadTarget dofv elems l).1[a]? = some (d : Int) then (loadTarget dofv elems l).2.getD a 0 else 0

/-- The whole fold, starting from `g`. -/
theorem globalLoad_fold {dofv : List (List Int)} {n : Nat} (hn : Numbered dofv n) {elems : List (Elem K)}
    (he : ∀ e ∈ elems, e.n1 ≠ e.n2) (sid : Nat) :
    ∀ (loads : List (Load K)) (g g' : Nat → K),
    loads.foldlM (fun g l =>
      if l.sid = sid then do
        let W ← loadAndDofs dofv elems l
        pure (fancyAdd g W)
      else pure g) g = Except.ok g' ↔
    ((∀ l ∈ loads, l.sid = sid → ∃ W, loadAndDofs dofv elems l = .ok W) ∧
      g' = fun d => g d + ((loads.filter (·.sid = sid)).map fun l => contrib dofv elems l d).sum) := by
  intro loads
  induction loads with
  | nil =>
    intro g g'
    simp only [List.foldlM_nil, List.not_mem_nil, false_implies, implies_true, List.filter_nil, List.map_nil,
      List.sum_nil, add_zero, true_and]
    constructor
    · intro h; cases h; rfl
    · intro h; rw [h]; rfl
  | cons l loads ih =>
    intro g g'
    rw [List.foldlM_cons]
    by_cases hs : l.sid = sid
    · simp only [hs, if_true, List.forall_mem_cons, forall_true_left, List.filter_cons, decide_true, List.map_cons,
        List.sum_cons]
      cases hW : loadAndDofs dofv elems l with
      | error e =>
        constructor
        · intro h; cases h
        · rintro ⟨⟨⟨W, hW'⟩, _⟩, _⟩; cases hW'
      | ok W =>
        have h2 : fancyAdd g W = fun d => g d + contrib dofv elems l d := by
          obtain ⟨hl, rfl⟩ := loadAndDofs_ok hW
          ext d
          rw [fancyAdd_apply _ _ (maskPairs_nodup _ _ (loadTarget_nodup hn he l)), maskPairs_sum _ _ _ hl]
          rfl
        have h3 := ih (fancyAdd g W) g'
        have h4 : ((do let W ← (Except.ok W : Except PyErr _); pure (fancyAdd g W)) >>= fun g =>
            List.foldlM (fun g l => if l.sid = sid then do
              let W ← loadAndDofs dofv elems l
              pure (fancyAdd g W) else pure g) g loads) = List.foldlM (fun g l => if l.sid = sid then do
              let W ← loadAndDofs dofv elems l
              pure (fancyAdd g W) else pure g) (fancyAdd g W) loads := rfl
        rw [h4, h3, h2]
        constructor
        · rintro ⟨h5, rfl⟩
          refine ⟨⟨⟨W, rfl⟩, h5⟩, ?_⟩
          ext d; ring
        · rintro ⟨⟨_, h5⟩, rfl⟩
          refine ⟨h5, ?_⟩
          ext d; ring
    · simp only [hs, if_false, List.forall_mem_cons, false_implies, true_and, List.filter_cons, decide_false,
        Bool.false_eq_true]
      exact ih g g'

theorem globalLoad_iff {dofv : List (List Int)} {n : Nat} (hn : Numbered dofv n) {elems : List (Elem K)}
    (he : ∀ e ∈ elems, e.n1 ≠ e.n2) (sid : Nat) (loads : List (Load K)) (g : Nat → K) :
    globalLoad dofv elems loads sid = .ok g ↔
    ((∀ l ∈ loads, l.sid = sid → ∃ W, loadAndDofs dofv elems l = .ok W) ∧
      g = fun d => ((loads.filter (·.sid = sid)).map fun l => contrib dofv elems l d).sum) := by
  unfold globalLoad
  rw [globalLoad_fold hn he]
  simp

end Metku.Fem
