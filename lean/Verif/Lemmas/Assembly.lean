import Verif.Lemmas.Numbering
import Mathlib.Algebra.BigOperators.Ring.Finset
import Mathlib.Algebra.BigOperators.Ring.List
import Mathlib.Tactic.Ring

/-! Helper lemmas about `fancyAdd`, `elemWrites`, `globalStiffness`. -/
namespace Metku.Fem

set_option linter.unusedSectionVars false

variable {K : Type} [Field K]

theorem fancyFold_functional {ι : Type} [DecidableEq ι] (S : Finset ι) (f : ι → K) (A : ι → K) :
    ∀ (W : List (ι × K)) (M : ι → K), (W.map Prod.fst).Nodup → (∀ w ∈ W, w.1 ∈ S) →
      (∀ w ∈ W, M w.1 = A w.1) →
      ∑ i ∈ S, f i * (W.foldl (fun M w => Function.update M w.1 (A w.1 + w.2)) M) i =
        ∑ i ∈ S, f i * M i + (W.map fun w => f w.1 * w.2).sum := by
  intro W
  induction W with
  | nil => intro M _ _ _; simp
  | cons w W ih =>
    intro M hnd hS hM
    rw [List.map_cons, List.nodup_cons] at hnd
    rw [List.foldl_cons, ih _ hnd.2 (fun x hx => hS x (List.mem_cons_of_mem _ hx))]
    · have hw : w.1 ∈ S := hS w List.mem_cons_self
      rw [List.map_cons, List.sum_cons, ← Finset.add_sum_erase S _ hw, ← Finset.add_sum_erase S _ hw]
      have : ∑ x ∈ S.erase w.1, f x * Function.update M w.1 (A w.1 + w.2) x
          = ∑ x ∈ S.erase w.1, f x * M x := by
        apply Finset.sum_congr rfl
        intro x hx
        rw [Function.update_of_ne (Finset.ne_of_mem_erase hx)]
      rw [this, Function.update_self, hM w List.mem_cons_self]
      ring
    · intro x hx
      have hne : x.1 ≠ w.1 := by
        intro h
        apply hnd.1
        rw [← h]
        exact List.mem_map_of_mem hx
      rw [Function.update_of_ne hne]
      exact hM x (List.mem_cons_of_mem _ hx)

theorem fancyAdd_functional {ι : Type} [DecidableEq ι] (S : Finset ι) (f : ι → K) (A : ι → K)
    (W : List (ι × K)) (hnd : (W.map Prod.fst).Nodup) (hS : ∀ w ∈ W, w.1 ∈ S) :
    ∑ i ∈ S, f i * fancyAdd A W i = ∑ i ∈ S, f i * A i + (W.map fun w => f w.1 * w.2).sum :=
  fancyFold_functional S f A W A hnd hS (fun _ _ => rfl)

theorem activeIdx_mem (ve : List Int) (p : Nat × Nat) :
    p ∈ activeIdx ve ↔ ve[p.1]? = some (p.2 : Int) := by
  unfold activeIdx
  simp only [List.mem_filterMap, Prod.exists]
  constructor
  · rintro ⟨d, a, hm, h⟩
    rw [List.mem_zipIdx_iff_getElem?] at hm
    split at h
    · rename_i h0
      simp at h
      subst h
      simp only
      rw [hm, Int.toNat_of_nonneg h0]
    · simp at h
  · intro h
    exact ⟨p.2, p.1, by rw [List.mem_zipIdx_iff_getElem?]; exact h, by simp⟩

theorem activeIdx_sum (g : Nat → Nat → K) (ve : List Int) :
    ((activeIdx ve).map fun p => g p.1 p.2).sum =
      ∑ a ∈ Finset.range ve.length,
        (match ve[a]? with | some d => if 0 ≤ d then g a d.toNat else 0 | none => 0) := by
  unfold activeIdx
  suffices h : ∀ (ve : List Int) (s : Nat),
      (((ve.zipIdx s).filterMap fun da => if 0 ≤ da.1 then some (da.2, da.1.toNat) else none).map
        fun p => g p.1 p.2).sum =
      ∑ a ∈ Finset.range ve.length,
        (match ve[a]? with | some d => if 0 ≤ d then g (a + s) d.toNat else 0 | none => 0) by
    simpa using h ve 0
  intro ve
  induction ve with
  | nil => intro s; simp
  | cons d ve ih =>
    intro s
    rw [List.zipIdx_cons, List.length_cons, Finset.sum_range_succ']
    have := ih (s+1)
    by_cases h0 : 0 ≤ d
    · rw [List.filterMap_cons_some (b := (s, d.toNat)) (by simp [h0]), List.map_cons, List.sum_cons, this]
      simp only [List.getElem?_cons_succ, List.getElem?_cons_zero, h0, if_true, zero_add]
      rw [add_comm]
      congr 1
      apply Finset.sum_congr rfl
      intro a _
      rw [show a + (s + 1) = a + 1 + s by ring]
    · rw [List.filterMap_cons_none (by simp [h0]), this]
      simp only [List.getElem?_cons_succ, List.getElem?_cons_zero, h0, if_false, add_zero]
      apply Finset.sum_congr rfl
      intro a _
      rw [show a + (s + 1) = a + 1 + s by ring]

/-- No active number occurs twice in the element's dof vector. -/
def ActiveNodup (ve : List Int) : Prop :=
  ∀ (a b : Nat) (k : Int), ve[a]? = some k → ve[b]? = some k → 0 ≤ k → a = b

theorem activeIdx_fst_nodup (ve : List Int) : ((activeIdx ve).map Prod.fst).Nodup := by
  unfold activeIdx
  suffices h : ∀ (ve : List Int) (s : Nat),
      (((ve.zipIdx s).filterMap fun da => if 0 ≤ da.1 then some (da.2, da.1.toNat) else none).map
        Prod.fst).Nodup ∧
      ∀ x ∈ (((ve.zipIdx s).filterMap fun da => if 0 ≤ da.1 then some (da.2, da.1.toNat) else none).map
        Prod.fst), s ≤ x from (h ve 0).1
  intro ve
  induction ve with
  | nil => intro s; simp
  | cons d ve ih =>
    intro s
    rw [List.zipIdx_cons]
    obtain ⟨h1, h2⟩ := ih (s+1)
    by_cases h0 : 0 ≤ d
    · rw [List.filterMap_cons_some (b := (s, d.toNat)) (by simp [h0])]
      refine ⟨?_, ?_⟩
      · rw [List.map_cons, List.nodup_cons]
        refine ⟨fun hm => ?_, h1⟩
        have := h2 _ hm
        simp only at this
        omega
      · intro x hx
        rw [List.map_cons, List.mem_cons] at hx
        rcases hx with rfl | hx
        · simp
        · have := h2 x hx; omega
    · rw [List.filterMap_cons_none (by simp [h0])]
      exact ⟨h1, fun x hx => by have := h2 x hx; omega⟩

theorem activeIdx_snd_nodup (ve : List Int) (h : ActiveNodup ve) :
    ((activeIdx ve).map Prod.snd).Nodup := by
  have h1 := activeIdx_fst_nodup ve
  rw [List.nodup_map_iff_inj_on (List.Nodup.of_map _ h1)]
  intro x hx y hy hxy
  rw [activeIdx_mem] at hx hy
  have := h x.1 y.1 x.2 hx (by rw [hy, hxy]) (by omega)
  exact Prod.ext this hxy

theorem elemWrites_keys_nodup (ke : Nat → Nat → K) (ve : List Int) (h : ActiveNodup ve) :
    ((elemWrites ke ve).map Prod.fst).Nodup := by
  have h2 := activeIdx_snd_nodup ve h
  have : (elemWrites ke ve).map Prod.fst =
      ((activeIdx ve).map Prod.snd) ×ˢ ((activeIdx ve).map Prod.snd) := by
    unfold elemWrites
    rw [List.map_flatMap]
    simp only [List.map_map, SProd.sprod, List.product, List.flatMap_map, Function.comp_def]
  rw [this]
  exact List.Nodup.product h2 h2

theorem elemWrites_bound (ke : Nat → Nat → K) (ve : List Int) (n : Nat)
    (h : ∀ (a : Nat) (k : Int), ve[a]? = some k → 0 ≤ k → k < n) :
    ∀ w ∈ elemWrites ke ve, w.1.1 < n ∧ w.1.2 < n := by
  intro w hw
  unfold elemWrites at hw
  rw [List.mem_flatMap] at hw
  obtain ⟨r, hr, hw⟩ := hw
  rw [List.mem_map] at hw
  obtain ⟨c, hc, rfl⟩ := hw
  rw [activeIdx_mem] at hr hc
  have h1 := h _ _ hr (by omega)
  have h2 := h _ _ hc (by omega)
  simp only
  omega

theorem elemWrites_form (ke : Nat → Nat → K) (ve : List Int) (w u : Nat → K) :
    ((elemWrites ke ve).map fun x => w x.1.1 * u x.1.2 * x.2).sum =
      form ve.length ke (fun a => valAt w ve[a]?) (fun b => valAt u ve[b]?) := by
  unfold elemWrites form
  rw [List.map_flatMap, List.flatMap_def, List.sum_flatten, List.map_map]
  simp only [List.map_map, Function.comp_def]
  rw [activeIdx_sum (fun a r => (List.map (fun x => w r * u x.2 * ke a x.1) (activeIdx ve)).sum)]
  apply Finset.sum_congr rfl
  intro a _
  cases h : ve[a]? with
  | none => simp [valAt]
  | some d =>
    simp only [valAt]
    split
    · rw [activeIdx_sum (fun b c => w d.toNat * u c * ke a b)]
      apply Finset.sum_congr rfl
      intro b _
      cases ve[b]? with
      | none => simp
      | some x =>
        simp only
        split
        · ring
        · simp
    · simp

theorem globalStiffness_form (dofv : List (List Int)) (n : Nat) (w u : Nat → K) (es : List (Elem K)) :
    ∀ (M : Nat × Nat → K),
    (∀ e ∈ es, ActiveNodup (globalDofs dofv e)) →
    (∀ e ∈ es, ∀ (a : Nat) (k : Int), (globalDofs dofv e)[a]? = some k → 0 ≤ k → k < n) →
    form n (fun r c => (es.foldl (fun M e => fancyAdd M (elemWrites e.ke (globalDofs dofv e))) M) (r, c)) w u
      = form n (fun r c => M (r, c)) w u +
        (es.map fun e => form (globalDofs dofv e).length e.ke
          (fun a => valAt w (globalDofs dofv e)[a]?) (fun b => valAt u (globalDofs dofv e)[b]?)).sum := by
  have conv : ∀ M : Nat × Nat → K, form n (fun r c => M (r, c)) w u =
      ∑ i ∈ Finset.range n ×ˢ Finset.range n, (w i.1 * u i.2) * M i := by
    intro M
    unfold form
    rw [Finset.sum_product]
    apply Finset.sum_congr rfl; intro r _
    apply Finset.sum_congr rfl; intro c _
    ring
  induction es with
  | nil => intro M _ _; simp
  | cons e es ih =>
    intro M h1 h2
    rw [List.foldl_cons, ih _ (fun x hx => h1 x (List.mem_cons_of_mem _ hx))
      (fun x hx => h2 x (List.mem_cons_of_mem _ hx)), List.map_cons, List.sum_cons, ← add_assoc]
    congr 1
    rw [conv, conv, fancyAdd_functional (Finset.range n ×ˢ Finset.range n)
      (fun i => w i.1 * u i.2) M _ (elemWrites_keys_nodup _ _ (h1 e List.mem_cons_self)),
      elemWrites_form]
    intro x hx
    have := elemWrites_bound e.ke _ n (h2 e List.mem_cons_self) x hx
    simp [this]

theorem globalDofs_pos {dofv : List (List Int)} (e : Elem K) (a : Nat) (k : Int)
    (h : (globalDofs dofv e)[a]? = some k) :
    (a < (takeDofs e.kind.taken ((dofv[e.n1]?).getD [])).length ∧ entry dofv (e.n1, a) = some k) ∨
    ((takeDofs e.kind.taken ((dofv[e.n1]?).getD [])).length ≤ a ∧
      entry dofv (e.n2, a - (takeDofs e.kind.taken ((dofv[e.n1]?).getD [])).length) = some k) := by
  have key : ∀ (t : Option Nat) (l : List Int) (a : Nat), (takeDofs t l)[a]? = some k → l[a]? = some k := by
    intro t l a h
    cases t with
    | none => exact h
    | some t =>
      simp only [takeDofs, List.getElem?_take] at h
      split at h <;> simp_all
  have key2 : ∀ (i a : Nat), ((dofv[i]?).getD [])[a]? = some k → entry dofv (i, a) = some k := by
    intro i a h
    cases h' : dofv[i]? with
    | none => simp [h'] at h
    | some l => simpa [entry, h'] using h
  unfold globalDofs at h
  rw [List.getElem?_append] at h
  split at h
  · rename_i hl
    exact Or.inl ⟨hl, key2 _ _ (key _ _ _ h)⟩
  · rename_i hl
    exact Or.inr ⟨by omega, key2 _ _ (key _ _ _ h)⟩

theorem globalDofs_activeNodup {dofv : List (List Int)} {n : Nat} (hn : Numbered dofv n) (e : Elem K)
    (hne : e.n1 ≠ e.n2) : ActiveNodup (globalDofs dofv e) := by
  intro a b k ha hb hk
  have pa := globalDofs_pos e a k ha
  have pb := globalDofs_pos e b k hb
  have hkn : k < n := by
    rcases pa with ⟨_, h⟩ | ⟨_, h⟩ <;> exact hn.1 _ k h hk
  obtain ⟨k', rfl⟩ := Int.eq_ofNat_of_zero_le hk
  obtain ⟨ij, _, huniq⟩ := hn.2 k' (by exact_mod_cast hkn)
  rcases pa with ⟨la, ha⟩ | ⟨la, ha⟩ <;> rcases pb with ⟨lb, hb⟩ | ⟨lb, hb⟩
  · have := (huniq _ ha).trans (huniq _ hb).symm
    simpa using this
  · have := (huniq _ ha).trans (huniq _ hb).symm
    simp at this; exact absurd this.1 hne
  · have := (huniq _ ha).trans (huniq _ hb).symm
    simp at this; exact absurd this.1.symm hne
  · have := (huniq _ ha).trans (huniq _ hb).symm
    simp at this; omega

theorem globalDofs_bound {dofv : List (List Int)} {n : Nat} (hn : Numbered dofv n) (e : Elem K) :
    ∀ (a : Nat) (k : Int), (globalDofs dofv e)[a]? = some k → 0 ≤ k → k < n := by
  intro a k h hk
  rcases globalDofs_pos e a k h with ⟨_, h⟩ | ⟨_, h⟩ <;> exact hn.1 _ k h hk

theorem form_single (n : Nat) (M : Nat → Nat → K) (r c : Nat) (hr : r < n) (hc : c < n) :
    form n M (fun i => if i = r then 1 else 0) (fun i => if i = c then 1 else 0) = M r c := by
  unfold form
  rw [Finset.sum_eq_single r, Finset.sum_eq_single c]
  · simp
  · intro b _ hb; simp [hb]
  · intro h; exact absurd (Finset.mem_range.mpr hc) h
  · intro b _ hb; simp [hb]
  · intro h; exact absurd (Finset.mem_range.mpr hr) h

end Metku.Fem
