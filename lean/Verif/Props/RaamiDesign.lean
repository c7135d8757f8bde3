import Mathlib.Tactic.Linarith
import Mathlib.Tactic.NormNum
import Mathlib.Data.Rat.Floor
import Mathlib.Algebra.Order.Ring.Rat
import Verif.Model.RaamiDesign

/-! Design of the members of a `Raami` frame: search of profiles for members and groups. -/
set_option linter.unusedSectionVars false

namespace Metku.Raami

variable {K : Type} [Field K] [LinearOrder K] [IsStrictOrderedRing K] {F : Type}

/-! ### Design of several members -/

/-- The utilization of a member for its section and forces; without a section, the old one. -/
def utilOf (S : Setup K F) (s : DState K F) (x l : ℕ) : K :=
  match s.sections[x]? with
  | none => s.util x l
  | some p => S.util x p (s.forces x l)

/-- Design of several members for one load case. -/
def designList (S : Setup K F) (D : List ℕ) (s : DState K F) (l : ℕ) : DState K F := D.foldl (fun s x => s.design S x l) s

/-- Design of several members for several load cases. -/
def designAll (S : Setup K F) (D loads : List ℕ) (s : DState K F) : DState K F := loads.foldl (designList S D) s

@[simp] theorem design_sections (S : Setup K F) (s : DState K F) (m l : ℕ) : (s.design S m l).sections = s.sections := by
  unfold DState.design
  split <;> rfl

@[simp] theorem design_forces (S : Setup K F) (s : DState K F) (m l : ℕ) : (s.design S m l).forces = s.forces := by
  unfold DState.design
  split <;> rfl

theorem design_util (S : Setup K F) (s : DState K F) (m l x k : ℕ) :
    (s.design S m l).util x k = if x = m ∧ k = l then utilOf S s x k else s.util x k := by
  unfold DState.design utilOf
  cases hp : s.sections[m]? with
  | none =>
    by_cases h : x = m ∧ k = l
    · obtain ⟨rfl, rfl⟩ := h
      simp [hp]
    · simp [h]
  | some p =>
    by_cases h : x = m ∧ k = l
    · obtain ⟨rfl, rfl⟩ := h
      simp [hp]
    · simp [h]

theorem utilOf_congr {S : Setup K F} {s t : DState K F} {x l : ℕ} (h1 : t.sections = s.sections) (h2 : t.forces = s.forces)
    (h3 : s.sections[x]? = none → t.util x l = s.util x l) : utilOf S t x l = utilOf S s x l := by
  unfold utilOf
  rw [h1, h2]
  cases hp : s.sections[x]? with
  | none => exact h3 hp
  | some p => rfl

theorem utilOf_design (S : Setup K F) (s : DState K F) (m l x k : ℕ) : utilOf S (s.design S m l) x k = utilOf S s x k := by
  refine utilOf_congr (design_sections ..) (design_forces ..) (fun h => ?_)
  rw [design_util]
  split
  · unfold utilOf; rw [h]
  · rfl

theorem designList_spec (S : Setup K F) (l : ℕ) : ∀ (D : List ℕ) (s : DState K F), (designList S D s l).sections = s.sections ∧ (designList S D s l).forces = s.forces
    ∧ (∀ x k, utilOf S (designList S D s l) x k = utilOf S s x k) ∧ ∀ x k, (designList S D s l).util x k = if x ∈ D ∧ k = l then utilOf S s x k else s.util x k
  | [], s => by simp [designList]
  | d :: D, s => by
    obtain ⟨h1, h2, h3, h4⟩ := designList_spec S l D (s.design S d l)
    have e : designList S (d :: D) s l = designList S D (s.design S d l) l := rfl
    rw [e]
    refine ⟨by rw [h1, design_sections], by rw [h2, design_forces], fun x k => by rw [h3, utilOf_design], fun x k => ?_⟩
    rw [h4, utilOf_design, design_util]
    by_cases hk : k = l
    · by_cases hd : x ∈ D
      · simp [hk, hd]
      · by_cases hx : x = d <;> simp [hk, hd, hx]
    · simp [hk]

theorem designAll_spec (S : Setup K F) (D : List ℕ) : ∀ (loads : List ℕ) (s : DState K F), (designAll S D loads s).sections = s.sections
    ∧ (designAll S D loads s).forces = s.forces ∧ (∀ x k, utilOf S (designAll S D loads s) x k = utilOf S s x k)
    ∧ ∀ x k, (designAll S D loads s).util x k = if x ∈ D ∧ k ∈ loads then utilOf S s x k else s.util x k
  | [], s => by simp [designAll]
  | l :: loads, s => by
    obtain ⟨g1, g2, g3, g4⟩ := designList_spec S l D s
    obtain ⟨h1, h2, h3, h4⟩ := designAll_spec S D loads (designList S D s l)
    have e : designAll S D (l :: loads) s = designAll S D loads (designList S D s l) := rfl
    rw [e]
    refine ⟨by rw [h1, g1], by rw [h2, g2], fun x k => by rw [h3, g3], fun x k => ?_⟩
    rw [h4, g3, g4]
    by_cases hD : x ∈ D
    · by_cases hl : k ∈ loads
      · simp [hD, hl]
      · by_cases hk : k = l <;> simp [hD, hl, hk]
    · simp [hD]

/-! ### Sections of several members -/

/-- The section `p` for all members of a list. -/
def putAll (T : List ℕ) (p : Prof K) (s : DState K F) : DState K F := { s with sections := T.foldl (fun l i => l.set i p) s.sections }

theorem foldl_set_get {α : Type} (p : α) : ∀ (T : List ℕ) (l : List α) (i : ℕ), (T.foldl (fun l i => l.set i p) l)[i]? = if i ∈ T then (l[i]?).map (fun _ => p) else l[i]?
  | [], l, i => by simp
  | t :: T, l, i => by
    rw [List.foldl_cons, foldl_set_get p T (l.set t p) i, List.getElem?_set]
    by_cases hT : i ∈ T
    · by_cases ht : t = i
      · subst ht
        by_cases hl : t < l.length <;> simp [hT, hl]
      · simp [hT, ht]
    · by_cases ht : t = i
      · subst ht
        by_cases hl : t < l.length <;> simp [hl]
      · have : i ≠ t := fun e => ht e.symm
        simp [hT, ht, this]

theorem putAll_get (T : List ℕ) (p : Prof K) (s : DState K F) (i : ℕ) :
    (putAll T p s).sections[i]? = if i ∈ T then (s.sections[i]?).map (fun _ => p) else s.sections[i]? := foldl_set_get p T s.sections i

theorem foldl_set_append (p : Prof K) : ∀ (T T' : List ℕ) (s : DState K F), putAll T' p (putAll T p s) = putAll (T ++ T') p s
  | T, T', s => by simp [putAll, List.foldl_append]

/-- The members that get the section of the member `m`. -/
def reach (pair : ℕ → Option ℕ) (m : ℕ) : List ℕ := m :: (pair m).toList

theorem setSection_eq (pair : ℕ → Option ℕ) (s : DState K F) (m : ℕ) (p : Prof K) : s.setSection pair m p = putAll (reach pair m) p s := by
  unfold DState.setSection putAll reach
  cases pair m <;> rfl

theorem setAll_eq (pair : ℕ → Option ℕ) (p : Prof K) : ∀ (ms : List ℕ) (s : DState K F), setAll pair ms p s = putAll (ms.flatMap (reach pair)) p s
  | [], s => rfl
  | m :: ms, s => by
    have e : setAll pair (m :: ms) p s = setAll pair ms p (s.setSection pair m p) := rfl
    rw [e, setAll_eq pair p ms, setSection_eq, foldl_set_append, List.flatMap_cons]

theorem designBoth_eq (S : Setup K F) (pair : ℕ → Option ℕ) (m : ℕ) (loads : List ℕ) (s : DState K F) : s.designBoth S pair m loads = designAll S (reach pair m) loads s := by
  unfold DState.designBoth designAll reach
  congr 1
  funext s l
  unfold designList
  cases pair m <;> rfl

/-! ### The search of a profile -/

/-- The two searches: sections for the members `T`, design of the members `D`. -/
def gsearch (S : Setup K F) (skip : Prof K → Bool) (u : K) (T D loads : List ℕ) : List (Prof K) → DState K F → DState K F
  | [], s => s
  | p :: ps, s =>
    let s1 := putAll T p s
    if skip p then gsearch S skip u T D loads ps s1
    else
      let s2 := designAll S D loads s1
      if loads.all (fun l => D.all (fun x => decide (s2.util x l ≤ u))) then s2 else gsearch S skip u T D loads ps s2

theorem searchMember_eq (S : Setup K F) (lim : Limits K) (pair : ℕ → Option ℕ) (loads : List ℕ) (m : ℕ) : ∀ (ps : List (Prof K)) (s : DState K F),
    searchMember S lim pair loads m ps s = gsearch S (skipped S lim m) lim.util (reach pair m) (reach pair m) loads (ps.map (fun p => p.graded lim.material)) s
  | [], s => rfl
  | p :: ps, s => by
    have hf : ∀ t : DState K F, t.fits pair m loads lim.util = loads.all (fun l => (reach pair m).all (fun x => decide (t.util x l ≤ lim.util))) := by
      intro t
      unfold DState.fits reach
      cases hp : pair m with
      | none => simp
      | some m' =>
        rw [Bool.eq_iff_iff]
        simp only [Bool.and_eq_true, List.all_eq_true, Option.toList, List.all_cons, List.all_nil, Bool.and_true, decide_eq_true_eq]
        exact ⟨fun h l hl => ⟨h.1 l hl, h.2 l hl⟩, fun h => ⟨fun l hl => (h l hl).1, fun l hl => (h l hl).2⟩⟩
    simp only [searchMember, List.map_cons, gsearch]
    rw [searchMember_eq S lim pair loads m ps, searchMember_eq S lim pair loads m ps, setSection_eq, designBoth_eq, hf]

/-- The conditions before the design of a profile for a group. -/
def groupSkip (S : Setup K F) (lim : Limits K) (p : Prof K) : Bool := decide (p.b < lim.bmin ∨ lim.bmax < p.b) || decide (lim.cls < S.cls p)

theorem designGroup_spec (S : Setup K F) (l : ℕ) (u : K) : ∀ (ms : List ℕ) (s : DState K F) (a : K),
    (ms.foldl (fun r m => let s1 := r.1.design S m l; (s1, max r.2 (s1.util m l))) (s, a)).1 = designList S ms s l
    ∧ ((ms.foldl (fun r m => let s1 := r.1.design S m l; (s1, max r.2 (s1.util m l))) (s, a)).2 ≤ u ↔ a ≤ u ∧ ∀ m ∈ ms, utilOf S s m l ≤ u)
  | [], s, a => by simp [designList]
  | m :: ms, s, a => by
    rw [List.foldl_cons]
    obtain ⟨h1, h2⟩ := designGroup_spec S l u ms (s.design S m l) (max a ((s.design S m l).util m l))
    refine ⟨h1, h2.trans ?_⟩
    rw [max_le_iff, design_util, if_pos ⟨rfl, rfl⟩]
    simp only [utilOf_design, List.mem_cons, forall_eq_or_imp]
    tauto

theorem designGroupAll_spec (S : Setup K F) {u : K} (hu : 0 ≤ u) (ms : List ℕ) : ∀ (loads : List ℕ) (s : DState K F) (b : Bool),
    (loads.foldl (fun r l => let d := designGroup S r.1 ms l; (d.1, r.2 && decide (d.2 ≤ u))) (s, b)).1 = designAll S ms loads s
    ∧ ((loads.foldl (fun r l => let d := designGroup S r.1 ms l; (d.1, r.2 && decide (d.2 ≤ u))) (s, b)).2 = true ↔ b = true ∧ ∀ l ∈ loads, ∀ m ∈ ms, utilOf S s m l ≤ u)
  | [], s, b => by simp [designAll]
  | l :: loads, s, b => by
    obtain ⟨g1, g2⟩ := designGroup_spec S l u ms s 0
    rw [List.foldl_cons]
    obtain ⟨h1, h2⟩ := designGroupAll_spec S hu ms loads (designGroup S s ms l).1 (b && decide ((designGroup S s ms l).2 ≤ u))
    have e : (designGroup S s ms l).1 = designList S ms s l := g1
    have e2 : (designGroup S s ms l).2 ≤ u ↔ ∀ m ∈ ms, utilOf S s m l ≤ u := g2.trans ⟨fun h => h.2, fun h => ⟨hu, h⟩⟩
    constructor
    · refine Eq.trans h1 ?_
      rw [e]
      rfl
    · refine h2.trans ?_
      rw [Bool.and_eq_true, decide_eq_true_eq, e2, e]
      simp only [(designList_spec S l ms s).2.2.1, List.mem_cons, forall_eq_or_imp]
      tauto

theorem designAll_ok (S : Setup K F) (u : K) (D loads : List ℕ) (s : DState K F) :
    loads.all (fun l => D.all (fun x => decide ((designAll S D loads s).util x l ≤ u))) = true ↔ ∀ l ∈ loads, ∀ x ∈ D, utilOf S s x l ≤ u := by
  simp only [List.all_eq_true, decide_eq_true_eq]
  refine forall₂_congr (fun l hl => forall₂_congr (fun x hx => ?_))
  rw [(designAll_spec S D loads s).2.2.2, if_pos ⟨hx, hl⟩]

theorem searchGroup_eq (S : Setup K F) (lim : Limits K) (hu : 0 ≤ lim.util) (pair : ℕ → Option ℕ) (loads ms : List ℕ) : ∀ (ps : List (Prof K)) (s : DState K F),
    searchGroup S lim pair loads ms ps s = gsearch S (groupSkip S lim) lim.util (ms.flatMap (reach pair)) ms loads (ps.map (fun p => p.graded lim.material)) s
  | [], s => rfl
  | p :: ps, s => by
    simp only [searchGroup, List.map_cons, gsearch]
    rw [searchGroup_eq S lim hu pair loads ms ps, searchGroup_eq S lim hu pair loads ms ps, setAll_eq]
    obtain ⟨h1, h2⟩ := designGroupAll_spec S hu ms loads (putAll (ms.flatMap (reach pair)) (p.graded lim.material) s) true
    have e1 : (designGroupAll S lim.util ms loads (putAll (ms.flatMap (reach pair)) (p.graded lim.material) s)).1 = designAll S ms loads (putAll (ms.flatMap (reach pair)) (p.graded lim.material) s) := h1
    have e2 : (designGroupAll S lim.util ms loads (putAll (ms.flatMap (reach pair)) (p.graded lim.material) s)).2
        = loads.all (fun l => ms.all (fun x => decide ((designAll S ms loads (putAll (ms.flatMap (reach pair)) (p.graded lim.material) s)).util x l ≤ lim.util))) := by
      rw [Bool.eq_iff_iff, designAll_ok]
      exact h2.trans ⟨fun h => h.2, fun h => ⟨rfl, h⟩⟩
    rw [e1, e2]
    rfl

/-- The profile is not skipped, and the members `D` are not overloaded with it. -/
def Okay (S : Setup K F) (skip : Prof K → Bool) (u : K) (D loads : List ℕ) (forces : ℕ → ℕ → F) (p : Prof K) : Prop :=
  skip p = false ∧ ∀ l ∈ loads, ∀ x ∈ D, S.util x p (forces x l) ≤ u

/-- What a search leaves alone. -/
structure Kept (T : List ℕ) (s t : DState K F) : Prop where
  forces : t.forces = s.forces
  length : t.sections.length = s.sections.length
  others : ∀ i, i ∉ T → t.sections[i]? = s.sections[i]?
  util : ∀ i l, i ∉ T → t.util i l = s.util i l

theorem Kept.refl (T : List ℕ) (s : DState K F) : Kept T s s := ⟨rfl, rfl, fun _ _ => rfl, fun _ _ _ => rfl⟩

theorem Kept.trans {T : List ℕ} {s t r : DState K F} (h1 : Kept T s t) (h2 : Kept T t r) : Kept T s r :=
  ⟨h2.forces.trans h1.forces, h2.length.trans h1.length, fun i hi => (h2.others i hi).trans (h1.others i hi), fun i l hi => (h2.util i l hi).trans (h1.util i l hi)⟩

theorem foldl_set_length {α : Type} (p : α) : ∀ (T : List ℕ) (l : List α), (T.foldl (fun l i => l.set i p) l).length = l.length
  | [], _ => rfl
  | t :: T, l => by rw [List.foldl_cons, foldl_set_length p T, List.length_set]

theorem kept_put (T : List ℕ) (p : Prof K) (s : DState K F) : Kept T s (putAll T p s) :=
  ⟨rfl, foldl_set_length p T s.sections, fun i hi => by rw [putAll_get, if_neg hi], fun _ _ _ => rfl⟩

theorem kept_design (S : Setup K F) {T D loads : List ℕ} (hD : ∀ x ∈ D, x ∈ T) (s : DState K F) : Kept T s (designAll S D loads s) := by
  obtain ⟨h1, h2, _, h4⟩ := designAll_spec S D loads s
  refine ⟨h2, by rw [h1], fun i _ => by rw [h1], fun i l hi => ?_⟩
  rw [h4, if_neg (fun h => hi (hD i h.1))]

/-- All members of `T` have the section `p`. -/
def Has (T : List ℕ) (p : Prof K) (s : DState K F) : Prop := ∀ i ∈ T, s.sections[i]? = some p

theorem has_put {T : List ℕ} {s : DState K F} (hT : ∀ i ∈ T, i < s.sections.length) (p : Prof K) : Has T p (putAll T p s) := by
  intro i hi
  rw [putAll_get, if_pos hi, List.getElem?_eq_getElem (hT i hi)]
  rfl

theorem gsearch_kept (S : Setup K F) (skip : Prof K → Bool) (u : K) {T D loads : List ℕ} (hD : ∀ x ∈ D, x ∈ T) : ∀ (ps : List (Prof K)) (s : DState K F),
    Kept T s (gsearch S skip u T D loads ps s)
  | [], s => Kept.refl T s
  | p :: ps, s => by
    simp only [gsearch]
    split
    · exact (kept_put T p s).trans (gsearch_kept S skip u hD ps _)
    · split
      · exact (kept_put T p s).trans (kept_design S hD _)
      · exact ((kept_put T p s).trans (kept_design S hD _)).trans (gsearch_kept S skip u hD ps _)

theorem okay_iff {S : Setup K F} {u : K} {T D loads : List ℕ} {s : DState K F} {p : Prof K} (hD : ∀ x ∈ D, x ∈ T) (hT : ∀ i ∈ T, i < s.sections.length) :
    loads.all (fun l => D.all (fun x => decide ((designAll S D loads (putAll T p s)).util x l ≤ u))) = true ↔ ∀ l ∈ loads, ∀ x ∈ D, S.util x p (s.forces x l) ≤ u := by
  rw [designAll_ok]
  refine forall₂_congr (fun l hl => forall₂_congr (fun x hx => ?_))
  unfold utilOf
  rw [has_put hT p x (hD x hx)]
  rfl

/-- The search ends at the first profile that is okay. -/
theorem gsearch_first (S : Setup K F) (skip : Prof K → Bool) (u : K) {T D loads : List ℕ} (hD : ∀ x ∈ D, x ∈ T) {p : Prof K} {post : List (Prof K)} :
    ∀ (pre : List (Prof K)) (s : DState K F), (∀ i ∈ T, i < s.sections.length) → (∀ q ∈ pre, ¬ Okay S skip u D loads s.forces q) → Okay S skip u D loads s.forces p →
    Has T p (gsearch S skip u T D loads (pre ++ p :: post) s) ∧ ∀ x ∈ D, ∀ l ∈ loads, (gsearch S skip u T D loads (pre ++ p :: post) s).util x l = S.util x p (s.forces x l)
  | [], s, hT, _, hp => by
    simp only [List.nil_append, gsearch]
    rw [hp.1, if_neg (by simp), if_pos ((okay_iff hD hT).mpr hp.2)]
    obtain ⟨h1, _, _, h4⟩ := designAll_spec S D loads (putAll T p s)
    refine ⟨fun i hi => by rw [h1]; exact has_put hT p i hi, fun x hx l hl => ?_⟩
    rw [h4, if_pos ⟨hx, hl⟩]
    unfold utilOf
    rw [has_put hT p x (hD x hx)]
    rfl
  | q :: pre, s, hT, hpre, hp => by
    have hq := hpre q (List.mem_cons_self ..)
    have k1 := kept_put T q s
    have k2 := k1.trans (kept_design S (loads := loads) hD (putAll T q s))
    have step : ∀ t : DState K F, Kept T s t → Has T p (gsearch S skip u T D loads (pre ++ p :: post) t)
        ∧ ∀ x ∈ D, ∀ l ∈ loads, (gsearch S skip u T D loads (pre ++ p :: post) t).util x l = S.util x p (s.forces x l) := by
      intro t ht
      have := gsearch_first S skip u (post := post) hD pre t (fun i hi => by rw [ht.length]; exact hT i hi)
        (fun r hr => by rw [ht.forces]; exact hpre r (List.mem_cons_of_mem _ hr)) (by rw [ht.forces]; exact hp)
      rw [ht.forces] at this
      exact this
    simp only [List.cons_append, gsearch]
    split
    · exact step _ k1
    · rename_i hs
      rw [if_neg]
      · exact step _ k2
      · intro h
        exact hq ⟨by simpa using hs, (okay_iff hD hT).mp h⟩

/-- Without such a profile, the last one of the list stays. -/
theorem gsearch_none (S : Setup K F) (skip : Prof K → Bool) (u : K) {T D loads : List ℕ} (hD : ∀ x ∈ D, x ∈ T) {p : Prof K} :
    ∀ (ps : List (Prof K)) (s : DState K F), (∀ i ∈ T, i < s.sections.length) → (∀ q ∈ ps ++ [p], ¬ Okay S skip u D loads s.forces q) →
    Has T p (gsearch S skip u T D loads (ps ++ [p]) s)
  | [], s, hT, hn => by
    have hp := hn p (by simp)
    simp only [List.nil_append, gsearch]
    split
    · exact has_put hT p
    · rename_i hs
      rw [if_neg]
      · intro i hi
        rw [(designAll_spec S D loads _).1]
        exact has_put hT p i hi
      · intro h
        exact hp ⟨by simpa using hs, (okay_iff hD hT).mp h⟩
  | q :: ps, s, hT, hn => by
    have hq := hn q (List.mem_cons_self ..)
    have k1 := kept_put T q s
    have k2 := k1.trans (kept_design S (loads := loads) hD (putAll T q s))
    have step : ∀ t : DState K F, Kept T s t → Has T p (gsearch S skip u T D loads (ps ++ [p]) t) := by
      intro t ht
      exact gsearch_none S skip u hD ps t (fun i hi => by rw [ht.length]; exact hT i hi) (fun r hr => by rw [ht.forces]; exact hn r (List.mem_cons_of_mem _ hr))
    simp only [List.cons_append, gsearch]
    split
    · exact step _ k1
    · rename_i hs
      rw [if_neg]
      · exact step _ k2
      · intro h
        exact hq ⟨by simpa using hs, (okay_iff hD hT).mp h⟩

end Metku.Raami
