import Verif.Model.TrussParts
import Verif.Props.TrussLoads
import Mathlib.Data.List.Perm.Subperm
import Mathlib.Data.List.Dedup

/-!
C227: joints of roof trusses.
-/
namespace Metku.Truss

open Metku.Steel

noncomputable section

/-! ### Members at a node -/

theorem mem_incident {l : List (Ref × Ref)} {r : Ref} {b : ℕ} : b ∈ incident l r ↔ ∃ m, l[b]? = some m ∧ (m.1 = r ∨ m.2 = r) := by
  unfold incident
  rw [List.mem_filter, List.mem_range]
  cases h : l[b]? with
  | none => simp
  | some m =>
    have := (List.getElem?_eq_some_iff.1 h).1
    simp [this]

theorem incident_nodup (l : List (Ref × Ref)) (r : Ref) : (incident l r).Nodup := List.nodup_range.filter _

theorem length_le_of_subset {α : Type} {l m : List α} (h : l.Nodup) (hs : ∀ x ∈ l, x ∈ m) : l.length ≤ m.length := (List.subperm_of_subset h hs).length_le

theorem incident_nil {l : List (Ref × Ref)} {r : Ref} : incident l r = [] ↔ ∀ m ∈ l, ¬ (m.1 = r ∨ m.2 = r) := by
  constructor
  · intro h m hm hr
    obtain ⟨b, hb⟩ := List.getElem?_of_mem hm
    have : b ∈ incident l r := mem_incident.2 ⟨m, hb, hr⟩
    rw [h] at this
    exact absurd this (List.not_mem_nil)
  · intro h
    rw [List.eq_nil_iff_forall_not_mem]
    intro b hb
    obtain ⟨m, hm, hr⟩ := mem_incident.1 hb
    exact h m (List.mem_of_getElem? hm) hr

theorem chordsAt_nodup (g : Gen) (r : Ref) : (g.chordsAt r).Nodup := by
  unfold Gen.chordsAt
  dsimp only
  have ht : (incident g.topChord r).take 2 |>.Nodup := (incident_nodup _ _).sublist (List.take_sublist _ _)
  refine List.Nodup.append (ht.map fun a b h => by simpa using h) ?_ ?_
  · split
    · exact (incident_nodup _ _).map fun a b h => by simpa using h
    · exact ((incident_nodup _ _).sublist (List.take_sublist _ _)).map fun a b h => by simpa using h
  · intro a ha hb
    obtain ⟨x, -, rfl⟩ := List.mem_map.1 ha
    obtain ⟨y, -, h⟩ := List.mem_map.1 hb
    simp at h

/-! ### The loop -/

/-- What one round changes. -/
def pureStep (T : Sloped) (g : Gen) (r : Ref) (s : JState) : JState where
  joints := s.joints ++ match (incident g.braces r).length with
    | 0 => []
    | 1 => [⟨r, .Y, g.chordsAt r, incident g.braces r⟩]
    | 2 => [⟨r, .K, g.chordsAt r, incident g.braces r⟩]
    | _ => [⟨r, .KT, g.chordsAt r, incident g.braces r⟩]
  top := fun b => if r.isTop = true ∧ b ∈ incident g.braces r then some r else s.top b
  bottom := fun b => if r.isTop = false ∧ b ∈ incident g.braces r then some r else s.bottom b
  chord := fun c => s.chord c ++ if (incident g.braces r).length ≠ 0 ∧ c ∈ g.chordsAt r then [r] else []
  ridge := if 2 ≤ (incident g.braces r).length ∧ r.isTop = true ∧ g.xOf r = some T.L1 then some r else s.ridge
  new := some (if (incident g.braces r).length = 0 then none else some r)

theorem fold_top {n : Option Ref} (l : List ℕ) (s : JState) :
    l.foldl (fun s b => { s with top := Function.update s.top b n }) s = { s with top := fun b => if b ∈ l then n else s.top b } := by
  induction l generalizing s with
  | nil => simp
  | cons a l ih =>
    rw [List.foldl_cons, ih]
    congr 1
    funext b
    dsimp only
    by_cases h : b ∈ l
    · simp [h]
    · by_cases e : b = a
      · subst e
        simp
      · simp [h, e]

theorem fold_bottom {n : Option Ref} (l : List ℕ) (s : JState) :
    l.foldl (fun s b => { s with bottom := Function.update s.bottom b n }) s = { s with bottom := fun b => if b ∈ l then n else s.bottom b } := by
  induction l generalizing s with
  | nil => simp
  | cons a l ih =>
    rw [List.foldl_cons, ih]
    congr 1
    funext b
    dsimp only
    by_cases h : b ∈ l
    · simp [h]
    · by_cases e : b = a
      · subst e
        simp
      · simp [h, e]

theorem fold_chord {j : Ref} (l : List Mem) (hl : l.Nodup) (s : JState) :
    l.foldl (fun s c => { s with chord := Function.update s.chord c (s.chord c ++ [j]) }) s = { s with chord := fun c => s.chord c ++ if c ∈ l then [j] else [] } := by
  induction l generalizing s with
  | nil => simp
  | cons a l ih =>
    rw [List.foldl_cons, ih hl.of_cons]
    congr 1
    funext c
    dsimp only
    by_cases e : c = a
    · subst e
      have : c ∉ l := (List.nodup_cons.1 hl).1
      simp [this]
    · simp [e]

theorem jointStep_eq (T : Sloped) (g : Gen) (r : Ref) (s : JState) (h3 : (incident g.braces r).length ≤ 3) (hc : (incident g.braces r).length ≠ 0 → g.chordsAt r ≠ []) :
    jointStep T g r s = .ok (pureStep T g r s) := by
  unfold jointStep makeJoint pureStep setRidge
  have hnil : (incident g.braces r).length = 0 → incident g.braces r = [] := List.eq_nil_of_length_eq_zero
  generalize hk : (incident g.braces r).length = k at h3 hc hnil
  have hb : r.isTop = true ∨ r.isTop = false := by cases r.isTop <;> simp
  have : k = 0 ∨ k = 1 ∨ k = 2 ∨ k = 3 := by omega
  rcases this with rfl | rfl | rfl | rfl
  · simp only [bind, Except.bind, hnil rfl]
    simp
  all_goals
    by_cases hx : g.xOf r = some T.L1
    all_goals
      rcases hb with hb | hb
      all_goals
        simp only [newJoint, hc (by omega), if_false, bind, Except.bind, hb, hx, if_true, Bool.false_eq_true, fold_top, fold_bottom, fold_chord _ (chordsAt_nodup g r), true_and, and_true, false_and, and_false]
        simp

theorem jointLoop_eq (T : Sloped) (g : Gen) (L : List Ref) (s : JState) (h3 : ∀ r ∈ L, (incident g.braces r).length ≤ 3)
    (hc : ∀ r ∈ L, (incident g.braces r).length ≠ 0 → g.chordsAt r ≠ []) :
    jointLoop T g L s = .ok (L.foldl (fun s r => pureStep T g r s) s) := by
  induction L generalizing s with
  | nil => rfl
  | cons r L ih =>
    unfold jointLoop
    rw [jointStep_eq T g r s (h3 r (by simp)) (hc r (by simp))]
    simp only [bind, Except.bind]
    rw [ih _ (fun r hr => h3 r (List.mem_cons_of_mem _ hr)) (fun r hr => hc r (List.mem_cons_of_mem _ hr))]
    rfl

/-- The joint at a node with braces. -/
def jointAt (g : Gen) (r : Ref) : List Joint := match (incident g.braces r).length with
  | 0 => []
  | 1 => [⟨r, .Y, g.chordsAt r, incident g.braces r⟩]
  | 2 => [⟨r, .K, g.chordsAt r, incident g.braces r⟩]
  | _ => [⟨r, .KT, g.chordsAt r, incident g.braces r⟩]

section fold

variable (T : Sloped) (g : Gen)

theorem foldl_joints (L : List Ref) (s : JState) : (L.foldl (fun s r => pureStep T g r s) s).joints = s.joints ++ L.flatMap (jointAt g) := by
  induction L generalizing s with
  | nil => simp
  | cons r L ih =>
    rw [List.foldl_cons, ih, List.flatMap_cons, ← List.append_assoc]
    rfl

theorem foldl_chord (L : List Ref) (s : JState) (c : Mem) :
    (L.foldl (fun s r => pureStep T g r s) s).chord c = s.chord c ++ L.filter fun r => decide ((incident g.braces r).length ≠ 0 ∧ c ∈ g.chordsAt r) := by
  induction L generalizing s with
  | nil => simp
  | cons r L ih =>
    rw [List.foldl_cons, ih, List.filter_cons]
    unfold pureStep
    dsimp only
    by_cases h : (incident g.braces r).length ≠ 0 ∧ c ∈ g.chordsAt r
    · rw [if_pos h, if_pos (decide_eq_true h), List.append_assoc]
      rfl
    · rw [if_neg h, if_neg (by simpa using h), List.append_nil]

theorem foldl_top_none (L : List Ref) (s : JState) {b : ℕ} (h : ∀ r ∈ L, ¬ (r.isTop = true ∧ b ∈ incident g.braces r)) :
    (L.foldl (fun s r => pureStep T g r s) s).top b = s.top b := by
  induction L generalizing s with
  | nil => rfl
  | cons r L ih =>
    rw [List.foldl_cons, ih _ fun r hr => h r (List.mem_cons_of_mem _ hr)]
    exact if_neg (h r (by simp))

theorem foldl_top (L : List Ref) (s : JState) {b : ℕ} {r : Ref} (hr : r ∈ L) (h : r.isTop = true ∧ b ∈ incident g.braces r)
    (hu : ∀ q ∈ L, q.isTop = true ∧ b ∈ incident g.braces q → q = r) : (L.foldl (fun s r => pureStep T g r s) s).top b = some r := by
  induction L generalizing s with
  | nil => simp at hr
  | cons q L ih =>
    rw [List.foldl_cons]
    by_cases hL : r ∈ L
    · exact ih _ hL fun q hq => hu q (List.mem_cons_of_mem _ hq)
    · obtain rfl : r = q := by simpa [hL] using hr
      rw [foldl_top_none]
      · exact if_pos h
      · intro q hq hh
        rw [hu q (List.mem_cons_of_mem _ hq) hh] at hq
        exact hL hq

theorem foldl_bottom_none (L : List Ref) (s : JState) {b : ℕ} (h : ∀ r ∈ L, ¬ (r.isTop = false ∧ b ∈ incident g.braces r)) :
    (L.foldl (fun s r => pureStep T g r s) s).bottom b = s.bottom b := by
  induction L generalizing s with
  | nil => rfl
  | cons r L ih =>
    rw [List.foldl_cons, ih _ fun r hr => h r (List.mem_cons_of_mem _ hr)]
    exact if_neg (h r (by simp))

theorem foldl_bottom (L : List Ref) (s : JState) {b : ℕ} {r : Ref} (hr : r ∈ L) (h : r.isTop = false ∧ b ∈ incident g.braces r)
    (hu : ∀ q ∈ L, q.isTop = false ∧ b ∈ incident g.braces q → q = r) : (L.foldl (fun s r => pureStep T g r s) s).bottom b = some r := by
  induction L generalizing s with
  | nil => simp at hr
  | cons q L ih =>
    rw [List.foldl_cons]
    by_cases hL : r ∈ L
    · exact ih _ hL fun q hq => hu q (List.mem_cons_of_mem _ hq)
    · obtain rfl : r = q := by simpa [hL] using hr
      rw [foldl_bottom_none]
      · exact if_pos h
      · intro q hq hh
        rw [hu q (List.mem_cons_of_mem _ hq) hh] at hq
        exact hL hq

theorem foldl_ridge_none (L : List Ref) (s : JState) (h : ∀ r ∈ L, ¬ (2 ≤ (incident g.braces r).length ∧ r.isTop = true ∧ g.xOf r = some T.L1)) :
    (L.foldl (fun s r => pureStep T g r s) s).ridge = s.ridge := by
  induction L generalizing s with
  | nil => rfl
  | cons r L ih =>
    rw [List.foldl_cons, ih _ fun r hr => h r (List.mem_cons_of_mem _ hr)]
    exact if_neg (h r (by simp))

theorem foldl_ridge (L : List Ref) (s : JState) {r : Ref} (hr : r ∈ L) (h : 2 ≤ (incident g.braces r).length ∧ r.isTop = true ∧ g.xOf r = some T.L1)
    (hu : ∀ q ∈ L, 2 ≤ (incident g.braces q).length ∧ q.isTop = true ∧ g.xOf q = some T.L1 → q = r) : (L.foldl (fun s r => pureStep T g r s) s).ridge = some r := by
  induction L generalizing s with
  | nil => simp at hr
  | cons q L ih =>
    rw [List.foldl_cons]
    by_cases hL : r ∈ L
    · exact ih _ hL fun q hq => hu q (List.mem_cons_of_mem _ hq)
    · obtain rfl : r = q := by simpa [hL] using hr
      rw [foldl_ridge_none]
      · exact if_pos h
      · intro q hq hh
        rw [hu q (List.mem_cons_of_mem _ hq) hh] at hq
        exact hL hq

end fold

/-! ### A truss whose chords join consecutive nodes -/

/-- The members of a chord at a node. -/
theorem incident_tab {N : ℕ} {f : ℕ → Ref} (hf : Function.Injective f) {k i : ℕ} :
    i ∈ incident (tab (N - 1) fun i => (f i, f (i + 1))) (f k) ↔ i + 1 < N ∧ (i = k ∨ i + 1 = k) := by
  rw [mem_incident]
  constructor
  · rintro ⟨m, hm, hr⟩
    have hi := (List.getElem?_eq_some_iff.1 hm).1
    rw [tab_length] at hi
    rw [tab_getElem? _ _ hi] at hm
    obtain rfl := Option.some.inj hm
    rcases hr with hr | hr
    · exact ⟨by omega, .inl (hf hr)⟩
    · exact ⟨by omega, .inr (hf hr)⟩
  · rintro ⟨hi, h⟩
    refine ⟨_, tab_getElem? _ _ (by omega), ?_⟩
    rcases h with rfl | rfl
    · exact .inl rfl
    · exact .inr rfl

theorem incident_tab_le {N : ℕ} {f : ℕ → Ref} (hf : Function.Injective f) {k : ℕ} : (incident (tab (N - 1) fun i => (f i, f (i + 1))) (f k)).length ≤ 2 := by
  refine length_le_of_subset (m := [k, k - 1]) (incident_nodup _ _) fun i hi => ?_
  have := (incident_tab hf).1 hi
  simp
  omega

theorem incident_tab_ne {N : ℕ} {f : ℕ → Ref} {r : Ref} (h : ∀ i, f i ≠ r) : incident (tab (N - 1) fun i => (f i, f (i + 1))) r = [] := by
  rw [incident_nil]
  intro m hm hr
  obtain ⟨i, -, rfl⟩ := mem_tab.1 hm
  rcases hr with hr | hr
  · exact h _ hr
  · exact h _ hr

theorem top_inj : Function.Injective Ref.top := fun a b h => by simpa using h
theorem bot_inj : Function.Injective Ref.bot := fun a b h => by simpa using h

section mkg

variable (T : Sloped) (Nt Nb : ℕ) (xt xb : ℕ → ℝ) (W : List (Ref × Ref))

theorem chordsAt_top (k : ℕ) : (mk T Nt Nb xt xb W).chordsAt (.top k) = (incident (tab (Nt - 1) fun i => (Ref.top i, Ref.top (i + 1))) (.top k)).map .tc := by
  have h2 : (incident (tab (Nt - 1) fun i => (Ref.top i, Ref.top (i + 1))) (.top k)).length ≤ 2 := incident_tab_le top_inj
  have h0 : incident (tab (Nb - 1) fun i => (Ref.bot i, Ref.bot (i + 1))) (.top k) = [] := incident_tab_ne fun i => by simp
  unfold Gen.chordsAt mk
  dsimp only
  rw [h0, List.take_of_length_le h2]
  simp

theorem chordsAt_bot (k : ℕ) : (mk T Nt Nb xt xb W).chordsAt (.bot k) = (incident (tab (Nb - 1) fun i => (Ref.bot i, Ref.bot (i + 1))) (.bot k)).map .bc := by
  have h2 : (incident (tab (Nb - 1) fun i => (Ref.bot i, Ref.bot (i + 1))) (.bot k)).length ≤ 2 := incident_tab_le bot_inj
  have h0 : incident (tab (Nt - 1) fun i => (Ref.top i, Ref.top (i + 1))) (.bot k) = [] := incident_tab_ne fun i => by simp
  unfold Gen.chordsAt mk
  dsimp only
  rw [h0]
  simp [List.take_of_length_le h2]

theorem mem_chordsAt_top {k : ℕ} {c : Mem} : c ∈ (mk T Nt Nb xt xb W).chordsAt (.top k) ↔ ∃ i, c = .tc i ∧ i + 1 < Nt ∧ (i = k ∨ i + 1 = k) := by
  rw [chordsAt_top, List.mem_map]
  constructor
  · rintro ⟨i, hi, rfl⟩
    exact ⟨i, rfl, (incident_tab top_inj).1 hi⟩
  · rintro ⟨i, rfl, hi⟩
    exact ⟨i, (incident_tab top_inj).2 hi, rfl⟩

theorem mem_chordsAt_bot {k : ℕ} {c : Mem} : c ∈ (mk T Nt Nb xt xb W).chordsAt (.bot k) ↔ ∃ i, c = .bc i ∧ i + 1 < Nb ∧ (i = k ∨ i + 1 = k) := by
  rw [chordsAt_bot, List.mem_map]
  constructor
  · rintro ⟨i, hi, rfl⟩
    exact ⟨i, rfl, (incident_tab bot_inj).1 hi⟩
  · rintro ⟨i, rfl, hi⟩
    exact ⟨i, (incident_tab bot_inj).2 hi, rfl⟩

end mkg

/-! ### C227: joints -/

/-- The member has an end at the node. -/
def Touches (m : Ref × Ref) (r : Ref) : Prop := m.1 = r ∨ m.2 = r

/-- A member of a chord, not a brace. -/
def Mem.IsChord : Mem → Prop
  | .tc _ => True
  | .bc _ => True
  | .br _ => False

/-- The joints of a truss: one at each node with a brace, with the members at that node; the type is given by the number of braces; braces and chord members know the joints at their ends. -/
structure Jointed (g : Gen) (s : JState) : Prop where
  nodes : ∀ r, (∃ J ∈ s.joints, J.node = r) ↔ ∃ m ∈ g.braces, Touches m r
  distinct : s.joints.Pairwise fun J K => J.node ≠ K.node
  braces : ∀ J ∈ s.joints, J.braces.Nodup ∧ ∀ b, b ∈ J.braces ↔ ∃ m, g.ends (.br b) = some m ∧ Touches m J.node
  chords : ∀ J ∈ s.joints, J.chords.Nodup ∧ ∀ c, c ∈ J.chords ↔ c.IsChord ∧ ∃ m, g.ends c = some m ∧ Touches m J.node
  kind : ∀ J ∈ s.joints, J.braces.length = 1 ∧ J.kind = .Y ∨ J.braces.length = 2 ∧ J.kind = .K ∨ J.braces.length = 3 ∧ J.kind = .KT
  ends : ∀ b m, g.ends (.br b) = some m → ∃ i j, (m = (.top i, .bot j) ∨ m = (.bot j, .top i)) ∧ s.top b = some (.top i) ∧ s.bottom b = some (.bot j)
  members : ∀ c m, c.IsChord → g.ends c = some m → (s.chord c).Sublist [m.1, m.2] ∧ ∀ r, Touches m r → (r ∈ s.chord c ↔ ∃ b ∈ g.braces, Touches b r)

theorem mem_jointAt {g : Gen} {r : Ref} {J : Joint} (h : J ∈ jointAt g r) :
    J.node = r ∧ J.chords = g.chordsAt r ∧ J.braces = incident g.braces r ∧ (incident g.braces r).length ≠ 0 ∧
      ((incident g.braces r).length ≤ 3 → J.braces.length = 1 ∧ J.kind = .Y ∨ J.braces.length = 2 ∧ J.kind = .K ∨ J.braces.length = 3 ∧ J.kind = .KT) := by
  unfold jointAt at h
  split at h
  · simp at h
  · rename_i e
    obtain rfl := List.mem_singleton.1 h
    exact ⟨rfl, rfl, rfl, by omega, fun _ => .inl ⟨e, rfl⟩⟩
  · rename_i e
    obtain rfl := List.mem_singleton.1 h
    exact ⟨rfl, rfl, rfl, by omega, fun _ => .inr (.inl ⟨e, rfl⟩)⟩
  · rename_i e0 e1 e2
    obtain rfl := List.mem_singleton.1 h
    refine ⟨rfl, rfl, rfl, e0, fun h3 => .inr (.inr ⟨?_, rfl⟩)⟩
    show (incident g.braces r).length = 3
    have e0 : (incident g.braces r).length ≠ 0 := e0
    have e1 : (incident g.braces r).length ≠ 1 := e1
    have e2 : (incident g.braces r).length ≠ 2 := e2
    omega

theorem jointAt_ne {g : Gen} {r : Ref} (h : (incident g.braces r).length ≠ 0) : ∃ J ∈ jointAt g r, J.node = r := by
  unfold jointAt
  split
  · contradiction
  all_goals exact ⟨_, List.mem_singleton.2 rfl, rfl⟩

theorem deg_ne {W : List (Ref × Ref)} {r : Ref} : (incident W r).length ≠ 0 ↔ ∃ m ∈ W, Touches m r := by
  rw [Ne, List.length_eq_zero_iff, incident_nil]
  unfold Touches
  push Not
  rfl

theorem filter_tab {N i : ℕ} {f : ℕ → Ref} (hi : i + 1 < N) {p : Ref → Bool} (hp : ∀ k, p (f k) = true → k = i ∨ k = i + 1) : (tab N f).filter p = [f i, f (i + 1)].filter p := by
  have e : tab N f = tab i f ++ ([f i, f (i + 1)] ++ tab (N - i - 2) fun k => f (i + 2 + k)) := by
    have h1 : tab 2 (fun k => f (i + k)) = [f i, f (i + 1)] := by simp [tab, List.range_succ]
    rw [← h1, tab_append 2 (N - i - 2) _ _ (fun k => f (i + k)) (fun _ _ => rfl) fun k _ => by rw [add_assoc],
      tab_append i _ _ _ f (fun _ _ => rfl) fun _ _ => rfl]
    congr 1
    omega
  have z : ∀ (n : ℕ) (h : ℕ → Ref), (∀ k < n, p (h k) = false) → (tab n h).filter p = [] := by
    intro n h hn
    rw [List.filter_eq_nil_iff]
    intro a ha
    obtain ⟨k, hk, rfl⟩ := mem_tab.1 ha
    simp [hn k hk]
  rw [e, List.filter_append, List.filter_append, z i f, z (N - i - 2), List.append_nil, List.nil_append]
  · intro k _
    cases h : p (f (i + 2 + k))
    · rfl
    · have := hp _ h
      omega
  · intro k hk
    cases h : p (f k)
    · rfl
    · have := hp _ h
      omega

theorem pairwise_uniq {W : List (Ref × Ref)} (h : W.Pairwise fun a b => a ≠ b ∧ a ≠ b.swap) {a b : ℕ} {m n : Ref × Ref} (ha : W[a]? = some m) (hb : W[b]? = some n) (e : m = n ∨ m = n.swap) :
    a = b := by
  have la := (List.getElem?_eq_some_iff.1 ha)
  have lb := (List.getElem?_eq_some_iff.1 hb)
  obtain ⟨la, rfl⟩ := la
  obtain ⟨lb, rfl⟩ := lb
  rw [List.pairwise_iff_getElem] at h
  rcases lt_trichotomy a b with k | k | k
  · have := h a b la lb k
    tauto
  · exact k
  · have := h b a lb la k
    rcases e with e | e
    · exact absurd e.symm this.1
    · exact absurd (by rw [e, Prod.swap_swap]) this.2

/-- The braces at a node, by the node at their other end. -/
theorem deg_le {Nt Nb : ℕ} {c : Bool} {W : List (Ref × Ref)} (hW : Web Nt Nb c W) {r : Ref} {f : ℕ → Ref} {S : List ℕ}
    (h : ∀ m ∈ W, Touches m r → ∃ j ∈ S, m = (r, f j) ∨ m = (f j, r)) : (incident W r).length ≤ S.length := by
  classical
  have key : ∀ b ∈ incident W r, ∃ j ∈ S, ∃ m, W[b]? = some m ∧ (m = (r, f j) ∨ m = (f j, r)) := by
    intro b hb
    obtain ⟨m, hm, hr⟩ := mem_incident.1 hb
    obtain ⟨j, hj, e⟩ := h m (List.mem_of_getElem? hm) hr
    exact ⟨j, hj, m, hm, e⟩
  let φ : ℕ → ℕ := fun b => if hb : b ∈ incident W r then (key b hb).choose else 0
  have hφ : ∀ b ∈ incident W r, φ b ∈ S ∧ ∃ m, W[b]? = some m ∧ (m = (r, f (φ b)) ∨ m = (f (φ b), r)) := by
    intro b hb
    have : φ b = (key b hb).choose := dif_pos hb
    rw [this]
    exact (key b hb).choose_spec
  rw [← List.length_map (f := φ)]
  refine length_le_of_subset ?_ ?_
  · refine List.Nodup.map_on ?_ (incident_nodup _ _)
    intro a ha b hb e
    obtain ⟨-, m, hm, k⟩ := hφ a ha
    obtain ⟨-, n, hn, l⟩ := hφ b hb
    rw [← e] at l
    refine pairwise_uniq hW.noDup hm hn ?_
    rcases k with rfl | rfl <;> rcases l with rfl | rfl <;> simp
  · intro j hj
    obtain ⟨b, hb, rfl⟩ := List.mem_map.1 hj
    exact (hφ b hb).1

theorem other_top {Nt Nb : ℕ} {c : Bool} {W : List (Ref × Ref)} (hW : Web Nt Nb c W) {k : ℕ} {m : Ref × Ref} (hm : m ∈ W) (h : Touches m (.top k)) :
    k < Nt ∧ ∃ j < Nb, Linked W (.top k) (.bot j) ∧ (m = (.top k, .bot j) ∨ m = (.bot j, .top k)) := by
  obtain ⟨i, hi, j, hj, rfl | rfl⟩ := hW.inside m hm
  · obtain rfl : i = k := by simpa [Touches] using h
    exact ⟨hi, j, hj, .inl hm, .inl rfl⟩
  · obtain rfl : i = k := by simpa [Touches] using h
    exact ⟨hi, j, hj, .inr hm, .inr rfl⟩

theorem other_bot {Nt Nb : ℕ} {c : Bool} {W : List (Ref × Ref)} (hW : Web Nt Nb c W) {k : ℕ} {m : Ref × Ref} (hm : m ∈ W) (h : Touches m (.bot k)) :
    k < Nb ∧ ∃ i < Nt, Linked W (.top i) (.bot k) ∧ (m = (.bot k, .top i) ∨ m = (.top i, .bot k)) := by
  obtain ⟨i, hi, j, hj, rfl | rfl⟩ := hW.inside m hm
  · obtain rfl : j = k := by simpa [Touches] using h
    exact ⟨hj, i, hi, .inl hm, .inr rfl⟩
  · obtain rfl : j = k := by simpa [Touches] using h
    exact ⟨hj, i, hi, .inr hm, .inl rfl⟩

theorem deg_three {Nt Nb : ℕ} {c : Bool} {W : List (Ref × Ref)} (hW : Web Nt Nb c W) (hH : Hold Nt Nb c W) (r : Ref) : (incident W r).length ≤ 3 := by
  cases r with
  | top k =>
    obtain ⟨a, ha⟩ := hH.fewT k
    refine deg_le hW (f := .bot) (S := [a, a + 1, a + 2]) fun m hm h => ?_
    obtain ⟨-, j, -, hl, e⟩ := other_top hW hm h
    have := ha j hl
    exact ⟨j, by simp; omega, e⟩
  | bot k =>
    obtain ⟨a, ha⟩ := hH.fewB k
    refine deg_le hW (f := .top) (S := [a, a + 1, a + 2]) fun m hm h => ?_
    obtain ⟨-, j, -, hl, e⟩ := other_bot hW hm h
    have := ha j hl
    exact ⟨j, by simp; omega, e⟩

theorem deg_two {W : List (Ref × Ref)} {k j : ℕ} (h1 : Linked W (.top k) (.bot j)) (h2 : Linked W (.top k) (.bot (j + 1))) : 2 ≤ (incident W (.top k)).length := by
  have key : ∀ i, Linked W (.top k) (.bot i) → ∃ b ∈ incident W (.top k), W[b]? = some (.top k, .bot i) ∨ W[b]? = some (.bot i, .top k) := by
    rintro i (h | h)
    · obtain ⟨b, hb⟩ := List.getElem?_of_mem h
      exact ⟨b, mem_incident.2 ⟨_, hb, .inl rfl⟩, .inl hb⟩
    · obtain ⟨b, hb⟩ := List.getElem?_of_mem h
      exact ⟨b, mem_incident.2 ⟨_, hb, .inr rfl⟩, .inr hb⟩
  obtain ⟨a, ha, ea⟩ := key _ h1
  obtain ⟨b, hb, eb⟩ := key _ h2
  have hab : a ≠ b := by
    rintro rfl
    rcases ea with ea | ea <;> rw [ea] at eb <;> simp at eb
  refine length_le_of_subset (l := [a, b]) (by simp [hab]) fun x hx => ?_
  rcases List.mem_cons.1 hx with rfl | hx
  · exact ha
  · rwa [List.mem_singleton.1 hx]

theorem nodes_mk (T : Sloped) (Nt Nb : ℕ) (xt xb : ℕ → ℝ) (W : List (Ref × Ref)) : (mk T Nt Nb xt xb W).nodes = tab Nt .top ++ tab Nb .bot := by
  unfold Gen.nodes
  rw [mk_refs (mk T Nt Nb xt xb W).top Nt _ (tab_length _ _), mk_refs (mk T Nt Nb xt xb W).bot Nb _ (tab_length _ _)]

theorem joints_mk {T : Sloped} {Nt Nb r : ℕ} {xt xb : ℕ → ℝ} (hN : Nums T Nt Nb r xt xb) {c : Bool} {W : List (Ref × Ref)} (hW : Web Nt Nb c W) (hH : Hold Nt Nb c W) :
    ∃ s, T.joints (mk T Nt Nb xt xb W) = .ok s ∧ Jointed (mk T Nt Nb xt xb W) s ∧ s.ridge = if 2 ≤ (incident W (.top r)).length then some (.top r) else none := by
  have ht := hN.ht
  have hb := hN.hb
  have hm : ∀ x, x ∈ (mk T Nt Nb xt xb W).nodes ↔ (∃ i < Nt, .top i = x) ∨ ∃ i < Nb, .bot i = x := by
    intro x
    rw [nodes_mk, List.mem_append, mem_tab, mem_tab]
  have hd3 : ∀ x, (incident W x).length ≤ 3 := deg_three hW hH
  have hnode : ∀ x, (∃ m ∈ W, Touches m x) → x ∈ (mk T Nt Nb xt xb W).nodes := by
    rintro x ⟨m, hmW, hx⟩
    rw [hm]
    cases x with
    | top k => exact .inl ⟨k, (other_top hW hmW hx).1, rfl⟩
    | bot k => exact .inr ⟨k, (other_bot hW hmW hx).1, rfl⟩
  have hnd : (mk T Nt Nb xt xb W).nodes.Nodup := by
    rw [nodes_mk]
    refine List.Nodup.append (List.nodup_range.map top_inj) (List.nodup_range.map bot_inj) ?_
    intro a ha hb
    obtain ⟨i, -, rfl⟩ := mem_tab.1 ha
    obtain ⟨j, -, h⟩ := mem_tab.1 hb
    simp at h
  have hbr : (mk T Nt Nb xt xb W).braces = W := rfl
  have hok := jointLoop_eq T (mk T Nt Nb xt xb W) (mk T Nt Nb xt xb W).nodes JState.empty (fun x _ => hd3 x) (by
    intro x hx _
    rcases (hm x).1 hx with ⟨i, hi, rfl⟩ | ⟨i, hi, rfl⟩
    · rcases Nat.lt_or_ge (i + 1) Nt with k | k
      · exact List.ne_nil_of_mem ((mem_chordsAt_top ..).2 ⟨i, rfl, k, .inl rfl⟩)
      · exact List.ne_nil_of_mem ((mem_chordsAt_top ..).2 ⟨i - 1, rfl, by omega, .inr (by omega)⟩)
    · rcases Nat.lt_or_ge (i + 1) Nb with k | k
      · exact List.ne_nil_of_mem ((mem_chordsAt_bot ..).2 ⟨i, rfl, k, .inl rfl⟩)
      · exact List.ne_nil_of_mem ((mem_chordsAt_bot ..).2 ⟨i - 1, rfl, by omega, .inr (by omega)⟩))
  refine ⟨_, hok, ?_, ?_⟩
  · have hJ : ∀ J, J ∈ ((mk T Nt Nb xt xb W).nodes.foldl (fun s r => pureStep T (mk T Nt Nb xt xb W) r s) JState.empty).joints ↔ ∃ x ∈ (mk T Nt Nb xt xb W).nodes, J ∈ jointAt (mk T Nt Nb xt xb W) x := by
      intro J
      rw [foldl_joints, List.mem_append, List.mem_flatMap]
      simp [JState.empty]
    refine ⟨?_, ?_, ?_, ?_, ?_, ?_, ?_⟩
    · intro x
      constructor
      · rintro ⟨J, hJ', rfl⟩
        obtain ⟨x, hx, h⟩ := (hJ J).1 hJ'
        obtain ⟨e, -, -, h0, -⟩ := mem_jointAt h
        rw [e]
        exact deg_ne.1 h0
      · intro h
        obtain ⟨J, h1, h2⟩ := jointAt_ne (g := mk T Nt Nb xt xb W) (deg_ne.2 h)
        exact ⟨J, (hJ J).2 ⟨x, hnode x h, h1⟩, h2⟩
    · rw [foldl_joints]
      show (([] : List Joint) ++ _).Pairwise _
      rw [List.nil_append, List.pairwise_flatMap]
      refine ⟨fun x _ => ?_, ?_⟩
      · unfold jointAt
        split <;> simp
      · refine hnd.imp ?_
        intro a b hab J hJ K hK e
        rw [(mem_jointAt hJ).1, (mem_jointAt hK).1] at e
        exact hab e
    · intro J hJ'
      obtain ⟨x, hx, h⟩ := (hJ J).1 hJ'
      obtain ⟨e, -, eb, -, -⟩ := mem_jointAt h
      rw [eb, e]
      exact ⟨incident_nodup _ _, fun b => mem_incident⟩
    · intro J hJ'
      obtain ⟨x, hx, h⟩ := (hJ J).1 hJ'
      obtain ⟨e, ec, -, -, -⟩ := mem_jointAt h
      rw [ec, e]
      refine ⟨chordsAt_nodup _ _, fun c => ?_⟩
      cases x with
      | top k =>
        rw [mem_chordsAt_top]
        constructor
        · rintro ⟨i, rfl, hi, hk⟩
          refine ⟨trivial, (.top i, .top (i + 1)), tab_getElem? _ _ (by omega), ?_⟩
          rcases hk with rfl | rfl
          · exact .inl rfl
          · exact .inr rfl
        · rintro ⟨hc, m, hm', hT⟩
          cases c with
          | br i => exact absurd hc id
          | tc i =>
            exact ⟨i, rfl, (incident_tab top_inj).1 (mem_incident.2 ⟨m, hm', hT⟩)⟩
          | bc i =>
            have : i ∈ incident (tab (Nb - 1) fun i => (Ref.bot i, Ref.bot (i + 1))) (.top k) := mem_incident.2 ⟨m, hm', hT⟩
            rw [incident_tab_ne fun i => by simp] at this
            simp at this
      | bot k =>
        rw [mem_chordsAt_bot]
        constructor
        · rintro ⟨i, rfl, hi, hk⟩
          refine ⟨trivial, (.bot i, .bot (i + 1)), tab_getElem? _ _ (by omega), ?_⟩
          rcases hk with rfl | rfl
          · exact .inl rfl
          · exact .inr rfl
        · rintro ⟨hc, m, hm', hT⟩
          cases c with
          | br i => exact absurd hc id
          | bc i =>
            exact ⟨i, rfl, (incident_tab bot_inj).1 (mem_incident.2 ⟨m, hm', hT⟩)⟩
          | tc i =>
            have : i ∈ incident (tab (Nt - 1) fun i => (Ref.top i, Ref.top (i + 1))) (.bot k) := mem_incident.2 ⟨m, hm', hT⟩
            rw [incident_tab_ne fun i => by simp] at this
            simp at this
    · intro J hJ'
      obtain ⟨x, hx, h⟩ := (hJ J).1 hJ'
      exact (mem_jointAt h).2.2.2.2 (hd3 x)
    · intro b m hbm
      have hbm : W[b]? = some m := hbm
      obtain ⟨i, hi, j, hj, e⟩ := hW.inside m (List.mem_of_getElem? hbm)
      refine ⟨i, j, e, ?_, ?_⟩
      · refine foldl_top _ _ _ _ ((hm _).2 (.inl ⟨i, hi, rfl⟩)) ⟨rfl, mem_incident.2 ⟨m, hbm, ?_⟩⟩ ?_
        · rcases e with rfl | rfl <;> simp
        · rintro q hq ⟨h1, h2⟩
          obtain ⟨m', hm', ht'⟩ := mem_incident.1 h2
          obtain rfl : m' = m := Option.some.inj (hm'.symm.trans hbm)
          cases q with
          | bot k => simp [Ref.isTop] at h1
          | top k => rcases e with rfl | rfl <;> simpa [eq_comm] using ht'
      · refine foldl_bottom _ _ _ _ ((hm _).2 (.inr ⟨j, hj, rfl⟩)) ⟨rfl, mem_incident.2 ⟨m, hbm, ?_⟩⟩ ?_
        · rcases e with rfl | rfl <;> simp
        · rintro q hq ⟨h1, h2⟩
          obtain ⟨m', hm', ht'⟩ := mem_incident.1 h2
          obtain rfl : m' = m := Option.some.inj (hm'.symm.trans hbm)
          cases q with
          | top k => simp [Ref.isTop] at h1
          | bot k => rcases e with rfl | rfl <;> simpa [eq_comm] using ht'
    · intro c m hc hcm
      rw [foldl_chord, nodes_mk, List.filter_append]
      show (([] : List Ref) ++ _).Sublist _ ∧ ∀ r, _ → (r ∈ ([] : List Ref) ++ _ ↔ _)
      rw [List.nil_append]
      cases c with
      | br i => exact absurd hc id
      | tc i =>
        have hi : i < Nt - 1 := by
          have := (List.getElem?_eq_some_iff.1 hcm).1
          rwa [show (mk T Nt Nb xt xb W).topChord.length = Nt - 1 from tab_length _ _] at this
        obtain rfl : (Ref.top i, Ref.top (i + 1)) = m := Option.some.inj ((tab_getElem? _ _ hi).symm.trans hcm)
        rw [filter_tab (f := Ref.top) (i := i) (by omega), (List.filter_eq_nil_iff (l := tab Nb Ref.bot)).2, List.append_nil]
        · refine ⟨List.filter_sublist, fun x hx => ?_⟩
          rw [List.mem_filter, decide_eq_true_iff]
          constructor
          · rintro ⟨-, h, -⟩
            exact deg_ne.1 h
          · intro h
            refine ⟨by simpa [Touches, eq_comm] using hx, deg_ne.2 h, ?_⟩
            rcases hx with rfl | rfl
            · exact (mem_chordsAt_top ..).2 ⟨i, rfl, by omega, .inl rfl⟩
            · exact (mem_chordsAt_top ..).2 ⟨i, rfl, by omega, .inr rfl⟩
        · intro x hx h
          obtain ⟨k, -, rfl⟩ := mem_tab.1 hx
          obtain ⟨k', e, -⟩ := (mem_chordsAt_bot ..).1 (of_decide_eq_true h).2
          simp at e
        · intro k h
          obtain ⟨k', e, -, hk⟩ := (mem_chordsAt_top ..).1 (of_decide_eq_true h).2
          obtain rfl : i = k' := by simpa using e
          omega
      | bc i =>
        have hi : i < Nb - 1 := by
          have := (List.getElem?_eq_some_iff.1 hcm).1
          rwa [show (mk T Nt Nb xt xb W).botChord.length = Nb - 1 from tab_length _ _] at this
        obtain rfl : (Ref.bot i, Ref.bot (i + 1)) = m := Option.some.inj ((tab_getElem? _ _ hi).symm.trans hcm)
        rw [filter_tab (f := Ref.bot) (i := i) (by omega), (List.filter_eq_nil_iff (l := tab Nt Ref.top)).2, List.nil_append]
        · refine ⟨List.filter_sublist, fun x hx => ?_⟩
          rw [List.mem_filter, decide_eq_true_iff]
          constructor
          · rintro ⟨-, h, -⟩
            exact deg_ne.1 h
          · intro h
            refine ⟨by simpa [Touches, eq_comm] using hx, deg_ne.2 h, ?_⟩
            rcases hx with rfl | rfl
            · exact (mem_chordsAt_bot ..).2 ⟨i, rfl, by omega, .inl rfl⟩
            · exact (mem_chordsAt_bot ..).2 ⟨i, rfl, by omega, .inr rfl⟩
        · intro x hx h
          obtain ⟨k, -, rfl⟩ := mem_tab.1 hx
          obtain ⟨k', e, -⟩ := (mem_chordsAt_top ..).1 (of_decide_eq_true h).2
          simp at e
        · intro k h
          obtain ⟨k', e, -, hk⟩ := (mem_chordsAt_bot ..).1 (of_decide_eq_true h).2
          obtain rfl : i = k' := by simpa using e
          omega
  · have hx : ∀ k < Nt, (mk T Nt Nb xt xb W).xOf (.top k) = some (xt k) := by
      intro k hk
      show ((tab Nt fun i => (xt i, roof T (xt i)))[k]?).map Prod.fst = _
      rw [tab_getElem? _ _ hk]
      rfl
    have uniq : ∀ q ∈ (mk T Nt Nb xt xb W).nodes, q.isTop = true ∧ (mk T Nt Nb xt xb W).xOf q = some T.L1 → q = .top r := by
      rintro q hq ⟨h1, h2⟩
      rcases (hm q).1 hq with ⟨k, hk, rfl⟩ | ⟨k, hk, rfl⟩
      · rw [hx k hk] at h2
        have h2 := Option.some.inj h2
        have hr := hN.tr
        rcases lt_trichotomy k r with l | l | l
        · have := lt_of_step hN.tm l hN.hr
          linarith
        · rw [l]
        · have := lt_of_step hN.tm l hk
          linarith
      · simp [Ref.isTop] at h1
    split
    · rename_i h2
      refine foldl_ridge _ _ _ _ ((hm _).2 (.inl ⟨r, hN.hr, rfl⟩)) ⟨h2, rfl, by rw [hx r hN.hr, hN.tr]⟩ fun q hq h => uniq q hq h.2
    · rename_i h2
      refine foldl_ridge_none _ _ _ _ fun q hq h => h2 ?_
      rw [← uniq q hq h.2]
      exact h.1

theorem chord_full {g : Gen} {s : JState} (hJ : Jointed g s) {c : Mem} {a b : Ref} (hc : c.IsChord) (hm : g.ends c = some (a, b)) (hab : a ≠ b)
    (ha : ∃ m ∈ g.braces, Touches m a) (hb : ∃ m ∈ g.braces, Touches m b) : s.chord c = [a, b] := by
  obtain ⟨h1, h2⟩ := hJ.members c _ hc hm
  refine h1.eq_of_length_le ?_
  refine length_le_of_subset (l := [a, b]) (by simp [hab]) fun x hx => ?_
  rcases List.mem_cons.1 hx with rfl | hx
  · exact (h2 _ (.inl rfl)).2 ha
  · rw [List.mem_singleton.1 hx]
    exact (h2 _ (.inr rfl)).2 hb

theorem touch_top {W : List (Ref × Ref)} {a b : Ref} (h : Linked W a b) : (∃ m ∈ W, Touches m a) ∧ ∃ m ∈ W, Touches m b := by
  rcases h with h | h
  · exact ⟨⟨_, h, .inl rfl⟩, ⟨_, h, .inr rfl⟩⟩
  · exact ⟨⟨_, h, .inr rfl⟩, ⟨_, h, .inl rfl⟩⟩

/-- The joints of a truss with equal halves: one joint at each node with braces, a Y, K or KT joint according to the number of its braces, which knows the chord members and braces at its node; braces know the joints
at both ends. When the chords are joined at the ends, each chord member knows the joints at its two ends, in order. The ridge joint of K and KT trusses is the joint of the top chord at the ridge. -/
theorem C227_partial {L dx h1 h2 s : ℝ} {T : Sloped} (h : Sloped.new L L dx dx h1 h2 s = .ok T) (hL : 0 < L) (h0 : 0 ≤ dx) (hd : dx < L) (hl : 0 < T.left)
    {top : Topology} (ht : top ≠ .other) {n : ℕ} (hn : 2 ≤ n) (up edge : Bool) :
    ∃ g j, T.generate top n up edge = .ok g ∧ T.joints g = .ok j ∧ Jointed g j ∧
      (0 < dx ∨ edge = true → ∀ c m, c.IsChord → g.ends c = some m → j.chord c = [m.1, m.2]) ∧
      (top = .K ∨ top = .KT → ∃ i P, j.ridge = some (.top i) ∧ g.top[i]? = some P ∧ P.1 = L) := by
  have hT := sym_new h hL h0 hd hl
  obtain ⟨a, -, c, -⟩ := C221_partial h
  obtain ⟨Nt, Nb, r, xt, xb, W, hg, hN, hW, -, -, hH, hR⟩ := gen_all hT ht hn up edge
  obtain ⟨j, hj, hJ, hr⟩ := joints_mk hN hW hH
  refine ⟨_, j, hg, hj, hJ, ?_, ?_⟩
  · intro hc
    have hcl : (decide (0 < T.dx1) || edge) = true := by
      rw [c]
      simpa using hc
    rw [hcl] at hH
    intro c m hc hm
    cases c with
    | br i => exact absurd hc id
    | tc i =>
      have hi : i < Nt - 1 := by
        have := (List.getElem?_eq_some_iff.1 hm).1
        rwa [show (mk T Nt Nb xt xb W).topChord.length = Nt - 1 from tab_length _ _] at this
      obtain rfl : (Ref.top i, Ref.top (i + 1)) = m := Option.some.inj ((tab_getElem? _ _ hi).symm.trans hm)
      obtain ⟨_, -, k1⟩ := hH.top i (by omega) (.inl rfl)
      obtain ⟨_, -, k2⟩ := hH.top (i + 1) (by omega) (.inl rfl)
      exact chord_full hJ hc hm (by simp) (touch_top k1).1 (touch_top k2).1
    | bc i =>
      have hi : i < Nb - 1 := by
        have := (List.getElem?_eq_some_iff.1 hm).1
        rwa [show (mk T Nt Nb xt xb W).botChord.length = Nb - 1 from tab_length _ _] at this
      obtain rfl : (Ref.bot i, Ref.bot (i + 1)) = m := Option.some.inj ((tab_getElem? _ _ hi).symm.trans hm)
      obtain ⟨_, -, k1⟩ := hH.bot i (by omega) (.inl rfl)
      obtain ⟨_, -, k2⟩ := hH.bot (i + 1) (by omega) (.inl rfl)
      exact chord_full hJ hc hm (by simp) (touch_top k1).2 (touch_top k2).2
  · intro htop
    obtain ⟨k, k1, k2⟩ := hR.two htop
    rw [if_pos (deg_two k1 k2)] at hr
    exact ⟨r, _, hr, tab_getElem? _ _ hN.hr, hN.tr.trans a⟩

/-- The code disagrees at the ridge of N trusses whose diagonals fall towards the middle (also of those whose bottom chord is shorter): there is no ridge joint, although a joint is at the ridge node. -/
theorem C227_violation_ridge {L dx h1 h2 s : ℝ} {T : Sloped} (h : Sloped.new L L dx dx h1 h2 s = .ok T) (hL : 0 < L) (h0 : 0 ≤ dx) (hd : dx < L) (hl : 0 < T.left)
    {n : ℕ} (hn : 2 ≤ n) (up edge : Bool) (hu : 0 < dx ∨ up = false) :
    ∃ g j, T.generate .N n up edge = .ok g ∧ T.joints g = .ok j ∧ j.ridge = none ∧ ∃ J ∈ j.joints, ∃ i P, J.node = .top i ∧ g.top[i]? = some P ∧ P.1 = L := by
  have hT := sym_new h hL h0 hd hl
  obtain ⟨a, -, c, -⟩ := C221_partial h
  obtain ⟨Nt, Nb, r, xt, xb, W, hg, hN, hW, -, -, hH, hR⟩ := gen_all hT (top := .N) (by simp) hn up edge
  obtain ⟨j, hj, hJ, hr⟩ := joints_mk hN hW hH
  have hf : (decide (T.dx1 = 0) && up) = false := by
    rw [c]
    rcases hu with hu | rfl
    · simp [hu.ne']
    · simp
  have hone := hR.one rfl hf
  have hdeg : ¬ 2 ≤ (incident W (.top r)).length := by
    intro h2
    obtain ⟨m, hm, hmr⟩ := deg_ne.1 (show (incident W (.top r)).length ≠ 0 by omega)
    obtain ⟨-, j0, -, hl0, -⟩ := other_top hW hm hmr
    have : (incident W (.top r)).length ≤ [j0].length := deg_le hW (f := .bot) fun m hm hmr => by
      obtain ⟨-, j1, -, hl1, e⟩ := other_top hW hm hmr
      exact ⟨j1, by rw [hone j1 j0 hl1 hl0]; simp, e⟩
    simp at this
    omega
  rw [if_neg hdeg] at hr
  have hr0 : 0 < r := by
    rcases Nat.eq_zero_or_pos r with e | e
    · have := hN.tr
      rw [e, hN.t0] at this
      have := hT.pos
      linarith
    · exact e
  have hrl : r + 1 < Nt := by
    have h3 := hN.hr
    rcases Nat.lt_or_ge (r + 1) Nt with e | e
    · exact e
    · have e1 : r = Nt - 1 := by omega
      have := hN.tr
      rw [e1, hN.tl] at this
      have := hT.pos
      linarith
  obtain ⟨k, -, hk⟩ := hH.top r hN.hr (.inr ⟨hr0, hrl⟩)
  obtain ⟨J, hJ1, hJ2⟩ := (hJ.nodes (.top r)).2 (touch_top hk).1
  exact ⟨_, j, hg, hj, hr, J, hJ1, r, _, hJ2, tab_getElem? _ _ hN.hr, hN.tr.trans a⟩

/-- The code disagrees for trusses with open ends: an end member of one of the chords does not know two joints, as no joint is made at a node without braces. -/
theorem C227_violation_open {L h1 h2 s : ℝ} {T : Sloped} (h : Sloped.new L L 0 0 h1 h2 s = .ok T) (hL : 0 < L) (hl : 0 < T.left)
    {top : Topology} (ht : top ≠ .other) {n : ℕ} (hn : 2 ≤ n) (up : Bool) :
    ∃ g j c, T.generate top n up false = .ok g ∧ T.joints g = .ok j ∧ (c = .tc 0 ∨ c = .bc 0) ∧ (g.ends c).isSome ∧ (j.chord c).length ≤ 1 := by
  have hT := sym_new h hL le_rfl hL hl
  obtain ⟨a, -, c, -⟩ := C221_partial h
  obtain ⟨Nt, Nb, r, xt, xb, W, hg, hN, hW, -, -, hH, -⟩ := gen_all hT ht hn up false
  have hcl : (decide (0 < T.dx1) || false) = false := by rw [c]; simp
  rw [hcl] at hW hH
  obtain ⟨j, hj, hJ, -⟩ := joints_mk hN hW hH
  have hop := hW.opened rfl
  have hNt := hN.ht
  have hNb := hN.hb
  by_cases k : ∃ m ∈ W, Touches m (.top 0)
  · have k' : ¬ ∃ m ∈ W, Touches m (.bot 0) := by
      rintro ⟨m', hm', t'⟩
      obtain ⟨m, hm, t⟩ := k
      obtain ⟨-, q, -, hq, -⟩ := other_top hW hm t
      obtain ⟨-, p, -, hp, -⟩ := other_bot hW hm' t'
      rcases Nat.eq_zero_or_pos p with rfl | p0
      · exact hop hp
      · have := hW.planar _ _ _ _ hq hp p0
        obtain rfl : q = 0 := by omega
        exact hop hq
    have hm : (mk T Nt Nb xt xb W).ends (.bc 0) = some (.bot 0, .bot 1) := tab_getElem? _ _ (by omega)
    obtain ⟨h1, h2⟩ := hJ.members (.bc 0) _ trivial hm
    refine ⟨_, j, .bc 0, hg, hj, .inr rfl, by rw [hm]; rfl, ?_⟩
    have hne : Ref.bot 0 ∉ j.chord (.bc 0) := fun hx => k' ((h2 _ (.inl rfl)).1 hx)
    refine length_le_of_subset (m := [.bot 1]) (h1.nodup (by simp)) fun x hx => ?_
    have := h1.subset hx
    simp only [List.mem_cons, List.not_mem_nil, or_false] at this ⊢
    exact this.resolve_left fun e => hne (e ▸ hx)
  · have hm : (mk T Nt Nb xt xb W).ends (.tc 0) = some (.top 0, .top 1) := tab_getElem? _ _ (by omega)
    obtain ⟨h1, h2⟩ := hJ.members (.tc 0) _ trivial hm
    refine ⟨_, j, .tc 0, hg, hj, .inl rfl, by rw [hm]; rfl, ?_⟩
    have hne : Ref.top 0 ∉ j.chord (.tc 0) := fun hx => k ((h2 _ (.inl rfl)).1 hx)
    refine length_le_of_subset (m := [.top 1]) (h1.nodup (by simp)) fun x hx => ?_
    have := h1.subset hx
    simp only [List.mem_cons, List.not_mem_nil, or_false] at this ⊢
    exact this.resolve_left fun e => hne (e ▸ hx)

theorem roof20 : Sloped.new 10 10 0.5 0.5 1 2 0 = .ok ⟨10, 10, Real.arctan ((2 - 1) / 10) * 180 / Real.pi, 0.5, 0.5, 1, 2, 1⟩ := by
  unfold Sloped.new pyDiv
  rw [if_neg (by norm_num), if_neg (by norm_num), if_neg (by norm_num)]
  simp only [bind, Except.bind]
  unfold Sloped.check
  rw [if_neg (by norm_num), if_neg (by norm_num)]

/-- The K truss of 20 m with a shorter bottom chord has a ridge joint, the N truss of the same dimensions has none. -/
example : ∃ T g j g' j', Sloped.new 10 10 0.5 0.5 1 2 0 = .ok T ∧ T.generate .K 4 true true = .ok g ∧ T.joints g = .ok j ∧ j.ridge.isSome ∧
    T.generate .N 4 true true = .ok g' ∧ T.joints g' = .ok j' ∧ j'.ridge = none := by
  obtain ⟨g, j, k1, k2, -, -, k3⟩ := C227_partial roof20 (by norm_num) (by norm_num) (by norm_num) (by norm_num) (top := .K) (by simp) (n := 4) (by norm_num) true true
  obtain ⟨g', j', l1, l2, l3, -⟩ := C227_violation_ridge roof20 (by norm_num) (by norm_num) (by norm_num) (by norm_num) (n := 4) (by norm_num) true true (.inl (by norm_num))
  obtain ⟨i, P, e, -, -⟩ := k3 (.inl rfl)
  exact ⟨_, g, j, g', j', roof20, k1, k2, by rw [e]; rfl, l1, l2, l3⟩

/-- The truss of 20 m with vertical ends and no end braces. -/
example : ∃ T g j c, Sloped.new 10 10 0 0 1 2 0 = .ok T ∧ T.generate .KT 4 false false = .ok g ∧ T.joints g = .ok j ∧ (g.ends c).isSome ∧ (j.chord c).length ≤ 1 := by
  have h : Sloped.new 10 10 0 0 1 2 0 = .ok ⟨10, 10, Real.arctan ((2 - 1) / 10) * 180 / Real.pi, 0, 0, 1, 2, 1⟩ := by
    unfold Sloped.new pyDiv
    rw [if_neg (by norm_num), if_neg (by norm_num), if_neg (by norm_num)]
    simp only [bind, Except.bind]
    unfold Sloped.check
    rw [if_neg (by norm_num), if_neg (by norm_num)]
  obtain ⟨g, j, c, k1, k2, -, k3, k4⟩ := C227_violation_open h (by norm_num) (by norm_num) (top := .KT) (by simp) (n := 4) (by norm_num) false
  exact ⟨_, g, j, c, h, k1, k2, k3, k4⟩

end

end Metku.Truss
