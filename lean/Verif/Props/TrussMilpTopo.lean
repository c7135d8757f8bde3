import Verif.Props.TrussMilp

/-! Topology and groups of the mixed-integer linear program of a truss (C269, C270). -/
namespace Metku.Milp

set_option linter.unusedSectionVars false

open Metku

variable {K : Type*} [Field K] [LinearOrder K] [IsStrictOrderedRing K] [FloorRing K]

/-! ### What a topology has to meet -/

/-- Fixed dofs at a node. -/
def fixedDofs (P : Inp K) (j : ℕ) : ℕ := ((P.supports.filter fun s => s.1 == j).map Prod.snd).sum

/-- Member `m` ends at node `j`. -/
def Touches (P : Inp K) (m j : ℕ) : Prop := ∃ mem, P.members[m]? = some mem ∧ j ∈ mem.ends

/-- At most one support for a node. -/
def SupportsApart (P : Inp K) : Prop := (P.supports.map Prod.fst).Nodup

theorem find_sum (l : List (ℕ × ℕ)) (hl : (l.map Prod.fst).Nodup) (j : ℕ) :
    ((l.find? fun s => s.1 == j).map Prod.snd).getD 0 = ((l.filter fun s => s.1 == j).map Prod.snd).sum := by
  induction l with
  | nil => rfl
  | cons s ss ih =>
    simp only [List.map_cons, List.nodup_cons] at hl
    by_cases h : s.1 = j
    · have : ss.filter (fun s => s.1 == j) = [] := by
        rw [List.filter_eq_nil_iff]
        intro t ht he
        refine hl.1 ?_
        rw [List.mem_map]
        exact ⟨t, ht, by rw [h]; simpa using he⟩
      simp [h, this]
    · have hb : (s.1 == j) = false := by simpa using h
      rw [List.find?_cons, hb, List.filter_cons, hb]
      exact ih hl.2

theorem supported_eq (P : Inp K) (h : SupportsApart P) (j : ℕ) : supported P j = fixedDofs P j := by
  unfold supported fixedDofs
  rw [find_sum P.supports.reverse (by rw [List.map_reverse]; exact List.nodup_reverse.2 h) j, List.filter_reverse,
    List.map_reverse, List.sum_reverse]

theorem mem_nodeMembers (P : Inp K) (m j : ℕ) : m ∈ nodeMembers P j ↔ Touches P m j := by
  unfold nodeMembers Touches
  simp only [List.mem_map, List.mem_filter, Prod.exists, exists_eq_right, List.mem_zipIdx_iff_getElem?,
    List.contains_iff_mem]

/-- The conditions of the program on members and nodes that are there (`Y m`, `Z j` equal to one). -/
structure Topology (P : Inp K) (Y Z : ℕ → K) : Prop where
  member : ∀ m < P.members.length, Y m = 0 ∨ Y m = 1
  node : ∀ j < P.nnodes, Z j = 0 ∨ Z j = 1
  link : ∀ j < P.nnodes, ∀ m, Touches P m j → Z j ≤ Y m
  meet : ∀ j < P.nnodes, (if fixedDofs P j = 0 then 2 else 1) * Z j
    ≤ ∑ m ∈ Finset.range P.members.length, open Classical in if Touches P m j then Y m else 0
  count : 2 * ∑ j ∈ Finset.range P.nnodes, Z j
    ≤ ∑ m ∈ Finset.range P.members.length, Y m + ∑ j ∈ Finset.range P.nnodes, (fixedDofs P j : K) * Z j
  supp : 2 ≤ ∑ j ∈ Finset.range P.nnodes, if fixedDofs P j = 0 then 0 else Z j

/-! ### Values of the constraints -/

theorem touches_lt {P : Inp K} {m j : ℕ} (h : Touches P m j) : m < P.members.length := by
  obtain ⟨mem, h, -⟩ := h
  exact (List.getElem?_eq_some_iff.1 h).1

theorem con1_iff (P : Inp K) {n : ℕ} (hn : P.zstart + P.nnodes ≤ n) (x : ℕ → K) :
    (∀ c ∈ con1 P, c.Holds n x) ↔ ∀ j < P.nnodes, ∀ m, Touches P m j → x (P.zstart + j) ≤ x (P.ystart + m) := by
  have key : ∀ j < P.nnodes, ∀ m, Touches P m j →
      ((⟨put (put zeros (P.zstart + j) 1) (P.ystart + m) (-1), 0, false⟩ : Con K).Holds n x ↔
        x (P.zstart + j) ≤ x (P.ystart + m)) := by
    intro j hj m hm
    have hlt := touches_lt hm
    have hz : P.zstart = P.ystart + P.members.length := rfl
    simp only [Con.Holds, Bool.false_eq_true, if_false]
    rw [dotv_put (by omega), dotv_put (by omega), dotv_zeros]
    simp only [put, zeros, if_neg (show P.ystart + m ≠ P.zstart + j by omega)]
    constructor <;> intro h <;> linarith
  simp only [con1, List.mem_flatMap, List.mem_map, List.mem_range, mem_nodeMembers]
  constructor
  · intro h j hj m hm
    exact (key j hj m hm).1 (h _ ⟨j, hj, m, hm, rfl⟩)
  · rintro h c ⟨j, hj, m, hm, rfl⟩
    exact (key j hj m hm).2 (h j hj m hm)

theorem con2_iff (P : Inp K) (hs : SupportsApart P) {n : ℕ} (hn : P.zstart + P.nnodes ≤ n) (x : ℕ → K) :
    (∀ c ∈ con2 P, c.Holds n x) ↔ ∀ j < P.nnodes, (if fixedDofs P j = 0 then 2 else 1) * x (P.zstart + j)
      ≤ ∑ m ∈ Finset.range P.members.length, open Classical in if Touches P m j then x (P.ystart + m) else 0 := by
  classical
  have hz : P.zstart = P.ystart + P.members.length := rfl
  have e : ∀ j, (fun t => if t ∈ (nodeMembers P j).map (fun m => m + P.ystart) then (-1 : K) else 0)
      = putRange zeros P.ystart (P.ystart + P.members.length) (fun m => if Touches P m j then -1 else 0) := by
    intro j
    funext t
    unfold putRange
    by_cases h : P.ystart ≤ t ∧ t < P.ystart + P.members.length
    · rw [if_pos h]
      refine if_congr ?_ rfl rfl
      simp only [List.mem_map, mem_nodeMembers]
      constructor
      · rintro ⟨m, hm, rfl⟩
        rwa [Nat.add_sub_cancel]
      · intro hm
        exact ⟨t - P.ystart, hm, by omega⟩
    · rw [if_neg h, if_neg]
      · rfl
      · simp only [List.mem_map, mem_nodeMembers]
        rintro ⟨m, hm, rfl⟩
        have := touches_lt hm
        omega
  have key : ∀ j < P.nnodes, ((⟨put (fun t => if t ∈ (nodeMembers P j).map (fun m => m + P.ystart) then -1 else 0) (P.zstart + j)
      (if supported P j ≠ 0 then 1 else 2), 0, false⟩ : Con K).Holds n x ↔
      (if fixedDofs P j = 0 then 2 else 1) * x (P.zstart + j)
        ≤ ∑ m ∈ Finset.range P.members.length, if Touches P m j then x (P.ystart + m) else 0) := by
    intro j hj
    simp only [Con.Holds, Bool.false_eq_true, if_false]
    rw [e j, dotv_put (by omega), dotv_putRange (by omega), dotv_zeros, supported_eq P hs]
    have e1 : putRange (zeros : ℕ → K) P.ystart (P.ystart + P.members.length) (fun m => if Touches P m j then -1 else 0)
        (P.zstart + j) = 0 := by
      unfold putRange
      rw [if_neg (by omega)]
      rfl
    have e2 : ∑ d ∈ Finset.range P.members.length, ((if Touches P d j then (-1 : K) else 0) - zeros (P.ystart + d)) * x (P.ystart + d)
        = -∑ m ∈ Finset.range P.members.length, if Touches P m j then x (P.ystart + m) else 0 := by
      rw [← Finset.sum_neg_distrib]
      refine Finset.sum_congr rfl fun d _ => ?_
      simp only [zeros]
      split <;> ring
    rw [e1, e2]
    by_cases h0 : fixedDofs P j = 0
    · simp only [h0, ne_eq, not_true_eq_false, if_false, if_true]
      constructor <;> intro h <;> linarith
    · simp only [h0, ne_eq, not_false_eq_true, if_true, if_false]
      constructor <;> intro h <;> linarith
  unfold con2
  constructor
  · intro h j hj
    exact (key j hj).1 (h _ (List.mem_map.2 ⟨j, List.mem_range.2 hj, rfl⟩))
  · intro h c hc
    obtain ⟨j, hj, rfl⟩ := List.mem_map.1 hc
    exact (key j (List.mem_range.1 hj)).2 (h j (List.mem_range.1 hj))

theorem con3_iff (P : Inp K) (hs : SupportsApart P) {n : ℕ} (hn : P.zstart + P.nnodes ≤ n) (x : ℕ → K) :
    (con3 P).Holds n x ↔ 2 * ∑ j ∈ Finset.range P.nnodes, x (P.zstart + j)
      ≤ ∑ m ∈ Finset.range P.members.length, x (P.ystart + m) + ∑ j ∈ Finset.range P.nnodes, (fixedDofs P j : K) * x (P.zstart + j) := by
  have hz : P.zstart = P.ystart + P.members.length := rfl
  have e : (con3 P).a = putRange (putRange zeros P.ystart (P.ystart + P.members.length) (fun _ => -1)) P.zstart
      (P.zstart + P.nnodes) (fun j => 2 - (supported P j : K)) := rfl
  have : (con3 P).Holds n x ↔ dotv n (con3 P).a x ≤ 0 := Iff.rfl
  rw [this, e, dotv_putRange hn, dotv_putRange (by omega), dotv_zeros]
  have e1 : ∑ d ∈ Finset.range P.nnodes, (2 - (supported P d : K)
      - putRange zeros P.ystart (P.ystart + P.members.length) (fun _ => -1) (P.zstart + d)) * x (P.zstart + d)
      = 2 * ∑ j ∈ Finset.range P.nnodes, x (P.zstart + j) - ∑ j ∈ Finset.range P.nnodes, (fixedDofs P j : K) * x (P.zstart + j) := by
    rw [Finset.mul_sum, ← Finset.sum_sub_distrib]
    refine Finset.sum_congr rfl fun d _ => ?_
    unfold putRange
    rw [if_neg (by omega), supported_eq P hs]
    simp only [zeros]
    ring
  have e2 : ∑ d ∈ Finset.range P.members.length, ((-1 : K) - zeros (P.ystart + d)) * x (P.ystart + d)
      = -∑ m ∈ Finset.range P.members.length, x (P.ystart + m) := by
    rw [← Finset.sum_neg_distrib]
    refine Finset.sum_congr rfl fun d _ => ?_
    simp [zeros]
  rw [e1, e2]
  constructor <;> intro h <;> linarith

theorem con4_iff (P : Inp K) (hs : SupportsApart P) {n : ℕ} (hn : P.zstart + P.nnodes ≤ n) (x : ℕ → K) :
    (con4 P).Holds n x ↔ 2 ≤ ∑ j ∈ Finset.range P.nnodes, if fixedDofs P j = 0 then 0 else x (P.zstart + j) := by
  have e : (con4 P).a = putRange zeros P.zstart (P.zstart + P.nnodes) (fun j => if supported P j ≠ 0 then -1 else 0) := by
    funext t
    simp only [con4, putRange, zeros]
    by_cases h : P.zstart ≤ t ∧ t < P.zstart + P.nnodes
    · simp [h]
    · rw [if_neg h, if_neg (fun h' => h ⟨h'.1, h'.2.1⟩)]
  have : (con4 P).Holds n x ↔ dotv n (con4 P).a x ≤ -2 := Iff.rfl
  rw [this, e, dotv_putRange hn, dotv_zeros]
  have e2 : ∑ d ∈ Finset.range P.nnodes, ((if supported P d ≠ 0 then (-1 : K) else 0) - zeros (P.zstart + d)) * x (P.zstart + d)
      = -∑ j ∈ Finset.range P.nnodes, if fixedDofs P j = 0 then 0 else x (P.zstart + j) := by
    rw [← Finset.sum_neg_distrib]
    refine Finset.sum_congr rfl fun d _ => ?_
    rw [supported_eq P hs]
    by_cases h : fixedDofs P d = 0 <;> simp [h, zeros]
  rw [e2]
  constructor <;> intro h <;> linarith

/-- The topology constraints, without groups. -/
theorem topo_iff (P : Inp K) (hs : SupportsApart P) {n : ℕ} (hn : P.zstart + P.nnodes ≤ n) (x : ℕ → K) :
    (∀ c ∈ con1 P ++ con2 P ++ [con3 P, con4 P], c.Holds n x) ∧ (∀ m < P.members.length, x (P.ystart + m) = 0 ∨ x (P.ystart + m) = 1) ∧
      (∀ j < P.nnodes, x (P.zstart + j) = 0 ∨ x (P.zstart + j) = 1) ↔
    Topology P (fun m => x (P.ystart + m)) (fun j => x (P.zstart + j)) := by
  constructor
  · rintro ⟨h, hY, hZ⟩
    refine ⟨hY, hZ, (con1_iff P hn x).1 fun c hc => h c (by simp [hc]), (con2_iff P hs hn x).1 fun c hc => h c (by simp [hc]),
      (con3_iff P hs hn x).1 (h _ (by simp)), (con4_iff P hs hn x).1 (h _ (by simp))⟩
  · rintro ⟨hY, hZ, h1, h2, h3, h4⟩
    refine ⟨fun c hc => ?_, hY, hZ⟩
    simp only [List.mem_append, List.mem_cons, List.not_mem_nil, or_false] at hc
    rcases hc with (hc | hc) | rfl | rfl
    · exact (con1_iff P hn x).2 h1 c hc
    · exact (con2_iff P hs hn x).2 h2 c hc
    · exact (con3_iff P hs hn x).2 h3
    · exact (con4_iff P hs hn x).2 h4

/-! ### C269: the topology program -/

/-- Number of group variables. -/
def nw (P : Inp K) : ℕ := match P.groups with
  | none => 0
  | some gs => (gs.map Group.nprof).sum

theorem topVars_eq (P : Inp K) : topVars P = List.replicate (P.members.length + P.nnodes + nw P) .bin := by
  unfold topVars nw
  cases P.groups <;> simp [List.replicate_append_replicate]

theorem topo_vars (P : Inp K) (x : ℕ → K) :
    (∀ (t : ℕ) (v : MVar K), (baseVars P ++ topVars P)[t]? = some v → v.Ok (x t)) ↔
      (∀ (t : ℕ) (v : MVar K), (baseVars P)[t]? = some v → v.Ok (x t)) ∧
      (∀ m < P.members.length, x (P.ystart + m) = 0 ∨ x (P.ystart + m) = 1) ∧
      (∀ j < P.nnodes, x (P.zstart + j) = 0 ∨ x (P.zstart + j) = 1) ∧
      ∀ w < nw P, x (P.wstart + w) = 0 ∨ x (P.wstart + w) = 1 := by
  rw [forall_append, topVars_eq]
  have hy : P.ystart = (baseVars P).length := rfl
  have hz : P.zstart = P.ystart + P.members.length := rfl
  have hw : P.wstart = P.zstart + P.nnodes := rfl
  refine and_congr Iff.rfl ⟨fun h => ⟨fun m hm => ?_, fun j hj => ?_, fun w hww => ?_⟩, ?_⟩
  · exact h m .bin (by rw [List.getElem?_replicate, if_pos (by omega)])
  · have := h (P.members.length + j) .bin (by rw [List.getElem?_replicate, if_pos (by omega)])
    rw [← Nat.add_assoc] at this
    exact this
  · have := h (P.members.length + P.nnodes + w) .bin (by rw [List.getElem?_replicate, if_pos (by omega)])
    rw [← Nat.add_assoc, ← Nat.add_assoc] at this
    exact this
  · rintro ⟨h1, h2, h3⟩ t v hv
    rw [List.getElem?_replicate] at hv
    split at hv
    · next ht =>
      obtain rfl := Option.some.inj hv
      show _ ∨ _
      rw [← hy]
      by_cases c1 : t < P.members.length
      · exact h1 t c1
      · by_cases c2 : t < P.members.length + P.nnodes
        · have := h2 (t - P.members.length) (by omega)
          rwa [show P.zstart + (t - P.members.length) = P.ystart + t by omega] at this
        · have := h3 (t - P.members.length - P.nnodes) (by omega)
          rwa [show P.wstart + (t - P.members.length - P.nnodes) = P.ystart + t by omega] at this
    · cases hv

theorem topo_len (P : Inp K) : (baseVars P ++ topVars P).length = P.wstart + nw P := by
  rw [List.length_append, topVars_eq, List.length_replicate]
  have hy : P.ystart = (baseVars P).length := rfl
  have hz : P.zstart = P.ystart + P.members.length := rfl
  have hw : P.wstart = P.zstart + P.nnodes := rfl
  omega

theorem pickT_holds (P : Inp K) {n i : ℕ} (hy : P.ny ≤ P.ystart) (hn : P.zstart ≤ n) (hi : i < P.members.length) (x : ℕ → K) :
    (⟨put (pickRow P i) (P.ystart + i) (-1), 0, true⟩ : Con K).Holds n x ↔
      ∑ j ∈ Finset.range (nprofs P.members i), x (pos P.members i j) = x (P.ystart + i) := by
  have hz : P.zstart = P.ystart + P.members.length := rfl
  simp only [Con.Holds, if_true]
  rw [dotv_put (by omega), dotv_pickRow P (by omega) hi, pickRow_zero P i (by omega)]
  constructor <;> intro h <;> linarith

theorem topology_parts {P : Inp K} {top : List (Con K)} (h : topologyCons P = .ok top) : ∃ gs,
    (match P.groups with
      | none => Except.ok []
      | some gs => groupLoop P 0 gs) = Except.ok gs ∧ top = con1 P ++ con2 P ++ [con3 P, con4 P] ++ gs := by
  unfold topologyCons at h
  simp only [bind, Except.bind] at h
  cases hg : P.groups with
  | none =>
    rw [hg] at h
    obtain rfl := Except.ok.inj h
    exact ⟨[], rfl, rfl⟩
  | some l =>
    rw [hg] at h
    dsimp only at h ⊢
    cases hl : groupLoop P 0 l with
    | error e => rw [hl] at h; cases h
    | ok gs =>
      rw [hl] at h
      obtain rfl := Except.ok.inj h
      exact ⟨gs, rfl, rfl⟩

/-- What the rows of groups say: `w` from `d` on are the profiles of the group. -/
def GroupsHold (P : Inp K) (x : ℕ → K) : ℕ → List Group → Prop
  | _, [] => True
  | d, g :: gs => (∑ j ∈ Finset.range g.nprof, x (P.wstart + d + j) ≤ 1 ∧
      (∀ i ∈ g.members, ∀ j < g.nprof, x (pos P.members i j) ≤ x (P.wstart + d + j)) ∧
      (∀ j < g.nprof, x (P.wstart + d + j) ≤ ∑ t ∈ (g.members.map fun i => pos P.members i j).toFinset, x t)) ∧
    GroupsHold P x (d + g.nprof) gs

/-- Members of groups exist and have the profiles of their groups. -/
def GroupsFit (P : Inp K) (gs : List Group) : Prop :=
  ∀ g ∈ gs, ∀ i ∈ g.members, ∃ m, P.members[i]? = some m ∧ m.profs.length = g.nprof ∧ 0 < g.nprof

theorem pos_add (ms : List (Member K)) (i j : ℕ) : pos ms i 0 + j = pos ms i j := by
  induction ms generalizing i with
  | nil => simp [pos]
  | cons q qs ih =>
    cases i with
    | zero => simp [pos]
    | succ i =>
      simp only [pos]
      rw [← ih i]
      omega

theorem foldl_put (n : ℕ) (x : ℕ → K) (l : List ℕ) (a : ℕ → K) (hl : ∀ t ∈ l, t < n) (ha : ∀ t ∈ l, a t = 0) :
    dotv n (l.foldl (fun a t => put a t (-1)) a) x = dotv n a x - ∑ t ∈ l.toFinset, x t := by
  have gen : ∀ (l : List ℕ) (a : ℕ → K) (S : Finset ℕ), (∀ t ∈ l, t < n) → (∀ t ∈ l, a t = if t ∈ S then -1 else 0) →
      dotv n (l.foldl (fun a t => put a t (-1)) a) x = dotv n a x - ∑ t ∈ l.toFinset \ S, x t := by
    intro l
    induction l with
    | nil => intro a S _ _; simp
    | cons t ts ih =>
      intro a S h1 h2
      rw [List.foldl_cons, ih (put a t (-1)) (insert t S) (fun s hs => h1 s (List.mem_cons_of_mem _ hs)) ?_,
        dotv_put (h1 t (List.mem_cons_self ..)), h2 t (List.mem_cons_self ..)]
      · by_cases ht : t ∈ S
        · rw [if_pos ht, Finset.insert_eq_of_mem ht, List.toFinset_cons, Finset.insert_sdiff_of_mem _ ht]
          ring
        · rw [if_neg ht, List.toFinset_cons, Finset.insert_sdiff_of_notMem _ ht, Finset.sdiff_insert,
            ← Finset.add_sum_erase (insert t (ts.toFinset \ S)) x (Finset.mem_insert_self ..)]
          rw [show (insert t (ts.toFinset \ S)).erase t = (ts.toFinset \ S).erase t by
            ext z; simp]
          ring
      · intro s hs
        unfold put
        by_cases e : s = t
        · simp [e]
        · rw [if_neg e, h2 s (List.mem_cons_of_mem _ hs)]
          simp [Finset.mem_insert, e]
  have := gen l a ∅ hl (by simpa using ha)
  simpa using this

theorem groupRows_holds (P : Inp K) {n d : ℕ} {g : Group} {r : List (Con K)} (hr : groupRows P d g = .ok r)
    (hy : P.ny ≤ P.wstart) (hn : P.wstart + d + g.nprof ≤ n) (x : ℕ → K) : (∀ c ∈ r, c.Holds n x) ↔
      (∑ j ∈ Finset.range g.nprof, x (P.wstart + d + j) ≤ 1 ∧
      (∀ i ∈ g.members, ∀ j < g.nprof, x (pos P.members i j) ≤ x (P.wstart + d + j)) ∧
      (∀ j < g.nprof, x (P.wstart + d + j) ≤ ∑ t ∈ (g.members.map fun i => pos P.members i j).toFinset, x t)) := by
  unfold groupRows at hr
  dsimp only at hr
  split at hr
  swap
  · cases hr
  next hall =>
  obtain rfl := Except.ok.inj hr
  have hvarpos : ∀ i ∈ g.members, ∀ j < g.nprof, pos P.members i j < P.ny := by
    intro i hi j hj
    have := List.all_eq_true.1 hall i hi
    simp only [Bool.and_eq_true, List.all_eq_true, List.mem_range] at this
    have hh := this.2 j hj
    unfold hasVar at hh
    split at hh
    · next m hm => exact pos_lt P hm (by simpa using hh)
    · cases hh
  have k1 : (⟨putRange zeros (P.wstart + d) (P.wstart + d + g.nprof) (fun _ => 1), 1, false⟩ : Con K).Holds n x ↔
      ∑ j ∈ Finset.range g.nprof, x (P.wstart + d + j) ≤ 1 := by
    simp only [Con.Holds, Bool.false_eq_true, if_false]
    rw [dotv_putRange (by omega), dotv_zeros]
    simp [zeros]
  have k2 : ∀ i ∈ g.members, ∀ j < g.nprof,
      ((⟨put (put zeros (P.wstart + d + j) (-1)) (pos P.members i 0 + j) 1, 0, false⟩ : Con K).Holds n x ↔
        x (pos P.members i j) ≤ x (P.wstart + d + j)) := by
    intro i hi j hj
    have hp := hvarpos i hi j hj
    simp only [Con.Holds, Bool.false_eq_true, if_false]
    rw [pos_add, dotv_put (by omega), dotv_put (by omega), dotv_zeros]
    simp only [put, zeros, if_neg (show pos P.members i j ≠ P.wstart + d + j by omega)]
    constructor <;> intro h <;> linarith
  have k3 : ∀ j < g.nprof, ((⟨g.members.foldl (fun a mem => put a (pos P.members mem j) (-1))
      (put zeros (P.wstart + d + j) 1), 0, false⟩ : Con K).Holds n x ↔
        x (P.wstart + d + j) ≤ ∑ t ∈ (g.members.map fun i => pos P.members i j).toFinset, x t) := by
    intro j hj
    simp only [Con.Holds, Bool.false_eq_true, if_false]
    rw [show g.members.foldl (fun a mem => put a (pos P.members mem j) (-1)) (put zeros (P.wstart + d + j) 1)
      = (g.members.map fun i => pos P.members i j).foldl (fun a t => put a t (-1)) (put zeros (P.wstart + d + j) (1 : K)) by
        rw [List.foldl_map], foldl_put, dotv_put (by omega), dotv_zeros]
    · simp only [zeros]
      constructor <;> intro h <;> linarith
    · intro t ht
      obtain ⟨i, hi, rfl⟩ := List.mem_map.1 ht
      have := hvarpos i hi j hj
      omega
    · intro t ht
      obtain ⟨i, hi, rfl⟩ := List.mem_map.1 ht
      have := hvarpos i hi j hj
      simp only [put, zeros, if_neg (show pos P.members i j ≠ P.wstart + d + j by omega)]
  simp only [List.cons_append, List.forall_mem_cons, List.forall_mem_append]
  rw [k1]
  refine and_congr Iff.rfl (and_congr ?_ ?_)
  · constructor
    · intro h i hi j hj
      exact (k2 i hi j hj).1 (h _ (List.mem_flatMap.2 ⟨i, hi, List.mem_map.2 ⟨j, List.mem_range.2 hj, rfl⟩⟩))
    · intro h c hc
      obtain ⟨i, hi, hc⟩ := List.mem_flatMap.1 hc
      obtain ⟨j, hj, rfl⟩ := List.mem_map.1 hc
      exact (k2 i hi j (List.mem_range.1 hj)).2 (h i hi j (List.mem_range.1 hj))
  · constructor
    · intro h j hj
      exact (k3 j hj).1 (h _ (List.mem_map.2 ⟨j, List.mem_range.2 hj, rfl⟩))
    · intro h c hc
      obtain ⟨j, hj, rfl⟩ := List.mem_map.1 hc
      exact (k3 j (List.mem_range.1 hj)).2 (h j (List.mem_range.1 hj))

theorem groupLoop_holds (P : Inp K) {n : ℕ} {gs : List Group} {d : ℕ} {rows : List (Con K)}
    (h : groupLoop P d gs = .ok rows) (hy : P.ny ≤ P.wstart) (hn : P.wstart + d + (gs.map Group.nprof).sum ≤ n) (x : ℕ → K) :
    (∀ c ∈ rows, c.Holds n x) ↔ GroupsHold P x d gs := by
  induction gs generalizing d rows with
  | nil => obtain rfl := Except.ok.inj h; simp [GroupsHold]
  | cons q qs ih =>
    simp only [groupLoop, bind, Except.bind] at h
    simp only [List.map_cons, List.sum_cons] at hn
    cases hr : groupRows P d q with
    | error e => rw [hr] at h; cases h
    | ok r =>
      rw [hr] at h
      dsimp only at h
      cases hrs : groupLoop P (d + q.nprof) qs with
      | error e => rw [hrs] at h; cases h
      | ok rs =>
        rw [hrs] at h
        obtain rfl := Except.ok.inj h
        rw [List.forall_mem_append, groupRows_holds P hr hy (by omega) x, ih hrs (by omega)]
        rfl

theorem groupLoop_ok (P : Inp K) {gs : List Group} (hf : GroupsFit P gs) (d : ℕ) : ∃ rows, groupLoop P d gs = .ok rows := by
  induction gs generalizing d with
  | nil => exact ⟨[], rfl⟩
  | cons q qs ih =>
    obtain ⟨rs, hrs⟩ := ih (fun g hg => hf g (List.mem_cons_of_mem _ hg)) (d + q.nprof)
    have : ∃ r, groupRows P d q = .ok r := by
      unfold groupRows
      rw [if_pos]
      · exact ⟨_, rfl⟩
      · rw [List.all_eq_true]
        intro i hi
        obtain ⟨m, hm, hl, h0⟩ := hf q (List.mem_cons_self ..) i hi
        have hv : ∀ j < q.nprof, hasVar P i j = true := by
          intro j hj
          unfold hasVar
          rw [hm]
          simpa [hl] using hj
        rw [Bool.and_eq_true, List.all_eq_true]
        exact ⟨hv 0 h0, fun j hj => hv j (List.mem_range.1 hj)⟩
    obtain ⟨r, hr⟩ := this
    exact ⟨r ++ rs, by simp only [groupLoop, bind, Except.bind, hr, hrs]⟩

/-- Points of the topology program of one load case, for every scaling. -/
theorem topology_exact (P : Inp K) {load : ℕ → K} (hl : P.loads = [load]) (hP : Sensible P) (hs : SupportsApart P)
    (ha : 0 < P.scaleN) (hb : 0 < P.scaleU) (hlo : P.ulb ≤ 0) (hhi : 0 ≤ P.uub) {M : Prob K}
    (hM : buildMilp P true = .ok M) (x : ℕ → K) :
    Feasible M x ↔ (∃ pick u, IsDesign P (P.ulb / P.scaleU) (P.uub / P.scaleU) (tensScaled P) (compScaled P) load pick u ∧
        Encodes P x pick u ∧ ∀ i < P.members.length, x (P.ystart + i) = if (pick i).isSome then 1 else 0) ∧
      Topology P (fun m => x (P.ystart + m)) (fun j => x (P.zstart + j)) ∧
      (GroupsHold P x 0 (P.groups.getD []) ∧ ∀ w < nw P, x (P.wstart + w) = 0 ∨ x (P.wstart + w) = 1) := by
  obtain ⟨top, htop, hv, -, hc⟩ := build_topology hM
  obtain ⟨gr, hgr, rfl⟩ := topology_parts htop
  have hlen : M.vars.length = P.wstart + nw P := by rw [hv, topo_len]
  have hws : P.wstart = P.zstart + P.nnodes := rfl
  have hyl : P.ystart = P.ny + P.ny + P.ndof := base_length P hl
  have hz : P.zstart = P.ystart + P.members.length := rfl
  have hG : (∀ c ∈ gr, c.Holds M.vars.length x) ↔ GroupsHold P x 0 (P.groups.getD []) := by
    cases hg : P.groups with
    | none =>
      rw [hg] at hgr
      obtain rfl := Except.ok.inj hgr
      simp [GroupsHold]
    | some gs =>
      rw [hg] at hgr
      exact groupLoop_holds P hgr (by omega) (by rw [hlen]; simp [nw, hg]) x
  have hF : Feasible M x ↔ System P load x ∧ (Topology P (fun m => x (P.ystart + m)) (fun j => x (P.zstart + j)) ∧
      (GroupsHold P x 0 (P.groups.getD []) ∧ ∀ w < nw P, x (P.wstart + w) = 0 ∨ x (P.wstart + w) = 1)) ∧
      ∀ i < P.members.length, ∑ j ∈ Finset.range (nprofs P.members i), x (pos P.members i j) = x (P.ystart + i) := by
    unfold Feasible
    rw [← hG, ← system_iff P hl (n := M.vars.length) (by omega) x, ← topo_iff P hs (n := M.vars.length) (by omega) x, hv, topo_vars,
      ← hv, hc]
    constructor
    · rintro ⟨⟨h1, h2, h3, h4⟩, h⟩
      refine ⟨⟨h1, fun c hc => h c (by simp [hc]), fun c hc => h c (by simp [hc]), fun c hc => h c (by simp [hc])⟩,
        ⟨⟨fun c hc => h c ?_, h2, h3⟩, fun c hc => h c (by simp [hc]), h4⟩, fun i hi => (pickT_holds P (n := M.vars.length) (by omega) (by omega) hi x).1 (h _ ?_)⟩
      · simp only [List.mem_append] at hc ⊢
        tauto
      · simp only [List.mem_append, List.mem_map, List.mem_range]
        exact Or.inl (Or.inl (Or.inl (Or.inl ⟨i, hi, rfl⟩)))
    · rintro ⟨⟨h1, h2, h3, h4⟩, ⟨⟨h5, h6, h7⟩, hgc, h9⟩, h8⟩
      refine ⟨⟨h1, h6, h7, h9⟩, fun c hc => ?_⟩
      simp only [List.mem_append] at hc h5
      rcases hc with (((hc | hc | hc) | hc) | hc) | hc
      · obtain ⟨i, hi, rfl⟩ := List.mem_map.1 hc
        exact (pickT_holds P (by omega) (by omega) (List.mem_range.1 hi) x).2 (h8 i (List.mem_range.1 hi))
      · exact h5 c hc
      · exact hgc c hc
      · exact h2 c hc
      · exact h3 c hc
      · exact h4 c hc
  rw [hF]
  constructor
  · rintro ⟨h1, h2, h3⟩
    have hsum : ∀ i m, P.members[i]? = some m → (∑ j ∈ Finset.range m.profs.length, x (pos P.members i j) = 0 ∨
        ∑ j ∈ Finset.range m.profs.length, x (pos P.members i j) = 1) := by
      intro i m hm
      have hi := (List.getElem?_eq_some_iff.1 hm).1
      rw [← nprofs_eq hm, h3 i hi]
      exact h2.1.member i hi
    obtain ⟨pick, u, hd, he⟩ := (system_design P hP ha hb hlo hhi x).1 ⟨h1, hsum⟩
    refine ⟨⟨pick, u, hd, he, fun i hi => ?_⟩, h2⟩
    obtain ⟨m, hm⟩ := mem_getElem? hi
    rw [← h3 i hi, nprofs_eq hm, sum_pick hm (fun j hj => hd.1 i m j hm hj) _ 1 (fun j hj => (he.1 i m j hm hj).1)]
  · rintro ⟨⟨pick, u, hd, he, hY⟩, h2⟩
    refine ⟨((system_design P hP ha hb hlo hhi x).2 ⟨pick, u, hd, he⟩).1, h2, fun i hi => ?_⟩
    obtain ⟨m, hm⟩ := mem_getElem? hi
    rw [hY i hi, nprofs_eq hm, sum_pick hm (fun j hj => hd.1 i m j hm hj) _ 1 (fun j hj => (he.1 i m j hm hj).1)]

/-- C269 (partial: one load case, no scaling, no groups; existing members may end at absent nodes).  The points of the
    topology program are the designs with absent members carrying nothing, in which existing nodes join at least two members
    (one at supports), members and supports suffice for the existing nodes, and two supported nodes exist. -/
theorem C269_partial (P : Inp K) {load : ℕ → K} (hl : P.loads = [load]) (hP : Sensible P) (hs : SupportsApart P)
    (hg : P.groups = none) (ha : P.scaleN = 1) (hb : P.scaleU = 1) (hlo : P.ulb ≤ 0) (hhi : 0 ≤ P.uub) {M : Prob K}
    (hM : buildMilp P true = .ok M) (x : ℕ → K) :
    (Feasible M x ↔ (∃ pick u, IsDesign P P.ulb P.uub tension compression load pick u ∧
        Encodes P x pick u ∧ ∀ i < P.members.length, x (P.ystart + i) = if (pick i).isSome then 1 else 0) ∧
      Topology P (fun m => x (P.ystart + m)) (fun j => x (P.zstart + j))) ∧
    ∀ pick u, Feasible M x → IsDesign P P.ulb P.uub tension compression load pick u → Encodes P x pick u →
      dotv M.vars.length M.obj x = weight P pick := by
  obtain ⟨h1, h2⟩ := unscaled P ha hb
  have h := topology_exact P hl hP hs (by rw [ha]; exact one_pos) (by rw [hb]; exact one_pos) hlo hhi hM x
  rw [hb, div_one, div_one, h1, h2] at h
  have hnw : nw P = 0 := by simp [nw, hg]
  have hG : (GroupsHold P x 0 (P.groups.getD []) ∧ ∀ w < nw P, x (P.wstart + w) = 0 ∨ x (P.wstart + w) = 1) := by
    rw [hg, hnw]
    exact ⟨trivial, fun w hw => by omega⟩
  rw [iff_true_intro hG, and_true] at h
  refine ⟨h, fun pick u _ hd he => ?_⟩
  obtain ⟨top, -, hv, ho, -⟩ := build_topology hM
  rw [ho]
  refine objective_weight P (by rw [hb]; exact one_ne_zero) ?_ hd.1 he
  rw [hv, List.length_append, base_length P hl]
  omega

/-- C269 (violated): the first topology constraint is the wrong way round.  In every point of every topology program all
    members of the ground structure at an existing node exist, so that none of them can be left out. -/
theorem C269_violation_forced (P : Inp K) {M : Prob K} (hM : buildMilp P true = .ok M) {x : ℕ → K} (hx : Feasible M x)
    {j m : ℕ} (hj : j < P.nnodes) (hm : Touches P m j) (h1 : x (P.zstart + j) = 1) : x (P.ystart + m) = 1 := by
  obtain ⟨top, htop, hv, -, hc⟩ := build_topology hM
  obtain ⟨hvars, hcons⟩ := hx
  rw [hv, topo_vars] at hvars
  have hin : ∀ c ∈ con1 P, c ∈ M.cons := by
    intro c hcc
    obtain ⟨gs, -, rfl⟩ := topology_parts htop
    rw [hc]
    simp [hcc]
  have h := (con1_iff P (n := M.vars.length) (by rw [hv, topo_len]; exact Nat.le_add_right _ _) x).1
    (fun c hcc => hcons c (hin c hcc)) j hj m hm
  rcases hvars.2.1 m (touches_lt hm) with h0 | h0
  · rw [h0, h1] at h
    exact absurd h (not_le.2 one_pos)
  · exact h0

/-- Two supported nodes, each joined to a free node, no load. -/
def vee : Inp ℚ :=
  { scaleN := 1, scaleU := 1, ulb := -1, uub := 1, ndof := 2, B := fun d i => if d = i then 1 else 0, loads := [fun _ => 0]
    members := [⟨1, 1, [⟨1, 1, 1, 1⟩], [0, 2]⟩, ⟨1, 1, [⟨1, 1, 1, 1⟩], [1, 2]⟩], nnodes := 3, supports := [(0, 2), (1, 2)]
    groups := none }

theorem vee_sensible : Sensible vee := by
  intro m hm
  simp only [vee, List.mem_cons, List.not_mem_nil, or_false] at hm
  rcases hm with rfl | rfl <;> simp

theorem vee_touches (m j : ℕ) : Touches vee m j ↔ (m = 0 ∧ (j = 0 ∨ j = 2)) ∨ (m = 1 ∧ (j = 1 ∨ j = 2)) := by
  unfold Touches vee
  match m with
  | 0 => simp
  | 1 => simp
  | m + 2 => simp

theorem build_topology_ok (P : Inp K) (hg : GroupsFit P (P.groups.getD [])) : ∃ M, buildMilp P true = .ok M := by
  have : ∃ top, topologyCons P = .ok top := by
    unfold topologyCons
    cases hgr : P.groups with
    | none => exact ⟨_, rfl⟩
    | some gs =>
      rw [hgr] at hg
      obtain ⟨rows, hr⟩ := groupLoop_ok P (gs := gs) hg 0
      refine ⟨con1 P ++ con2 P ++ [con3 P, con4 P] ++ rows, ?_⟩
      simp only [bind, Except.bind]
      rw [hr]
  obtain ⟨top, ht⟩ := this
  simp only [buildMilp, ht, bind, Except.bind, if_true]
  exact ⟨_, rfl⟩

/-- Hypotheses of `C269_partial`. -/
example : Sensible vee ∧ SupportsApart vee ∧ vee.groups = none ∧ vee.ulb ≤ 0 ∧ 0 ≤ vee.uub ∧ ∃ M, buildMilp vee true = .ok M :=
  ⟨vee_sensible, by unfold SupportsApart vee; decide, rfl, by simp [vee], by simp [vee],
    build_topology_ok vee (by intro g hg; simp [vee] at hg)⟩

/-- C269 (violated): a topology program has a point in which a node is absent and the two members at it exist. -/
theorem C269_violation_dangling : ∃ (P : Inp ℚ) (M : Prob ℚ) (x : ℕ → ℚ), Sensible P ∧ SupportsApart P ∧
    buildMilp P true = .ok M ∧ Feasible M x ∧ ∃ j m, j < P.nnodes ∧ Touches P m j ∧ x (P.zstart + j) = 0 ∧
      x (P.ystart + m) = 1 := by
  obtain ⟨M, hM⟩ := build_topology_ok vee (by intro g hg; simp [vee] at hg)
  have hny : vee.ny = 2 := rfl
  have hys : vee.ystart = 6 := rfl
  have hzs : vee.zstart = 8 := rfl
  have hs : SupportsApart vee := by unfold SupportsApart vee; decide
  let x : ℕ → ℚ := fun t => if t < 2 then 1 else if t = 6 ∨ t = 7 ∨ t = 8 ∨ t = 9 then 1 else 0
  refine ⟨vee, M, x, vee_sensible, hs, hM, ?_, 2, 0, by decide, (vee_touches 0 2).2 (by simp), by simp [hzs, x],
    by simp [hys, x]⟩
  have hax : ∀ i, axial vee (fun _ => some 0) (fun _ => 0) i = 0 := by
    intro i
    unfold axial
    split <;> simp
  refine (topology_exact vee rfl vee_sensible hs one_pos one_pos (by simp [vee]) (by simp [vee]) hM x).2
    ⟨⟨fun _ => some 0, fun _ => 0, ⟨?_, ?_, ?_, ?_⟩, ⟨?_, ?_⟩, ?_⟩, ?_, trivial,
      fun w hw => by simp [nw, vee] at hw⟩
  · intro i m j hm hj
    obtain rfl := Option.some.inj hj
    have := mem_of_get hm
    simp only [vee, List.mem_cons, List.not_mem_nil, or_false] at this
    rcases this with rfl | rfl <;> simp
  · intro d _
    simp [vee]
  · intro d _
    simp only [hax]
    simp
  · intro i m p hp
    rw [hax]
    obtain ⟨j, hm, hj, hpr⟩ := picked_inv hp
    have := mem_of_get hm
    simp only [vee, List.mem_cons, List.not_mem_nil, or_false] at this
    have hpp := mem_of_get hpr
    have : p = ⟨1, 1, 1, 1⟩ := by rcases this with rfl | rfl <;> simpa using hpp
    subst this
    simp [compScaled, tensScaled, vee]
  · intro i m j hm hj
    match i with
    | 0 =>
      simp only [vee, List.getElem?_cons_zero, Option.some.injEq] at hm
      subst hm
      simp only [List.length_singleton, Nat.lt_one_iff] at hj
      subst hj
      rw [hax, hny]
      exact ⟨rfl, by rw [if_pos rfl, mul_zero]; rfl⟩
    | 1 =>
      simp only [vee, List.getElem?_cons_succ, List.getElem?_cons_zero, Option.some.injEq] at hm
      subst hm
      simp only [List.length_singleton, Nat.lt_one_iff] at hj
      subst hj
      rw [hax, hny]
      exact ⟨rfl, by rw [if_pos rfl, mul_zero]; rfl⟩
    | i + 2 => simp [vee] at hm
  · intro d hd
    simp only [vee] at hd
    rw [hny]
    simp only [x, mul_zero]
    rw [if_neg (by omega), if_neg (by omega)]
  · intro i hi
    simp only [vee, List.length_cons, List.length_nil] at hi
    rw [hys]
    simp only [x]
    rw [if_neg (by omega), if_pos (by omega)]
    rfl
  · have hf : fixedDofs vee 0 = 2 ∧ fixedDofs vee 1 = 2 ∧ fixedDofs vee 2 = 0 := by decide
    have hn : vee.nnodes = 3 := rfl
    have hm2 : vee.members.length = 2 := rfl
    refine ⟨?_, ?_, ?_, ?_, ?_, ?_⟩
    · intro m hm
      rw [hys]
      simp only [x]
      split
      · exact Or.inr rfl
      · split
        · exact Or.inr rfl
        · exact Or.inl rfl
    · intro j hj
      rw [hzs]
      simp only [x]
      split
      · exact Or.inr rfl
      · split
        · exact Or.inr rfl
        · exact Or.inl rfl
    · intro j hj m hm
      rw [vee_touches] at hm
      rw [hys, hzs]
      rcases hm with ⟨rfl, rfl | rfl⟩ | ⟨rfl, rfl | rfl⟩ <;> norm_num [x]
    · intro j hj
      rw [hn] at hj
      rw [hm2, hys, hzs, Finset.sum_range_succ, Finset.sum_range_one]
      simp only [vee_touches]
      rcases (by omega : j = 0 ∨ j = 1 ∨ j = 2) with rfl | rfl | rfl
      · norm_num [hf, x]
      · norm_num [hf, x]
      · norm_num [hf, x]
    · rw [hn, hm2, hys, hzs]
      simp only [Finset.sum_range_succ, Finset.sum_range_zero, hf, x]
      norm_num
    · rw [hn, hzs]
      simp only [Finset.sum_range_succ, Finset.sum_range_zero, hf, x]
      norm_num

/-! ### C270: groups -/


/-! ### C270: groups -/

theorem groups_same (P : Inp K) {x : ℕ → K} {gs : List Group} {d : ℕ} (h : GroupsHold P x d gs)
    (hb : ∀ w < (gs.map Group.nprof).sum, x (P.wstart + d + w) = 0 ∨ x (P.wstart + d + w) = 1) {g : Group} (hg : g ∈ gs)
    {i i' j j' : ℕ} (hi : i ∈ g.members) (hi' : i' ∈ g.members) (hj : j < g.nprof) (hj' : j' < g.nprof)
    (h1 : x (pos P.members i j) = 1) (h2 : x (pos P.members i' j') = 1) : j = j' := by
  induction gs generalizing d with
  | nil => simp at hg
  | cons q qs ih =>
    simp only [List.map_cons, List.sum_cons] at hb
    obtain ⟨⟨hsum, hle, -⟩, hrest⟩ := h
    rcases List.mem_cons.1 hg with rfl | hg
    · have hnn : ∀ t < g.nprof, 0 ≤ x (P.wstart + d + t) := by
        intro t ht
        rcases hb t (by omega) with h | h <;> rw [h]
        exact zero_le_one
      by_contra hne
      have hsub2 : ({j, j'} : Finset ℕ) ⊆ Finset.range g.nprof := by
        intro t ht
        simp only [Finset.mem_insert, Finset.mem_singleton] at ht
        rcases ht with rfl | rfl <;> simpa
      have := Finset.sum_le_sum_of_subset_of_nonneg hsub2 (f := fun t => x (P.wstart + d + t))
        (fun t ht _ => hnn t (Finset.mem_range.1 ht))
      rw [Finset.sum_pair hne] at this
      have a1 := hle i hi j hj
      have a2 := hle i' hi' j' hj'
      rw [h1] at a1
      rw [h2] at a2
      linarith
    · refine ih hrest (fun w hw => ?_) hg
      have := hb (q.nprof + w) (by omega)
      rwa [show P.wstart + d + (q.nprof + w) = P.wstart + (d + q.nprof) + w by omega] at this

open Classical in
/-- The group variables that go with picked profiles. -/
noncomputable def groupVal (P : Inp K) (x : ℕ → K) : List Group → ℕ → K
  | [], _ => 0
  | g :: gs, t => if t < g.nprof then (if ∃ i ∈ g.members, x (pos P.members i t) = 1 then 1 else 0)
    else groupVal P x gs (t - g.nprof)

theorem groupVal_bin (P : Inp K) (x : ℕ → K) (gs : List Group) (t : ℕ) : groupVal P x gs t = 0 ∨ groupVal P x gs t = 1 := by
  induction gs generalizing t with
  | nil => exact Or.inl rfl
  | cons q qs ih =>
    unfold groupVal
    split
    · split
      · exact Or.inr rfl
      · exact Or.inl rfl
    · exact ih _

theorem groupVal_holds (P : Inp K) {x : ℕ → K} {gs : List Group} {d : ℕ}
    (hw : ∀ t, x (P.wstart + d + t) = groupVal P x gs t)
    (hb : ∀ g ∈ gs, ∀ i ∈ g.members, ∀ j < g.nprof, x (pos P.members i j) = 0 ∨ x (pos P.members i j) = 1)
    (hone : ∀ g ∈ gs, ∀ i ∈ g.members, ∀ i' ∈ g.members, ∀ j < g.nprof, ∀ j' < g.nprof, x (pos P.members i j) = 1 →
      x (pos P.members i' j') = 1 → j = j') : GroupsHold P x d gs := by
  induction gs generalizing d with
  | nil => exact trivial
  | cons q qs ih =>
    have hb' := hb q (List.mem_cons_self ..)
    have hone' := hone q (List.mem_cons_self ..)
    have hv : ∀ j < q.nprof, x (P.wstart + d + j) = open Classical in
        if ∃ i ∈ q.members, x (pos P.members i j) = 1 then 1 else 0 := by
      intro j hj
      rw [hw j]
      unfold groupVal
      rw [if_pos hj]
    refine ⟨⟨?_, ?_, ?_⟩, ih (fun t => ?_) (fun g hg => hb g (List.mem_cons_of_mem _ hg))
      (fun g hg => hone g (List.mem_cons_of_mem _ hg))⟩
    · by_cases he : ∃ j < q.nprof, ∃ i ∈ q.members, x (pos P.members i j) = 1
      · obtain ⟨j, hj, i, hi, hij⟩ := he
        rw [Finset.sum_eq_single_of_mem j (Finset.mem_range.2 hj)]
        · rw [hv j hj, if_pos ⟨i, hi, hij⟩]
        · intro j' hj' hne
          rw [Finset.mem_range] at hj'
          rw [hv j' hj', if_neg]
          rintro ⟨i', hi', h'⟩
          exact hne (hone' i' hi' i hi j' hj' j hj h' hij)
      · rw [Finset.sum_eq_zero]
        · exact zero_le_one
        · intro j hj
          rw [Finset.mem_range] at hj
          rw [hv j hj, if_neg]
          intro h
          exact he ⟨j, hj, h⟩
    · intro i hi j hj
      rw [hv j hj]
      rcases hb' i hi j hj with h | h
      · rw [h]
        split
        · exact zero_le_one
        · exact le_rfl
      · rw [h, if_pos ⟨i, hi, h⟩]
    · intro j hj
      have hnn : ∀ t ∈ (q.members.map fun i => pos P.members i j).toFinset, 0 ≤ x t := by
        intro t ht
        obtain ⟨i, hi, rfl⟩ := List.mem_map.1 (List.mem_toFinset.1 ht)
        rcases hb' i hi j hj with h | h <;> rw [h]
        exact zero_le_one
      rw [hv j hj]
      split
      · next h =>
        obtain ⟨i, hi, hij⟩ := h
        rw [← hij]
        exact Finset.single_le_sum hnn (List.mem_toFinset.2 (List.mem_map.2 ⟨i, hi, rfl⟩))
      · exact Finset.sum_nonneg hnn
    · have := hw (q.nprof + t)
      rw [show P.wstart + d + (q.nprof + t) = P.wstart + (d + q.nprof) + t by omega] at this
      rw [this]
      conv_lhs => unfold groupVal
      rw [if_neg (by omega), Nat.add_sub_cancel_left]

/-- All members of a group that are there have the same profile. -/
def OneProfile (gs : List Group) (pick : ℕ → Option ℕ) : Prop :=
  ∀ g ∈ gs, ∀ i ∈ g.members, ∀ i' ∈ g.members, ∀ j j', pick i = some j → pick i' = some j' → j = j'

/-- C270 (partial: topology only, one load case, no scaling).  With groups the topology program has the points of the program
    without groups in which the members of every group that are there have one profile: some values of the group
    variables complete a point if and only if this is so. -/
theorem C270_partial (P : Inp K) {load : ℕ → K} (hl : P.loads = [load]) (hP : Sensible P) (hs : SupportsApart P)
    {gs : List Group} (hgs : P.groups = some gs) (hf : GroupsFit P gs) (ha : P.scaleN = 1) (hb : P.scaleU = 1)
    (hlo : P.ulb ≤ 0) (hhi : 0 ≤ P.uub) : ∃ M, buildMilp P true = .ok M ∧ ∀ x : ℕ → K,
    ((∃ x', Feasible M x' ∧ ∀ t < P.wstart, x' t = x t) ↔
      (∃ pick u, IsDesign P P.ulb P.uub tension compression load pick u ∧ OneProfile gs pick ∧
        Encodes P x pick u ∧ ∀ i < P.members.length, x (P.ystart + i) = if (pick i).isSome then 1 else 0) ∧
      Topology P (fun m => x (P.ystart + m)) (fun j => x (P.zstart + j))) := by
  obtain ⟨M, hM⟩ := build_topology_ok P (by rw [hgs]; exact hf)
  refine ⟨M, hM, fun x => ?_⟩
  obtain ⟨h1, h2⟩ := unscaled P ha hb
  have hex := fun x => topology_exact P hl hP hs (by rw [ha]; exact one_pos) (by rw [hb]; exact one_pos) hlo hhi hM x
  rw [hb] at hex
  simp only [div_one] at hex
  rw [h1, h2, hgs] at hex
  have hnw : nw P = (gs.map Group.nprof).sum := by simp [nw, hgs]
  have hyl : P.ystart = P.ny + P.ny + P.ndof := base_length P hl
  have hz : P.zstart = P.ystart + P.members.length := rfl
  have hw : P.wstart = P.zstart + P.nnodes := rfl
  have henc : ∀ {x x' : ℕ → K} {pick u}, (∀ t < P.wstart, x' t = x t) → Encodes P x' pick u → Encodes P x pick u := by
    intro x x' pick u he hx'
    refine ⟨fun i m j hm hj => ?_, fun d hd => ?_⟩
    · have hp := pos_lt P hm hj
      rw [← he _ (by omega), ← he _ (by omega)]
      exact hx'.1 i m j hm hj
    · rw [← he _ (by omega)]
      exact hx'.2 d hd
  have hYe : ∀ {x x' : ℕ → K} {pick : ℕ → Option ℕ}, (∀ t < P.wstart, x' t = x t) →
      (∀ i < P.members.length, x' (P.ystart + i) = if (pick i).isSome then 1 else 0) →
      ∀ i < P.members.length, x (P.ystart + i) = if (pick i).isSome then 1 else 0 := by
    intro x x' pick he h i hi
    rw [← he _ (by omega)]
    exact h i hi
  have htop : ∀ {x x' : ℕ → K}, (∀ t < P.wstart, x' t = x t) →
      Topology P (fun m => x' (P.ystart + m)) (fun j => x' (P.zstart + j)) →
      Topology P (fun m => x (P.ystart + m)) (fun j => x (P.zstart + j)) := by
    intro x x' he h
    have e1 : ∀ m < P.members.length, x' (P.ystart + m) = x (P.ystart + m) := fun m hm => he _ (by omega)
    have e2 : ∀ j < P.nnodes, x' (P.zstart + j) = x (P.zstart + j) := fun j hj => he _ (by omega)
    have s1 : ∀ c : ℕ → K, ∑ j ∈ Finset.range P.nnodes, c j * x' (P.zstart + j)
        = ∑ j ∈ Finset.range P.nnodes, c j * x (P.zstart + j) :=
      fun c => Finset.sum_congr rfl fun j hj => by rw [e2 j (Finset.mem_range.1 hj)]
    refine ⟨?_, ?_, ?_, ?_, ?_, ?_⟩
    · intro m hm
      rw [← e1 m hm]
      exact h.member m hm
    · intro j hj
      rw [← e2 j hj]
      exact h.node j hj
    · intro j hj m hm
      rw [← e1 m (touches_lt hm), ← e2 j hj]
      exact h.link j hj m hm
    · intro j hj
      have := h.meet j hj
      rw [e2 j hj] at this
      refine this.trans_eq (Finset.sum_congr rfl fun m hm => ?_)
      rw [e1 m (Finset.mem_range.1 hm)]
    · have := h.count
      rw [s1, Finset.sum_congr rfl fun j hj => e2 j (Finset.mem_range.1 hj),
        Finset.sum_congr rfl fun m hm => e1 m (Finset.mem_range.1 hm)] at this
      exact this
    · refine h.supp.trans_eq (Finset.sum_congr rfl fun j hj => ?_)
      rw [e2 j (Finset.mem_range.1 hj)]
  constructor
  · rintro ⟨x', hx', he⟩
    obtain ⟨⟨pick, u, hd, hen, hY⟩, ht, hG, hbin⟩ := (hex x').1 hx'
    refine ⟨⟨pick, u, hd, ?_, henc he hen, hYe he hY⟩, htop he ht⟩
    intro g hg i hi i' hi' j j' hj hj'
    obtain ⟨m, hm, hlen, -⟩ := hf g hg i hi
    obtain ⟨m', hm', hlen', -⟩ := hf g hg i' hi'
    have b1 := hd.1 i m j hm hj
    have b2 := hd.1 i' m' j' hm' hj'
    refine groups_same P (d := 0) hG (fun w hw => hbin w (by rw [hnw]; exact hw)) hg hi hi' (by omega) (by omega) ?_ ?_
    · rw [(hen.1 i m j hm b1).1, if_pos hj]
    · rw [(hen.1 i' m' j' hm' b2).1, if_pos hj']
  · rintro ⟨⟨pick, u, hd, hone, hen, hY⟩, ht⟩
    let x' : ℕ → K := fun t => if t < P.wstart then x t else groupVal P x gs (t - P.wstart)
    have he : ∀ t < P.wstart, x' t = x t := fun t ht => if_pos ht
    have hpx : ∀ g ∈ gs, ∀ i ∈ g.members, ∀ j < g.nprof, x' (pos P.members i j) = x (pos P.members i j) ∧
        x (pos P.members i j) = if pick i = some j then 1 else 0 := by
      intro g hg i hi j hj
      obtain ⟨m, hm, hlen, -⟩ := hf g hg i hi
      have hp := pos_lt P hm (hlen ▸ hj)
      exact ⟨he _ (by omega), (hen.1 i m j hm (hlen ▸ hj)).1⟩
    have hgv : ∀ t, groupVal P x gs t = groupVal P x' gs t := by
      have : ∀ hs : List Group, (∀ g ∈ hs, g ∈ gs) → ∀ t, groupVal P x hs t = groupVal P x' hs t := by
        intro hs
        induction hs with
        | nil => intro _ t; rfl
        | cons q qs ih =>
          intro hsub t
          unfold groupVal
          rw [ih (fun g hg => hsub g (List.mem_cons_of_mem _ hg))]
          by_cases c : t < q.nprof
          · rw [if_pos c, if_pos c]
            refine if_congr ?_ rfl rfl
            refine exists_congr fun i => and_congr_right fun hi => ?_
            rw [(hpx q (hsub q (List.mem_cons_self ..)) i hi t c).1]
          · rw [if_neg c, if_neg c]
      exact this gs fun _ h => h
    have hwv : ∀ t, x' (P.wstart + 0 + t) = groupVal P x' gs t := by
      intro t
      rw [← hgv t]
      show (if _ then _ else _) = _
      rw [if_neg (by omega)]
      congr 1
      omega
    refine ⟨x', (hex x').2 ⟨⟨pick, u, hd, henc (fun t ht => (he t ht).symm) hen, hYe (fun t ht => (he t ht).symm) hY⟩,
      htop (fun t ht => (he t ht).symm) ht, groupVal_holds P hwv ?_ ?_, ?_⟩, he⟩
    · intro g hg i hi j hj
      obtain ⟨e1, e2⟩ := hpx g hg i hi j hj
      rw [e1, e2]
      split
      · exact Or.inr rfl
      · exact Or.inl rfl
    · intro g hg i hi i' hi' j hj j' hj' a1 a2
      obtain ⟨e1, e2⟩ := hpx g hg i hi j hj
      obtain ⟨e3, e4⟩ := hpx g hg i' hi' j' hj'
      rw [e1, e2] at a1
      rw [e3, e4] at a2
      refine hone g hg i hi i' hi' j j' ?_ ?_
      · by_contra hc
        rw [if_neg hc] at a1
        exact zero_ne_one a1
      · by_contra hc
        rw [if_neg hc] at a2
        exact zero_ne_one a2
    · intro w _
      have := hwv w
      rw [Nat.add_zero] at this
      rw [this]
      exact groupVal_bin P x' gs w

/-- Two members of one group that may have two profiles, no load. -/
def pair : Inp ℚ :=
  { scaleN := 1, scaleU := 1, ulb := -1, uub := 1, ndof := 2, B := fun d i => if d = i then 1 else 0, loads := [fun _ => 0]
    members := [⟨1, 1, [⟨1, 1, 1, 1⟩, ⟨2, 2, 2, 2⟩], [0, 2]⟩, ⟨1, 1, [⟨1, 1, 1, 1⟩, ⟨2, 2, 2, 2⟩], [1, 2]⟩], nnodes := 3
    supports := [(0, 2), (1, 2)], groups := some [⟨[0, 1], 2⟩] }

theorem pair_sensible : Sensible pair := by
  intro m hm
  simp only [pair, List.mem_cons, List.not_mem_nil, or_false] at hm
  rcases hm with rfl | rfl <;> simp

/-- Hypotheses of `C270_partial`. -/
example : Sensible pair ∧ SupportsApart pair ∧ GroupsFit pair [⟨[0, 1], 2⟩] := by
  refine ⟨pair_sensible, ?_, ?_⟩
  · unfold SupportsApart pair
    decide
  · intro g hg i hi
    simp only [List.mem_singleton] at hg
    subst hg
    simp only [List.mem_cons, List.not_mem_nil, or_false] at hi
    rcases hi with rfl | rfl
    · exact ⟨_, rfl, rfl, by decide⟩
    · exact ⟨_, rfl, rfl, by decide⟩

/-- C270 (violated): the sizing program has no constraints for groups.  A truss with a group and a point of its program
    exist in which the two members of the group have different profiles. -/
theorem C270_violation : ∃ (P : Inp ℚ) (gs : List Group) (M : Prob ℚ) (x : ℕ → ℚ) (pick : ℕ → Option ℕ) (u : ℕ → ℚ),
    P.groups = some gs ∧ GroupsFit P gs ∧ createMilp P false = (.error .nameError, some M) ∧ Feasible M x ∧ Encodes P x pick u ∧
    Complete P pick ∧ ¬ OneProfile gs pick := by
  obtain ⟨M, hM⟩ := build_sizing_ok pair
  let pick : ℕ → Option ℕ := fun i => if i = 0 then some 0 else some 1
  obtain ⟨x, hx⟩ := exists_point pair pick (fun _ => 0)
  have hc : createMilp pair false = (.error .nameError, some M) := by unfold createMilp; rw [hM]
  have hmem : ∀ (i : ℕ) (m : Member ℚ), pair.members[i]? = some m →
      m.profs.length = 2 ∧ ∀ p ∈ m.profs, 1 ≤ p.NRd ∧ 1 ≤ p.NbRd := by
    intro i m hm
    have := mem_of_get hm
    simp only [pair, List.mem_cons, List.not_mem_nil, or_false] at this
    rcases this with rfl | rfl <;> simp
  have hcomp : Complete pair pick := by
    intro i hi
    simp only [pick]
    split <;> rfl
  have hax : ∀ i, axial pair pick (fun _ => 0) i = 0 := by
    intro i
    unfold axial
    split <;> simp
  refine ⟨pair, _, M, x, pick, fun _ => 0, rfl, ?_, hc, ?_, hx, hcomp, ?_⟩
  · intro g hg i hi
    simp only [List.mem_singleton] at hg
    subst hg
    simp only [List.mem_cons, List.not_mem_nil, or_false] at hi
    rcases hi with rfl | rfl
    · exact ⟨_, rfl, rfl, by decide⟩
    · exact ⟨_, rfl, rfl, by decide⟩
  · refine (C266_partial pair rfl pair_sensible rfl rfl (by simp [pair]) (by simp [pair]) hc x).2
      ⟨pick, fun _ => 0, hcomp, ⟨?_, ?_, ?_, ?_⟩, hx⟩
    · intro i m j hm hj
      rw [(hmem i m hm).1]
      simp only [pick] at hj
      split at hj <;> cases hj <;> decide
    · intro d _
      simp [pair]
    · intro d _
      simp only [hax]
      simp
    · intro i m p hp
      rw [hax]
      obtain ⟨j, hm, hj, hpr⟩ := picked_inv hp
      obtain ⟨h1, h2⟩ := (hmem i m hm).2 p (mem_of_get hpr)
      have f1 : (0 : ℚ) ≤ ⌊p.NRd⌋ := by exact_mod_cast Int.floor_nonneg.2 (by linarith)
      have f2 : (0 : ℚ) ≤ ⌊p.NbRd⌋ := by exact_mod_cast Int.floor_nonneg.2 (by linarith)
      simp only [compression, tension]
      exact ⟨neg_nonpos.2 (le_min f1 f2), f1⟩
  · intro h
    have := h ⟨[0, 1], 2⟩ (List.mem_singleton.2 rfl) 0 (by simp) 1 (by simp) 0 1 rfl rfl
    exact absurd this (by decide)

/-! ### C271: lists of profiles -/

/-- The list given last to a member, in the order groups, single members; all profiles if there is none. -/
def lastList (nprof : ℕ) (given : List (ℕ × List ℕ)) (m : ℕ) : List ℕ :=
  match given.reverse.find? fun s => s.1 == m with
  | some s => s.2
  | none => List.range nprof

/-- Lists given by groups, then by single members. -/
def givenLists (groups : List (List ℕ × List ℕ)) (single : List (ℕ × List ℕ)) : List (ℕ × List ℕ) :=
  (groups.flatMap fun g => g.1.map fun m => (m, g.2)) ++ single

theorem foldlM_set (given : List (ℕ × List ℕ)) (l : List (List ℕ)) :
    ((∀ s ∈ given, s.1 < l.length) → ∃ l', given.foldlM (fun l s => setProfiles l s.1 s.2) l = Except.ok l' ∧
      l'.length = l.length ∧ ∀ m < l.length, l'[m]? =
        match given.reverse.find? fun s => s.1 == m with
        | some s => some s.2
        | none => l[m]?) ∧
    ((∃ s ∈ given, l.length ≤ s.1) → given.foldlM (fun l s => setProfiles l s.1 s.2) l = Except.error PyErr.indexError) := by
  induction given generalizing l with
  | nil => exact ⟨fun _ => ⟨l, rfl, rfl, fun m _ => rfl⟩, fun ⟨s, hs, _⟩ => by simp at hs⟩
  | cons s ss ih =>
    constructor
    · intro h
      have hs := h s (List.mem_cons_self ..)
      have hlen : (l.set s.1 s.2).length = l.length := List.length_set
      obtain ⟨l', h1, h2, h3⟩ := (ih (l.set s.1 s.2)).1 (fun t ht => by rw [hlen]; exact h t (List.mem_cons_of_mem _ ht))
      refine ⟨l', ?_, h2.trans hlen, fun m hm => ?_⟩
      · rw [List.foldlM_cons]
        simp only [setProfiles, if_pos hs, bind, Except.bind]
        exact h1
      · rw [h3 m (by rw [hlen]; exact hm), List.reverse_cons, List.find?_append]
        cases hf : ss.reverse.find? fun s => s.1 == m with
        | some t => simp
        | none =>
          by_cases e : s.1 = m
          · subst e
            simp [hs]
          · have : (s.1 == m) = false := by simpa using e
            simp [this, List.getElem?_set_ne e]
    · rintro ⟨t, ht, hle⟩
      rw [List.foldlM_cons]
      by_cases hs : s.1 < l.length
      · simp only [setProfiles, if_pos hs, bind, Except.bind]
        refine (ih (l.set s.1 s.2)).2 ?_
        rcases List.mem_cons.1 ht with rfl | ht
        · omega
        · exact ⟨t, ht, by rw [List.length_set]; exact hle⟩
      · simp only [setProfiles, if_neg hs, bind, Except.bind]

theorem foldlM_groups (groups : List (List ℕ × List ℕ)) (l : List (List ℕ)) :
    groups.foldlM (fun l g => g.1.foldlM (fun l mem => setProfiles l mem g.2) l) l
      = (groups.flatMap fun g => g.1.map fun m => (m, g.2)).foldlM (fun l s => setProfiles l s.1 s.2) l := by
  induction groups generalizing l with
  | nil => rfl
  | cons g gs ih =>
    rw [List.foldlM_cons, List.flatMap_cons, List.foldlM_append, List.foldlM_map]
    congr 1
    funext l'
    exact ih l'

/-- C271: the constructor gives each member the list given last, a list for the member alone before one for a group before
    all profiles; it fails exactly if a list is given for a member that the truss does not have. -/
theorem C271 (nprof nmem : ℕ) (groups : List (List ℕ × List ℕ)) (single : List (ℕ × List ℕ)) :
    ((∀ s ∈ givenLists groups single, s.1 < nmem) →
      memberProfiles nprof nmem groups single = .ok ((List.range nmem).map (lastList nprof (givenLists groups single)))) ∧
    ((∃ s ∈ givenLists groups single, nmem ≤ s.1) → memberProfiles nprof nmem groups single = .error .indexError) := by
  have key : memberProfiles nprof nmem groups single = (givenLists groups single).foldlM
      (fun l s => setProfiles l s.1 s.2) (List.replicate nmem (List.range nprof)) := by
    unfold memberProfiles givenLists
    rw [List.foldlM_append, foldlM_groups]
  rw [key]
  obtain ⟨h1, h2⟩ := foldlM_set (givenLists groups single) (List.replicate nmem (List.range nprof))
  rw [List.length_replicate] at h1 h2
  refine ⟨fun h => ?_, h2⟩
  obtain ⟨l', e1, e2, e3⟩ := h1 h
  rw [e1]
  congr 1
  refine List.ext_getElem? fun m => ?_
  by_cases hm : m < nmem
  · rw [e3 m hm, List.getElem?_map, List.getElem?_range hm, Option.map_some, lastList]
    split <;> simp_all
  · rw [List.getElem?_eq_none (by omega), List.getElem?_eq_none (by simp; omega)]

example : memberProfiles 4 3 [([0, 1], [2, 3])] [(1, [0])] = .ok [[2, 3], [0], [0, 1, 2, 3]] := by decide
example : memberProfiles 4 3 [([0, 3], [2, 3])] [] = .error .indexError := by decide

end Metku.Milp
