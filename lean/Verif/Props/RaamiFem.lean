import Verif.Model.RaamiFem
import Mathlib.Tactic.Ring
import Mathlib.Tactic.Linarith
import Mathlib.Tactic.FieldSimp

/-! The FEM model of a `Raami` frame. -/
namespace Metku.Raami

set_option linter.unusedSectionVars false

variable {K : Type} [Field K] [LinearOrder K] [IsStrictOrderedRing K] [FloorRing K]

/-- The points of a member between its ends. -/
def FMember.inner (m : FMember K) : List (K × K) := (m.coords.drop 1).dropLast

/-- The FEM nodes of a member whose inner nodes are numbered from `o` on. -/
def FMember.chain (m : FMember K) (o : ℕ) : List ℕ := [m.n1] ++ List.range' o m.inner.length ++ [m.n2]

/-- The elements of a member. -/
def FMember.elems (m : FMember K) (h : Bool × Bool) (o : ℕ) : List Elem :=
  release (((m.chain o).zip ((m.chain o).drop 1)).map (fun p => (⟨p.1, p.2, m.mtype.beam?.getD true, []⟩ : Elem))) h

/-- The member after the FEM model was made. -/
def FMember.finish (m : FMember K) (o e : ℕ) : FMember K := { m with femNodes := m.chain o, femElements := List.range' e (m.inner.length + 1) }

/-- All members after the FEM model was made. -/
def finishAll : List (FMember K) → ℕ → ℕ → List (FMember K)
  | [], _, _ => []
  | m :: ms, o, e => m.finish o e :: finishAll ms (o + m.inner.length) (e + (m.inner.length + 1))

/-- The elements of all members. -/
def elemsAll (h : FMember K → Bool × Bool) : List (FMember K) → ℕ → List Elem
  | [], _ => []
  | m :: ms, o => m.elems (h m) o ++ elemsAll h ms (o + m.inner.length)

theorem release_length (es : List Elem) (h : Bool × Bool) : (release es h).length = es.length := by
  unfold release
  simp only
  split_ifs <;> simp

theorem chain_length (m : FMember K) (o : ℕ) : (m.chain o).length = m.inner.length + 2 := by
  unfold FMember.chain
  simp

theorem zip_length (m : FMember K) (o : ℕ) : ((m.chain o).zip ((m.chain o).drop 1)).length = m.inner.length + 1 := by
  rw [List.length_zip, List.length_drop, chain_length]
  omega

theorem elems_length (m : FMember K) (h : Bool × Bool) (o : ℕ) : (m.elems h o).length = m.inner.length + 1 := by
  unfold FMember.elems
  rw [release_length, List.length_map, zip_length]

/-- The member is between nodes of the frame and has a type for which there are elements. -/
def Placed (n : ℕ) (m : FMember K) : Prop := m.n1 < n ∧ m.n2 < n ∧ m.mtype ≠ .other

/-- One member. -/
theorem generateElements_ok {g : Frame K} {j n : ℕ} {m : FMember K} (hj : g.members[j]? = some m) (hn : ∀ i, i < n → (g.nodes[i]?).bind FNode.femNode = some i) (hm : Placed n m)
    (h1 : m.femNodes = []) (h2 : m.femElements = []) :
    g.generateElements j = .ok { g with
      fem := { g.fem with
        nodes := g.fem.nodes ++ m.inner
        elements := g.fem.elements ++ m.elems (g.hingesOf m) g.fem.nodes.length }
      members := g.members.set j (m.finish g.fem.nodes.length g.fem.elements.length) } := by
  unfold Frame.generateElements
  simp only [hj, hn _ hm.1, hn _ hm.2.1, h1, h2, List.nil_append]
  have hch : [m.n1] ++ List.range' g.fem.nodes.length ((m.coords.drop 1).dropLast).length ++ [m.n2] = m.chain g.fem.nodes.length := rfl
  rw [hch]
  have hb : ∃ b, m.mtype.beam? = some b := by
    have := hm.2.2
    cases h : m.mtype <;> first | exact ⟨_, rfl⟩ | exact absurd h this
  obtain ⟨b, hb⟩ := hb
  simp only [hb]
  unfold FMember.elems FMember.finish FMember.inner
  rw [hb, List.length_map]
  have := zip_length m g.fem.nodes.length
  unfold FMember.inner at this
  rw [this]
  rfl

theorem generate_fold (n : ℕ) : ∀ (rest done : List (FMember K)) (g : Frame K), g.members = done ++ rest → (∀ i, i < n → (g.nodes[i]?).bind FNode.femNode = some i) →
    (∀ m ∈ rest, Placed n m ∧ m.femNodes = [] ∧ m.femElements = []) →
    (List.range' done.length rest.length).foldlM (fun g j => g.generateElements j) g = .ok { g with
      fem := { g.fem with
        nodes := g.fem.nodes ++ rest.flatMap FMember.inner
        elements := g.fem.elements ++ elemsAll g.hingesOf rest g.fem.nodes.length }
      members := done ++ finishAll rest g.fem.nodes.length g.fem.elements.length }
  | [], done, g, hg, _, _ => by
    simp only [List.length_nil, List.range'_zero, List.foldlM_nil, List.flatMap_nil, List.append_nil, elemsAll, finishAll]
    rw [List.append_nil] at hg
    rw [← hg]
    rfl
  | m :: rest, done, g, hg, hn, hr => by
    obtain ⟨hm, h1, h2⟩ := hr m (by simp)
    have hj : g.members[done.length]? = some m := by rw [hg]; simp
    rw [List.length_cons, List.range'_succ, List.foldlM_cons, generateElements_ok hj hn hm h1 h2]
    have ih := generate_fold n rest (done ++ [m.finish g.fem.nodes.length g.fem.elements.length]) { g with
      fem := { g.fem with
        nodes := g.fem.nodes ++ m.inner
        elements := g.fem.elements ++ m.elems (g.hingesOf m) g.fem.nodes.length }
      members := g.members.set done.length (m.finish g.fem.nodes.length g.fem.elements.length) }
      (by
        show g.members.set done.length _ = _
        rw [hg, List.set_append_right _ _ (le_refl _)]
        simp) hn (fun m' hm' => hr m' (by simp [hm']))
    rw [List.length_append, List.length_singleton] at ih
    refine Eq.trans ih ?_
    simp only [List.length_append, elems_length, List.append_assoc, elemsAll, finishAll, List.flatMap_cons, List.singleton_append]
    rfl

/-- The FEM model of a frame. -/
theorem generateFem_ok {f : Frame K} (hf : ∀ m ∈ f.members, Placed f.nodes.length m) :
    f.generateFem = .ok { f with
      nodes := f.nodes.mapIdx (fun i n => { n with femNode := some i })
      fem := ⟨f.nodes.map (fun n => n.coords.pos) ++ f.members.flatMap FMember.inner, elemsAll f.hingesOf f.members f.nodes.length,
        f.supports.filterMap (fun s => if s.1 < f.nodes.length then some s else none)⟩
      members := finishAll f.members f.nodes.length 0 } := by
  unfold Frame.generateFem
  simp only
  have hlen : f.members.length = (f.members.map (fun m : FMember K => { m with femNodes := [], femElements := [] })).length := by simp
  have h := generate_fold f.nodes.length (f.members.map (fun m : FMember K => { m with femNodes := [], femElements := [] })) [] f.clearFem.makeNodes rfl
    (by
      intro i hi
      simp only [Frame.makeNodes, Frame.clearFem, List.getElem?_mapIdx, List.getElem?_eq_getElem hi, List.length_nil, Nat.zero_add]
      rfl)
    (by
      intro m hm
      rw [List.mem_map] at hm
      obtain ⟨m', hm', rfl⟩ := hm
      exact ⟨hf m' hm', rfl, rfl⟩)
  rw [List.length_nil, ← hlen] at h
  rw [List.range_eq_range', h]
  simp only [Frame.makeSupports, Frame.makeNodes, Frame.clearFem, List.nil_append, List.length_nil, Nat.zero_add, List.length_map]
  have e1 : (f.members.map (fun m : FMember K => { m with femNodes := [], femElements := [] })).flatMap FMember.inner = f.members.flatMap FMember.inner := by
    rw [List.flatMap_map]
    rfl
  have e2 : ∀ (ms : List (FMember K)) (o e : ℕ), finishAll (ms.map (fun m : FMember K => { m with femNodes := [], femElements := [] })) o e = finishAll ms o e := by
    intro ms
    induction ms with
    | nil => intro o e; rfl
    | cons m ms ih => intro o e; rw [List.map_cons, finishAll, finishAll, ih]; rfl
  have e3 : ∀ (ms : List (FMember K)) (h h' : FMember K → Bool × Bool) (o : ℕ), (∀ m : FMember K, h { m with femNodes := [], femElements := [] } = h' m) →
      elemsAll h (ms.map (fun m : FMember K => { m with femNodes := [], femElements := [] })) o = elemsAll h' ms o := by
    intro ms
    induction ms with
    | nil => intro h h' o _; rfl
    | cons m ms ih => intro h h' o hh; rw [List.map_cons, elemsAll, elemsAll, ih h h' _ hh, hh]; rfl
  rw [e1, e2, e3 f.members _ f.hingesOf _ (fun m => rfl)]
  have e4 : f.supports.filterMap (fun s => (((f.nodes.mapIdx (fun i n => ({ n with femNode := some i } : FNode K)))[s.1]?).bind FNode.femNode).map (fun n => (n, s.2))) =
      f.supports.filterMap (fun s => if s.1 < f.nodes.length then some s else none) := by
    apply List.filterMap_congr
    intro s _
    rw [List.getElem?_mapIdx]
    by_cases hs : s.1 < f.nodes.length
    · rw [List.getElem?_eq_getElem hs, if_pos hs]; rfl
    · rw [List.getElem?_eq_none (by omega), if_neg hs]; rfl
  rw [e4]

/-! ### Reading the result -/

/-- The number of inner points of the members before the `j`-th one. -/
def before (ms : List (FMember K)) (j : ℕ) : ℕ := ((ms.take j).map (fun m => m.inner.length)).sum

theorem before_succ {ms : List (FMember K)} {j : ℕ} {m : FMember K} (h : ms[j]? = some m) : before ms (j + 1) = before ms j + m.inner.length := by
  obtain ⟨hj, rfl⟩ := List.getElem?_eq_some_iff.mp h
  unfold before
  rw [List.take_succ_eq_append_getElem hj, List.map_append, List.sum_append]
  rfl

theorem before_mono (ms : List (FMember K)) {i j : ℕ} (h : i ≤ j) : before ms i ≤ before ms j := by
  unfold before
  have : ms.take j = ms.take i ++ (ms.take j).drop i := by
    conv_lhs => rw [← List.take_append_drop i (ms.take j), List.take_take, min_eq_left h]
  rw [this, List.map_append, List.sum_append]
  omega

theorem finishAll_get : ∀ (ms : List (FMember K)) (o e j : ℕ) (m : FMember K), ms[j]? = some m → (finishAll ms o e)[j]? = some (m.finish (o + before ms j) (e + (before ms j + j)))
  | [], _, _, _, _, h => by simp at h
  | a :: ms, o, e, 0, m, h => by
    simp only [List.getElem?_cons_zero, Option.some.injEq] at h
    subst h
    simp [finishAll, before]
  | a :: ms, o, e, j + 1, m, h => by
    rw [List.getElem?_cons_succ] at h
    rw [finishAll, List.getElem?_cons_succ, finishAll_get ms _ _ j m h]
    have : before (a :: ms) (j + 1) = a.inner.length + before ms j := by simp [before]
    rw [this]
    congr 2 <;> omega

theorem inner_get : ∀ (ms : List (FMember K)) (j i : ℕ) (m : FMember K), ms[j]? = some m → i < m.inner.length → (ms.flatMap FMember.inner)[before ms j + i]? = m.inner[i]?
  | [], _, _, _, h, _ => by simp at h
  | a :: ms, 0, i, m, h, hi => by
    simp only [List.getElem?_cons_zero, Option.some.injEq] at h
    subst h
    rw [List.flatMap_cons]
    simp only [before, List.take_zero, List.map_nil, List.sum_nil, Nat.zero_add]
    exact List.getElem?_append_left hi
  | a :: ms, j + 1, i, m, h, hi => by
    rw [List.getElem?_cons_succ] at h
    have : before (a :: ms) (j + 1) = a.inner.length + before ms j := by simp [before]
    rw [this, List.flatMap_cons, List.getElem?_append_right (by omega)]
    rw [show a.inner.length + before ms j + i - a.inner.length = before ms j + i by omega]
    exact inner_get ms j i m h hi

theorem elemsAll_get (hs : FMember K → Bool × Bool) : ∀ (ms : List (FMember K)) (o j i : ℕ) (m : FMember K), ms[j]? = some m → i < m.inner.length + 1 →
    (elemsAll hs ms o)[before ms j + j + i]? = (m.elems (hs m) (o + before ms j))[i]?
  | [], _, _, _, _, h, _ => by simp at h
  | a :: ms, o, 0, i, m, h, hi => by
    simp only [List.getElem?_cons_zero, Option.some.injEq] at h
    subst h
    rw [elemsAll]
    simp only [before, List.take_zero, List.map_nil, List.sum_nil, Nat.zero_add, Nat.add_zero]
    exact List.getElem?_append_left (by rw [elems_length]; exact hi)
  | a :: ms, o, j + 1, i, m, h, hi => by
    rw [List.getElem?_cons_succ] at h
    have : before (a :: ms) (j + 1) = a.inner.length + before ms j := by simp [before]
    rw [this, elemsAll, List.getElem?_append_right (by rw [elems_length]; omega), elems_length]
    rw [show a.inner.length + before ms j + (j + 1) + i - (a.inner.length + 1) = before ms j + j + i by omega]
    rw [elemsAll_get hs ms _ j i m h hi]
    rw [show o + a.inner.length + before ms j = o + (a.inner.length + before ms j) by omega]

theorem elemsAll_length (hs : FMember K → Bool × Bool) : ∀ (ms : List (FMember K)) (o : ℕ), (elemsAll hs ms o).length = (ms.map (fun m => m.inner.length + 1)).sum
  | [], _ => rfl
  | a :: ms, o => by rw [elemsAll, List.length_append, elems_length, elemsAll_length hs ms]; simp

theorem chain_get (m : FMember K) (o i : ℕ) :
    (m.chain o)[i]? = if i = 0 then some m.n1 else if i ≤ m.inner.length then some (o + (i - 1)) else if i = m.inner.length + 1 then some m.n2 else none := by
  unfold FMember.chain
  rcases i with _ | i
  · simp
  · rw [List.append_assoc, List.singleton_append, List.getElem?_cons_succ, if_neg (by omega)]
    by_cases h1 : i < m.inner.length
    · rw [if_pos (by omega), List.getElem?_append_left (by simpa using h1), List.getElem?_range' (by simpa using h1)]
      simp
    · rw [if_neg (by omega), List.getElem?_append_right (by simpa using h1), List.length_range']
      by_cases h2 : i = m.inner.length
      · subst h2; simp
      · rw [if_neg (by omega), List.getElem?_eq_none (by simp; omega)]

theorem nodalCoords_inner (p q : K × K) (nel i : ℕ) (h : i + 1 < nel) (m : FMember K) (hm : m.coords = nodalCoords p q nel) : m.inner[i]? = some (along p q (((i + 1 : ℕ) : K) / nel)) := by
  unfold FMember.inner
  rw [hm]
  unfold nodalCoords
  rw [List.getElem?_dropLast, List.getElem?_drop]
  simp only [List.length_drop, List.length_map, List.length_range]
  rw [if_pos (by omega), List.getElem?_map, List.getElem?_range (by omega)]
  simp [Nat.add_comm]

theorem nodalCoords_inner_length (p q : K × K) (nel : ℕ) (m : FMember K) (hm : m.coords = nodalCoords p q nel) : m.inner.length = nel - 1 := by
  unfold FMember.inner
  rw [hm]
  simp [nodalCoords]

theorem release_get (es : List Elem) (h : Bool × Bool) (i : ℕ) : (release es h)[i]? =
    (es[i]?).map (fun e : Elem => if h.2 = true ∧ i = es.length - 1 then { e with releases := [5] } else if h.1 = true ∧ i = 0 then { e with releases := [2] } else e) := by
  unfold release
  obtain ⟨a, b⟩ := h
  cases a <;> cases b <;> simp only [if_true, if_false, Bool.false_eq_true, false_and, true_and, List.length_modify, List.getElem?_modify]
  · cases es[i]? <;> rfl
  · by_cases hi : i = es.length - 1
    · simp [hi]
    · simp [hi, Ne.symm hi]
  · by_cases hi : i = 0
    · simp [hi]
    · simp [hi, Ne.symm hi]
  · cases es[i]? with
    | none => rfl
    | some e =>
      simp only [Option.map_eq_map, Option.map_some, @eq_comm _ (es.length - 1) i, @eq_comm _ 0 i]
      split_ifs <;> rfl

theorem elems_get (m : FMember K) (h : Bool × Bool) (o i : ℕ) (hi : i < m.inner.length + 1) : ∃ a b : ℕ, (m.chain o)[i]? = some a ∧ (m.chain o)[i + 1]? = some b ∧
    (m.elems h o)[i]? = some (if h.2 = true ∧ i = m.inner.length then ⟨a, b, m.mtype.beam?.getD true, [5]⟩ else if h.1 = true ∧ i = 0 then ⟨a, b, m.mtype.beam?.getD true, [2]⟩ else ⟨a, b, m.mtype.beam?.getD true, []⟩) := by
  have hc := chain_length m o
  have ha : i < (m.chain o).length := by omega
  have hb : i + 1 < (m.chain o).length := by omega
  refine ⟨(m.chain o)[i], (m.chain o)[i + 1], List.getElem?_eq_getElem ha, List.getElem?_eq_getElem hb, ?_⟩
  unfold FMember.elems
  rw [release_get, List.length_map, zip_length, List.getElem?_map]
  have hz : ((m.chain o).zip ((m.chain o).drop 1))[i]? = some ((m.chain o)[i], (m.chain o)[i + 1]) := by
    rw [List.getElem?_zip_eq_some]
    refine ⟨List.getElem?_eq_getElem ha, ?_⟩
    rw [List.getElem?_drop, Nat.add_comm 1 i]
    exact List.getElem?_eq_getElem hb
  rw [hz]
  simp only [Option.map_some, Nat.add_sub_cancel]

end Metku.Raami
