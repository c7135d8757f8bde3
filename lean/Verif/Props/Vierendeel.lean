import Verif.Model.Vierendeel
import Mathlib.Tactic.Linarith
import Mathlib.Tactic.Ring
import Mathlib.Tactic.SplitIfs
import Mathlib.Data.List.Nodup
import Mathlib.Tactic.FieldSimp
import Mathlib.Tactic.LinearCombination
import Mathlib.Algebra.Order.Ring.Rat

/-!
Properties of Vierendeel trusses (model: `Verif.Model.Vierendeel`).
-/
namespace Metku.Vier

open Metku

set_option linter.unusedSectionVars false

variable {K : Type} [Field K] [LinearOrder K] [IsStrictOrderedRing K]

/-! ### Lemmas -/

theorem foldl_addMem (k : Kind) : ∀ (es : List (ℕ × ℕ)) (ms : List Mem),
    es.foldl (addMem k) ms = ms ++ es.mapIdx fun i e => ⟨ms.length + i, k, e.1, e.2⟩
  | [], ms => by simp
  | e :: es, ms => by
    rw [List.foldl_cons, foldl_addMem k es, List.mapIdx_cons]
    simp only [addMem, List.length_append, List.length_singleton, List.append_assoc, List.singleton_append, Nat.add_zero]
    congr 2
    exact congrArg (fun f => List.mapIdx f es) (by funext i e; rw [Nat.add_assoc, Nat.add_comm 1 i])

theorem range'_get (s m i : ℕ) (h : i < m) : (List.range' s m)[i]? = some (s + i) := by
  rw [List.getElem?_range' h, Nat.one_mul]

theorem range_some {m i w : ℕ} (h : (List.range m)[i]? = some w) : w = i := by
  obtain ⟨h1, h2⟩ := List.getElem?_eq_some_iff.1 h
  simpa using h2.symm

theorem steps_range' : ∀ (n s : ℕ), steps (List.range' s (n + 1)) = (List.range n).map fun i => (s + i, s + i + 1)
  | 0, s => rfl
  | n + 1, s => by
    rw [List.range'_succ, List.range'_succ, steps, ← List.range'_succ, steps_range' n (s + 1), List.range_succ_eq_map,
      List.map_cons, List.map_map]
    congr 1
    apply List.map_congr_left
    intro i _
    simp only [Function.comp, Prod.mk.injEq]
    omega

theorem zip_range' (m : ℕ) : (List.range' 0 m).zip (List.range' m m) = (List.range m).map fun i => (i, m + i) := by
  apply List.ext_getElem
  · simp
  · intro i h1 h2
    simp

/-- Members of a truss with `n` panels, in closed form. -/
def memsOf (n : ℕ) : List Mem :=
  ((List.range n).map fun i => ⟨i, .top, i, i + 1⟩) ++ ((List.range n).map fun i => ⟨n + i, .bottom, n + 1 + i, n + 1 + i + 1⟩) ++
    (List.range (n + 1)).map fun i => ⟨n + n + i, .brace, i, n + 1 + i⟩

theorem mapIdx_map_range (n : ℕ) (k : Kind) (s : ℕ) (g : ℕ → ℕ × ℕ) :
    (((List.range n).map g).mapIdx fun i e => (⟨s + i, k, e.1, e.2⟩ : Mem)) =
      (List.range n).map fun i => ⟨s + i, k, (g i).1, (g i).2⟩ := by
  apply List.ext_getElem
  · simp
  · intro i h1 h2
    simp

theorem members_eq (n : ℕ) : members (List.range' 0 (n + 1)) (List.range' (n + 1) (n + 1)) = memsOf n := by
  unfold members
  rw [foldl_addMem, foldl_addMem, foldl_addMem, steps_range', steps_range', zip_range', mapIdx_map_range,
    mapIdx_map_range, mapIdx_map_range]
  simp [memsOf]

theorem generate_ok {v : Truss K} {n : ℕ} (hn : 0 < n) (hv : v.panels = n) :
    generate v = .ok ⟨points (v.ox, v.oy + v.H) (v.ox + v.span, v.oy + v.H) (linspace (n + 1)) ++
      points (v.ox, v.oy) (v.ox + v.span, v.oy) (linspace (n + 1)), List.range' 0 (n + 1), List.range' (n + 1) (n + 1),
      memsOf n⟩ := by
  unfold generate
  rw [if_neg (by omega), if_neg (by omega)]
  have : (v.panels + 1).toNat = n + 1 := by omega
  simp only [this, members_eq]

theorem points_get (x0 x1 : K × K) (n i : ℕ) (hi : i ≤ n) :
    (points x0 x1 (linspace (n + 1)))[i]? =
      some (x0.1 + (i : K) / n * (x1.1 - x0.1), x0.2 + (i : K) / n * (x1.2 - x0.2)) := by
  have h : i < (points x0 x1 (linspace (n + 1) : List K)).length := by simp [points, linspace]; omega
  rw [List.getElem?_eq_getElem h]
  simp only [points, linspace, List.getElem_map, List.getElem_range]
  rw [show ((n + 1 : ℕ) : K) - 1 = n by push_cast; ring]

/-! ### Geometry -/

/-- A truss with `n` panels has `n + 1` nodes in each chord. They divide the span into equal parts; the bottom chord is at the origin and the top chord above it at the height of the truss. -/
theorem vier_nodes {v : Truss K} {n : ℕ} (hn : 0 < n) (hv : v.panels = n) :
    ∃ m, generate v = .ok m ∧ m.nodes.length = 2 * (n + 1) ∧ m.topN.length = n + 1 ∧ m.botN.length = n + 1 ∧
      ∀ i, i ≤ n →
        (∃ x, m.topN[i]? = some x ∧ m.nodes[x]? = some (v.ox + i * (v.span / n), v.oy + v.H)) ∧
        (∃ x, m.botN[i]? = some x ∧ m.nodes[x]? = some (v.ox + i * (v.span / n), v.oy)) := by
  refine ⟨_, generate_ok hn hv, by simp [points, linspace]; omega, by simp, by simp, ?_⟩
  intro i hi
  constructor
  · refine ⟨0 + i, range'_get _ _ _ (by omega), ?_⟩
    rw [Nat.zero_add]
    rw [List.getElem?_append_left (by simp [points, linspace]; omega), points_get _ _ _ _ hi]
    simp
    ring
  · refine ⟨n + 1 + i, range'_get _ _ _ (by omega), ?_⟩
    rw [List.getElem?_append_right (by simp [points, linspace])]
    have : n + 1 + i - (points (v.ox, v.oy + v.H) (v.ox + v.span, v.oy + v.H) (linspace (n + 1))).length = i := by
      simp [points, linspace]
    rw [this, points_get _ _ _ _ hi]
    simp
    ring

/-- It has `n` members in each chord, joining neighbours, and a vertical brace at each pair of nodes; members are numbered one after the other. -/
theorem vier_members {v : Truss K} {n : ℕ} (hn : 0 < n) (hv : v.panels = n) :
    ∃ m, generate v = .ok m ∧ m.mems.length = 3 * n + 1 ∧ (∀ (i : ℕ) (e : Mem), m.mems[i]? = some e → e.id = i) ∧
      (∀ i < n, ∃ e ∈ m.mems, e.kind = .top ∧ m.topN[i]? = some e.a ∧ m.topN[i + 1]? = some e.b) ∧
      (∀ i < n, ∃ e ∈ m.mems, e.kind = .bottom ∧ m.botN[i]? = some e.a ∧ m.botN[i + 1]? = some e.b) ∧
      (∀ i ≤ n, ∃ e ∈ m.mems, e.kind = .brace ∧ m.topN[i]? = some e.a ∧ m.botN[i]? = some e.b) ∧
      (m.ofKind .top).length = n ∧ (m.ofKind .bottom).length = n ∧ (m.ofKind .brace).length = n + 1 := by
  refine ⟨_, generate_ok hn hv, by simp [memsOf]; omega, ?_, ?_, ?_, ?_, ?_, ?_, ?_⟩
  · intro i e he
    simp only [memsOf] at he
    rw [List.getElem?_append] at he
    split at he
    · rw [List.getElem?_append] at he
      split at he
      · simp at he
        obtain ⟨w, hw, rfl⟩ := he
        exact range_some hw
      · simp at he
        obtain ⟨w, hw, rfl⟩ := he
        have := range_some hw
        simp only
        rename_i h1 h2
        simp at h2
        omega
    · simp at he
      obtain ⟨w, hw, rfl⟩ := he
      have := range_some hw
      simp only
      rename_i h2
      simp at h2
      omega
  · intro i hi
    exact ⟨⟨i, .top, i, i + 1⟩, by simp [memsOf, hi], rfl, by rw [range'_get _ _ _ (by omega), Nat.zero_add], by rw [range'_get _ _ _ (by omega), Nat.zero_add]⟩
  · intro i hi
    exact ⟨⟨n + i, .bottom, n + 1 + i, n + 1 + i + 1⟩, by simp [memsOf, hi], rfl, range'_get _ _ _ (by omega), range'_get _ _ _ (by omega)⟩
  · intro i hi
    exact ⟨⟨n + n + i, .brace, i, n + 1 + i⟩, by simp [memsOf]; omega, rfl, by rw [range'_get _ _ _ (by omega), Nat.zero_add], range'_get _ _ _ (by omega)⟩
  · simp [Built.ofKind, memsOf, List.filter_map, Function.comp_def]
  · simp [Built.ofKind, memsOf, List.filter_map, Function.comp_def]
  · simp [Built.ofKind, memsOf, List.filter_map, Function.comp_def]

/-- The truss stands on both ends of the bottom chord: the left end is held in both directions, the right end vertically. -/
theorem vier_supports {v : Truss K} {n : ℕ} (hn : 0 < n) (hv : v.panels = n) :
    ∃ m a b, generate v = .ok m ∧ supports m = .ok [(a, .xy), (b, .y)] ∧
      m.nodes[a]? = some (v.ox, v.oy) ∧ m.nodes[b]? = some (v.ox + v.span, v.oy) := by
  refine ⟨_, n + 1, n + 1 + n, generate_ok hn hv, ?_, ?_, ?_⟩
  · have h1 : (List.range' (n + 1) (n + 1)).head? = some (n + 1) := by simp [List.range'_succ]
    have h2 : (List.range' (n + 1) (n + 1)).getLast? = some (n + 1 + n) := by simp [List.getLast?_range']
    simp only [supports, firstLast, h1, h2]
    rfl
  · rw [List.getElem?_append_right (by simp [points, linspace])]
    have : n + 1 - (points (v.ox, v.oy + v.H) (v.ox + v.span, v.oy + v.H) (linspace (n + 1))).length = 0 := by
      simp [points, linspace]
    rw [this, points_get _ _ _ _ (Nat.zero_le n)]
    simp
  · rw [List.getElem?_append_right (by simp [points, linspace])]
    have : n + 1 + n - (points (v.ox, v.oy + v.H) (v.ox + v.span, v.oy + v.H) (linspace (n + 1))).length = n := by
      simp [points, linspace]
    rw [this, points_get _ _ _ _ le_rfl]
    have : (n : K) ≠ 0 := by exact_mod_cast hn.ne'
    simp [this]

/-- Without panels the truss cannot be built; with less than minus one neither; minus one panels give a truss without nodes that has no supports. -/
theorem vier_panels_viol (v : Truss K) :
    (v.panels = 0 → generate v = .error .zeroDivision) ∧ (v.panels < -1 → generate v = .error .valueError) ∧
    (v.panels = -1 → ∃ m, generate v = .ok m ∧ m.nodes = [] ∧ m.mems = [] ∧ supports m = .error .indexError) := by
  refine ⟨fun h => by unfold generate; rw [if_pos h], fun h => by unfold generate; rw [if_neg (by omega), if_pos (by omega)], fun h => ?_⟩
  refine ⟨⟨[], [], [], []⟩, ?_, rfl, rfl, rfl⟩
  unfold generate
  rw [if_neg (by omega), if_neg (by omega)]
  have : (v.panels + 1).toNat = 0 := by omega
  simp only [this]
  rfl

/-- The outline points inherited from plane trusses are not the corners of the generated truss: its bottom chord is at the origin, not below it. -/
theorem vier_outline_viol {v : Truss K} {n : ℕ} (hn : 0 < n) (hv : v.panels = n) (hH : v.H ≠ 0) :
    ∃ m, generate v = .ok m ∧ xbottomLeft v ∉ m.nodes ∧ xbottomRight v ∉ m.nodes ∧
      (∀ x, m.topN.getLast? = some x → m.nodes[x]? ≠ some (xend v)) := by
  refine ⟨_, generate_ok hn hv, ?_, ?_, ?_⟩
  · intro h
    rcases List.mem_append.1 h with h | h
    all_goals
      obtain ⟨s, _, hs⟩ := List.mem_map.1 h
      have h2 := congrArg Prod.snd hs
      simp [xbottomLeft] at h2
    · apply hH; linarith
    · apply hH; linarith
  · intro h
    rcases List.mem_append.1 h with h | h
    all_goals
      obtain ⟨s, _, hs⟩ := List.mem_map.1 h
      have h2 := congrArg Prod.snd hs
      simp [xbottomRight] at h2
    · apply hH; linarith
    · apply hH; linarith
  · intro x hx
    have : (List.range' 0 (n + 1)).getLast? = some n := by simp [List.getLast?_range']
    simp only at hx
    rw [this] at hx
    obtain rfl := Option.some.inj hx
    simp only
    rw [List.getElem?_append_left (by simp [points, linspace]), points_get _ _ _ _ le_rfl]
    intro h
    have := congrArg Prod.snd (Option.some.inj h)
    simp [xend] at this
    exact hH this

/-! ### Joints -/

theorem braces_at (n x : ℕ) (hx : x < 2 * (n + 1)) :
    ((memsOf n).filter fun e => e.kind = .brace).filter (fun e => e.a = x ∨ e.b = x) =
      [if x ≤ n then ⟨n + n + x, .brace, x, n + 1 + x⟩ else ⟨n + n + (x - (n + 1)), .brace, x - (n + 1), x⟩] := by
  have h1 : ((memsOf n).filter fun e => e.kind = .brace) =
      (List.range (n + 1)).map fun i => ⟨n + n + i, .brace, i, n + 1 + i⟩ := by
    simp [memsOf, List.filter_map, Function.comp_def]
  rw [h1, List.filter_map]
  by_cases hxn : x ≤ n
  · rw [if_pos hxn]
    have h2 : (List.range (n + 1)).filter ((fun e : Mem => decide (e.a = x ∨ e.b = x)) ∘ fun i => ⟨n + n + i, .brace, i, n + 1 + i⟩) =
        (List.range (n + 1)).filter (fun i => i == x) := by
      apply List.filter_congr
      intro i hi
      rw [List.mem_range] at hi
      simp only [Function.comp]
      rw [Bool.eq_iff_iff, decide_eq_true_iff, beq_iff_eq]
      omega
    rw [h2, List.filter_beq, List.nodup_iff_count_eq_one.1 List.nodup_range _ (List.mem_range.2 (by omega))]
    rfl
  · rw [if_neg hxn]
    have h2 : (List.range (n + 1)).filter ((fun e : Mem => decide (e.a = x ∨ e.b = x)) ∘ fun i => ⟨n + n + i, .brace, i, n + 1 + i⟩) =
        (List.range (n + 1)).filter (fun i => i == x - (n + 1)) := by
      apply List.filter_congr
      intro i hi
      rw [List.mem_range] at hi
      simp only [Function.comp]
      rw [Bool.eq_iff_iff, decide_eq_true_iff, beq_iff_eq]
      omega
    rw [h2, List.filter_beq, List.nodup_iff_count_eq_one.1 List.nodup_range _ (List.mem_range.2 (by omega))]
    simp
    omega

/-- `generate_joints` fails for every truss. -/
theorem vier_joints_viol {v : Truss K} {n : ℕ} (hn : 0 < n) (hv : v.panels = n) :
    ∃ m, generate v = .ok m ∧ generateJoints m = .error .attributeError := by
  refine ⟨_, generate_ok hn hv, ?_⟩
  unfold generateJoints
  rw [if_neg]
  intro h
  unfold jointsOf at h
  rw [List.filterMap_eq_nil_iff] at h
  have := h 0 (by simp [points, linspace])
  simp only [Built.ofKind, braces_at n 0 (by omega)] at this
  simp at this

theorem collect_eq (x : ℕ) : ∀ (ms acc : List Mem),
    acc.length + (ms.filter fun m => m.a = x ∨ m.b = x).length ≤ 2 →
    collect x acc ms = acc ++ ms.filter fun m => m.a = x ∨ m.b = x
  | [], acc, _ => by simp [collect]
  | m :: ms, acc, h => by
    by_cases hm : m.a = x ∨ m.b = x
    · rw [collect, if_pos hm]
      rw [List.filter_cons_of_pos (by simpa using hm)] at h ⊢
      simp only [List.length_cons] at h
      by_cases h1 : acc.length = 1
      · rw [if_pos h1]
        have h0 : (ms.filter fun m => m.a = x ∨ m.b = x).length = 0 := by omega
        rw [List.length_eq_zero_iff.1 h0]
      · rw [if_neg h1, collect_eq x ms (acc ++ [m]) (by simp only [List.length_append, List.length_singleton]; omega)]
        simp
    · rw [collect, if_neg hm]
      rw [List.filter_cons_of_neg (by simpa using hm)] at h ⊢
      exact collect_eq x ms acc h

theorem filter_len (y : ℕ) : ∀ n, ((List.range n).filter fun i => i = y ∨ i + 1 = y).length =
    (if y < n then 1 else 0) + (if 0 < y ∧ y ≤ n then 1 else 0)
  | 0 => by simp; omega
  | n + 1 => by
    rw [List.range_succ, List.filter_append, List.length_append, filter_len y n]
    by_cases h : n = y ∨ n + 1 = y
    · rw [List.filter_cons_of_pos (by simpa using h)]
      simp only [List.filter_nil, List.length_singleton]
      split <;> split <;> split <;> split <;> omega
    · rw [List.filter_cons_of_neg (by simpa using h)]
      simp only [List.filter_nil, List.length_nil]
      split <;> split <;> split <;> split <;> omega

theorem chords_at (n x : ℕ) (hn : 0 < n) (hx : x < 2 * (n + 1)) :
    let t := (memsOf n).filter fun e => e.kind = .top
    let b := (memsOf n).filter fun e => e.kind = .bottom
    collect x (collect x [] t) b = (t.filter fun m => m.a = x ∨ m.b = x) ++ (b.filter fun m => m.a = x ∨ m.b = x) ∧
    (collect x (collect x [] t) b).length = if x = 0 ∨ x = n ∨ x = n + 1 ∨ x = n + 1 + n then 1 else 2 := by
  intro t b
  have ht : t = (List.range n).map fun i => ⟨i, .top, i, i + 1⟩ := by
    simp [t, memsOf, List.filter_map, Function.comp_def]
  have hb : b = (List.range n).map fun i => ⟨n + i, .bottom, n + 1 + i, n + 1 + i + 1⟩ := by
    simp [b, memsOf, List.filter_map, Function.comp_def]
  have lt : (t.filter fun m => m.a = x ∨ m.b = x).length = (if x < n then 1 else 0) + (if 0 < x ∧ x ≤ n then 1 else 0) := by
    rw [ht, List.filter_map, List.length_map, ← filter_len]
    rfl
  have lb : (b.filter fun m => m.a = x ∨ m.b = x).length =
      if x ≤ n then 0 else (if x - (n + 1) < n then 1 else 0) + (if 0 < x - (n + 1) ∧ x - (n + 1) ≤ n then 1 else 0) := by
    rw [hb, List.filter_map, List.length_map]
    by_cases h : x ≤ n
    · rw [if_pos h, List.length_eq_zero_iff, List.filter_eq_nil_iff]
      intro i hi
      simp only [Function.comp, decide_eq_true_eq]
      omega
    · rw [if_neg h, ← filter_len]
      congr 1
      apply List.filter_congr
      intro i hi
      simp only [Function.comp, decide_eq_decide]
      omega
  have h1 : collect x [] t = t.filter fun m => m.a = x ∨ m.b = x := by
    rw [collect_eq x t [] (by rw [lt]; simp only [List.length_nil]; split <;> split <;> omega), List.nil_append]
  have h2 : collect x (collect x [] t) b = (t.filter fun m => m.a = x ∨ m.b = x) ++ (b.filter fun m => m.a = x ∨ m.b = x) := by
    rw [h1, collect_eq]
    rw [lt, lb]
    split_ifs <;> omega
  refine ⟨h2, ?_⟩
  rw [h2, List.length_append, lt, lb]
  split_ifs <;> omega

/-- Up to its last step `generate_joints` is right: there is one joint at each node, with the brace of this node and one chord member at the ends of a chord and two at the other nodes, all of them meeting at the node. -/
theorem vier_joints_partial {v : Truss K} {n : ℕ} (hn : 0 < n) (hv : v.panels = n) :
    ∃ m, generate v = .ok m ∧ (jointsOf m).map Joint.node = List.range (2 * (n + 1)) ∧
      ∀ j ∈ jointsOf m, (∃ b, j.braces = [b] ∧ b ∈ m.mems ∧ b.kind = .brace ∧ (b.a = j.node ∨ b.b = j.node)) ∧
        (∀ c ∈ j.chords, c ∈ m.mems ∧ c.kind ≠ .brace ∧ (c.a = j.node ∨ c.b = j.node)) ∧
        j.chords.length = if j.node = 0 ∨ j.node = n ∨ j.node = n + 1 ∨ j.node = n + 1 + n then 1 else 2 := by
  refine ⟨_, generate_ok hn hv, ?_, ?_⟩
  · unfold jointsOf
    rw [List.map_filterMap]
    have hl : (points (v.ox, v.oy + v.H) (v.ox + v.span, v.oy + v.H) (linspace (n + 1)) ++
      points (v.ox, v.oy) (v.ox + v.span, v.oy) (linspace (n + 1))).length = 2 * (n + 1) := by
      simp [points, linspace]; omega
    simp only [hl]
    conv_rhs => rw [← List.filterMap_some (l := List.range (2 * (n + 1)))]
    apply List.filterMap_congr
    intro x hx
    rw [List.mem_range] at hx
    simp only [Built.ofKind, braces_at n x hx]
    simp
  · intro j hj
    unfold jointsOf at hj
    rw [List.mem_filterMap] at hj
    obtain ⟨x, hx, hj⟩ := hj
    have hx : x < 2 * (n + 1) := by
      rw [List.mem_range] at hx
      simp [points, linspace] at hx
      omega
    simp only [Built.ofKind, braces_at n x hx, List.length_singleton, if_true, Option.some.injEq] at hj
    subst hj
    obtain ⟨c1, c2⟩ := chords_at n x hn hx
    refine ⟨⟨_, rfl, ?_, ?_, ?_⟩, ?_, c2⟩
    · have : (if x ≤ n then (⟨n + n + x, .brace, x, n + 1 + x⟩ : Mem) else ⟨n + n + (x - (n + 1)), .brace, x - (n + 1), x⟩) ∈
          ((memsOf n).filter fun e => e.kind = .brace).filter (fun e => e.a = x ∨ e.b = x) := by
        rw [braces_at n x hx]; simp
      exact (List.mem_filter.1 (List.mem_filter.1 this).1).1
    · split <;> rfl
    · split
      · left; rfl
      · right; rfl
    · intro c hc
      simp only at hc
      rw [c1] at hc
      rcases List.mem_append.1 hc with h | h
      · obtain ⟨h, h'⟩ := List.mem_filter.1 h
        obtain ⟨h, h''⟩ := List.mem_filter.1 h
        simp only [decide_eq_true_eq] at h' h''
        exact ⟨h, by rw [h'']; simp, h'⟩
      · obtain ⟨h, h'⟩ := List.mem_filter.1 h
        obtain ⟨h, h''⟩ := List.mem_filter.1 h
        simp only [decide_eq_true_eq] at h' h''
        exact ⟨h, by rw [h'']; simp, h'⟩

/-! ### Loads and weight -/

/-- Horizontal projection of a member. -/
def run (m : Built K) (e : Mem) : K :=
  match m.nodes[e.a]?, m.nodes[e.b]? with
  | some p, some q => q.1 - p.1
  | _, _ => 0

/-- A uniform load on a chord acts on all its members: its resultant is the load times the span. -/
theorem vier_uniform {v : Truss K} {n : ℕ} (hn : 0 < n) (hv : v.panels = n) (q : K) :
    ∃ m, generate v = .ok m ∧
      (∀ e, e ∈ (uniformLoad m q .top).map Prod.fst ↔ e ∈ m.mems ∧ e.kind = .top) ∧
      (∀ e, e ∈ (uniformLoad m q .bottom).map Prod.fst ↔ e ∈ m.mems ∧ e.kind = .bottom) ∧
      ((uniformLoad m q .top).map fun l => l.2 * run m l.1).sum = q * v.span ∧
      ((uniformLoad m q .bottom).map fun l => l.2 * run m l.1).sum = q * v.span := by
  have hn0 : (n : K) ≠ 0 := by exact_mod_cast hn.ne'
  obtain ⟨m, hm, hlen, _, _, hnodes⟩ := vier_nodes hn hv
  have hm' := generate_ok hn hv
  rw [hm] at hm'
  obtain rfl := Except.ok.inj hm'
  refine ⟨_, hm, ?_, ?_, ?_, ?_⟩
  · intro e; simp [uniformLoad, Built.ofKind]
  · intro e; simp [uniformLoad, Built.ofKind]
  · have ht : Built.ofKind (K := K) ⟨points (v.ox, v.oy + v.H) (v.ox + v.span, v.oy + v.H) (linspace (n + 1)) ++
        points (v.ox, v.oy) (v.ox + v.span, v.oy) (linspace (n + 1)), List.range' 0 (n + 1), List.range' (n + 1) (n + 1),
        memsOf n⟩ .top = (List.range n).map fun i => ⟨i, .top, i, i + 1⟩ := by
      simp [Built.ofKind, memsOf, List.filter_map, Function.comp_def]
    simp only [uniformLoad, ht, List.map_map]
    rw [List.map_congr_left (g := fun _ => q * (v.span / n))]
    · simp; field_simp
    · intro i hi
      rw [List.mem_range] at hi
      obtain ⟨⟨x, hx, hx'⟩, _⟩ := hnodes i (by omega)
      obtain ⟨⟨y, hy, hy'⟩, _⟩ := hnodes (i + 1) (by omega)
      rw [range'_get _ _ _ (by omega), Nat.zero_add] at hx hy
      obtain rfl := Option.some.inj hx
      obtain rfl := Option.some.inj hy
      simp only [Function.comp, run, hx', hy']
      push_cast
      ring
  · have ht : Built.ofKind (K := K) ⟨points (v.ox, v.oy + v.H) (v.ox + v.span, v.oy + v.H) (linspace (n + 1)) ++
        points (v.ox, v.oy) (v.ox + v.span, v.oy) (linspace (n + 1)), List.range' 0 (n + 1), List.range' (n + 1) (n + 1),
        memsOf n⟩ .bottom = (List.range n).map fun i => ⟨n + i, .bottom, n + 1 + i, n + 1 + i + 1⟩ := by
      simp [Built.ofKind, memsOf, List.filter_map, Function.comp_def]
    simp only [uniformLoad, ht, List.map_map]
    rw [List.map_congr_left (g := fun _ => q * (v.span / n))]
    · simp; field_simp
    · intro i hi
      rw [List.mem_range] at hi
      obtain ⟨_, x, hx, hx'⟩ := hnodes i (by omega)
      obtain ⟨_, y, hy, hy'⟩ := hnodes (i + 1) (by omega)
      rw [range'_get _ _ _ (by omega)] at hx hy
      obtain rfl := Option.some.inj hx
      obtain rfl := Option.some.inj hy
      simp only [Function.comp, run, hx']
      rw [show n + 1 + i + 1 = n + 1 + (i + 1) by omega, hy']
      push_cast
      ring

/-- Point loads on the top chord act at all its nodes, with the first value at the two ends and the second one at the other nodes; on the bottom chord they act at the nodes that are not supported. -/
theorem vier_point {v : Truss K} {n : ℕ} (hn : 0 < n) (hv : v.panels = n) (p0 p1 : K) :
    ∃ m lt lb, generate v = .ok m ∧ pointLoad m p0 p1 .top = .ok lt ∧ pointLoad m p0 p1 .bottom = .ok lb ∧
      lt.Perm (m.topN.map fun x => (x, if x = 0 ∨ x = n then p0 else p1)) ∧
      (lt.map Prod.snd).sum = 2 * p0 + (n - 1) * p1 ∧
      (∀ x q, (x, q) ∈ lb ↔ q = p1 ∧ x ∈ m.botN ∧ ∀ s, supports m = .ok s → x ∉ s.map Prod.fst) ∧
      (lb.map Prod.snd).sum = (n - 1) * p1 := by
  obtain ⟨k, rfl⟩ : ∃ k, n = k + 1 := ⟨n - 1, by omega⟩
  have hfl : ∀ s, firstLast (List.range' s (k + 1 + 1)) = .ok (s, s + (k + 1)) := by
    intro s
    have h1 : (List.range' s (k + 1 + 1)).head? = some s := by simp [List.range'_succ]
    have h2 : (List.range' s (k + 1 + 1)).getLast? = some (s + (k + 1)) := by simp [List.getLast?_range']
    simp only [firstLast, h1, h2]
  have hmid : ∀ s, (List.range' s (k + 1 + 1)).tail.dropLast = List.range' (s + 1) k := by
    intro s
    rw [List.range'_succ, List.tail_cons, List.range'_1_concat, List.dropLast_concat]
  have hall : ∀ s, List.range' s (k + 1 + 1) = s :: (List.range' (s + 1) k ++ [s + 1 + k]) := by
    intro s
    rw [List.range'_succ, List.range'_1_concat]
  refine ⟨_, (0, p0) :: (0 + (k + 1), p0) :: ((List.range' 1 k).map fun x => (x, p1)),
    (List.range' (k + 1 + 1 + 1) k).map fun x => (x, p1), generate_ok hn hv, ?_, ?_, ?_, ?_, ?_, ?_⟩
  · simp only [pointLoad, hfl, hmid]; rfl
  · simp only [pointLoad, hmid]
  · rw [hall 0, List.map_cons, List.map_append]
    have h1 : ((List.range' (0 + 1) k).map fun x => (x, if x = 0 ∨ x = k + 1 then p0 else p1)) =
        (List.range' 1 k).map fun x => (x, p1) := by
      apply List.map_congr_left
      intro x hx
      rw [List.mem_range'_1] at hx
      rw [if_neg (by omega)]
    rw [h1]
    simp only [true_or, if_true, List.map_cons, List.map_nil]
    rw [if_pos (by omega), show 0 + 1 + k = 0 + (k + 1) by omega]
    exact List.Perm.cons _ (List.perm_append_singleton _ _).symm
  · simp [Function.comp_def]; ring
  · intro x q
    have hs : supports (K := K) ⟨points (v.ox, v.oy + v.H) (v.ox + v.span, v.oy + v.H) (linspace (k + 1 + 1)) ++
      points (v.ox, v.oy) (v.ox + v.span, v.oy) (linspace (k + 1 + 1)), List.range' 0 (k + 1 + 1),
      List.range' (k + 1 + 1) (k + 1 + 1), memsOf (k + 1)⟩ =
        .ok [(k + 1 + 1, .xy), (k + 1 + 1 + (k + 1), .y)] := by
      simp only [supports, hfl]; rfl
    rw [hs]
    constructor
    · intro h
      obtain ⟨y, hy, he⟩ := List.mem_map.1 h
      rw [List.mem_range'_1] at hy
      obtain ⟨rfl, rfl⟩ := Prod.mk.inj he
      refine ⟨rfl, ?_, ?_⟩
      · simp only; rw [List.mem_range'_1]; omega
      · rintro s hs'
        obtain rfl := Except.ok.inj hs'
        simp
        omega
    · rintro ⟨rfl, hx, hs'⟩
      have := hs' _ rfl
      simp only at hx
      rw [List.mem_range'_1] at hx
      simp at this
      apply List.mem_map.2
      exact ⟨x, by rw [List.mem_range'_1]; omega, rfl⟩
  · simp [Function.comp_def]

/-- Another name of a chord gives no load, and no error. -/
theorem vier_chord_viol (m : Built K) (q p0 p1 : K) :
    uniformLoad m q .other = [] ∧ pointLoad m p0 p1 .other = .ok [] := ⟨rfl, rfl⟩

/-- The three weights add up to the weight of all members, and each is the weight of its own members. -/
theorem vier_weight (m : Built K) (w : Mem → K) :
    weightDetailed m w = (((m.ofKind .top).map w).sum, ((m.ofKind .bottom).map w).sum, ((m.ofKind .brace).map w).sum) ∧
    (weightDetailed m w).1 + (weightDetailed m w).2.1 + (weightDetailed m w).2.2 = (m.mems.map w).sum := by
  have key : ∀ (ms : List Mem) (a b c : K),
      ms.foldl (weightStep w) (a, b, c) =
      (a + ((ms.filter fun e => e.kind = .top).map w).sum, b + ((ms.filter fun e => e.kind = .bottom).map w).sum,
        c + ((ms.filter fun e => e.kind = .brace).map w).sum) := by
    intro ms
    induction ms with
    | nil => intro a b c; simp
    | cons e ms ih =>
      intro a b c
      rw [List.foldl_cons, weightStep]
      cases h : e.kind <;> simp only [ih] <;> simp [h, add_assoc]
  have h1 := key m.mems 0 0 0
  constructor
  · simpa [weightDetailed, Built.ofKind] using h1
  · unfold weightDetailed
    rw [h1]
    simp only [zero_add]
    have : ∀ ms : List Mem, ((ms.filter fun e => e.kind = .top).map w).sum + ((ms.filter fun e => e.kind = .bottom).map w).sum +
        ((ms.filter fun e => e.kind = .brace).map w).sum = (ms.map w).sum := by
      intro ms
      induction ms with
      | nil => simp
      | cons e ms ih =>
        rw [List.map_cons, List.sum_cons, ← ih]
        cases h : e.kind <;> simp [h] <;> ring
    exact this _

example : ∃ m, generate (⟨1, 2, 10, 3, 4⟩ : Truss ℚ) = .ok m ∧ m.nodes.length = 10 ∧
    ((uniformLoad m 5 .top).map fun l => l.2 * run m l.1).sum = 5 * 10 := by
  obtain ⟨m, h, _, _, h', _⟩ := vier_uniform (v := (⟨1, 2, 10, 3, 4⟩ : Truss ℚ)) (n := 4) (by omega) rfl 5
  obtain ⟨m', hm', hl, _⟩ := vier_nodes (v := (⟨1, 2, 10, 3, 4⟩ : Truss ℚ)) (n := 4) (by omega) rfl
  rw [h] at hm'
  obtain rfl := Except.ok.inj hm'
  exact ⟨m, h, hl, h'⟩

/-- A truss of four panels: the nodes of the outline are missing, the joints cannot be finished, and each of its ten nodes has a joint record. -/
example : ∃ m, generate (⟨1, 2, 10, 3, 4⟩ : Truss ℚ) = .ok m ∧ xbottomLeft (⟨1, 2, 10, 3, 4⟩ : Truss ℚ) ∉ m.nodes ∧
    generateJoints m = .error .attributeError ∧ (jointsOf m).length = 10 := by
  obtain ⟨m, h, h1, _⟩ := vier_outline_viol (v := (⟨1, 2, 10, 3, 4⟩ : Truss ℚ)) (n := 4) (by omega) rfl (by norm_num)
  obtain ⟨m', hm', h2⟩ := vier_joints_viol (v := (⟨1, 2, 10, 3, 4⟩ : Truss ℚ)) (n := 4) (by omega) rfl
  obtain ⟨m'', hm'', h3, _⟩ := vier_joints_partial (v := (⟨1, 2, 10, 3, 4⟩ : Truss ℚ)) (n := 4) (by omega) rfl
  rw [h] at hm' hm''
  obtain rfl := Except.ok.inj hm'
  obtain rfl := Except.ok.inj hm''
  refine ⟨m, h, h1, h2, ?_⟩
  have := congrArg List.length h3
  simpa using this

/-- Point loads on four panels: 2 · 3 + 3 · 5 on the top chord, 3 · 5 on the bottom chord. -/
example : ∃ m lt lb, generate (⟨1, 2, 10, 3, 4⟩ : Truss ℚ) = .ok m ∧ pointLoad m 3 5 .top = .ok lt ∧ pointLoad m 3 5 .bottom = .ok lb ∧
    (lt.map Prod.snd).sum = 21 ∧ (lb.map Prod.snd).sum = 15 := by
  obtain ⟨m, lt, lb, h, h1, h2, _, h3, _, h4⟩ := vier_point (v := (⟨1, 2, 10, 3, 4⟩ : Truss ℚ)) (n := 4) (by omega) rfl 3 5
  exact ⟨m, lt, lb, h, h1, h2, by rw [h3]; norm_num, by rw [h4]; norm_num⟩

end Metku.Vier
