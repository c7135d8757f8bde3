import Verif.Model.FrameSimple
import Verif.Props.FrameUpdate

/-! Regular frames: the members, supports, width and height of `Frame2D(simple=…, supports=…)`. -/
namespace Metku.Frame2D

open Metku.FrameSpec

set_option linter.unusedSectionVars false

variable {K : Type} [Field K] [LinearOrder K] [IsStrictOrderedRing K] [FloorRing K]

/-! ### The types of beams and columns -/

/-- C179: beams and columns take the same type for the same ends: column exactly for members steeper than 0.8 (vertical ones included), whatever the direction in which they are drawn. -/
theorem C179 (a b : Pt K) (w : K) :
    (steelBeam a b w).mtype = (steelColumn a b w).mtype
    ∧ ((steelBeam a b w).mtype = .column ↔ (8 / 10 : K) * |roundTo 3 b.1 - roundTo 3 a.1| ≤ |roundTo 3 b.2 - roundTo 3 a.2|)
    ∧ ((steelBeam a b w).mtype = .beam ↔ |roundTo 3 b.2 - roundTo 3 a.2| < (8 / 10 : K) * |roundTo 3 b.1 - roundTo 3 a.1|)
    ∧ (steelBeam b a w).mtype = (steelBeam a b w).mtype := by
  have key : ∀ p q : Pt K, beamType p q = columnType p q ∧ (beamType p q = .column ↔ (8 / 10 : K) * |q.1 - p.1| ≤ |q.2 - p.2|)
      ∧ (beamType p q = .beam ↔ |q.2 - p.2| < (8 / 10 : K) * |q.1 - p.1|) := by
    intro p q
    unfold beamType columnType
    by_cases h0 : |q.1 - p.1| = 0
    · rw [if_pos h0, if_pos h0, h0, mul_zero]
      exact ⟨rfl, ⟨fun _ => abs_nonneg _, fun _ => rfl⟩, ⟨fun h => (by cases h), fun h => absurd h (not_lt.mpr (abs_nonneg _))⟩⟩
    · have hp : 0 < |q.1 - p.1| := lt_of_le_of_ne (abs_nonneg _) (Ne.symm h0)
      rw [if_neg h0, if_neg h0]
      by_cases h1 : 8 / 10 ≤ |q.2 - p.2| / |q.1 - p.1|
      · rw [if_pos h1, if_neg (not_lt.mpr h1)]
        have h2 := (le_div_iff₀ hp).mp h1
        exact ⟨rfl, ⟨fun _ => h2, fun _ => rfl⟩, ⟨fun h => (by cases h), fun h => absurd h (not_lt.mpr h2)⟩⟩
      · rw [if_neg h1, if_pos (not_le.mp h1)]
        have h2 := (div_lt_iff₀ hp).mp (not_le.mp h1)
        exact ⟨rfl, ⟨fun h => (by cases h), fun h => absurd h (not_le.mpr h2)⟩, ⟨fun _ => h2, fun _ => rfl⟩⟩
  obtain ⟨k1, k2, k3⟩ := key (roundPt prec a) (roundPt prec b)
  refine ⟨k1, k2, k3, ?_⟩
  show beamType (roundPt prec b) (roundPt prec a) = beamType (roundPt prec a) (roundPt prec b)
  unfold beamType
  rw [abs_sub_comm (roundPt prec a).1, abs_sub_comm (roundPt prec a).2]

example : (steelBeam ((0, 0) : Pt ℚ) (1000, 800) 1).mtype = .column ∧ (steelColumn ((0, 0) : Pt ℚ) (1000, 799) 1).mtype = .beam := by decide +kernel

/-! ### Coordinates of the frame -/

theorem addNodeCoord_nodal {m m' : Member K} {p : Pt K} (h : m.addNodeCoord p = .ok m') :
    (∀ q ∈ m'.nodal, q ∈ m.nodal ∨ m.pointIntersection q = .ok true) ∧ ∀ q ∈ m.nodal, q ∈ m'.nodal := by
  unfold Member.addNodeCoord at h
  split_ifs at h with hp
  · obtain rfl := Except.ok.inj h
    exact ⟨fun q hq => Or.inl hq, fun q hq => hq⟩
  · simp only [bind, Except.bind] at h
    cases hi : m.pointIntersection p with
    | error e => rw [hi] at h; cases h
    | ok b =>
      rw [hi] at h
      simp only at h
      split_ifs at h with hb
      · obtain rfl := Except.ok.inj h
        refine ⟨?_, ?_⟩
        · intro q hq
          have hq' : q ∈ m.nodal ++ [p] := (List.mem_insertionSort _).mp hq
          rcases List.mem_append.mp hq' with h | h
          · exact Or.inl h
          · rw [List.mem_singleton.mp h, hi, hb]; exact Or.inr rfl
        · intro q hq
          exact (List.mem_insertionSort _).mpr (List.mem_append_left _ hq)
      · obtain rfl := Except.ok.inj h
        exact ⟨fun q hq => Or.inl hq, fun q hq => hq⟩

theorem meetAll_nodal : ∀ {l : List (Member K)} {this : Member K} {r : Member K × List (Member K)}, meetAll this l = .ok r →
    (∀ q ∈ r.1.nodal, q ∈ this.nodal ∨ this.pointIntersection q = .ok true) ∧ ∀ q ∈ this.nodal, q ∈ r.1.nodal
  | [], this, r, h => by
    obtain rfl := Except.ok.inj h
    exact ⟨fun q hq => Or.inl hq, fun q hq => hq⟩
  | m :: l, this, r, h => by
    unfold meetAll at h
    cases hp : lineIntersection this.start this.stop m.start m.stop with
    | none =>
      rw [hp] at h
      simp only [bind, Except.bind] at h
      cases hr : meetAll this l with
      | error e => rw [hr] at h; cases h
      | ok r' =>
        rw [hr] at h
        obtain rfl := Except.ok.inj h
        have := meetAll_nodal hr
        exact this
    | some p =>
      rw [hp] at h
      simp only [bind, Except.bind] at h
      cases h1 : this.addNodeCoord p with
      | error e => rw [h1] at h; cases h
      | ok t =>
        rw [h1] at h
        simp only at h
        cases h2 : m.addNodeCoord p with
        | error e => rw [h2] at h; cases h
        | ok m1 =>
          rw [h2] at h
          simp only at h
          cases hr : meetAll t l with
          | error e => rw [hr] at h; cases h
          | ok r' =>
            rw [hr] at h
            obtain rfl := Except.ok.inj h
            obtain ⟨a1, a2⟩ := addNodeCoord_nodal h1
            obtain ⟨b1, b2⟩ := meetAll_nodal hr
            have hg := (addNodeCoord_spec h1).1
            refine ⟨?_, fun q hq => b2 q (a2 q hq)⟩
            intro q hq
            rcases b1 q hq with h | h
            · exact a1 q h
            · right
              rw [← h]
              unfold Member.pointIntersection
              rw [hg.start, hg.stop]

/-- The ends of a member. -/
def ends (m : Member K) : Pt K × Pt K := (m.start, m.stop)

theorem keeps_ends : Keeps (K := K) ends := fun _ _ _ _ => rfl

/-- Every coordinate of the frame is on a member, and the starts of the members are coordinates of the frame. -/
def CoordsOk (f : Frame K) : Prop :=
  (∀ q ∈ f.coords, ∃ e ∈ f.members.map ends, NearSegment (1 / 10 ^ 8) e.1 e.2 q) ∧ ∀ e ∈ f.members.map ends, e.1 ∈ f.coords

theorem near_of_on {a b p : Pt K} (h : OnSegment a b p) : NearSegment (1 / 10 ^ 8) a b p :=
  ⟨p, h, by rw [sub_self, abs_zero]; positivity, by rw [sub_self, abs_zero]; positivity⟩

theorem locs_mem {n : ℕ} (hn : 0 < n) {t : K} (h : t ∈ locs n) : 0 ≤ t ∧ t ≤ 1 := by
  obtain ⟨i, hi, rfl⟩ := List.mem_map.mp h
  have hi' := Nat.lt_succ_iff.mp (List.mem_range.mp hi)
  have hn' : (0 : K) < n := Nat.cast_pos.mpr hn
  have d0 : Decimals prec (0 : K) := ⟨0, by simp⟩
  have d1 : Decimals prec (1 : K) := ⟨10 ^ 3, by unfold prec; push_cast; norm_num⟩
  constructor
  · calc (0 : K) = roundTo prec 0 := (roundTo_of_decimals d0).symm
      _ ≤ _ := roundTo_mono _ (by positivity)
  · calc roundTo prec ((i : K) / n) ≤ roundTo prec 1 := roundTo_mono _ (by rw [div_le_one hn']; exact_mod_cast hi')
      _ = 1 := roundTo_of_decimals d1

theorem addMember_coords {f f' : Frame K} {m : Member K} (hm : Fresh m) (hf : CoordsOk f) (h : f.add (.member m) = .ok f') : CoordsOk f' := by
  have hs := add_sig keeps_ends h
  simp only [Frame.add, Frame.addMember, bind, Except.bind] at h
  cases hc : m.calcNodal f.num with
  | error e => rw [hc] at h; cases h
  | ok m1 =>
    rw [hc] at h
    simp only at h
    cases hr : meetAll m1 f.members with
    | error e => rw [hr] at h; cases h
    | ok r =>
      rw [hr] at h
      obtain ⟨rd, e1, e2, e3, e4⟩ := calcNodal_spec hm hc
      have hnod : m1.nodal = sortFrom m.start ((locs m1.num).map m.toGlobal) := by
        unfold Member.calcNodal at hc
        simp only at hc
        split_ifs at hc
        all_goals
          obtain rfl := Except.ok.inj hc
          simp [hm.added]
      obtain ⟨n1, n2⟩ := meetAll_nodal hr
      simp only [Item.member?, Option.toList, List.map_cons, List.map_nil] at hs
      have he : (m.start, m.stop) ∈ f'.members.map ends := by rw [hs]; exact List.mem_append_right _ (by simp [ends])
      obtain rfl := Except.ok.inj h
      constructor
      · intro q hq
        have hq' : q ∈ f.coords ++ r.1.nodal := (List.mem_insertionSort _).mp hq
        rcases List.mem_append.mp hq' with h | h
        · obtain ⟨e, he, hn⟩ := hf.1 q h
          exact ⟨e, by rw [hs]; exact List.mem_append_left _ he, hn⟩
        · refine ⟨(m.start, m.stop), he, ?_⟩
          rcases n1 q h with h | h
          · rw [hnod] at h
            have h' := (List.mem_insertionSort _).mp h
            obtain ⟨t, ht, rfl⟩ := List.mem_map.mp h'
            obtain ⟨t0, t1⟩ := locs_mem rd.num ht
            exact near_of_on ⟨t, t0, t1, rfl, rfl⟩
          · have := (C168 rd.d1 rd.d2 rd.ne q).2.2 h
            rw [e1, e2] at this
            exact this
      · intro e he'
        rw [hs] at he'
        refine (List.mem_insertionSort _).mpr ?_
        rcases List.mem_append.mp he' with h | h
        · exact List.mem_append_left _ (hf.2 e h)
        · rw [List.mem_singleton.mp h]
          refine List.mem_append_right _ (n2 _ ?_)
          rw [hnod]
          refine (List.mem_insertionSort _).mpr (List.mem_map.mpr ⟨0, zero_mem_locs _, ?_⟩)
          simp [Member.toGlobal, ends]

theorem addMembers_coords : ∀ {l : List (Member K)} {f f' : Frame K}, (∀ m ∈ l, Fresh m) → CoordsOk f → f.addAll (l.map .member) = .ok f' → CoordsOk f'
  | [], f, f', _, hf, h => by obtain rfl := Except.ok.inj h; exact hf
  | m :: l, f, f', hl, hf, h => by
    obtain ⟨g, hg, hr⟩ := addAll_cons h
    exact addMembers_coords (fun x hx => hl x (List.mem_cons_of_mem _ hx)) (addMember_coords (hl m List.mem_cons_self) hf hg) hr

/-! ### The grid -/

/-- The column of the grid on line `b` in storey `s`, both counted from 0. -/
def gridColumn (h l : K) (b s : ℕ) : Pt K × Pt K := (((b : K) * l, (s : K) * h), ((b : K) * l, ((s + 1 : ℕ) : K) * h))

/-- The beam of the grid in bay `b` above storey `s`, both counted from 0. -/
def gridBeam (h l : K) (b s : ℕ) : Pt K × Pt K := (((b : K) * l, ((s + 1 : ℕ) : K) * h), (((b + 1 : ℕ) : K) * l, ((s + 1 : ℕ) : K) * h))

theorem top_iff {h : K} (hh : 0 < h) (s n : ℕ) : ((s : K) * h = n * h) ↔ s = n := by
  rw [mul_left_inj' hh.ne']; exact Nat.cast_inj

theorem columnsLoop_inner {storeys : ℕ} {h l w : K} (hh : 0 < h) (b : ℕ) : ∀ (j s k : ℕ), s + j + 1 = storeys →
    columnsLoop storeys h l w (k + (j + 1)) (b * l) (s * h) ((s + 1 : ℕ) * h)
      = (List.range' s (j + 1)).map (fun i : ℕ => steelColumn (gridColumn h l b i).1 (gridColumn h l b i).2 w) ++ columnsLoop storeys h l w k ((b + 1 : ℕ) * l) 0 h
  | 0, s, k, hs => by
    rw [columnsLoop, if_pos ((top_iff hh _ _).mpr (by omega))]
    simp only [gridColumn]
    congr 2
    push_cast; ring
  | j + 1, s, k, hs => by
    rw [show k + (j + 1 + 1) = (k + (j + 1)) + 1 from rfl, columnsLoop, if_neg (fun e => by have := (top_iff hh _ _).mp e; omega)]
    have := columnsLoop_inner (storeys := storeys) hh (l := l) (w := w) b j (s + 1) k (by omega)
    rw [List.range'_succ, List.map_cons, List.cons_append, ← this]
    simp only [gridColumn]
    congr 2
    push_cast; ring

theorem columnsLoop_outer {storeys : ℕ} {h l w : K} (hh : 0 < h) (hs : 0 < storeys) : ∀ (r b : ℕ),
    columnsLoop storeys h l w (r * storeys) (b * l) 0 h
      = (List.range' b r).flatMap (fun b : ℕ => (List.range storeys).map (fun s : ℕ => steelColumn (gridColumn h l b s).1 (gridColumn h l b s).2 w))
  | 0, b => by simp [columnsLoop]
  | r + 1, b => by
    obtain ⟨j, rfl⟩ : ∃ j, storeys = j + 1 := ⟨storeys - 1, by omega⟩
    have := columnsLoop_inner (storeys := j + 1) hh (l := l) (w := w) b j 0 (r * (j + 1)) (by omega)
    rw [columnsLoop_outer hh hs r (b + 1), ← List.range_eq_range'] at this
    rw [List.range'_succ, List.flatMap_cons, ← this]
    congr 1
    · ring
    · simp
    · simp

theorem beamsLoop_inner {storeys : ℕ} {h l w : K} (hh : 0 < h) (b : ℕ) : ∀ (j s k : ℕ), s + j + 1 = storeys →
    beamsLoop storeys h l w (k + (j + 1)) (b * l) ((b + 1 : ℕ) * l) ((s + 1 : ℕ) * h)
      = (List.range' s (j + 1)).map (fun i : ℕ => steelBeam (gridBeam h l b i).1 (gridBeam h l b i).2 w)
        ++ beamsLoop storeys h l w k ((b + 1 : ℕ) * l) ((b + 1 + 1 : ℕ) * l) h
  | 0, s, k, hs => by
    rw [beamsLoop, if_pos ((top_iff hh _ _).mpr (by omega))]
    simp only [gridBeam]
    congr 2
    push_cast; ring
  | j + 1, s, k, hs => by
    rw [show k + (j + 1 + 1) = (k + (j + 1)) + 1 from rfl, beamsLoop, if_neg (fun e => by have := (top_iff hh _ _).mp e; omega)]
    have := beamsLoop_inner (storeys := storeys) hh (l := l) (w := w) b j (s + 1) k (by omega)
    rw [List.range'_succ, List.map_cons, List.cons_append, ← this]
    simp only [gridBeam]
    congr 2
    push_cast; ring

theorem beamsLoop_outer {storeys : ℕ} {h l w : K} (hh : 0 < h) (hs : 0 < storeys) : ∀ (r b : ℕ),
    beamsLoop storeys h l w (r * storeys) (b * l) ((b + 1 : ℕ) * l) h
      = (List.range' b r).flatMap (fun b : ℕ => (List.range storeys).map (fun s : ℕ => steelBeam (gridBeam h l b s).1 (gridBeam h l b s).2 w))
  | 0, b => by simp [beamsLoop]
  | r + 1, b => by
    obtain ⟨j, rfl⟩ : ∃ j, storeys = j + 1 := ⟨storeys - 1, by omega⟩
    have := beamsLoop_inner (storeys := j + 1) hh (l := l) (w := w) b j 0 (r * (j + 1)) (by omega)
    rw [beamsLoop_outer hh hs r (b + 1), ← List.range_eq_range'] at this
    rw [List.range'_succ, List.flatMap_cons, ← this]
    congr 1
    · ring
    · simp

theorem decimals_mul_nat {n : ℕ} {x : K} (h : Decimals n x) (k : ℕ) : Decimals n ((k : K) * x) := by
  obtain ⟨z, rfl⟩ := h
  exact ⟨k * z, by push_cast; ring⟩

/-- The members that the frame should have: type and ends. -/
def gridMembers (storeys bays : ℕ) (h l : K) (beams : Bool) : List (MType × Pt K × Pt K) :=
  ((List.range (bays + 1)).flatMap (fun b : ℕ => (List.range storeys).map (fun s : ℕ => (MType.column, gridColumn h l b s))))
  ++ (if beams then (List.range bays).flatMap (fun b : ℕ => (List.range storeys).map (fun s : ℕ => (MType.beam, gridBeam h l b s))) else [])

/-- Type and ends of a member. -/
def seenMember (m : Member K) : MType × Pt K × Pt K := (m.mtype, m.start, m.stop)

theorem simpleMembers_seen {storeys bays : ℕ} {h l w : K} {beams : Bool} (hh : 0 < h) (hl : 0 < l) (dh : Decimals 3 h) (dl : Decimals 3 l) (hs : 0 < storeys) :
    (simpleMembers storeys bays h l w beams).map seenMember = gridMembers storeys bays h l beams
    ∧ ∀ m ∈ simpleMembers storeys bays h l w beams, Fresh m ∧ m.tapered = false := by
  have rl : ∀ k : ℕ, roundTo prec ((k : K) * l) = k * l := fun k => roundTo_of_decimals (decimals_mul_nat dl k)
  have rh : ∀ k : ℕ, roundTo prec ((k : K) * h) = k * h := fun k => roundTo_of_decimals (decimals_mul_nat dh k)
  have ec : ∀ b s : ℕ, (steelColumn (gridColumn h l b s).1 (gridColumn h l b s).2 w) = Member.new (gridColumn h l b s).1 (gridColumn h l b s).2 4 .column none none w := by
    intro b s
    unfold steelColumn columnType
    rw [if_pos (by simp [gridColumn, roundPt])]
  have eb : ∀ b s : ℕ, (steelBeam (gridBeam h l b s).1 (gridBeam h l b s).2 w) = Member.new (gridBeam h l b s).1 (gridBeam h l b s).2 4 .beam none none w := by
    intro b s
    unfold steelBeam
    have h1 : beamType (roundPt prec (gridBeam h l b s).1) (roundPt prec (gridBeam h l b s).2) = .beam := by
      unfold beamType
      simp only [gridBeam, roundPt, rl, rh]
      rw [if_neg, if_neg]
      · rw [sub_self, abs_zero, zero_div]; norm_num
      · rw [abs_eq_zero]; push_cast; intro e; apply hl.ne'; linear_combination e
    rw [h1]
  have hloop : simpleMembers storeys bays h l w beams
      = ((List.range (bays + 1)).flatMap (fun b : ℕ => (List.range storeys).map (fun s : ℕ => Member.new (gridColumn h l b s).1 (gridColumn h l b s).2 4 .column none none w)))
        ++ (if beams then (List.range bays).flatMap (fun b : ℕ => (List.range storeys).map (fun s : ℕ => Member.new (gridBeam h l b s).1 (gridBeam h l b s).2 4 .beam none none w)) else []) := by
    unfold simpleMembers
    have h1 := columnsLoop_outer (l := l) (w := w) hh hs (bays + 1) 0
    have h2 := beamsLoop_outer (l := l) (w := w) hh hs bays 0
    simp only [Nat.cast_zero, zero_mul, zero_add, Nat.cast_one, one_mul] at h1 h2
    rw [h1, h2]
    simp only [ec, eb, List.range_eq_range']
  have sc : ∀ b s : ℕ, seenMember (Member.new (gridColumn h l b s).1 (gridColumn h l b s).2 4 .column none none w) = (MType.column, gridColumn h l b s) := by
    intro b s
    simp only [seenMember, Member.new, gridColumn, roundPt, rl, rh]
  have sb : ∀ b s : ℕ, seenMember (Member.new (gridBeam h l b s).1 (gridBeam h l b s).2 4 .beam none none w) = (MType.beam, gridBeam h l b s) := by
    intro b s
    simp only [seenMember, Member.new, gridBeam, roundPt, rl, rh]
  rw [hloop]
  constructor
  · unfold gridMembers
    rw [List.map_append, List.map_flatMap]
    congr 1
    · simp only [List.map_map, Function.comp_def, sc]
    · cases beams
      · rfl
      · simp only [if_true, List.map_flatMap, List.map_map, Function.comp_def, sb]
  · intro m hm
    rcases List.mem_append.mp hm with hm | hm
    · obtain ⟨b, _, hm⟩ := List.mem_flatMap.mp hm
      obtain ⟨s, _, rfl⟩ := List.mem_map.mp hm
      refine ⟨fresh_new _ _ _ _ (by norm_num) ?_, rfl⟩
      simp only [gridColumn, roundPt, rl, rh]
      intro e
      have := (Prod.mk.inj e).2
      push_cast at this
      apply hh.ne'
      linear_combination -this
    · cases beams
      · cases hm
      · simp only [if_true] at hm
        obtain ⟨b, _, hm⟩ := List.mem_flatMap.mp hm
        obtain ⟨s, _, rfl⟩ := List.mem_map.mp hm
        refine ⟨fresh_new _ _ _ _ (by norm_num) ?_, rfl⟩
        simp only [gridBeam, roundPt, rl, rh]
        intro e
        have := (Prod.mk.inj e).1
        push_cast at this
        apply hl.ne'
        linear_combination -this

/-! ### Ground points -/

theorem round_of_near {n : ℕ} {x y : K} (hy : Decimals n y) (h : |x - y| < 1 / 2 / 10 ^ n) : roundTo n x = y := by
  by_contra hne
  have h1 := decimals_gap (roundTo_decimals n x) hy hne
  have h2 := roundTo_near n x
  have h3 : |roundTo n x - y| ≤ |roundTo n x - x| + |x - y| := abs_sub_le _ _ _
  have h4 : (1 : K) / 10 ^ n = 1 / 2 / 10 ^ n + 1 / 2 / 10 ^ n := by ring
  linarith

/-- A point on the ground that belongs to the grid is the foot of a column. -/
theorem ground_point {storeys bays : ℕ} {h l : K} {beams : Bool} (hh : 0 < h) (dh : Decimals 3 h) (dl : Decimals 3 l)
    {t : MType} {e : Pt K × Pt K} (he : (t, e) ∈ gridMembers storeys bays h l beams) {q : Pt K} (hq : q.2 = 0) (hn : NearSegment (1 / 10 ^ 8) e.1 e.2 q) :
    ∃ b : ℕ, b ≤ bays ∧ roundPt prec q = ((b : K) * l, 0) := by
  have d0 : Decimals 3 (0 : K) := ⟨0, by simp⟩
  have hgap := decimals_gap dh d0 hh.ne'
  rw [sub_zero, abs_of_pos hh] at hgap
  obtain ⟨p, ⟨u, u0, u1, p1, p2⟩, n1, n2⟩ := hn
  rw [hq, zero_sub, abs_neg] at n2
  have hsmall : p.2 < h := lt_of_lt_of_le (lt_of_le_of_lt (le_abs_self _) n2) (le_trans (by norm_num) hgap)
  rcases List.mem_append.mp he with he | he
  · obtain ⟨b, hb, he⟩ := List.mem_flatMap.mp he
    obtain ⟨s, hs, he⟩ := List.mem_map.mp he
    obtain ⟨-, rfl⟩ := Prod.mk.inj he
    refine ⟨b, Nat.lt_succ_iff.mp (List.mem_range.mp hb), ?_⟩
    simp only [gridColumn, sub_self, mul_zero, add_zero] at p1
    rw [p1] at n1
    refine Prod.ext ?_ ?_
    · exact round_of_near (decimals_mul_nat dl b) (lt_of_lt_of_le n1 (by unfold prec; norm_num))
    · show roundTo prec q.2 = 0
      rw [hq]; exact roundTo_of_decimals d0
  · cases beams
    · cases he
    · simp only [if_true] at he
      obtain ⟨b, hb, he⟩ := List.mem_flatMap.mp he
      obtain ⟨s, hs, he⟩ := List.mem_map.mp he
      obtain ⟨-, rfl⟩ := Prod.mk.inj he
      simp only [gridBeam, sub_self, mul_zero, add_zero] at p2
      push_cast at p2
      have : 0 ≤ (s : K) * h := by positivity
      rw [p2] at hsmall
      linarith

/-- The largest and smallest of a list that has them. -/
theorem foldl_max {M : K} : ∀ (l : List K) (x : K), (∀ y ∈ x :: l, y ≤ M) → M ∈ x :: l → l.foldl max x = M
  | [], x, _, hm => by rw [List.mem_singleton] at hm; exact hm.symm
  | y :: l, x, hle, hm => by
    refine foldl_max l (max x y) ?_ ?_
    · intro z hz
      rcases List.mem_cons.mp hz with rfl | hz
      · exact max_le (hle x (by simp)) (hle y (by simp))
      · exact hle z (by simp [hz])
    · rcases List.mem_cons.mp hm with rfl | hm
      · rw [max_eq_left (hle y (by simp))]; exact List.mem_cons_self
      · rcases List.mem_cons.mp hm with rfl | hm
        · rw [max_eq_right (hle x (by simp))]; exact List.mem_cons_self
        · exact List.mem_cons_of_mem _ hm

theorem foldl_min {M : K} : ∀ (l : List K) (x : K), (∀ y ∈ x :: l, M ≤ y) → M ∈ x :: l → l.foldl min x = M
  | [], x, _, hm => by rw [List.mem_singleton] at hm; exact hm.symm
  | y :: l, x, hle, hm => by
    refine foldl_min l (min x y) ?_ ?_
    · intro z hz
      rcases List.mem_cons.mp hz with rfl | hz
      · exact le_min (hle x (by simp)) (hle y (by simp))
      · exact hle z (by simp [hz])
    · rcases List.mem_cons.mp hm with rfl | hm
      · rw [min_eq_left (hle y (by simp))]; exact List.mem_cons_self
      · rcases List.mem_cons.mp hm with rfl | hm
        · rw [min_eq_right (hle x (by simp))]; exact List.mem_cons_self
        · exact List.mem_cons_of_mem _ hm

/-- The members of a simple frame before and after the supports. -/
theorem simple_parts {num storeys bays : ℕ} {h l w : K} {beams : Bool} (supp : String) (hh : 0 < h) (hl : 0 < l) (dh : Decimals 3 h) (dl : Decimals 3 l) (hs : 0 < storeys) :
    ∃ f0 f items, ({ num := num } : Frame K).addAll ((simpleMembers storeys bays h l w beams).map .member) = .ok f0 ∧ Inv f0 ∧ CoordsOk f0
      ∧ f0.members.map seenMember = gridMembers storeys bays h l beams
      ∧ Frame.simple num storeys bays h l w beams supp = .ok f
      ∧ items = (match supportDofs supp with | none => [] | some d => (f0.coords.filter (fun c : Pt K => c.2 = 0)).map (fun c : Pt K => Item.support (Support.new c d 1)))
      ∧ ({ num := num } : Frame K).addAll ((simpleMembers storeys bays h l w beams).map .member ++ items) = .ok f
      ∧ (∀ x ∈ (simpleMembers storeys bays h l w beams).map Item.member ++ items, FreshItem x)
      ∧ (∀ m, Item.member m ∈ (simpleMembers storeys bays h l w beams).map Item.member ++ items → m.tapered = false)
      ∧ (∀ m, Item.lineLoad m ∉ (simpleMembers storeys bays h l w beams).map Item.member ++ items)
      ∧ f.members.map seenMember = gridMembers storeys bays h l beams := by
  obtain ⟨k1, k2⟩ := simpleMembers_seen (bays := bays) (w := w) (beams := beams) hh hl dh dl hs
  have hfi : ∀ x ∈ (simpleMembers storeys bays h l w beams).map Item.member, FreshItem x := by
    intro x hx
    obtain ⟨m, hm, rfl⟩ := List.mem_map.mp hx
    exact (k2 m hm).1
  obtain ⟨f0, h0⟩ := addAll_ok hfi (inv_empty num)
  have hi := (addAll_spec hfi (inv_empty num) h0).1
  have hc := addMembers_coords (fun m hm => (k2 m hm).1) (⟨by simp, by simp⟩ : CoordsOk ({ num := num } : Frame K)) h0
  have hfm : ((simpleMembers storeys bays h l w beams).map Item.member).filterMap Item.member? = simpleMembers storeys bays h l w beams := by
    rw [List.filterMap_map]
    exact List.filterMap_some
  have hm0 : f0.members.map seenMember = gridMembers storeys bays h l beams := by
    have := addAll_sig (sig := seenMember) (fun _ _ _ _ => rfl) h0
    rw [this, hfm, k1]; rfl
  set items : List (Item K) := (match supportDofs supp with | none => [] | some d => (f0.coords.filter (fun c : Pt K => c.2 = 0)).map (fun c : Pt K => Item.support (Support.new c d 1))) with hit
  have hsup : ∀ x ∈ items, ∃ s, x = .support s := by
    intro x hx
    rw [hit] at hx
    cases hd : supportDofs supp with
    | none => rw [hd] at hx; cases hx
    | some d =>
      rw [hd] at hx
      obtain ⟨c, _, rfl⟩ := List.mem_map.mp hx
      exact ⟨_, rfl⟩
  have hfi2 : ∀ x ∈ items, FreshItem x := by
    intro x hx
    obtain ⟨s, rfl⟩ := hsup x hx
    trivial
  obtain ⟨f, h1⟩ := addAll_ok hfi2 hi
  have hall : ({ num := num } : Frame K).addAll ((simpleMembers storeys bays h l w beams).map .member ++ items) = .ok f := by
    unfold Frame.addAll at h0 h1 ⊢
    rw [List.foldlM_append, h0]
    exact h1
  have hall2 : ∀ x ∈ (simpleMembers storeys bays h l w beams).map Item.member ++ items, FreshItem x := by
    intro x hx
    rcases List.mem_append.mp hx with hx | hx
    · exact hfi x hx
    · exact hfi2 x hx
  refine ⟨f0, f, items, h0, hi, hc, hm0, ?_, hit, hall, hall2, ?_, ?_, ?_⟩
  · unfold Frame.simple
    simp only [bind, Except.bind]
    rw [h0]
    simp only
    cases hd : supportDofs supp with
    | none =>
      rw [hit, hd] at h1
      exact h1
    | some d =>
      rw [hit, hd] at h1
      exact h1
  · intro m hm
    rcases List.mem_append.mp hm with hm | hm
    · obtain ⟨m', hm', e⟩ := List.mem_map.mp hm
      cases e
      exact (k2 m hm').2
    · obtain ⟨s, e⟩ := hsup _ hm
      cases e
  · intro m hm
    rcases List.mem_append.mp hm with hm | hm
    · obtain ⟨m', hm', e⟩ := List.mem_map.mp hm
      cases e
    · obtain ⟨s, e⟩ := hsup _ hm
      cases e
  · have := addAll_sig (sig := seenMember) (fun _ _ _ _ => rfl) hall
    rw [this, List.filterMap_append, hfm, List.map_append, k1]
    have : items.filterMap Item.member? = [] := by
      rw [List.filterMap_eq_nil_iff]
      intro x hx
      obtain ⟨s, rfl⟩ := hsup x hx
      rfl
    rw [this]
    simp

/-- C178: a regular frame with positive lengths of at most three decimals can be made and generated, with any text for the supports; its members are the columns of the grid, line by line and storey by storey, and then the beams; it is as wide as its bays and as high as its storeys. -/
theorem C178 {num storeys bays : ℕ} {h l w : K} {beams sw : Bool} (supp : String) (hh : 0 < h) (hl : 0 < l) (dh : Decimals 3 h) (dl : Decimals 3 l) (hs : 0 < storeys) :
    ∃ f r, Frame.simple num storeys bays h l w beams supp = .ok f ∧ f.generate sw = .ok r
      ∧ f.members.map seenMember = gridMembers storeys bays h l beams
      ∧ f.width = .ok (bays * l) ∧ f.height = .ok (storeys * h) := by
  obtain ⟨f0, f, items, h0, hi, hc, hm0, hsim, hit, hall, hfi, htap, hline, hm⟩ := simple_parts (num := num) (bays := bays) (w := w) (beams := beams) supp hh hl dh dl hs
  obtain ⟨f', r, e1, e2⟩ := C175_partial (n := num) sw hfi htap (fun m hm => absurd hm (hline m))
  rw [hall] at e1
  obtain rfl := Except.ok.inj e1
  refine ⟨f, r, hsim, e2, hm, ?_, ?_⟩
  all_goals
    have hlist : ∀ (pr : Pt K → K), f.members.map (fun m : Member K => pr m.start) ++ f.members.map (fun m : Member K => pr m.stop)
        = (gridMembers storeys bays h l beams).map (fun e => pr e.2.1) ++ (gridMembers storeys bays h l beams).map (fun e => pr e.2.2) := by
      intro pr
      rw [← hm, List.map_map, List.map_map]; rfl
    have hcol : ∀ b s : ℕ, b ≤ bays → s < storeys → (MType.column, gridColumn h l b s) ∈ gridMembers storeys bays h l beams := fun b s hb hs =>
      List.mem_append_left _ (List.mem_flatMap.mpr ⟨b, List.mem_range.mpr (by omega), List.mem_map.mpr ⟨s, List.mem_range.mpr hs, rfl⟩⟩)
    have hfin : ∀ (pr : Pt K → K) (M : K), (∀ e ∈ gridMembers storeys bays h l beams, (0 ≤ pr e.2.1 ∧ pr e.2.1 ≤ M) ∧ (0 ≤ pr e.2.2 ∧ pr e.2.2 ≤ M)) →
        (∃ e ∈ gridMembers storeys bays h l beams, pr e.2.1 = 0) → (∃ e ∈ gridMembers storeys bays h l beams, pr e.2.2 = M) →
        (match f.members.map (fun m : Member K => pr m.start) ++ f.members.map (fun m : Member K => pr m.stop) with
          | [] => Except.error PyErr.valueError
          | x :: l => .ok (l.foldl max x - l.foldl min x)) = .ok M := by
      intro pr M ha ⟨e0, he0, hz⟩ ⟨eM, heM, hM⟩
      rw [hlist]
      have hin : ∀ y ∈ (gridMembers storeys bays h l beams).map (fun e => pr e.2.1) ++ (gridMembers storeys bays h l beams).map (fun e => pr e.2.2), 0 ≤ y ∧ y ≤ M := by
        intro y hy
        rcases List.mem_append.mp hy with hy | hy
        · obtain ⟨e, he, rfl⟩ := List.mem_map.mp hy; exact (ha e he).1
        · obtain ⟨e, he, rfl⟩ := List.mem_map.mp hy; exact (ha e he).2
      have h0m : (0 : K) ∈ (gridMembers storeys bays h l beams).map (fun e => pr e.2.1) ++ (gridMembers storeys bays h l beams).map (fun e => pr e.2.2) :=
        List.mem_append_left _ (List.mem_map.mpr ⟨e0, he0, hz⟩)
      have hMm : M ∈ (gridMembers storeys bays h l beams).map (fun e => pr e.2.1) ++ (gridMembers storeys bays h l beams).map (fun e => pr e.2.2) :=
        List.mem_append_right _ (List.mem_map.mpr ⟨eM, heM, hM⟩)
      revert hin h0m hMm
      generalize (gridMembers storeys bays h l beams).map (fun e => pr e.2.1) ++ (gridMembers storeys bays h l beams).map (fun e => pr e.2.2) = L
      intro hin h0m hMm
      cases L with
      | nil => cases h0m
      | cons x L =>
        simp only
        rw [foldl_max L x (fun y hy => (hin y hy).2) hMm, foldl_min L x (fun y hy => (hin y hy).1) h0m, sub_zero]
  · refine hfin Prod.fst _ ?_ ⟨_, hcol 0 0 (by omega) hs, by simp [gridColumn]⟩ ⟨_, hcol bays 0 le_rfl hs, rfl⟩
    intro e he
    have cast : ∀ b : ℕ, b ≤ bays → 0 ≤ (b : K) * l ∧ (b : K) * l ≤ bays * l := fun b hb =>
      ⟨by positivity, mul_le_mul_of_nonneg_right (by exact_mod_cast hb) hl.le⟩
    rcases List.mem_append.mp he with he | he
    · obtain ⟨b, hb, he⟩ := List.mem_flatMap.mp he
      obtain ⟨s, hs, rfl⟩ := List.mem_map.mp he
      have := cast b (Nat.lt_succ_iff.mp (List.mem_range.mp hb))
      exact ⟨this, this⟩
    · cases beams
      · cases he
      · simp only [if_true] at he
        obtain ⟨b, hb, he⟩ := List.mem_flatMap.mp he
        obtain ⟨s, hs, rfl⟩ := List.mem_map.mp he
        have hb := List.mem_range.mp hb
        exact ⟨cast b (by omega), cast (b + 1) hb⟩
  · refine hfin Prod.snd _ ?_ ⟨_, hcol 0 0 (by omega) hs, by simp [gridColumn]⟩ ⟨_, hcol 0 (storeys - 1) (by omega) (by omega), by
      show ((storeys - 1 + 1 : ℕ) : K) * h = storeys * h
      rw [Nat.sub_add_cancel hs]⟩
    intro e he
    have cast : ∀ s : ℕ, s ≤ storeys → 0 ≤ (s : K) * h ∧ (s : K) * h ≤ storeys * h := fun b hb =>
      ⟨by positivity, mul_le_mul_of_nonneg_right (by exact_mod_cast hb) hh.le⟩
    rcases List.mem_append.mp he with he | he
    · obtain ⟨b, hb, he⟩ := List.mem_flatMap.mp he
      obtain ⟨s, hs, rfl⟩ := List.mem_map.mp he
      have hs := List.mem_range.mp hs
      exact ⟨cast s (by omega), cast (s + 1) hs⟩
    · cases beams
      · cases he
      · simp only [if_true] at he
        obtain ⟨b, hb, he⟩ := List.mem_flatMap.mp he
        obtain ⟨s, hs, rfl⟩ := List.mem_map.mp he
        have hs := List.mem_range.mp hs
        exact ⟨cast (s + 1) hs, cast (s + 1) hs⟩

theorem supportDofs_of {s : String} {d : List ℕ} (h : WantedSupport s d) : supportDofs s = some d := by
  unfold supportDofs
  rcases h with ⟨h, rfl⟩ | ⟨h, rfl⟩ | ⟨h, rfl⟩ | ⟨h, rfl⟩ <;> rw [h] <;> simp

/-- C180: the foot of every column of a regular frame gets the support that was asked for: after `generate` its FEM node is restrained in exactly these directions, and no other node is. -/
theorem C180 {num storeys bays : ℕ} {h l w : K} {beams sw : Bool} {supp : String} {d : List ℕ} (hd : WantedSupport supp d)
    (hh : 0 < h) (hl : 0 < l) (dh : Decimals 3 h) (dl : Decimals 3 l) (hs : 0 < storeys)
    {f f' : Frame K} {g : Fem K} (h1 : Frame.simple num storeys bays h l w beams supp = .ok f) (h2 : f.generate sw = .ok (f', g)) :
    (∀ b : ℕ, b ≤ bays → ∃ k : ℕ, g.place[k]? = some ((b : K) * l, 0) ∧ (1, k, d) ∈ g.supports)
    ∧ ∀ e ∈ g.supports, e.1 = 1 ∧ e.2.2 = d ∧ ∃ b : ℕ, b ≤ bays ∧ g.place[e.2.1]? = some ((b : K) * l, 0) := by
  obtain ⟨f0, f1, items, h0, hi, hc, hm0, hsim, hit, hall, hfi, htap, hline, hm⟩ := simple_parts (num := num) (bays := bays) (w := w) (beams := beams) supp hh hl dh dl hs
  rw [h1] at hsim
  obtain rfl := Except.ok.inj hsim
  rw [supportDofs_of hd] at hit
  simp only at hit
  have hit2 : ∀ t, Item.support t ∈ (simpleMembers storeys bays h l w beams).map Item.member ++ items → ∃ c ∈ f0.coords, c.2 = 0 ∧ t = Support.new c d 1 := by
    intro t ht
    rcases List.mem_append.mp ht with ht | ht
    · obtain ⟨m, _, e⟩ := List.mem_map.mp ht
      cases e
    · rw [hit] at ht
      obtain ⟨c, hc, e⟩ := List.mem_map.mp ht
      obtain ⟨hc1, hc2⟩ := List.mem_filter.mp hc
      exact ⟨c, hc1, of_decide_eq_true hc2, (Item.support.inj e).symm⟩
  have hground : ∀ c ∈ f0.coords, c.2 = 0 → ∃ b : ℕ, b ≤ bays ∧ (Support.new c d 1).coord = ((b : K) * l, 0) := by
    intro c hcm hc0
    obtain ⟨e, he, hn⟩ := hc.1 c hcm
    have : ∃ t, (t, e) ∈ gridMembers storeys bays h l beams := by
      obtain ⟨m, hm, rfl⟩ := List.mem_map.mp he
      exact ⟨m.mtype, by rw [← hm0]; exact List.mem_map.mpr ⟨m, hm, rfl⟩⟩
    obtain ⟨t, ht⟩ := this
    exact ground_point hh dh dl ht hc0 hn
  have hdec : DecimalPt 3 ((0 : K), (0 : K)) := ⟨⟨0, by simp⟩, ⟨0, by simp⟩⟩
  have hrd : ∀ b : ℕ, DecimalPt 3 ((b : K) * l, (0 : K)) := fun b => ⟨decimals_mul_nat dl b, hdec.1⟩
  have hco : ∀ b : ℕ, (Support.new ((b : K) * l, (0 : K)) d 1).coord = ((b : K) * l, 0) := fun b => roundPt_of_decimals (hrd b)
  have hfoot : ∀ b : ℕ, b ≤ bays → ∃ m, (m ∈ f0.members ∧ m.start = ((b : K) * l, 0)) ∧ Item.support (Support.new ((b : K) * l, (0 : K)) d 1) ∈ items := by
    intro b hb
    have hcol : (MType.column, gridColumn h l b 0) ∈ f0.members.map seenMember := by
      rw [hm0]
      exact List.mem_append_left _ (List.mem_flatMap.mpr ⟨b, List.mem_range.mpr (by omega), List.mem_map.mpr ⟨0, List.mem_range.mpr hs, rfl⟩⟩)
    obtain ⟨m, hmm, e⟩ := List.mem_map.mp hcol
    obtain ⟨-, e⟩ := Prod.mk.inj e
    obtain ⟨e1, e2⟩ := Prod.mk.inj e
    have e1' : m.start = ((b : K) * l, 0) := by rw [e1]; simp
    have hcc : ((b : K) * l, (0 : K)) ∈ f0.coords := by
      rw [← e1']
      exact hc.2 (ends m) (List.mem_map.mpr ⟨m, hmm, rfl⟩)
    refine ⟨m, ⟨hmm, e1'⟩, ?_⟩
    rw [hit]
    exact List.mem_map.mpr ⟨_, List.mem_filter.mpr ⟨hcc, by simp⟩, rfl⟩
  constructor
  · intro b hb
    obtain ⟨m, ⟨hmm, e1'⟩, hmem⟩ := hfoot b hb
    obtain ⟨pre, post, hpp⟩ := List.append_of_mem hmem
    rw [hpp, ← List.append_assoc] at hall hfi
    obtain ⟨fp, hp1, hp2⟩ := addAll_append hall
    obtain ⟨i, hi1⟩ := List.mem_iff_getElem?.mp hmm
    obtain ⟨fq, hq1, hq2⟩ := addAll_append hp1
    rw [h0] at hq1
    obtain rfl := Except.ok.inj hq1
    obtain ⟨m2, hm2, gr⟩ := (addAll_spec (fun x hx => hfi x (by simp [hx])) hi hq2).2 i m hi1
    obtain ⟨m', k, _, _, _, _, k1, k2⟩ := (C171_partial hfi hp1 hall h2).1 i m2 hm2 (by
      rw [hco b, ← e1', ← gr.start]
      exact ⟨0, le_rfl, zero_le_one, by simp, by simp⟩) (by rw [hco b]; exact hrd b)
    exact ⟨k, by rw [k1, hco b], k2⟩
  · intro e he
    obtain ⟨m, hmm, hmem⟩ := hfoot 0 (Nat.zero_le _)
    obtain ⟨pre, post, hpp⟩ := List.append_of_mem hmem
    have hall' := hall
    have hfi' := hfi
    rw [hpp, ← List.append_assoc] at hall' hfi'
    obtain ⟨fp, hp1, hp2⟩ := addAll_append hall'
    obtain ⟨t, ht, t1, t2, t3⟩ := (C171_partial hfi' hp1 hall' h2).2 e he
    rw [List.append_assoc, ← hpp] at ht
    obtain ⟨c, c1, c2, rfl⟩ := hit2 t ht
    obtain ⟨b, hb, hbc⟩ := hground c c1 c2
    exact ⟨t1, t2, b, hb, by rw [t3, hbc]⟩

/-- A frame of two storeys and one bay. -/
example : ∃ f : Frame ℚ, Frame.simple 0 2 1 3000 8000 1 true "fixed" = .ok f ∧ supportDofs "fixed" = some [0, 1, 2]
    ∧ f.members.map seenMember = [(.column, (0, 0), (0, 3000)), (.column, (0, 3000), (0, 6000)), (.column, (8000, 0), (8000, 3000)), (.column, (8000, 3000), (8000, 6000)),
      (.beam, (0, 3000), (8000, 3000)), (.beam, (0, 6000), (8000, 6000))] := by
  obtain ⟨f, r, h1, -, h2, -⟩ := C178 (K := ℚ) (num := 0) (storeys := 2) (bays := 1) (h := 3000) (l := 8000) (w := 1) (beams := true) (sw := false) "fixed" (by norm_num) (by norm_num)
    ⟨3000000, by norm_num⟩ ⟨8000000, by norm_num⟩ (by norm_num)
  refine ⟨f, h1, by decide +kernel, ?_⟩
  rw [h2]
  decide +kernel

/-- Three bays with hinged feet: the hypotheses of `C180` are met. -/
example : ∃ (f f' : Frame ℚ) (g : Fem ℚ), Frame.simple 2 1 3 (7001 / 2) 6000 1 true "XYHinged" = .ok f ∧ f.generate true = .ok (f', g)
    ∧ ∃ k : ℕ, g.place[k]? = some (18000, 0) ∧ (1, k, [0, 1]) ∈ g.supports := by
  obtain ⟨f, ⟨f', g⟩, h1, h2, -⟩ := C178 (K := ℚ) (num := 2) (storeys := 1) (bays := 3) (h := 7001 / 2) (l := 6000) (w := 1) (beams := true) (sw := true) "XYHinged" (by norm_num) (by norm_num)
    ⟨3500500, by norm_num⟩ ⟨6000000, by norm_num⟩ (by norm_num)
  obtain ⟨k, k1, k2⟩ := (C180 (d := [0, 1]) (.inr (.inr (.inr ⟨by decide +kernel, rfl⟩))) (by norm_num) (by norm_num) ⟨3500500, by norm_num⟩ ⟨6000000, by norm_num⟩ (by norm_num) h1 h2).1 3 le_rfl
  refine ⟨f, f', g, h1, h2, k, ?_, k2⟩
  rw [k1]; norm_num

end Metku.Frame2D
