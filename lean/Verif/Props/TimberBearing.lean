import Verif.Model.TimberBearing
import Verif.Model.TimberTaper
import Verif.Spec.TimberBearing
import Verif.Props.TimberApex

/-!
Compression across the grain at the nodes of a timber member, volume of the curved part of a beam.
-/
namespace Metku.Timber

open TimberSpec Real

theorem isClose_ten (a b : ℝ) : isClose 10 a b = true := by
  unfold isClose
  simp only [decide_eq_true_eq]
  refine le_max_of_le_left ?_
  have h1 := abs_sub a b
  have h2 := le_max_left |a| |b|
  have h3 := le_max_right |a| |b|
  have h4 := abs_nonneg a
  linarith

theorem closeIndex_eq (n : TNode) (l : List (ℝ × ℝ)) : closeIndex n l = if l = [] then none else some (l.length - 1) := by
  have key : ∀ k, k ≤ l.length → (List.range k).foldl (fun k i => match l[i]? with
      | some p => if isClose 10 n.x p.1 && isClose 10 n.y p.2 then some i else k
      | none => k) none = if k = 0 then none else some (k - 1) := by
    intro k hk
    induction k with
    | zero => rfl
    | succ k ih =>
      rw [List.range_succ, List.foldl_append]
      simp only [List.foldl_cons, List.foldl_nil, isClose_ten, Bool.and_self, if_true]
      rw [List.getElem?_eq_getElem (by omega)]
      simp
  refine Eq.trans (key l.length le_rfl) ?_
  cases l with
  | nil => rfl
  | cons a l => rfl

theorem contact_eq (points : List (ℝ × ℝ)) (lastLoc B : ℝ) (n : TNode) (c : Contact) (p : ℝ × ℝ) (N : ℝ) (hc : c.secs.getLast? = some (p, N)) :
    contactStress points lastLoc B n c = .ok (if 0 ≤ N then 0 else N / ((if atEnd lastLoc (closeIndex n points) then c.H + min (min 30 0) c.H + min 30 c.H else c.H + min 30 c.H + min 30 c.H) * min c.B B)) := by
  have hne : c.secs ≠ [] := by
    intro h
    rw [h] at hc
    cases hc
  have hlen : 0 < c.secs.length := List.length_pos_iff.2 hne
  have h1 : closeIndex n (c.secs.map Prod.fst) = some (c.secs.length - 1) := by
    rw [closeIndex_eq, if_neg (by simpa using hne), List.length_map]
  have h2 : pyGet (c.secs.map Prod.snd) ((c.secs.length - 1 : ℕ) : ℤ) = .ok N := by
    refine pyGet_nat ?_
    rw [List.getElem?_map, ← List.getLast?_eq_getElem?, hc]
    rfl
  unfold contactStress
  rw [h1]
  simp only [h2, bind, Except.bind]
  split_ifs <;> rfl

/-- With three sections at least and locations from zero to one no node counts as an end. -/
theorem not_end (n : TNode) (points : List (ℝ × ℝ)) (hp : 3 ≤ points.length) : atEnd 1 (closeIndex n points) = false := by
  rw [closeIndex_eq, if_neg (by intro h; rw [h] at hp; simp at hp)]
  unfold atEnd
  have h1 : ¬ points.length - 1 = 0 := by omega
  have h2 : ¬ ((points.length - 1 : ℕ) : ℝ) = 1 := by
    intro h
    have : points.length - 1 = 1 := by exact_mod_cast h
    omega
  simp only [h1, h2, decide_false, Bool.or_self]

/-- The pressure of a contact away from the ends. -/
theorem contact_mid (points : List (ℝ × ℝ)) (hp : 3 ≤ points.length) (B : ℝ) (hB : 0 < B) (n : TNode) (c : Contact) (hH : 0 < c.H) (hb : 0 < c.B) (p : ℝ × ℝ) (N : ℝ) (hc : c.secs.getLast? = some (p, N)) :
    ∃ s, contactStress points 1 B n c = .ok s ∧ s ≤ 0 ∧ (0 ≤ N → s = 0) ∧ (N < 0 → |s| = contactPressure N c.H 30 30 (min c.B B)) := by
  refine ⟨_, contact_eq points 1 B n c p N hc, ?_⟩
  rw [not_end n points hp]
  simp only [Bool.false_eq_true, if_false]
  have h30 : 0 < min 30 c.H := lt_min (by norm_num) hH
  have hA : 0 < (c.H + min 30 c.H + min 30 c.H) * min c.B B := mul_pos (by linarith) (lt_min hb hB)
  refine ⟨?_, fun h => if_pos h, fun h => ?_⟩
  · split_ifs with h
    · exact le_rfl
    · exact div_nonpos_of_nonpos_of_nonneg (not_le.1 h).le hA.le
  · rw [if_neg (not_le.2 h), abs_div, abs_of_pos hA]
    unfold contactPressure contactLength
    rw [min_self]

theorem worst_spec (ss : List ℝ) : (∀ s ∈ ss, |s| ≤ |(worst ss).1|) ∧ ((worst ss = (0, none) ∧ ∀ s ∈ ss, s = 0) ∨ ∃ i : ℕ, (worst ss).2 = some i ∧ ss[i]? = some (worst ss).1 ∧ (worst ss).1 ≠ 0) := by
  have key : ∀ k, k ≤ ss.length → ∀ w, w = (List.range k).foldl (fun (a : ℝ × Option ℕ) i => match ss[i]? with
      | some s => if |a.1| < |s| then (s, some i) else a
      | none => a) (0, none) → (∀ (i : ℕ) (s : ℝ), i < k → ss[i]? = some s → |s| ≤ |w.1|) ∧ ((w = (0, none)) ∨ ∃ i : ℕ, w.2 = some i ∧ ss[i]? = some w.1 ∧ w.1 ≠ 0) := by
    intro k hk
    induction k with
    | zero =>
      rintro w rfl
      exact ⟨fun i s hi => absurd hi (by omega), .inl rfl⟩
    | succ k ih =>
      rintro w hw
      rw [List.range_succ, List.foldl_append] at hw
      obtain ⟨h1, h2⟩ := ih (by omega) _ rfl
      generalize (List.range k).foldl (fun (a : ℝ × Option ℕ) i => match ss[i]? with
        | some s => if |a.1| < |s| then (s, some i) else a
        | none => a) (0, none) = v at hw h1 h2
      have hg : ss[k]? = some ss[k] := List.getElem?_eq_getElem (by omega)
      simp only [List.foldl_cons, List.foldl_nil, hg] at hw
      by_cases hc : |v.1| < |ss[k]|
      · rw [if_pos hc] at hw
        rw [hw]
        refine ⟨?_, .inr ⟨k, rfl, hg, ?_⟩⟩
        · intro i s hi hs
          rcases Nat.lt_succ_iff_lt_or_eq.1 hi with hi | rfl
          · exact (h1 i s hi hs).trans hc.le
          · rw [hg] at hs
            rw [Option.some.inj hs]
        · intro h0
          have : |ss[k]| = 0 := by
            rw [abs_eq_zero]
            exact h0
          linarith [abs_nonneg v.1]
      · rw [if_neg hc] at hw
        rw [hw]
        refine ⟨?_, h2⟩
        intro i s hi hs
        rcases Nat.lt_succ_iff_lt_or_eq.1 hi with hi | rfl
        · exact h1 i s hi hs
        · rw [hg] at hs
          rw [← Option.some.inj hs]
          exact not_lt.1 hc
  obtain ⟨h1, h2⟩ := key ss.length le_rfl (worst ss) rfl
  have h3 : ∀ s ∈ ss, |s| ≤ |(worst ss).1| := by
    intro s hs
    obtain ⟨i, hi, rfl⟩ := List.mem_iff_getElem.1 hs
    exact h1 i _ hi (List.getElem?_eq_getElem hi)
  refine ⟨h3, h2.imp (fun h => ⟨h, fun s hs => ?_⟩) id⟩
  have := h3 s hs
  rw [h, abs_zero] at this
  exact abs_nonpos_iff.1 this

/-- The loop over the other nodes: nothing happens without other members; else the factor is that of the smallest distance. -/
theorem step_spec (b : Bearing) (nd : TNode) (i : ℕ) (kc : Option ℝ) : ∀ (l : List (ℕ × TNode)) (a : Option ℝ × Option ℝ),
    ((∀ p ∈ l, p.1 = i ∨ p.2.others = []) → l.foldl (b.step nd i) a = a) ∧
    ∀ (seen : List TNode), (a = (none, kc) ∧ seen = []) ∨ (∃ l1, ∃ q ∈ seen, ∃ c ∈ q.others, a = (some l1, some (kc90 b.kind b.H l1 c.H)) ∧ (∀ p ∈ seen, l1 ≤ dist2 p nd) ∧ ∃ p ∈ seen, l1 = dist2 p nd) →
      ∃ seen', (∀ p, p ∈ seen' ↔ p ∈ seen ∨ ∃ j, (j, p) ∈ l ∧ j ≠ i ∧ p.others ≠ []) ∧
        ((l.foldl (b.step nd i) a = (none, kc) ∧ seen' = []) ∨ (∃ l1, ∃ q ∈ seen', ∃ c ∈ q.others, l.foldl (b.step nd i) a = (some l1, some (kc90 b.kind b.H l1 c.H)) ∧ (∀ p ∈ seen', l1 ≤ dist2 p nd) ∧ ∃ p ∈ seen', l1 = dist2 p nd)) := by
  intro l
  induction l with
  | nil =>
    intro a
    exact ⟨fun _ => rfl, fun seen h => ⟨seen, by simp, h⟩⟩
  | cons p l ih =>
    intro a
    constructor
    · intro h
      have : b.step nd i a p = a := by
        unfold Bearing.step
        rcases h p List.mem_cons_self with e | e
        · rw [if_pos e]
        · rw [e]
          split_ifs <;> rfl
      rw [List.foldl_cons, this]
      exact (ih a).1 fun q hq => h q (List.mem_cons_of_mem _ hq)
    · intro seen hinv
      by_cases hp : p.1 = i ∨ p.2.others = []
      · have e : b.step nd i a p = a := by
          unfold Bearing.step
          rcases hp with e | e
          · rw [if_pos e]
          · rw [e]
            split_ifs <;> rfl
        rw [List.foldl_cons, e]
        obtain ⟨seen', h1, h2⟩ := (ih a).2 seen hinv
        refine ⟨seen', fun q => (h1 q).trans ?_, h2⟩
        constructor
        · rintro (h | ⟨j, hj, hh⟩)
          · exact .inl h
          · exact .inr ⟨j, List.mem_cons_of_mem _ hj, hh⟩
        · rintro (h | ⟨j, hj, hh1, hh2⟩)
          · exact .inl h
          · rcases List.mem_cons.1 hj with rfl | hj
            · exact absurd hp (by push Not; exact ⟨hh1, hh2⟩)
            · exact .inr ⟨j, hj, hh1, hh2⟩
      · push Not at hp
        obtain ⟨hp1, hp2⟩ := hp
        obtain ⟨c, cs, hcs⟩ := List.exists_cons_of_ne_nil hp2
        have hstep : ∃ l1, b.step nd i a p = (some l1, some (kc90 b.kind b.H l1 c.H)) ∧ (∀ q ∈ p.2 :: seen, l1 ≤ dist2 q nd) ∧ ∃ q ∈ p.2 :: seen, l1 = dist2 q nd := by
          unfold Bearing.step
          rw [if_neg hp1, hcs]
          refine ⟨_, rfl, ?_⟩
          rcases hinv with ⟨rfl, rfl⟩ | ⟨l1, q, -, c', -, rfl, hmin, q', hq', e⟩
          · exact ⟨by simp, p.2, List.mem_cons_self, rfl⟩
          · simp only [Option.elim_some]
            split_ifs with hlt
            · refine ⟨?_, p.2, List.mem_cons_self, rfl⟩
              intro q hq
              rcases List.mem_cons.1 hq with rfl | hq
              · exact le_rfl
              · exact hlt.le.trans (hmin q hq)
            · refine ⟨?_, q', List.mem_cons_of_mem _ hq', e⟩
              intro q hq
              rcases List.mem_cons.1 hq with rfl | hq
              · exact not_lt.1 hlt
              · exact hmin q hq
        obtain ⟨l1, e, hmin, hatt⟩ := hstep
        rw [List.foldl_cons]
        obtain ⟨seen', h1, h2⟩ := (ih (b.step nd i a p)).2 (p.2 :: seen) (.inr ⟨l1, p.2, List.mem_cons_self, c, by rw [hcs]; exact List.mem_cons_self, e, hmin, hatt⟩)
        refine ⟨seen', fun q => (h1 q).trans ?_, h2⟩
        constructor
        · rintro (h | ⟨j, hj, hh⟩)
          · rcases List.mem_cons.1 h with rfl | h
            · exact .inr ⟨p.1, List.mem_cons_self, hp1, hp2⟩
            · exact .inl h
          · exact .inr ⟨j, List.mem_cons_of_mem _ hj, hh⟩
        · rintro (h | ⟨j, hj, hh⟩)
          · exact .inl (List.mem_cons_of_mem _ h)
          · rcases List.mem_cons.1 hj with rfl | hj
            · exact .inl List.mem_cons_self
            · exact .inr ⟨j, hj, hh⟩

theorem mem_zip_range {l : List TNode} {j : ℕ} {p : TNode} : (j, p) ∈ (List.range l.length).zip l ↔ l[j]? = some p := by
  rw [List.mem_iff_getElem?]
  constructor
  · rintro ⟨k, hk⟩
    rw [List.getElem?_zip_eq_some] at hk
    obtain ⟨h1, h2⟩ := hk
    rw [List.getElem?_range (by exact (List.getElem?_eq_some_iff.1 h2).1)] at h1
    obtain rfl : k = j := Option.some.inj h1
    exact h2
  · intro h
    refine ⟨j, ?_⟩
    rw [List.getElem?_zip_eq_some]
    exact ⟨List.getElem?_range (List.getElem?_eq_some_iff.1 h).1, h⟩

/-- A node with other members. -/
def TNode.Joined (n : TNode) : Prop := n.others ≠ []

/-- Members of positive size that reach the node with their last section. -/
structure Bearing.Sound (b : Bearing) : Prop where
  points : 3 ≤ b.points.length
  loc : b.lastLoc = 1
  B : 0 < b.B
  fc : 0 < b.fc90d
  contact : ∀ n ∈ b.nodes, ∀ c ∈ n.others, 0 < c.H ∧ 0 < c.B ∧ c.secs ≠ []

theorem nodeStress_spec {b : Bearing} (h : b.Sound) {n : TNode} (hn : n ∈ b.nodes) :
    ∃ s, b.nodeStress n = .ok s ∧ s ≤ 0 ∧ (∀ c ∈ n.others, ∀ p N, c.secs.getLast? = some (p, N) → N < 0 → contactPressure N c.H 30 30 (min c.B b.B) ≤ |s|) ∧
      (s = 0 ∨ ∃ c ∈ n.others, ∃ p N, c.secs.getLast? = some (p, N) ∧ N < 0 ∧ |s| = contactPressure N c.H 30 30 (min c.B b.B)) := by
  cases ho : n.others with
  | nil =>
    refine ⟨0, ?_, le_rfl, by simp, .inl rfl⟩
    unfold Bearing.nodeStress
    rw [ho]
  | cons o os =>
    have hc : ∀ c ∈ n.others, ∃ s p N, contactStress b.points b.lastLoc b.B n c = .ok s ∧ c.secs.getLast? = some (p, N) ∧ s ≤ 0 ∧ (0 ≤ N → s = 0) ∧ (N < 0 → |s| = contactPressure N c.H 30 30 (min c.B b.B)) := by
      intro c hcm
      obtain ⟨hH, hB, hne⟩ := h.contact n hn c hcm
      obtain ⟨⟨p, N⟩, hl⟩ : ∃ q, c.secs.getLast? = some q := by
        cases hq : c.secs.getLast? with
        | none => exact absurd (List.getLast?_eq_none_iff.1 hq) hne
        | some q => exact ⟨q, rfl⟩
      obtain ⟨s, h1, h2, h3, h4⟩ := contact_mid b.points h.points b.B h.B n c hH hB p N hl
      rw [h.loc]
      exact ⟨s, p, N, h1, hl, h2, h3, h4⟩
    have hall : ∃ ss, (o :: os).mapM (contactStress b.points b.lastLoc b.B n) = .ok ss := by
      rw [← ho]
      generalize n.others = l at hc
      induction l with
      | nil => exact ⟨[], rfl⟩
      | cons c l ih =>
        obtain ⟨ss, hss⟩ := ih fun c' hc' => hc c' (List.mem_cons_of_mem _ hc')
        obtain ⟨s, -, -, hs, -⟩ := hc c List.mem_cons_self
        exact ⟨s :: ss, by rw [List.mapM_cons, hs, hss]; rfl⟩
    obtain ⟨ss, hss⟩ := hall
    obtain ⟨i1, i2⟩ := mapM_inv hss
    rw [← ho] at i1 i2
    have hmin : ∃ s, listMin ss = .ok s := by
      obtain ⟨r, hr, -⟩ := i1 o (by rw [ho]; exact List.mem_cons_self)
      cases ss with
      | nil => cases hr
      | cons a l => exact ⟨_, rfl⟩
    obtain ⟨s, hs⟩ := hmin
    obtain ⟨m1, m2⟩ := listMin_spec hs
    have hval : b.nodeStress n = .ok s := by
      unfold Bearing.nodeStress
      rw [ho]
      simp only [hss, bind, Except.bind, hs]
    rw [← ho]
    obtain ⟨c, hcm, hcs⟩ := i2 s m2
    obtain ⟨s', p, N, e, hl, h1, h2, h3⟩ := hc c hcm
    obtain rfl := Except.ok.inj (hcs.symm.trans e)
    refine ⟨s, hval, h1, ?_, ?_⟩
    · intro c' hc' p' N' hl' hN'
      obtain ⟨r, hr, hcr⟩ := i1 c' hc'
      obtain ⟨s2, p2, N2, e2, hl2, g1, -, g3⟩ := hc c' hc'
      obtain rfl := Except.ok.inj (hcr.symm.trans e2)
      rw [hl'] at hl2
      obtain ⟨rfl, rfl⟩ := Prod.mk.inj (Option.some.inj hl2)
      rw [← g3 hN', abs_of_nonpos g1, abs_of_nonpos h1]
      exact neg_le_neg (m1 r hr)
    · rcases le_or_gt 0 N with hN | hN
      · exact .inl (h2 hN)
      · exact .inr ⟨c, hcm, p, N, hl, hN, h3 hN⟩

theorem stresses_ok {b : Bearing} (h : b.Sound) : ∃ ss, b.nodes.mapM b.nodeStress = .ok ss := by
  have : ∀ l : List TNode, (∀ n ∈ l, n ∈ b.nodes) → ∃ ss, l.mapM b.nodeStress = .ok ss := by
    intro l hl
    induction l with
    | nil => exact ⟨[], rfl⟩
    | cons n l ih =>
      obtain ⟨ss, hss⟩ := ih fun m hm => hl m (List.mem_cons_of_mem _ hm)
      obtain ⟨s, hs, -⟩ := nodeStress_spec h (hl n List.mem_cons_self)
      exact ⟨s :: ss, by rw [List.mapM_cons, hs, hss]; rfl⟩
  exact this _ fun n hn => hn

/-- **C165** (partial).  Compression across the grain, if two nodes at least join other members that reach it with their last section, and no node is at an end: the check succeeds, its utilisation is zero if no member is compressed, and bounds the
pressure of every compressed member over its contact area.  The strength is that of the material times a factor, which is the one for the smallest distance from the node with the largest pressure to other joined nodes: 1 below two depths. -/
theorem C165_partial (b : Bearing) (h : b.Sound) (i0 j0 : ℕ) (n0 m0 : TNode) (hi : b.nodes[i0]? = some n0) (hj : b.nodes[j0]? = some m0) (hij : i0 ≠ j0) (hn0 : n0.Joined) (hm0 : m0.Joined) :
    ∃ r, b.check none = .ok r ∧ 0 ≤ r ∧
      ((∀ n ∈ b.nodes, ∀ c ∈ n.others, ∀ p N, c.secs.getLast? = some (p, N) → 0 ≤ N) → r = 0) ∧
      ((∃ n ∈ b.nodes, ∃ c ∈ n.others, ∃ p N, c.secs.getLast? = some (p, N) ∧ N < 0) →
        ∃ (i : ℕ) (w : TNode) (l1 l k : ℝ), b.nodes[i]? = some w ∧ (l1 < 2 * b.H → k = 1) ∧ (2 * b.H ≤ l1 → (b.kind = .solid → k = 2.5) ∧ (b.kind = .glt → k = if l ≤ 400 then 1.75 else 1) ∧ (b.kind ≠ .solid → b.kind ≠ .glt → k = 1)) ∧
          (∀ (j : ℕ) (q : TNode), b.nodes[j]? = some q → j ≠ i → q.Joined → l1 ≤ √((w.x - q.x) ^ 2 + (w.y - q.y) ^ 2)) ∧
          (∃ (j : ℕ) (q : TNode), b.nodes[j]? = some q ∧ j ≠ i ∧ ∃ c ∈ q.others, l = c.H) ∧
          (∃ (j : ℕ) (q : TNode), b.nodes[j]? = some q ∧ j ≠ i ∧ q.Joined ∧ l1 = √((w.x - q.x) ^ 2 + (w.y - q.y) ^ 2)) ∧
          (∀ n ∈ b.nodes, ∀ c ∈ n.others, ∀ p N, c.secs.getLast? = some (p, N) → N < 0 → contactPressure N c.H 30 30 (min c.B b.B) ≤ r * (k * b.fc90d)) ∧
          ∃ c ∈ w.others, ∃ p N, c.secs.getLast? = some (p, N) ∧ N < 0 ∧ contactPressure N c.H 30 30 (min c.B b.B) = r * (k * b.fc90d)) := by
  obtain ⟨ss, hss⟩ := stresses_ok h
  obtain ⟨i1, i2⟩ := mapM_inv hss
  have hget := mapM_get hss
  obtain ⟨w1, w2⟩ := worst_spec ss
  have hval : b.check none = .ok ((b.factor none (worst ss)).elim 0 fun k => |(worst ss).1 / (k * b.fc90d)|) := by
    unfold Bearing.check
    simp only [hss, bind, Except.bind]
  have hbound : ∀ n ∈ b.nodes, ∀ c ∈ n.others, ∀ p N, c.secs.getLast? = some (p, N) → N < 0 → contactPressure N c.H 30 30 (min c.B b.B) ≤ |(worst ss).1| := by
    intro n hn c hc p N hl hN
    obtain ⟨s, hs, e⟩ := i1 n hn
    obtain ⟨s', e', -, h1, -⟩ := nodeStress_spec h hn
    obtain rfl := Except.ok.inj (e.symm.trans e')
    exact (h1 c hc p N hl hN).trans (w1 s hs)
  have hpos : ∀ n ∈ b.nodes, ∀ c ∈ n.others, ∀ N, N < 0 → 0 < contactPressure N c.H 30 30 (min c.B b.B) := by
    intro n hn c hc N hN
    obtain ⟨g1, g2, -⟩ := h.contact n hn c hc
    have hm : 0 < min c.B b.B := lt_min g2 h.B
    have h30 : 0 < min (min 30 30) c.H := lt_min (by norm_num) g1
    unfold contactPressure contactLength
    exact div_pos (abs_pos.2 hN.ne) (mul_pos (by linarith) hm)
  refine ⟨_, hval, ?_, ?_, ?_⟩
  · cases b.factor none (worst ss) with
    | none => exact le_rfl
    | some k => exact abs_nonneg _
  · intro hno
    have hz : ∀ s ∈ ss, s = 0 := by
      intro s hs
      obtain ⟨n, hn, e⟩ := i2 s hs
      obtain ⟨s', e', -, -, h2⟩ := nodeStress_spec h hn
      obtain rfl := Except.ok.inj (e.symm.trans e')
      rcases h2 with h2 | ⟨c, hc, p, N, hl, hN, -⟩
      · exact h2
      · exact absurd (hno n hn c hc p N hl) (not_le.2 hN)
    have : (worst ss).1 = 0 := by
      rcases w2 with ⟨e, -⟩ | ⟨i, -, hi', hne⟩
      · rw [e]
      · exact absurd (hz _ (List.mem_of_getElem? hi')) hne
    rw [this]
    cases b.factor none (worst ss) with
    | none => rfl
    | some k => simp
  · rintro ⟨n, hn, c, hc, p, N, hl, hN⟩
    have hw := (hpos n hn c hc N hN).trans_le (hbound n hn c hc p N hl hN)
    rcases w2 with ⟨e, -⟩ | ⟨i, e, hi', hne⟩
    · rw [e] at hw
      simp at hw
    · have hlt : i < b.nodes.length := by
        rw [← mapM_length hss]
        exact (List.getElem?_eq_some_iff.1 hi').1
      obtain ⟨y, hy, hws⟩ := hget i hlt
      rw [hi'] at hy
      obtain rfl := Option.some.inj hy
      have hwn : b.nodes[i]? = some b.nodes[i] := List.getElem?_eq_getElem hlt
      generalize b.nodes[i] = w at hws hwn
      have hfac : b.factor none (worst ss) = (((List.range b.nodes.length).zip b.nodes).foldl (b.step w i) (none, none)).2 := by
        unfold Bearing.factor
        rw [e]
        simp only [hwn]
      obtain ⟨seen, hs1, hs2⟩ := (step_spec b w i none ((List.range b.nodes.length).zip b.nodes) (none, none)).2 [] (.inl ⟨rfl, rfl⟩)
      have hs1' : ∀ p, p ∈ seen ↔ ∃ j : ℕ, b.nodes[j]? = some p ∧ j ≠ i ∧ p.Joined := by
        intro p
        rw [hs1 p]
        simp only [List.not_mem_nil, false_or, mem_zip_range]
        rfl
      have hex : ∃ q, q ∈ seen := by
        by_cases hii : i0 = i
        · exact ⟨m0, (hs1' _).2 ⟨j0, hj, fun e => hij (hii.trans e.symm), hm0⟩⟩
        · exact ⟨n0, (hs1' _).2 ⟨i0, hi, hii, hn0⟩⟩
      rcases hs2 with ⟨-, e0⟩ | ⟨l1, q, hq, c', hc', e1, hmin, q', hq', hatt⟩
      · rw [e0] at hex
        obtain ⟨q, hq⟩ := hex
        cases hq
      · have hk : 0 < kc90 b.kind b.H l1 c'.H := by
          unfold kc90
          split_ifs <;> norm_num
        have hkf : 0 < kc90 b.kind b.H l1 c'.H * b.fc90d := mul_pos hk h.fc
        have hr : ((b.factor none (worst ss)).elim 0 fun k => |(worst ss).1 / (k * b.fc90d)|) * (kc90 b.kind b.H l1 c'.H * b.fc90d) = |(worst ss).1| := by
          rw [hfac, e1]
          simp only [Option.elim_some]
          rw [abs_div, abs_of_pos hkf, div_mul_cancel₀ _ hkf.ne']
        refine ⟨i, w, l1, c'.H, kc90 b.kind b.H l1 c'.H, hwn, ?_, ?_, ?_, ?_, ?_, ?_, ?_⟩
        · intro hlt
          unfold kc90
          rw [if_neg (by linarith)]
        · intro hle
          unfold kc90
          rw [if_pos (by linarith)]
          refine ⟨fun e => by rw [if_pos e], fun e => ?_, fun e1 e2 => ?_⟩
          · rw [e]
            simp
          · rw [if_neg e1, if_neg fun h => e2 h.1]
        · intro j q hjq hne' hJ
          exact hmin q ((hs1' q).2 ⟨j, hjq, hne', hJ⟩)
        · obtain ⟨j, hjq, hne', -⟩ := (hs1' q).1 hq
          exact ⟨j, q, hjq, hne', c', hc', rfl⟩
        · obtain ⟨j, hjq, hne', hJ⟩ := (hs1' q').1 hq'
          exact ⟨j, q', hjq, hne', hJ, hatt⟩
        · intro n hn c hc p N hl hN
          rw [hr]
          exact hbound n hn c hc p N hl hN
        · rw [hr]
          obtain ⟨s', e', -, -, h2⟩ := nodeStress_spec h (List.mem_of_getElem? hwn)
          obtain rfl := Except.ok.inj (hws.symm.trans e')
          rcases h2 with h2 | ⟨c, hc, p, N, hl, hN, h3⟩
          · exact absurd h2 hne
          · exact ⟨c, hc, p, N, hl, hN, h3.symm⟩

/-- A member with a single joined node, at index `i`. -/
def Bearing.Lonely (b : Bearing) (i : ℕ) (n : TNode) : Prop := b.nodes[i]? = some n ∧ n.Joined ∧ ∀ (j : ℕ) (q : TNode), b.nodes[j]? = some q → j ≠ i → ¬ q.Joined

theorem lonely_factor {b : Bearing} {i : ℕ} {n : TNode} (hl : b.Lonely i n) (kc : Option ℝ) {ss : List ℝ} (hss : b.nodes.mapM b.nodeStress = .ok ss) (hw : (worst ss).1 ≠ 0) : (worst ss).2 = some i ∧ b.factor kc (worst ss) = kc := by
  obtain ⟨-, w2⟩ := worst_spec ss
  rcases w2 with ⟨e, -⟩ | ⟨k, e, hk, -⟩
  · rw [e] at hw
    exact absurd rfl hw
  · have hki : k = i := by
      by_contra hne
      have hlt : k < b.nodes.length := by
        rw [← mapM_length hss]
        exact (List.getElem?_eq_some_iff.1 hk).1
      obtain ⟨y, hy, hws⟩ := mapM_get hss k hlt
      have hq := hl.2.2 k _ (List.getElem?_eq_getElem hlt) hne
      have : b.nodeStress b.nodes[k] = .ok 0 := by
        unfold Bearing.nodeStress
        rw [show b.nodes[k].others = [] from not_not.1 hq]
      rw [this] at hws
      rw [hy] at hk
      exact hw ((Option.some.inj hk).symm.trans (Except.ok.inj hws).symm)
    subst hki
    refine ⟨e, ?_⟩
    unfold Bearing.factor
    rw [e]
    simp only [hl.1]
    rw [(step_spec b n k kc _ (none, kc)).1]
    rintro ⟨j, q⟩ hp
    rw [mem_zip_range] at hp
    by_cases hj : j = k
    · exact .inl hj
    · exact .inr (not_not.1 (hl.2.2 j q hp hj))

/-- **C165** (negation).  A member that other members meet at a single node is not checked at all: the utilisation is zero whatever the force. -/
theorem C165_violation_single (b : Bearing) (h : b.Sound) (i : ℕ) (n : TNode) (hl : b.Lonely i n) : b.check none = .ok 0 := by
  obtain ⟨ss, hss⟩ := stresses_ok h
  unfold Bearing.check
  simp only [hss, bind, Except.bind]
  by_cases hw : (worst ss).1 = 0
  · rw [hw]
    cases b.factor none (worst ss) <;> simp
  · rw [(lonely_factor hl none hss hw).2]
    rfl

/-- **C165** (negation).  The factor is an attribute that survives: after an earlier check has left the factor `k`, the same member with a single joined node is checked with it, and its utilisation is no longer zero. -/
theorem C165_violation_stale (b : Bearing) (h : b.Sound) (i : ℕ) (n : TNode) (hl : b.Lonely i n) (c : Contact) (hc : c ∈ n.others) (p : ℝ × ℝ) (N : ℝ) (hs : c.secs.getLast? = some (p, N)) (hN : N < 0) (k : ℝ) (hk : 0 < k) :
    ∃ r, b.check (some k) = .ok r ∧ 0 < r := by
  obtain ⟨ss, hss⟩ := stresses_ok h
  have hn := List.mem_of_getElem? hl.1
  obtain ⟨s, hsm, e⟩ := (mapM_inv hss).1 n hn
  obtain ⟨s', e', -, h1, -⟩ := nodeStress_spec h hn
  obtain rfl := Except.ok.inj (e.symm.trans e')
  obtain ⟨g1, g2, -⟩ := h.contact n hn c hc
  have hpos : 0 < contactPressure N c.H 30 30 (min c.B b.B) := by
    have h30 : 0 < min (min 30 30) c.H := lt_min (by norm_num) g1
    unfold contactPressure contactLength
    exact div_pos (abs_pos.2 hN.ne) (mul_pos (by linarith) (lt_min g2 h.B))
  have hw : 0 < |(worst ss).1| := (hpos.trans_le (h1 c hc p N hs hN)).trans_le ((worst_spec ss).1 s hsm)
  have hval : b.check (some k) = .ok |(worst ss).1 / (k * b.fc90d)| := by
    unfold Bearing.check
    simp only [hss, bind, Except.bind, (lonely_factor hl (some k) hss (abs_pos.1 hw)).2, Option.elim_some]
  refine ⟨_, hval, abs_pos.2 (div_ne_zero (abs_pos.1 hw) (mul_pos hk h.fc).ne')⟩

/-- **C165** (negation).  At the end of a member the contact area reaches 30 mm to one side only.  The code never finds an end of a member with three sections or more, since it compares an index with a location; so the pressure at every node,
at the ends too, is below the one on the true area. -/
theorem C165_violation_end (b : Bearing) (h : b.Sound) (n : TNode) (hn : n ∈ b.nodes) (c : Contact) (hc : c ∈ n.others) (p : ℝ × ℝ) (N : ℝ) (hs : c.secs.getLast? = some (p, N)) (hN : N < 0) :
    ∃ s, contactStress b.points b.lastLoc b.B n c = .ok s ∧ |s| < contactPressure N c.H 0 30 (min c.B b.B) := by
  obtain ⟨g1, g2, -⟩ := h.contact n hn c hc
  obtain ⟨s, h1, -, -, h4⟩ := contact_mid b.points h.points b.B h.B n c g1 g2 p N hs
  rw [h.loc]
  refine ⟨s, h1, ?_⟩
  rw [h4 hN]
  unfold contactPressure contactLength
  have hm : 0 < min c.B b.B := lt_min g2 h.B
  have e0 : min (min 30 0) c.H = 0 := by
    rw [min_eq_right (show (0 : ℝ) ≤ 30 by norm_num), min_eq_left g1.le]
  have h30 : 0 < min (min 30 30) c.H := lt_min (by norm_num) g1
  rw [e0]
  refine div_lt_div_of_pos_left (abs_pos.2 hN.ne) (mul_pos (by linarith) hm) ?_
  nlinarith

/-- **C165** (negation).  Members that start at the node: the force at their other end is used, and if it is not compressive there is no pressure, whatever the force at the node. -/
theorem C165_violation_force (b : Bearing) (n : TNode) (c : Contact) (N0 N1 : ℝ) (p1 : ℝ × ℝ) (hc : c.secs = [((n.x, n.y), N0), (p1, N1)]) (h1 : 0 ≤ N1) : contactStress b.points b.lastLoc b.B n c = .ok 0 := by
  rw [contact_eq b.points b.lastLoc b.B n c p1 N1 (by rw [hc]; rfl), if_pos h1]

/-- **C165** (negation).  Solid timber: the factor for distant supports is 2.5, not the 1.5 of the standard. -/
theorem C165_violation_solid (H l1 l : ℝ) (h : 2 * H ≤ l1) : kc90 .solid H l1 l = 2.5 ∧ (1.5 : ℝ) < kc90 .solid H l1 l := by
  have : kc90 .solid H l1 l = 2.5 := by
    unfold kc90
    rw [if_pos (by linarith), if_pos rfl]
  exact ⟨this, by rw [this]; norm_num⟩

/-- A column of 100 × 100 mm with a force of 50 kN that ends at (x, 0). -/
noncomputable def demoPost (x : ℝ) : TNode := ⟨x, 0, [⟨[((x, -3000), -51000), ((x, 0), -50000)], 100, 100⟩]⟩

/-- A beam of 200 × 100 mm and 4 m length on two columns. -/
noncomputable def demoBearing : Bearing := ⟨[(0, 0), (2000, 0), (4000, 0)], 1, 200, 100, .glt, 1.6, [demoPost 0, ⟨2000, 0, []⟩, demoPost 4000]⟩

/-- The same beam with one column. -/
noncomputable def demoCantilever : Bearing := { demoBearing with nodes := [demoPost 0, ⟨2000, 0, []⟩, ⟨4000, 0, []⟩] }

theorem demoBearing_sound : demoBearing.Sound := by
  refine ⟨by norm_num [demoBearing], rfl, by norm_num [demoBearing], by norm_num [demoBearing], ?_⟩
  intro n hn c hc
  simp only [demoBearing, List.mem_cons, List.not_mem_nil, or_false] at hn
  rcases hn with rfl | rfl | rfl
  · simp only [demoPost, List.mem_singleton] at hc
    rw [hc]
    exact ⟨by norm_num, by norm_num, List.cons_ne_nil _ _⟩
  · cases hc
  · simp only [demoPost, List.mem_singleton] at hc
    rw [hc]
    exact ⟨by norm_num, by norm_num, List.cons_ne_nil _ _⟩

theorem demoCantilever_sound : demoCantilever.Sound := by
  refine ⟨by norm_num [demoCantilever, demoBearing], rfl, by norm_num [demoCantilever, demoBearing], by norm_num [demoCantilever, demoBearing], ?_⟩
  intro n hn c hc
  simp only [demoCantilever, List.mem_cons, List.not_mem_nil, or_false] at hn
  rcases hn with rfl | rfl | rfl
  · simp only [demoPost, List.mem_singleton] at hc
    rw [hc]
    exact ⟨by norm_num, by norm_num, List.cons_ne_nil _ _⟩
  · cases hc
  · cases hc

theorem demo_lonely : demoCantilever.Lonely 0 (demoPost 0) := by
  refine ⟨rfl, by simp [TNode.Joined, demoPost], ?_⟩
  intro j q hq hj hJ
  match j, hq with
  | 0, _ => exact hj rfl
  | 1, hq =>
    obtain rfl := Option.some.inj hq
    exact hJ rfl
  | 2, hq =>
    obtain rfl := Option.some.inj hq
    exact hJ rfl

/-- The beam on two columns is used to 1.11 or more. -/
example : ∃ r, demoBearing.check none = .ok r ∧ 3.125 ≤ r * (1.75 * 1.6) := by
  obtain ⟨r, h1, -, -, h4⟩ := C165_partial demoBearing demoBearing_sound 0 2 (demoPost 0) (demoPost 4000) rfl rfl (by norm_num) (by simp [TNode.Joined, demoPost]) (by simp [TNode.Joined, demoPost])
  have hmem : demoPost 0 ∈ demoBearing.nodes := by simp [demoBearing]
  obtain ⟨i, w, l1, l, k, hw, k1, k2, -, -, -, h5, -⟩ := h4 ⟨demoPost 0, hmem, ⟨[((0, -3000), -51000), ((0, 0), -50000)], 100, 100⟩, by simp [demoPost], (0, 0), -50000, rfl, by norm_num⟩
  refine ⟨r, h1, ?_⟩
  have h6 := h5 (demoPost 0) hmem ⟨[((0, -3000), -51000), ((0, 0), -50000)], 100, 100⟩ (by simp [demoPost]) (0, 0) (-50000) rfl (by norm_num)
  have hp : contactPressure (-50000) 100 30 30 (min 100 demoBearing.B) = 3.125 := by
    norm_num [contactPressure, contactLength, demoBearing, abs_of_pos]
  rw [hp] at h6
  have hk : k ≤ 1.75 := by
    rcases lt_or_ge l1 (2 * demoBearing.H) with hlt | hge
    · rw [k1 hlt]
      norm_num
    · rw [(k2 hge).2.1 rfl]
      split_ifs <;> norm_num
  have hr : 0 ≤ r := by
    obtain ⟨r', h1', h2', -⟩ := C165_partial demoBearing demoBearing_sound 0 2 (demoPost 0) (demoPost 4000) rfl rfl (by norm_num) (by simp [TNode.Joined, demoPost]) (by simp [TNode.Joined, demoPost])
    rw [h1] at h1'
    rwa [Except.ok.inj h1']
  have hf : demoBearing.fc90d = 1.6 := rfl
  rw [hf] at h6
  nlinarith

/-- With one column the same pressure is not seen, unless the beam was checked before. -/
example : demoCantilever.check none = .ok 0 ∧ ∃ r, demoCantilever.check (some 1.75) = .ok r ∧ 0 < r :=
  ⟨C165_violation_single _ demoCantilever_sound 0 _ demo_lonely, C165_violation_stale _ demoCantilever_sound 0 _ demo_lonely ⟨[((0, -3000), -51000), ((0, 0), -50000)], 100, 100⟩ (by simp [demoPost]) (0, 0) (-50000) rfl (by norm_num) 1.75 (by norm_num)⟩

/-- The column at the end of the beam. -/
example : ∃ s, contactStress demoBearing.points 1 100 (demoPost 0) ⟨[((0, -3000), -51000), ((0, 0), -50000)], 100, 100⟩ = .ok s ∧ |s| < contactPressure (-50000) 100 0 30 (min 100 100) :=
  C165_violation_end demoBearing demoBearing_sound (demoPost 0) (by simp [demoBearing]) ⟨[((0, -3000), -51000), ((0, 0), -50000)], 100, 100⟩ (by simp [demoPost]) (0, 0) (-50000) rfl (by norm_num)

/-- A post standing on the beam with 50 kN at its foot and a tension of 1 kN at its top. -/
example : contactStress demoBearing.points 1 100 (demoPost 0) ⟨[((0, 0), -50000), ((0, 3000), 1000)], 100, 100⟩ = .ok 0 :=
  C165_violation_force demoBearing (demoPost 0) ⟨[((0, 0), -50000), ((0, 3000), 1000)], 100, 100⟩ (-50000) 1000 (0, 3000) rfl (by norm_num)

example : (1.5 : ℝ) < kc90 .solid 200 4000 100 := (C165_violation_solid 200 4000 100 (by norm_num)).2

/-! ### C166: volume of the curved part -/

/-- **C166** (partial).  The volume of the apex zone of a curved beam is that of a ring over half the sum of the angles of the faces. -/
theorem C166_partial (a : ApexSec) (B L beta : ℝ) (h : a.form = .arc) : a.arcVolume B L beta = ringVolume B a.rIn a.hap ((a.alpha + beta) / 2) := by
  unfold ApexSec.arcVolume ringVolume ApexSec.alfa
  rw [h]
  ring

/-- **C166** (negation).  The curved part of a beam whose lower face rises by `beta` on both sides spans the angle 2 `beta`.  With equal angles of both faces the volume used is half of it, and the factor for the volume is too large by the
fifth root of two. -/
theorem C166_violation (a : ApexSec) (c : Curved) (B L Vtot : ℝ) (k : Kind) (h : a.form = .arc) (ha : a.alpha = c.beta) (hrr : a.rIn = c.r) (hB : 0 < B) (hh : 0 < a.hap) (hr : 0 < a.rIn) (hb : 0 < c.beta) (hV : ringVolume B a.rIn a.hap (2 * c.beta) ≤ 2 / 3 * Vtot) :
    c.dwX2 - c.dwX1 = 2 * (a.rIn * sin c.beta) ∧ 2 * a.arcVolume B L c.beta = ringVolume B a.rIn a.hap (2 * c.beta) ∧ kVol none k (ringVolume B a.rIn a.hap (2 * c.beta)) Vtot < kVol none k (a.arcVolume B L c.beta) Vtot ∧
    kVol none k (a.arcVolume B L c.beta) Vtot ^ 5 = 2 * kVol none k (ringVolume B a.rIn a.hap (2 * c.beta)) Vtot ^ 5 := by
  have e1 : a.arcVolume B L c.beta = ringVolume B a.rIn a.hap c.beta := by
    rw [C166_partial a B L c.beta h, ha]
    congr 1
    ring
  have e2 : ringVolume B a.rIn a.hap (2 * c.beta) = 2 * ringVolume B a.rIn a.hap c.beta := by
    unfold ringVolume
    ring
  have hp : 0 < ringVolume B a.rIn a.hap c.beta := by
    unfold ringVolume
    have : 0 < (a.rIn + a.hap) ^ 2 - a.rIn ^ 2 := by nlinarith
    positivity
  rw [e1, e2]
  rw [e2] at hV
  generalize ringVolume B a.rIn a.hap c.beta = V at hp hV
  have hT : 0 < Vtot := by linarith
  obtain ⟨⟨p1, q1⟩, -⟩ := C162_partial k V Vtot hp hT
  obtain ⟨⟨p2, q2⟩, -⟩ := C162_partial k (2 * V) Vtot (by linarith) hT
  rw [min_eq_left (by linarith)] at q1 q2
  have h5 : kVol none k V Vtot ^ 5 = 2 * kVol none k (2 * V) Vtot ^ 5 := by
    have : kVol none k V Vtot ^ 5 * V = (2 * kVol none k (2 * V) Vtot ^ 5) * V := by linarith
    exact mul_right_cancel₀ hp.ne' this
  refine ⟨?_, rfl, ?_, h5⟩
  · unfold Curved.dwX2 Curved.dwX1
    rw [hrr]
    ring
  · by_contra hc
    have := pow_le_pow_left₀ p1.le (not_lt.1 hc) 5
    have h0 : 0 < kVol none k (2 * V) Vtot ^ 5 := by positivity
    linarith

/-- A curved beam 1 m deep with a radius of 10 m and angles of 0.2. -/
example : kVol none .glt (ringVolume 200 10000 1000 (2 * 0.2)) 2000000000 < kVol none .glt ((⟨.arc, 800, 1000, 0.2, 10000, 45, 0.5, false⟩ : ApexSec).arcVolume 200 20000 0.2) 2000000000 :=
  (C166_violation ⟨.arc, 800, 1000, 0.2, 10000, 45, 0.5, false⟩ { h0 := 800, alpha := 0.2, beta := 0.2, r := 10000, L := 20000 } 200 20000 2000000000 .glt rfl rfl rfl (by norm_num) (by norm_num) (by norm_num) (by norm_num) (by norm_num [ringVolume])).2.2.1

/-! ### C159: apex out of the middle -/

/-- **C159** (negation).  Double tapered beams with the apex out of the middle: the slope used is the one with the apex in the middle, below the slope of the shorter side, and so are the factors. -/
theorem C159_violation_side (a : ApexSec) (L : ℝ) (h : a.form = .double) (hL : 0 < L) (hr : a.h0 < a.hap) (hx : 0 < a.xap) (hx2 : a.xap < 1 / 2) :
    doubleHeight a.h0 a.hap a.xap a.xap = a.hap ∧ tan (a.alfa L) < (a.hap - a.h0) / (a.xap * L) ∧ ∃ k, a.kL L = some k ∧ k < apexBending ((a.hap - a.h0) / (a.xap * L)) 0 := by
  have hs : tan (a.alfa L) < (a.hap - a.h0) / (a.xap * L) := by
    rw [alfa_slope h]
    refine div_lt_div_of_pos_left (by linarith) (mul_pos hx hL) ?_
    nlinarith
  have h0 : 0 < tan (a.alfa L) := by
    rw [alfa_slope h]
    exact div_pos (by linarith) (by linarith)
  refine ⟨?_, hs, ?_⟩
  · unfold doubleHeight
    have h1 : (a.hap - a.h0) / a.xap * a.xap = a.hap - a.h0 := by field_simp
    have hn : 1 - a.xap ≠ 0 := by linarith
    have h2 : (a.h0 - a.hap) / (1 - a.xap) * a.xap + a.hap + (a.hap - a.h0) / (1 - a.xap) * a.xap = a.hap := by ring
    rw [h1, h2]
    simp
  · unfold ApexSec.kL
    rw [h]
    refine ⟨_, rfl, ?_⟩
    unfold apexBending
    nlinarith

/-- The apex at a quarter of 20 m. -/
example : tan ((⟨.double, 800, 1600, 0, 0, 45, 0.25, false⟩ : ApexSec).alfa 20000) < 0.16 := by
  refine (C159_violation_side ⟨.double, 800, 1600, 0, 0, 45, 0.25, false⟩ 20000 rfl (by norm_num) (by norm_num) (by norm_num) (by norm_num)).2.1.trans_le ?_
  norm_num

end Metku.Timber
