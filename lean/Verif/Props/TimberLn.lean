import Verif.Props.TimberStab
import Verif.Props.TimberTaper

/-!
Buckling lengths of timber members.
-/
namespace Metku.Timber

open TimberSpec Real

/-- The factors expected for a column by the supports of its ends, in either order: both fixed, both hinged, one fixed and one hinged, guided ends that may sway (`y`) or not (`x`), and free ends. -/
def columnTable : List (Option Supp × Option Supp × ℝ) :=
  [(some .fixed, some .fixed, 0.7), (some .xy, some .xy, 1), (some .fixed, some .xy, 0.85), (some .fixed, some .y, 2.2), (some .xy, some .y, 2), (some .fixed, some .x, 0.85), (some .xy, some .x, 1), (some .fixed, none, 2.2),
    (some .xy, none, 2)]

/-- The member seen from its other end. -/
def Ends.rev (e : Ends) : Ends := ⟨e.stop, e.start, e.sj2, e.sj1⟩

/-- The member seen from its other end. -/
def Stab.rev (s : Stab) : Stab := ⟨s.type, s.ends.rev, none, s.lcy.reverse, s.lcz.reverse⟩

/-- Every length of `y` is between `lo` and `hi` times the length of the segment. -/
def Within (lo hi : ℝ) (lc y : List ℝ) : Prop := y.length = lc.length ∧ ∀ (i : ℕ) (a l : ℝ), y[i]? = some a → lc[i]? = some l → 0 ≤ l → lo * l ≤ a ∧ a ≤ hi * l

theorem within_num {lo hi x : ℝ} (h1 : lo ≤ x) (h2 : x ≤ hi) (lc : List ℝ) : Within lo hi lc (lc.map (x * ·)) := by
  refine ⟨List.length_map _, fun i a l ha hl h0 => ?_⟩
  rw [List.getElem?_map, hl] at ha
  obtain rfl := Option.some.inj ha
  exact ⟨mul_le_mul_of_nonneg_right h1 h0, mul_le_mul_of_nonneg_right h2 h0⟩

theorem within_vec {lo hi : ℝ} {v : List ℝ} (hv : ∀ x ∈ v, lo ≤ x ∧ x ≤ hi) {lc : List ℝ} (hlen : v.length = lc.length) :
    ∃ y, Beta.times (.vec v) lc = .ok y ∧ Within lo hi lc y := by
  refine ⟨List.zipWith (· * ·) v lc, by simp only [Beta.times, bcast, if_pos hlen], by simp [hlen], fun i a l ha hl h0 => ?_⟩
  rw [List.getElem?_zipWith] at ha
  cases hc : v[i]? with
  | none => rw [hc] at ha; cases ha
  | some x =>
    rw [hc, hl] at ha
    obtain rfl := Option.some.inj ha
    obtain ⟨h1, h2⟩ := hv x (List.mem_of_getElem? hc)
    exact ⟨mul_le_mul_of_nonneg_right h1 h0, mul_le_mul_of_nonneg_right h2 h0⟩

theorem betaEnd_bounds (s : Option Supp) (sj : ℝ) : 0.8 ≤ betaEnd s sj ∧ betaEnd s sj ≤ 1 := by
  unfold betaEnd
  split_ifs <;> norm_num

theorem betaSeg_bounds (e : Ends) (beam weak : Bool) (n i : ℕ) : 0.8 ≤ betaSeg e beam weak n i ∧ betaSeg e beam weak n i ≤ 1 := by
  unfold betaSeg
  split_ifs
  · norm_num
  · exact betaEnd_bounds _ _
  · exact betaEnd_bounds _ _
  · norm_num
  · norm_num

theorem betaBeam_bounds (a b : ℝ) : 0.8 ≤ betaBeam a b ∧ betaBeam a b ≤ 1 := by
  unfold betaBeam
  split_ifs <;> norm_num

theorem betaBeam_symm (a b : ℝ) : betaBeam a b = betaBeam b a := by
  unfold betaBeam
  simp only [and_comm, or_comm]

theorem betaColumn_bounds {a b : Option Supp} {x : ℝ} (h : betaColumn a b = some x) : 0.7 ≤ x ∧ x ≤ 2.2 := by
  have key : ∀ c : ℝ, 0.7 ≤ c → c ≤ 2.2 → some c = some x → 0.7 ≤ x ∧ x ≤ 2.2 := by
    intro c h1 h2 h3
    obtain rfl := Option.some.inj h3
    exact ⟨h1, h2⟩
  have h1 : ∀ s e : Option Supp, betaOne s e = some x → 0.7 ≤ x ∧ x ≤ 2.2 := by
    intro s e hs
    unfold betaOne at hs
    split_ifs at hs
    · exact key _ (by norm_num) (by norm_num) hs
    · exact key _ (by norm_num) (by norm_num) hs
  cases a with
  | none => exact h1 _ _ h
  | some a =>
    cases b with
    | none => exact h1 _ _ h
    | some b =>
      change betaBoth a b = some x at h
      unfold betaBoth at h
      split_ifs at h <;> exact key _ (by norm_num) (by norm_num) h

theorem form_within (e : Ends) (beam weak : Bool) (lc : List ℝ) (h : beam = false → lc.length = 1 → betaColumn e.start e.stop ≠ none) :
    ∃ y, (formBeta e beam weak lc.length).times lc = .ok y ∧ Within (if beam then 0.8 else 0.7) (if beam then 1 else 2.2) lc y := by
  unfold formBeta
  by_cases h1 : lc.length = 1
  · rw [if_pos h1]
    cases beam with
    | true =>
      obtain ⟨b1, b2⟩ := betaBeam_bounds e.sj1 e.sj2
      exact ⟨_, rfl, within_num (by simpa using b1) (by simpa using b2) lc⟩
    | false =>
      obtain ⟨x, hx⟩ := Option.ne_none_iff_exists'.1 (h rfl h1)
      obtain ⟨b1, b2⟩ := betaColumn_bounds hx
      rw [hx]
      exact ⟨_, rfl, within_num (by simpa using b1) (by simpa using b2) lc⟩
  · rw [if_neg h1]
    refine within_vec ?_ (by simp)
    intro x hx
    rw [List.mem_map] at hx
    obtain ⟨i, -, rfl⟩ := hx
    obtain ⟨b1, b2⟩ := betaSeg_bounds e beam weak lc.length i
    cases beam with
    | true => simpa using ⟨b1, b2⟩
    | false =>
      constructor <;> simp only [Bool.false_eq_true, if_false] <;> linarith

/-- **C154** (partial).  A member without given factors gets a buckling length for every segment: between 0.8 and 1 times its length for beams, between 0.7 and 2.2 times for columns whose supports are known, and between 0.7 and 1 times
for others; asking again gives the same lengths.  A beam in one segment has the same buckling length seen from either end, and columns in one segment have the factor of the table of supports, except when the first end is
fixed and the second one may sway, or when the first end is guided and the second one hinged. -/
theorem C154_partial (s : Stab) (hb : s.beta = none) :
    (s.type = .beam → ∃ y z, s.ln = .ok (y, z) ∧ Within 0.8 1 s.lcy y ∧ Within 0.8 1 s.lcz z) ∧
    (s.type = .column → (s.lcy.length = 1 ∨ s.lcz.length = 1 → betaColumn s.ends.start s.ends.stop ≠ none) → ∃ y z, s.ln = .ok (y, z) ∧ Within 0.7 2.2 s.lcy y ∧ Within 0.7 2.2 s.lcz z) ∧
    (s.type = .other → ∃ y z, s.ln = .ok (y, z) ∧ Within 0.7 1 s.lcy y ∧ Within 0.7 1 s.lcz z) ∧ s.afterLn.ln = s.ln ∧ (s.afterLn).afterLn.ln = s.ln ∧
    (s.type = .beam → ∀ L M, s.lcy = [L] → s.lcz = [M] → s.rev.ln = s.ln) ∧
    (s.type = .column → ∀ L M, s.lcy = [L] → s.lcz = [M] → ∀ a b r, (a, b, r) ∈ columnTable →
      (s.ends.start = b → s.ends.stop = a → ¬ (a = some .xy ∧ (b = some .y ∨ b = some .x)) → s.ln = .ok ([r * L], [r * M])) ∧
      (s.ends.start = a → s.ends.stop = b → ¬ (a = some .fixed ∧ b = some .y) → s.ln = .ok ([r * L], [r * M]))) := by
  have hafter : ∀ t : Stab, t.afterLn.ln = t.ln := by
    intro t
    unfold Stab.afterLn
    split_ifs with h
    · rfl
    · rfl
  refine ⟨?_, ?_, ?_, hafter s, (hafter _).trans (hafter s), ?_, ?_⟩
  · intro ht
    obtain ⟨y, e1, w1⟩ := form_within s.ends true false s.lcy (by simp)
    obtain ⟨z, e2, w2⟩ := form_within s.ends true true s.lcz (by simp)
    refine ⟨y, z, ?_, by simpa using w1, by simpa using w2⟩
    unfold Stab.ln Stab.factors
    simp only [hb, ht, e1, e2, bind, Except.bind]
  · intro ht hc
    obtain ⟨y, e1, w1⟩ := form_within s.ends false false s.lcy (fun _ h => hc (.inl h))
    obtain ⟨z, e2, w2⟩ := form_within s.ends false true s.lcz (fun _ h => hc (.inr h))
    refine ⟨y, z, ?_, by simpa using w1, by simpa using w2⟩
    unfold Stab.ln Stab.factors
    simp only [hb, ht, e1, e2, bind, Except.bind]
  · intro ht
    have hx : 0.7 ≤ betaOther s.ends ∧ betaOther s.ends ≤ 1 := by
      unfold betaOther
      split_ifs <;> norm_num
    refine ⟨s.lcy.map (betaOther s.ends * ·), s.lcz.map (betaOther s.ends * ·), ?_, within_num hx.1 hx.2 _, within_num hx.1 hx.2 _⟩
    unfold Stab.ln Stab.factors
    simp only [hb, ht, bind, Except.bind, Beta.times]
  · intro ht L M hL hM
    unfold Stab.ln Stab.factors Stab.rev
    simp only [hb, ht, hL, hM, List.reverse_singleton, List.length_singleton, formBeta, if_true, Ends.rev]
    rw [betaBeam_symm s.ends.sj2]
  · intro ht L M hL hM a b r hab
    have hln : ∀ x, betaColumn s.ends.start s.ends.stop = some x → s.ln = .ok ([x * L], [x * M]) := by
      intro x hx
      unfold Stab.ln Stab.factors
      simp only [hb, ht, hL, hM, List.length_singleton, formBeta, if_true, Bool.false_eq_true, if_false, hx, Option.elim_some, Beta.times, bind, Except.bind, List.map_cons, List.map_nil]
    simp only [columnTable, List.mem_cons, List.not_mem_nil, or_false, Prod.mk.injEq] at hab
    rcases hab with ⟨rfl, rfl, rfl⟩ | ⟨rfl, rfl, rfl⟩ | ⟨rfl, rfl, rfl⟩ | ⟨rfl, rfl, rfl⟩ | ⟨rfl, rfl, rfl⟩ | ⟨rfl, rfl, rfl⟩ | ⟨rfl, rfl, rfl⟩ | ⟨rfl, rfl, rfl⟩ | ⟨rfl, rfl, rfl⟩ <;> constructor <;> intro h1 h2 h3 <;>
      first
      | (refine absurd ?_ h3; simp; done)
      | (refine hln _ ?_; rw [h1, h2]; simp [betaColumn, betaBoth, betaOne])

/-- A beam in two segments, stiff at its start. -/
example : ∃ y z, (Stab.ln ⟨.beam, ⟨none, none, 10 ^ 16, 0⟩, none, [2000, 4000], [6000]⟩) = .ok (y, z) ∧ Within 0.8 1 [2000, 4000] y ∧ Within 0.8 1 [6000] z :=
  (C154_partial ⟨.beam, ⟨none, none, 10 ^ 16, 0⟩, none, [2000, 4000], [6000]⟩ rfl).1 rfl

/-- A column on a fixed foot, with a beam on top. -/
example : (Stab.ln ⟨.column, ⟨some .fixed, none, 10 ^ 16, 10 ^ 16⟩, none, [3000], [3000]⟩) = .ok ([2.2 * 3000], [2.2 * 3000]) :=
  ((C154_partial ⟨.column, ⟨some .fixed, none, 10 ^ 16, 10 ^ 16⟩, none, [3000], [3000]⟩ rfl).2.2.2.2.2.2 rfl 3000 3000 rfl rfl (some .fixed) none 2.2 (by simp [columnTable])).2 rfl rfl (by simp)

/-- **C154** (negation).  Columns on supports that let one end sway, hinged or free ends: the factor depends on which end comes first, and from one side it is 0.85 instead of 2.2 or 2. -/
theorem C154_violation (L M sj1 sj2 : ℝ) :
    (Stab.ln ⟨.column, ⟨some .y, some .fixed, sj1, sj2⟩, none, [L], [M]⟩ = .ok ([2.2 * L], [2.2 * M]) ∧ Stab.ln ⟨.column, ⟨some .fixed, some .y, sj1, sj2⟩, none, [L], [M]⟩ = .ok ([0.85 * L], [0.85 * M])) ∧
    (Stab.ln ⟨.column, ⟨some .xy, some .y, sj1, sj2⟩, none, [L], [M]⟩ = .ok ([2 * L], [2 * M]) ∧ Stab.ln ⟨.column, ⟨some .y, some .xy, sj1, sj2⟩, none, [L], [M]⟩ = .ok ([0.85 * L], [0.85 * M])) ∧
    (Stab.ln ⟨.column, ⟨some .fixed, none, sj1, sj2⟩, none, [L], [M]⟩ = .ok ([2.2 * L], [2.2 * M]) ∧ Stab.ln ⟨.column, ⟨some .fixed, some .hinge, sj1, sj2⟩, none, [L], [M]⟩ = .ok ([0.85 * L], [0.85 * M])) := by
  have hln : ∀ (a b : Option Supp) (x : ℝ), betaColumn a b = some x → Stab.ln ⟨.column, ⟨a, b, sj1, sj2⟩, none, [L], [M]⟩ = .ok ([x * L], [x * M]) := by
    intro a b x hx
    unfold Stab.ln Stab.factors
    simp only [List.length_singleton, formBeta, if_true, Bool.false_eq_true, if_false, hx, Option.elim_some, Beta.times, bind, Except.bind, List.map_cons, List.map_nil]
  refine ⟨⟨hln _ _ _ ?_, hln _ _ _ ?_⟩, ⟨hln _ _ _ ?_, hln _ _ _ ?_⟩, hln _ _ _ ?_, hln _ _ _ ?_⟩ <;> simp [betaColumn, betaBoth, betaOne]

/-- Errors of a loop whose steps raise only one error. -/
theorem mapM_err {α β : Type} {f : α → Except PyErr β} {e0 : PyErr} : ∀ {l : List α}, (∀ a ∈ l, ∀ e, f a = .error e → e = e0) → ∀ {e}, l.mapM f = .error e → e = e0
  | [], _, e, h => by cases h
  | a :: l, hf, e, h => by
    rw [List.mapM_cons] at h
    simp only [bind, Except.bind, pure, Except.pure] at h
    split at h
    · rename_i e' he'
      obtain rfl := Except.error.inj h
      exact hf a List.mem_cons_self _ he'
    split at h
    · rename_i e' he'
      obtain rfl := Except.error.inj h
      exact mapM_err (fun b hb => hf b (List.mem_cons_of_mem _ hb)) he'
    · cases h

theorem listMin_err {l : List ℝ} {e : PyErr} (h : listMin l = .error e) : e = .valueError := by
  cases l with
  | nil => exact (Except.error.inj h).symm
  | cons a l => cases h

theorem maxByAbs_err {l : List ℝ} {e : PyErr} (h : maxByAbs l = .error e) : e = .valueError := by
  cases l with
  | nil => exact (Except.error.inj h).symm
  | cons a l => cases h

theorem segStress_err {m : TMember} {g : ℝ × ℝ} {e : PyErr} (h : m.segStress g = .error e) : e = .valueError := by
  unfold TMember.segStress at h
  simp only [bind, Except.bind] at h
  split at h
  · rename_i e' he'
    obtain rfl := Except.error.inj h
    exact listMin_err he'
  split at h
  · rename_i e' he'
    obtain rfl := Except.error.inj h
    exact maxByAbs_err he'
  split at h
  · rename_i e' he'
    obtain rfl := Except.error.inj h
    exact maxByAbs_err he'
  cases h

theorem gyr_err {m : TMember} {s : List ℝ} {e : PyErr} {F : Forces → ℝ} (h : ((segs s).mapM fun g => do let f ← m.lexMax (m.secsIn g); .ok (F f)) = .error e) : e = .valueError := by
  refine mapM_err (fun g _ e' he' => ?_) h
  simp only [bind, Except.bind] at he'
  split at he'
  · rename_i e'' he''
    obtain rfl := Except.error.inj he'
    unfold TMember.lexMax at he''
    cases hl : m.secsIn g with
    | nil => rw [hl] at he''; exact (Except.error.inj he'').symm
    | cons a l => rw [hl] at he''; cases he''
  · cases he'

theorem bcast_err {α β γ : Type} {f : α → β → γ} {a : List α} {b : List β} {e : PyErr} (h : bcast f a b = .error e) : e = .valueError := by
  unfold bcast at h
  split_ifs at h
  split at h
  · cases h
  · cases h
  · exact (Except.error.inj h).symm

theorem segs_single : (segs []).length = 1 := by
  unfold segs
  rw [edges_eq (by simp)]
  rfl

/-- **C154** (negation).  A column in one segment whose ends have no support, as every column between two other members, cannot be checked against buckling: the call raises. -/
theorem C154_violation_inner (m : TMember) (sj1 sj2 L M bc fc0k e005 : ℝ) : m.buckling ⟨.column, ⟨none, none, sj1, sj2⟩, none, [L], [M]⟩ [] [] bc fc0k e005 = .error .valueError := by
  have hln : Stab.ln ⟨.column, ⟨none, none, sj1, sj2⟩, none, [L], [M]⟩ = .ok ([], []) := by
    unfold Stab.ln Stab.factors
    simp [formBeta, betaColumn, betaOne, Beta.times, bcast, bind, Except.bind]
  unfold TMember.buckling
  simp only [bind, Except.bind, hln]
  cases h1 : m.gyrY [] with
  | error e => rw [gyr_err h1]
  | ok iy =>
    cases h2 : m.gyrZ [] with
    | error e => rw [gyr_err h2]
    | ok iz =>
      have l1 : iy.length = 1 := (mapM_length h1).trans segs_single
      have l2 : iz.length = 1 := (mapM_length h2).trans segs_single
      obtain ⟨x, rfl⟩ := List.length_eq_one_iff.1 l1
      obtain ⟨z, rfl⟩ := List.length_eq_one_iff.1 l2
      have k : ∀ x : ℝ, kcList bc fc0k e005 [] [x] = .ok [] := fun x => by simp [kcList, bcast]
      simp only [k]
      unfold TMember.checkBuckling
      simp only [bind, Except.bind]
      cases h3 : (segs []).mapM m.segStress with
      | error e => simp only [mapM_err (fun a _ e' he' => segStress_err he') h3]
      | ok sy =>
        have l3 : sy.length = 1 := (mapM_length h3).trans segs_single
        obtain ⟨q, rfl⟩ := List.length_eq_one_iff.1 l3
        simp [bcast, listMax]

/-- **C154** (negation).  The factors of the first call are kept: a member that had several segments and gets another number of segments, above one, has no buckling lengths any more. -/
theorem C154_violation_stale (s : Stab) (hb : s.beta = none) (ht : s.type ≠ .other) (ly lz : List ℝ) (h1 : 1 < s.lcy.length) (h2 : 1 < ly.length) (h3 : ly.length ≠ s.lcy.length) :
    ({ s.afterLn with lcy := ly, lcz := lz } : Stab).ln = .error .valueError := by
  have hbad : ∀ beam : Bool, (formBeta s.ends beam false s.lcy.length).times ly = .error .valueError := by
    intro beam
    unfold formBeta
    rw [if_neg (by omega)]
    have hlen : ((List.range s.lcy.length).map (betaSeg s.ends beam false s.lcy.length)).length = s.lcy.length := by simp
    simp only [Beta.times]
    generalize (List.range s.lcy.length).map (betaSeg s.ends beam false s.lcy.length) = v at hlen
    unfold bcast
    rw [if_neg (by omega)]
    match v, ly, hlen, h2 with
    | [], _, hv, _ => simp only [List.length_nil] at hv; omega
    | [_], _, hv, _ => simp only [List.length_singleton] at hv; omega
    | _ :: _ :: _, [], _, h => simp at h
    | _ :: _ :: _, [_], _, h => simp at h
    | _ :: _ :: _, _ :: _ :: _, _, _ => rfl
  unfold Stab.afterLn
  rw [if_neg ht]
  unfold Stab.ln
  have hf : ∃ beam, s.factors.1 = formBeta s.ends beam false s.lcy.length := by
    unfold Stab.factors
    cases h : s.type with
    | column => exact ⟨false, by simp only [hb]⟩
    | beam => exact ⟨true, by simp only [hb]⟩
    | other => exact absurd h ht
  obtain ⟨beam, hf⟩ := hf
  have e : ({ s with beta := some s.factors, lcy := ly, lcz := lz } : Stab).factors = s.factors := rfl
  simp only [e, hf, hbad, bind, Except.bind]

/-- A beam with a support in its middle gets two more. -/
example : (Stab.ln { (Stab.afterLn ⟨.beam, ⟨none, none, 0, 0⟩, none, [3000, 3000], [6000]⟩) with lcy := [1500, 1500, 1500, 1500], lcz := [6000] }) = .error .valueError :=
  C154_violation_stale _ rfl (by simp) _ _ (by simp) (by simp) (by simp)

end Metku.Timber
