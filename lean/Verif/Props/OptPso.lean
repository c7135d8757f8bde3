import Verif.Model.OptPso
import Verif.Props.OptPenalty

/-!
C26 and C51: particle swarm.
-/
set_option linter.unusedSectionVars false

namespace Metku.Opt

variable {K : Type} [Field K] [LinearOrder K] [IsStrictOrderedRing K] {n : Nat}

/-! ### Specification -/

/-- The point is within the bounds. -/
def InRange (P : PsoProb K n) (x : Fin n → K) : Prop := ∀ i, P.lb i ≤ x i ∧ x i ≤ P.ub i

/-- The random numbers are in `[0, 1]`. -/
def ValidDraw (d : Draw K n) : Prop := ∀ i, 0 ≤ d.rv i ∧ d.rv i ≤ 1

/-- If the first variable is discrete, its values are within the bounds of every variable. -/
def CommonValues (P : PsoProb K n) : Prop :=
  ∀ d, P.disc = some d → ∀ y ∈ d.1 :: d.2, ∀ i, P.lb i ≤ y ∧ y ≤ P.ub i

/-- Violation of a constraint. -/
def violation (t : CType) (g : K) : K :=
  match t with
  | .lt => max 0 g
  | .gt => max 0 (-g)
  | .eq => |g|

/-! ### Helper lemmas -/

theorem nearest_mem (v0 : K) (vs : List K) (x : K) : nearest v0 vs x ∈ v0 :: vs := by
  unfold nearest
  induction vs generalizing v0 with
  | nil => simp
  | cons y vs ih =>
    rw [List.foldl_cons]
    have := ih (if |y - x| < |v0 - x| then y else v0)
    simp only [List.mem_cons] at this ⊢
    rcases this with h | h
    · rw [h]; split <;> simp
    · exact Or.inr (Or.inr h)

theorem nearest_le (v0 : K) (vs : List K) (x : K) : ∀ y ∈ v0 :: vs, |nearest v0 vs x - x| ≤ |y - x| := by
  unfold nearest
  induction vs generalizing v0 with
  | nil => intro y hy; simp at hy; subst hy; exact le_refl _
  | cons z vs ih =>
    intro y hy
    rw [List.foldl_cons]
    have h := ih (if |z - x| < |v0 - x| then z else v0)
    simp only [List.mem_cons] at hy
    have h0 := h _ (List.mem_cons_self ..)
    rcases hy with rfl | rfl | hy
    · refine h0.trans ?_
      split
      · rename_i hlt; exact hlt.le
      · exact le_refl _
    · refine h0.trans ?_
      split
      · exact le_refl _
      · rename_i hlt; exact not_lt.1 hlt
    · exact h y (List.mem_cons_of_mem _ hy)

theorem evalParticle_fields (P : PsoProb K n) (p : Particle K n) :
    (evalParticle P p).x = p.x ∧ (evalParticle P p).v = p.v ∧ (evalParticle P p).scv = P.scv p.x ∧ (evalParticle P p).fval = P.obj p.x := by
  unfold evalParticle
  simp only
  split_ifs <;> exact ⟨rfl, rfl, rfl, rfl⟩

theorem move_fields (P : PsoProb K n) (p : Particle K n) : (Particle.move P p).v = p.v ∧ (Particle.move P p).best = p.best ∧
    (Particle.move P p).bestF = p.bestF ∧ (Particle.move P p).bestScv = p.bestScv := by
  unfold Particle.move
  cases P.disc <;> exact ⟨rfl, rfl, rfl, rfl⟩

theorem move_inRange (P : PsoProb K n) (hb : ∀ i, P.lb i ≤ P.ub i) (hc : CommonValues P) (p : Particle K n) :
    InRange P (Particle.move P p).x := by
  intro i
  unfold Particle.move
  cases hd : P.disc with
  | none => exact ⟨le_min (le_max_right _ _) (hb i), min_le_right _ _⟩
  | some d => exact hc d hd _ (nearest_mem _ _ _) i

theorem crazy_velocity (s : Swarm K n) (hv : ∀ i, s.vmin i ≤ s.vmax i) (d : Draw K n) (hd : ValidDraw d) (p : Particle K n) (i : Fin n) :
    s.vmin i ≤ (craziness s d (updateVelocity s d p)).v i ∧ (craziness s d (updateVelocity s d p)).v i ≤ s.vmax i := by
  unfold craziness
  split
  · obtain ⟨h0, h1⟩ := hd i
    have hle : 0 ≤ s.vmax i - s.vmin i := sub_nonneg.2 (hv i)
    simp only
    have a := mul_nonneg hle h0
    have b := mul_le_mul_of_nonneg_left h1 hle
    constructor <;> linarith
  · exact ⟨le_min (le_max_right _ _) (hv i), min_le_right _ _⟩

theorem advanceAll_mem (P : PsoProb K n) (s : Swarm K n) : ∀ (ds : List (Draw K n)) (ps : List (Particle K n)), ds.length = ps.length →
    ∀ p ∈ advanceAll P s ds ps, ∃ d ∈ ds, ∃ q ∈ ps, p = advance P s d q := by
  intro ds
  induction ds with
  | nil => intro ps hl p hp; cases ps with
    | nil => simp [advanceAll] at hp
    | cons q ps => simp at hl
  | cons d ds ih =>
    intro ps hl p hp
    cases ps with
    | nil => simp at hl
    | cons q ps =>
      simp only [advanceAll, List.mem_cons] at hp
      rcases hp with rfl | hp
      · exact ⟨d, by simp, q, by simp, rfl⟩
      · obtain ⟨d', h1, q', h2, h3⟩ := ih ps (by simpa using hl) p hp
        exact ⟨d', by simp [h1], q', by simp [h2], h3⟩

/-- What is recorded is the previous record or a particle, and it is feasible. -/
theorem record_spec : ∀ (ps : List (Particle K n)) (r : Record K n),
    ((ps.foldl recordPart r).scv = r.scv ∧ (ps.foldl recordPart r).f = r.f ∧ (ps.foldl recordPart r).x = r.x) ∨
    (∃ p ∈ ps, p.scv ≤ gTol ∧ (ps.foldl recordPart r).scv = some p.scv ∧ (ps.foldl recordPart r).f = some p.fval ∧
      (ps.foldl recordPart r).x = p.x) := by
  intro ps
  induction ps with
  | nil => intro r; exact Or.inl ⟨rfl, rfl, rfl⟩
  | cons p ps ih =>
    intro r
    rw [List.foldl_cons]
    have hstep : recordPart r p = r ∨ (p.scv ≤ gTol ∧ recordPart r p = ⟨p.x, some p.fval, some p.scv, true⟩) := by
      unfold recordPart
      split
      · split
        · rename_i h; exact Or.inr ⟨h, rfl⟩
        · exact Or.inl rfl
      · split
        · rename_i h
          simp only [Bool.and_eq_true, decide_eq_true_eq] at h
          exact Or.inr ⟨h.1, rfl⟩
        · exact Or.inl rfl
    rcases ih (recordPart r p) with ⟨h1, h2, h3⟩ | ⟨q, hq, h⟩
    · rcases hstep with e | ⟨e1, e2⟩
      · rw [e] at h1 h2 h3 ⊢; exact Or.inl ⟨h1, h2, h3⟩
      · rw [e2] at h1 h2 h3 ⊢; exact Or.inr ⟨p, by simp, e1, h1, h2, h3⟩
    · exact Or.inr ⟨q, by simp [hq], h⟩

/-- Recorded and feasible with value at most `f`. -/
def Rec (scv f : Option K) (a : K) : Prop := ∃ t g, scv = some t ∧ t ≤ gTol ∧ f = some g ∧ g ≤ a

theorem recordPart_keeps (r : Record K n) (p : Particle K n) (a : K) (h : Rec r.scv r.f a) :
    Rec (recordPart r p).scv (recordPart r p).f a := by
  obtain ⟨t, g, h1, h2, h3, h4⟩ := h
  unfold recordPart
  rw [h1]
  simp only [infGt, decide_eq_true_eq, not_lt.2 h2, if_false, gt_iff_lt]
  split
  · rename_i hc
    rw [h3] at hc
    simp only [Bool.and_eq_true, decide_eq_true_eq, ltInf] at hc
    exact ⟨_, _, rfl, hc.1, rfl, hc.2.le.trans h4⟩
  · exact ⟨t, g, h1, h2, h3, h4⟩

theorem recordPart_own (r : Record K n) (p : Particle K n) (hp : p.scv ≤ gTol) (hr : ∀ t, r.scv = some t → t ≤ gTol → ∃ g, r.f = some g) :
    Rec (recordPart r p).scv (recordPart r p).f p.fval := by
  unfold recordPart
  by_cases h : infGt r.scv gTol = true
  · rw [if_pos h, if_pos hp]
    exact ⟨_, _, rfl, hp, rfl, le_refl _⟩
  · rw [if_neg h]
    cases hs : r.scv with
    | none => rw [hs] at h; simp [infGt] at h
    | some t =>
      rw [hs] at h
      simp only [infGt, decide_eq_true_eq, not_lt, gt_iff_lt] at h
      obtain ⟨g, hg⟩ := hr t hs h
      rw [hg]
      by_cases hlt : p.fval < g
      · simp only [hp, decide_true, ltInf, hlt, Bool.and_self, if_true]
        exact ⟨_, _, rfl, hp, rfl, le_refl _⟩
      · simp only [ltInf, hlt, decide_false, Bool.and_false, Bool.false_eq_true, if_false]
        exact ⟨t, g, hs, h, hg, not_lt.1 hlt⟩

theorem recordAll_keeps : ∀ (ps : List (Particle K n)) (r : Record K n) (a : K), Rec r.scv r.f a →
    Rec (ps.foldl recordPart r).scv (ps.foldl recordPart r).f a := by
  intro ps
  induction ps with
  | nil => intro r a h; exact h
  | cons p ps ih => intro r a h; rw [List.foldl_cons]; exact ih _ _ (recordPart_keeps r p a h)

theorem recordPart_f (r : Record K n) (p : Particle K n) (hr : ∀ t, r.scv = some t → t ≤ gTol → ∃ g, r.f = some g) :
    ∀ t, (recordPart r p).scv = some t → t ≤ gTol → ∃ g, (recordPart r p).f = some g := by
  unfold recordPart
  split_ifs
  · intro t _ _; exact ⟨_, rfl⟩
  · exact hr
  · intro t _ _; exact ⟨_, rfl⟩
  · exact hr

theorem recordAll_own : ∀ (ps : List (Particle K n)) (r : Record K n), (∀ t, r.scv = some t → t ≤ gTol → ∃ g, r.f = some g) →
    ∀ p ∈ ps, p.scv ≤ gTol → Rec (ps.foldl recordPart r).scv (ps.foldl recordPart r).f p.fval := by
  intro ps
  induction ps with
  | nil => intro r _ p hp; simp at hp
  | cons q ps ih =>
    intro r hr p hp hs
    rw [List.foldl_cons]
    rcases List.mem_cons.1 hp with rfl | hp
    · exact recordAll_keeps _ _ _ (recordPart_own r p hs hr)
    · exact ih _ (recordPart_f r q hr) p hp hs

/-! ### Invariants of a run -/

/-- Particles carry the values at their position; the record is empty, or feasible with its own values, and no worse than any
    feasible particle. -/
structure RecordInv (P : PsoProb K n) (s : Swarm K n) : Prop where
  eval : ∀ p ∈ s.parts, p.scv = P.scv p.x ∧ p.fval = P.obj p.x
  own : ∀ t, s.bestScv = some t → t ≤ gTol ∧ t = P.scv s.bestX ∧ s.bestF = some (P.obj s.bestX)
  best : ∀ p ∈ s.parts, p.scv ≤ gTol → Rec s.bestScv s.bestF p.fval

theorem updateBest_inv (P : PsoProb K n) (s : Swarm K n) (h1 : ∀ p ∈ s.parts, p.scv = P.scv p.x ∧ p.fval = P.obj p.x)
    (h2 : ∀ t, s.bestScv = some t → t ≤ gTol ∧ t = P.scv s.bestX ∧ s.bestF = some (P.obj s.bestX)) : RecordInv P (updateBest s) := by
  refine ⟨h1, ?_, ?_⟩
  · intro t ht
    simp only [updateBest] at ht ⊢
    rcases record_spec s.parts ⟨s.bestX, s.bestF, s.bestScv, false⟩ with ⟨e1, e2, e3⟩ | ⟨p, hp, e0, e1, e2, e3⟩
    · rw [e1] at ht; rw [e2, e3]; exact h2 t ht
    · rw [e1] at ht; cases ht
      rw [e2, e3, (h1 p hp).2]
      exact ⟨e0, (h1 p hp).1, rfl⟩
  · intro p hp hs
    simp only [updateBest] at hp ⊢
    refine recordAll_own s.parts _ ?_ p hp hs
    intro t ht _
    exact ⟨_, (h2 t ht).2.2⟩

theorem advance_eval (P : PsoProb K n) (s : Swarm K n) (d : Draw K n) (q : Particle K n) :
    (advance P s d q).scv = P.scv (advance P s d q).x ∧ (advance P s d q).fval = P.obj (advance P s d q).x := by
  unfold advance
  obtain ⟨e1, _, e3, e4⟩ := evalParticle_fields P (Particle.move P (craziness s d (updateVelocity s d q)))
  rw [e1, e3, e4]
  exact ⟨rfl, rfl⟩

/-- One list of draws per iteration, one draw per particle. -/
def ValidDraws (m : Nat) (dss : List (List (Draw K n))) : Prop := ∀ ds ∈ dss, ds.length = m ∧ ∀ d ∈ ds, ValidDraw d

theorem advanceAll_length (P : PsoProb K n) (s : Swarm K n) : ∀ (ds : List (Draw K n)) (ps : List (Particle K n)),
    (advanceAll P s ds ps).length = ps.length := by
  intro ds
  induction ds with
  | nil => intro ps; simp [advanceAll]
  | cons d ds ih => intro ps; cases ps with
    | nil => simp [advanceAll]
    | cons p ps => simp [advanceAll, ih]

theorem psoPass_length (P : PsoProb K n) (s : Swarm K n) (ds : List (Draw K n)) : (psoPass P ds s).parts.length = s.parts.length :=
  advanceAll_length P s ds s.parts

theorem reduceInertia_parts (s : Swarm K n) : (reduceInertia s).parts = s.parts ∧ (reduceInertia s).bestX = s.bestX ∧
    (reduceInertia s).bestF = s.bestF ∧ (reduceInertia s).bestScv = s.bestScv := by
  unfold reduceInertia; split <;> exact ⟨rfl, rfl, rfl, rfl⟩

/-- Induction over a run. -/
theorem psoLoop_induct (P : PsoProb K n) (I : Swarm K n → Prop) (m : Nat) (hlen : ∀ s, I s → s.parts.length = m)
    (hpass : ∀ s ds, I s → ds.length = m → (∀ d ∈ ds, ValidDraw d) → I (psoPass P ds s)) (hred : ∀ s, I s → I (reduceInertia s)) :
    ∀ (dss : List (List (Draw K n))), ValidDraws m dss → ∀ s, I s → I (psoLoop P dss s) := by
  intro dss
  induction dss with
  | nil => intro _ s h; exact h
  | cons ds dss ih =>
    intro hv s h
    obtain ⟨h1, h2⟩ := hv ds (by simp)
    have hp := hpass s ds h h1 h2
    simp only [psoLoop]
    split
    · exact hp
    · exact ih (fun d hd => hv d (by simp [hd])) _ (hred _ hp)

theorem leastScv_mem (p0 : Particle K n) (ps : List (Particle K n)) : leastScv p0 ps ∈ p0 :: ps := by
  unfold leastScv
  induction ps generalizing p0 with
  | nil => simp
  | cons p ps ih =>
    rw [List.foldl_cons]
    have := ih (if p.scv < p0.scv then p else p0)
    simp only [List.mem_cons] at this ⊢
    rcases this with h | h
    · rw [h]; split <;> simp
    · exact Or.inr (Or.inr h)

/-- What the start of a run establishes. -/
theorem initSwarm_spec {P : PsoProb K n} {c1 c2 w : K} {pop : List ((Fin n → K) × (Fin n → K))} {s : Swarm K n}
    (h : initSwarm P c1 c2 w pop = .ok s) :
    ∃ x0 : Fin n → K, (∃ xr ∈ pop, x0 = xr.1) ∧
      s = updateBest ⟨c1, c2, w, fun i => -(2 / 10 * (P.ub i - P.lb i)), fun i => 2 / 10 * (P.ub i - P.lb i),
        pop.map fun xr => evalParticle P (newParticle xr.1 fun i =>
          (2 / 10 * (P.ub i - P.lb i) - -(2 / 10 * (P.ub i - P.lb i))) * xr.2 i + -(2 / 10 * (P.ub i - P.lb i))),
        x0, none, none, 0, 0⟩ := by
  unfold initSwarm at h
  simp only at h
  split at h
  · cases h
  · rename_i p0 ps hp
    cases h
    have hm := leastScv_mem p0 ps
    rw [← hp] at hm
    obtain ⟨xr, hxr, e⟩ := List.mem_map.1 hm
    refine ⟨(leastScv p0 ps).x, ⟨xr, hxr, ?_⟩, rfl⟩
    rw [← e, (evalParticle_fields _ _).1]; rfl

/-! ### C26 -/

/-- C26, velocities: in every iteration, whatever the random numbers, every particle moves with a velocity within the current limits. -/
theorem C26_velocity (P : PsoProb K n) (s : Swarm K n) (ds : List (Draw K n)) (hv : ∀ i, s.vmin i ≤ s.vmax i)
    (hl : ds.length = s.parts.length) (hd : ∀ d ∈ ds, ValidDraw d) :
    ∀ p ∈ (psoPass P ds s).parts, ∀ i, s.vmin i ≤ p.v i ∧ p.v i ≤ s.vmax i := by
  intro p hp i
  obtain ⟨d, hdm, q, _, rfl⟩ := advanceAll_mem P s ds s.parts hl p hp
  unfold advance
  rw [(evalParticle_fields _ _).2.1, (move_fields _ _).1]
  exact crazy_velocity s hv d (hd d hdm) q i

/-- C26 (partial), positions: throughout a run, whatever the random numbers, all positions and the recorded best are within the
    bounds and all velocities within a fifth of the range. Missing: discrete problems in which the values of the first variable are not
    within the bounds of the others, where it is false (`C26_violated_discrete`). -/
theorem C26_bounds_partial (P : PsoProb K n) (hb : ∀ i, P.lb i ≤ P.ub i) (hc : CommonValues P) (c1 c2 w : K)
    (pop : List ((Fin n → K) × (Fin n → K))) (hpop : ∀ xr ∈ pop, InRange P xr.1 ∧ ∀ i, 0 ≤ xr.2 i ∧ xr.2 i ≤ 1) (s0 : Swarm K n)
    (h0 : initSwarm P c1 c2 w pop = .ok s0) (dss : List (List (Draw K n))) (hd : ValidDraws pop.length dss) :
    InRange P (psoLoop P dss s0).bestX ∧
    ∀ p ∈ (psoLoop P dss s0).parts, InRange P p.x ∧ ∀ i, |p.v i| ≤ 2 / 10 * (P.ub i - P.lb i) := by
  let I : Swarm K n → Prop := fun s => s.parts.length = pop.length ∧ InRange P s.bestX ∧
    (∀ p ∈ s.parts, InRange P p.x ∧ ∀ i, |p.v i| ≤ 2 / 10 * (P.ub i - P.lb i)) ∧
    (∀ i, s.vmin i = -s.vmax i ∧ 0 ≤ s.vmax i ∧ s.vmax i ≤ 2 / 10 * (P.ub i - P.lb i))
  have hrange : ∀ i, 0 ≤ 2 / 10 * (P.ub i - P.lb i) := fun i => mul_nonneg (by norm_num) (sub_nonneg.2 (hb i))
  have hub : ∀ s : Swarm K n, InRange P s.bestX → (∀ p ∈ s.parts, InRange P p.x) → InRange P (updateBest s).bestX := by
    intro s h1 h2
    rcases record_spec s.parts ⟨s.bestX, s.bestF, s.bestScv, false⟩ with ⟨_, _, e3⟩ | ⟨p, hp, _, _, _, e3⟩
    · simp only [updateBest, e3]; exact h1
    · simp only [updateBest, e3]; exact h2 p hp
  have hI : I (psoLoop P dss s0) := by
    refine psoLoop_induct P I pop.length (fun s h => h.1) ?_ ?_ dss hd s0 ?_
    · rintro s ds ⟨i1, i2, i3, i4⟩ hl hv
      have hmem : ∀ p ∈ advanceAll P s ds s.parts, InRange P p.x := by
        intro p hp
        obtain ⟨d, _, q, _, rfl⟩ := advanceAll_mem P s ds s.parts (by rw [hl, i1]) p hp
        unfold advance
        rw [(evalParticle_fields _ _).1]
        exact move_inRange P hb hc _
      refine ⟨by rw [psoPass_length, i1], hub { s with parts := advanceAll P s ds s.parts } i2 hmem, ?_, i4⟩
      intro p hp
      refine ⟨hmem p hp, fun i => ?_⟩
      have hvel := C26_velocity P s ds (fun i => by rw [(i4 i).1]; linarith [(i4 i).2.1]) (by rw [hl, i1]) hv p hp i
      rw [(i4 i).1] at hvel
      rw [abs_le]
      exact ⟨by linarith [(i4 i).2.2], by linarith [(i4 i).2.2]⟩
    · rintro s ⟨i1, i2, i3, i4⟩
      obtain ⟨e1, e2, _, _⟩ := reduceInertia_parts s
      refine ⟨by rw [e1, i1], by rw [e2]; exact i2, by rw [e1]; exact i3, ?_⟩
      intro i
      obtain ⟨j1, j2, j3⟩ := i4 i
      unfold reduceInertia
      split
      · simp only [j1]
        refine ⟨by ring, by positivity, ?_⟩
        linarith
      · exact ⟨j1, j2, j3⟩
    · obtain ⟨x0, ⟨xr, hxr, rfl⟩, rfl⟩ := initSwarm_spec h0
      have hparts : ∀ p ∈ pop.map (fun xr => evalParticle P (newParticle xr.1 fun i =>
          (2 / 10 * (P.ub i - P.lb i) - -(2 / 10 * (P.ub i - P.lb i))) * xr.2 i + -(2 / 10 * (P.ub i - P.lb i)))),
          InRange P p.x ∧ ∀ i, |p.v i| ≤ 2 / 10 * (P.ub i - P.lb i) := by
        intro p hp
        obtain ⟨yr, hy, rfl⟩ := List.mem_map.1 hp
        rw [(evalParticle_fields _ _).1, (evalParticle_fields _ _).2.1]
        refine ⟨(hpop yr hy).1, fun i => ?_⟩
        simp only [newParticle]
        obtain ⟨r0, r1⟩ := (hpop yr hy).2 i
        have a := mul_nonneg (hrange i) r0
        have b := mul_le_mul_of_nonneg_left r1 (hrange i)
        rw [abs_le]
        constructor <;> linarith
      refine ⟨by simp [updateBest], hub _ (hpop xr hxr).1 (fun p hp => (hparts p hp).1), hparts, fun i => ⟨rfl, hrange i, le_refl _⟩⟩
  exact ⟨hI.2.1, hI.2.2.1⟩

/-- C26, monotonicity: once a point with sum of violations within the tolerance is recorded, the record stays within the tolerance and
    its objective value never increases, whatever happens in the rest of the run. -/
theorem C26_monotone (P : PsoProb K n) (dss : List (List (Draw K n))) (s : Swarm K n) (t f : K) (ht : s.bestScv = some t) (htol : t ≤ gTol)
    (hf : s.bestF = some f) :
    ∃ t' f', (psoLoop P dss s).bestScv = some t' ∧ t' ≤ gTol ∧ (psoLoop P dss s).bestF = some f' ∧ f' ≤ f := by
  have key : ∀ (dss : List (List (Draw K n))) (s : Swarm K n), Rec s.bestScv s.bestF f → Rec (psoLoop P dss s).bestScv (psoLoop P dss s).bestF f := by
    intro dss
    induction dss with
    | nil => intro s h; exact h
    | cons ds dss ih =>
      intro s h
      have hp : Rec (psoPass P ds s).bestScv (psoPass P ds s).bestF f := recordAll_keeps _ ⟨s.bestX, s.bestF, s.bestScv, false⟩ f h
      simp only [psoLoop]
      split
      · exact hp
      · refine ih _ ?_
        rw [(reduceInertia_parts _).2.2.1, (reduceInertia_parts _).2.2.2]
        exact hp
  exact key dss s ⟨t, f, ht, htol, hf, le_refl _⟩

/-- C26, meaning of the record: in a run, a recorded best has the objective value and the sum of violations of its own point, which is
    within the tolerance, and no particle of the swarm within the tolerance is better. -/
theorem C26_record (P : PsoProb K n) (c1 c2 w : K) (pop : List ((Fin n → K) × (Fin n → K))) (s0 : Swarm K n)
    (h0 : initSwarm P c1 c2 w pop = .ok s0) (dss : List (List (Draw K n))) (hd : ValidDraws pop.length dss) :
    (∀ t, (psoLoop P dss s0).bestScv = some t →
      t ≤ gTol ∧ t = P.scv (psoLoop P dss s0).bestX ∧ (psoLoop P dss s0).bestF = some (P.obj (psoLoop P dss s0).bestX)) ∧
    (∀ p ∈ (psoLoop P dss s0).parts, P.scv p.x ≤ gTol →
      ∃ t f, (psoLoop P dss s0).bestScv = some t ∧ (psoLoop P dss s0).bestF = some f ∧ f ≤ P.obj p.x) := by
  have hI : (psoLoop P dss s0).parts.length = pop.length ∧ RecordInv P (psoLoop P dss s0) := by
    refine psoLoop_induct P (fun s => s.parts.length = pop.length ∧ RecordInv P s) pop.length (fun s h => h.1) ?_ ?_ dss hd s0 ?_
    · rintro s ds ⟨i1, i2⟩ hl hv
      refine ⟨by rw [psoPass_length, i1], updateBest_inv P _ ?_ i2.own⟩
      intro p hp
      obtain ⟨d, _, q, _, rfl⟩ := advanceAll_mem P s ds s.parts (by rw [hl, i1]) p hp
      exact advance_eval P s d q
    · rintro s ⟨i1, i2⟩
      obtain ⟨e1, e2, e3, e4⟩ := reduceInertia_parts s
      exact ⟨by rw [e1, i1], by rw [e1]; exact i2.eval, by rw [e2, e3, e4]; exact i2.own, by rw [e1, e3, e4]; exact i2.best⟩
    · obtain ⟨x0, _, rfl⟩ := initSwarm_spec h0
      refine ⟨by simp [updateBest], updateBest_inv P _ ?_ (by simp)⟩
      intro p hp
      obtain ⟨yr, hy, rfl⟩ := List.mem_map.1 hp
      obtain ⟨e1, _, e3, e4⟩ := evalParticle_fields P (newParticle yr.1 fun i =>
          (2 / 10 * (P.ub i - P.lb i) - -(2 / 10 * (P.ub i - P.lb i))) * yr.2 i + -(2 / 10 * (P.ub i - P.lb i)))
      rw [e1, e3, e4]
      exact ⟨rfl, rfl⟩
  obtain ⟨_, hI⟩ := hI
  refine ⟨hI.own, fun p hp hs => ?_⟩
  obtain ⟨t, f, e1, _, e3, e4⟩ := hI.best p hp (by rw [(hI.eval p hp).1]; exact hs)
  exact ⟨t, f, e1, e3, by rw [(hI.eval p hp).2] at e4; exact e4⟩

/-- C26 (partial), feasibility: for problems without '>' constraints a sum of violations within the tolerance means that no constraint is
    violated by more than the tolerance. Missing: '>' constraints, where it is false (`C26_violated_gt`). -/
theorem C26_feasible_partial (P : PsoProb K n) (x : Fin n → K) (hg : ∀ c ∈ P.cons, c.1 ≠ .gt) (hs : P.scv x ≤ gTol) :
    ∀ c ∈ P.cons, violation c.1 (c.2 x) ≤ gTol := by
  intro c hc
  unfold PsoProb.scv exactPenalty at hs
  have hn : ∀ a ∈ (P.cons.map fun c => (⟨c.1, c.2 x, 0⟩ : PCon K)), 0 ≤ exactCon 1 a := by
    intro a ha
    obtain ⟨b, hb, rfl⟩ := List.mem_map.1 ha
    exact exactCon_nonneg zero_le_one (hg b hb)
  have h1 := le_sum_map hn (List.mem_map.2 ⟨c, hc, rfl⟩)
  have h2 := sum_map_nonneg (l := List.ofFn fun i => (⟨P.lb i, P.ub i, x i, 0, 0⟩ : PVar K)) fun v _ => exactVar_nonneg zero_le_one v
  have h3 : exactCon 1 (⟨c.1, c.2 x, 0⟩ : PCon K) = violation c.1 (c.2 x) := by
    have := hg c hc
    cases ht : c.1 <;> simp_all [exactCon, violation]
  rw [h3] at h1
  linarith

/-- C26, personal bests: moving and evaluating a particle never makes its best point worse: as long as that is infeasible its sum of
    violations never increases, and once it is feasible it stays so and its objective value never increases. -/
theorem C26_personal (P : PsoProb K n) (s : Swarm K n) (d : Draw K n) (p : Particle K n) (t f : K) (ht : p.bestScv = some t)
    (hf : p.bestF = some f) :
    ∃ t' f', (advance P s d p).bestScv = some t' ∧ (advance P s d p).bestF = some f' ∧
      (gTol < t → t' ≤ t) ∧ (t ≤ gTol → t' ≤ gTol ∧ f' ≤ f) := by
  unfold advance
  have hq : (Particle.move P (craziness s d (updateVelocity s d p))).bestScv = some t ∧
      (Particle.move P (craziness s d (updateVelocity s d p))).bestF = some f := by
    obtain ⟨_, _, e3, e4⟩ := move_fields P (craziness s d (updateVelocity s d p))
    rw [e3, e4]
    unfold craziness updateVelocity
    split <;> exact ⟨ht, hf⟩
  generalize Particle.move P (craziness s d (updateVelocity s d p)) = q at hq
  obtain ⟨h1, h2⟩ := hq
  unfold evalParticle
  simp only [h1, h2, infGt, leInf, decide_eq_true_eq, Bool.and_eq_true]
  by_cases hgt : t > gTol
  · rw [if_pos hgt]
    split
    · rename_i hle
      exact ⟨_, _, rfl, rfl, fun _ => hle, fun h => absurd hgt (not_lt.2 h)⟩
    · exact ⟨t, f, rfl, rfl, fun _ => le_refl _, fun h => ⟨h, le_refl _⟩⟩
  · rw [if_neg hgt]
    split
    · rename_i hle
      exact ⟨_, _, rfl, rfl, fun h => absurd h hgt, fun _ => hle⟩
    · exact ⟨t, f, rfl, rfl, fun _ => le_refl _, fun h => ⟨h, le_refl _⟩⟩

/-! ### C51: allowed values -/

/-- C51 (partial): if the first variable is discrete, every particle that has moved has all its components among the values of the
    first variable. Missing: problems whose other variables have other values, and
    integer variables (`C26_violated_discrete`, `C51_violated_int`). -/
theorem C51_partial (P : PsoProb K n) (d0 : K × List K) (hd : P.disc = some d0) (s : Swarm K n) (ds : List (Draw K n))
    (hl : ds.length = s.parts.length) :
    ∀ p ∈ (psoPass P ds s).parts, ∀ i, p.x i ∈ d0.1 :: d0.2 := by
  intro p hp i
  obtain ⟨d, _, q, _, rfl⟩ := advanceAll_mem P s ds s.parts hl p hp
  unfold advance
  rw [(evalParticle_fields _ _).1]
  unfold Particle.move
  rw [hd]
  exact nearest_mem _ _ _

/-! ### Example and violations -/

/-- Minimise `x` on `[0, 10]` with `3 - x ≤ 0`. -/
def exPso : PsoProb ℚ 1 := ⟨fun _ => 0, fun _ => 10, none, fun x => x 0, [(.lt, fun x => 3 - x 0)]⟩

/-- a run of one iteration from `x = 5` and `x = 8`, at rest: the second particle is attracted by the first -/
example : (∀ i, exPso.lb i ≤ exPso.ub i) ∧ CommonValues exPso ∧
    (∀ xr ∈ [((fun _ => 5, fun _ => 1 / 2) : (Fin 1 → ℚ) × (Fin 1 → ℚ)), (fun _ => 8, fun _ => 1 / 2)],
      InRange exPso xr.1 ∧ ∀ i, 0 ≤ xr.2 i ∧ xr.2 i ≤ 1) ∧
    ∃ s0, initSwarm exPso 2 2 (9 / 10) [(fun _ => 5, fun _ => 1 / 2), (fun _ => 8, fun _ => 1 / 2)] = .ok s0 ∧
      s0.bestF = some 5 ∧ s0.bestScv = some 0 ∧
      ((psoLoop exPso [[⟨0, 0, true, fun _ => 1 / 4⟩, ⟨0, 1 / 2, false, fun _ => 0⟩]] s0).parts.map fun p => p.x 0) = [4, 6] ∧
      (psoLoop exPso [[⟨0, 0, true, fun _ => 1 / 4⟩, ⟨0, 1 / 2, false, fun _ => 0⟩]] s0).bestF = some 4 := by
  refine ⟨fun i => by norm_num [exPso], fun d h => by simp [exPso] at h, ?_, _, rfl, ?_, ?_, ?_, ?_⟩
  · intro xr h
    simp at h
    rcases h with rfl | rfl <;> norm_num [InRange, exPso]
  all_goals norm_num [exPso, updateBest, recordPart, infGt, leInf, ltInf, evalParticle, newParticle, PsoProb.scv, exactPenalty, exactCon, exactVar,
      XLB, XUB, gTol, Particle.updateBest, leastScv, psoLoop, psoPass, advanceAll, advance, Particle.move, craziness, updateVelocity,
      reduceInertia]

/-- C26 violated: a discrete problem is rounded to the values of the first variable, here 100 and 200, whatever the other variable's bounds:
    after one move the second variable, bounded by 10, is at 100. -/
theorem C26_violated_discrete :
    ∃ (P : PsoProb ℚ 2) (s : Swarm ℚ 2) (ds : List (Draw ℚ 2)), (∀ i, P.lb i ≤ P.ub i) ∧ (∀ p ∈ s.parts, InRange P p.x) ∧
      (∀ d ∈ ds, ValidDraw d) ∧ ds.length = s.parts.length ∧ ∃ p ∈ (psoPass P ds s).parts, ¬ InRange P p.x := by
  let P : PsoProb ℚ 2 := ⟨![100, 0], ![200, 10], some (100, [200]), fun _ => 0, []⟩
  let p0 : Particle ℚ 2 := ⟨![100, 5], fun _ => 0, ![100, 5], none, none, 0, 0⟩
  refine ⟨P, ⟨2, 2, 1, fun _ => -1, fun _ => 1, [p0], ![100, 5], none, none, 0, 0⟩, [⟨0, 0, false, fun _ => 0⟩], ?_, ?_, ?_, rfl, ?_⟩
  · intro i; fin_cases i <;> norm_num [P]
  · intro p hp; simp at hp; subst hp; intro i; fin_cases i <;> norm_num [P, p0]
  · intro d hd; simp at hd; subst hd; intro i; norm_num
  · refine ⟨_, List.mem_cons_self .., fun h => ?_⟩
    have h1 := (h 1).2
    unfold advance at h1
    rw [(evalParticle_fields _ _).1] at h1
    norm_num [Particle.move, P, nearest, craziness, updateVelocity, p0] at h1

/-- C26 violated: with a '>' constraint the sum of violations is negative at a violating point, which is recorded as feasible:
    minimising `x` on `[0, 10]` with `x - 5 ≥ 0`, the swarm records `x = 1`. -/
theorem C26_violated_gt :
    ∃ (P : PsoProb ℚ 1) (s : Swarm ℚ 1) (g : (Fin 1 → ℚ) → ℚ), P.cons = [(.gt, g)] ∧
      initSwarm P 2 2 (9 / 10) [(fun _ => 1, fun _ => 0), (fun _ => 7, fun _ => 0)] = .ok s ∧
      (∃ t, s.bestScv = some t ∧ t ≤ gTol) ∧ violation .gt (g s.bestX) = 4 := by
  refine ⟨⟨fun _ => 0, fun _ => 10, none, fun x => x 0, [(.gt, fun x => x 0 - 5)]⟩, _, fun x => x 0 - 5, rfl, rfl, ⟨-4, ?_, ?_⟩, ?_⟩
  all_goals norm_num [updateBest, recordPart, infGt, leInf, ltInf, evalParticle, newParticle, PsoProb.scv, exactPenalty, exactCon, exactVar,
      XLB, XUB, gTol, Particle.updateBest, leastScv, violation]

/-- C51 violated: for integer (or binary, or index) variables, where `disc` is `none`, positions are not rounded: from `x = 3` with velocity `1/2`
    the particle moves to `7/2`. -/
theorem C51_violated_int :
    ∃ (P : PsoProb ℚ 1) (p : Particle ℚ 1), P.disc = none ∧ (∃ z : ℤ, p.x 0 = z) ∧ ¬ ∃ z : ℤ, (Particle.move P p).x 0 = z := by
  refine ⟨⟨fun _ => 0, fun _ => 10, none, fun x => x 0, []⟩, ⟨fun _ => 3, fun _ => 1 / 2, fun _ => 3, none, none, 0, 0⟩, rfl, ⟨3, by norm_num⟩, ?_⟩
  rintro ⟨z, hz⟩
  norm_num [Particle.move] at hz
  have h2 : (7 : ℤ) = 2 * z := by
    have : (7 : ℚ) = 2 * z := by linarith
    exact_mod_cast this
  omega

end Metku.Opt
