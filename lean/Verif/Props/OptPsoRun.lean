import Verif.Props.OptPso

/-!
# Memory of the particles, start and end of a swarm run (C26)

What each particle remembers is the value at the point it remembers, the start attracts to the least infeasible particle, and the
count of idle iterations that ends a run is reset by every improvement.
-/

set_option linter.unusedSectionVars false

namespace Metku.Opt

variable {K : Type} [Field K] [LinearOrder K] [IsStrictOrderedRing K] {n : ℕ}

/-- The remembered values belong to the remembered point, which is feasible if the present one is, then with at most its objective
    value, and else at most as infeasible as the present one. -/
def OwnBest (P : PsoProb K n) (p : Particle K n) : Prop :=
  p.bestScv = some (P.scv p.best) ∧ p.bestF = some (P.obj p.best) ∧ P.scv p.best ≤ max gTol (P.scv p.x) ∧
    (P.scv p.x ≤ gTol → P.obj p.best ≤ P.obj p.x)

theorem evalParticle_ownBest (P : PsoProb K n) (p : Particle K n)
    (h : (p.bestScv = none ∧ p.bestF = none) ∨ (p.bestScv = some (P.scv p.best) ∧ p.bestF = some (P.obj p.best))) :
    OwnBest P (evalParticle P p) := by
  have hu : ∀ q : Particle K n, q.scv = P.scv q.x → q.fval = P.obj q.x → OwnBest P q.updateBest := by
    intro q h1 h2
    refine ⟨?_, ?_, ?_, ?_⟩
    · simp [Particle.updateBest, h1]
    · simp [Particle.updateBest, h2]
    · simp [Particle.updateBest]
    · intro _; simp [Particle.updateBest]
  unfold evalParticle
  rcases h with ⟨h1, h2⟩ | ⟨h1, h2⟩
  · simp only [h1, h2, infGt, leInf, if_true]
    exact hu _ rfl rfl
  · simp only [h1, h2, infGt, leInf, decide_eq_true_eq, Bool.and_eq_true]
    by_cases hgt : P.scv p.best > gTol
    · rw [if_pos hgt]
      split
      · exact hu _ rfl rfl
      · rename_i hle
        refine ⟨rfl, rfl, le_max_of_le_right (not_le.1 hle).le, fun hx => ?_⟩
        exact absurd (hx.trans hgt.le) hle
    · rw [if_neg hgt]
      split
      · exact hu _ rfl rfl
      · rename_i hle
        refine ⟨rfl, rfl, le_max_of_le_left (not_lt.1 hgt), fun hx => ?_⟩
        by_contra hc
        exact hle ⟨hx, (not_le.1 hc).le⟩

/-- C26, meaning of the personal bests: throughout a run, whatever the random numbers, every particle remembers the objective value and
    the sum of violations of the point it remembers; this point is feasible if the present one is, and then no worse, and else no more
    infeasible. -/
theorem C26_personal_own (P : PsoProb K n) (c1 c2 w : K) (pop : List ((Fin n → K) × (Fin n → K))) (s0 : Swarm K n)
    (h0 : initSwarm P c1 c2 w pop = .ok s0) (dss : List (List (Draw K n))) (hd : ValidDraws pop.length dss) :
    ∀ p ∈ (psoLoop P dss s0).parts, p.bestScv = some (P.scv p.best) ∧ p.bestF = some (P.obj p.best) ∧
      P.scv p.best ≤ max gTol (P.scv p.x) ∧ (P.scv p.x ≤ gTol → P.obj p.best ≤ P.obj p.x) := by
  have hI : (psoLoop P dss s0).parts.length = pop.length ∧ ∀ p ∈ (psoLoop P dss s0).parts, OwnBest P p := by
    refine psoLoop_induct P (fun s => s.parts.length = pop.length ∧ ∀ p ∈ s.parts, OwnBest P p) pop.length (fun s h => h.1) ?_ ?_ dss hd s0 ?_
    · rintro s ds ⟨i1, i2⟩ hl hv
      refine ⟨by rw [psoPass_length, i1], ?_⟩
      intro p hp
      obtain ⟨d, _, q, hq, rfl⟩ := advanceAll_mem P s ds s.parts (by rw [hl, i1]) p hp
      refine evalParticle_ownBest P _ (Or.inr ?_)
      obtain ⟨_, e2, e3, e4⟩ := move_fields P (craziness s d (updateVelocity s d q))
      rw [e2, e3, e4]
      obtain ⟨j1, j2, _⟩ := i2 q hq
      unfold craziness updateVelocity
      split <;> exact ⟨j1, j2⟩
    · rintro s ⟨i1, i2⟩
      rw [(reduceInertia_parts s).1]
      exact ⟨i1, i2⟩
    · obtain ⟨x0, _, rfl⟩ := initSwarm_spec h0
      refine ⟨by simp [updateBest], ?_⟩
      intro p hp
      obtain ⟨yr, hy, rfl⟩ := List.mem_map.1 hp
      exact evalParticle_ownBest P _ (Or.inl ⟨rfl, rfl⟩)
  exact hI.2

theorem leastScv_le (p0 : Particle K n) (ps : List (Particle K n)) : ∀ p ∈ p0 :: ps, (leastScv p0 ps).scv ≤ p.scv := by
  unfold leastScv
  induction ps generalizing p0 with
  | nil => simp
  | cons p ps ih =>
    intro q hq
    rw [List.foldl_cons]
    have h := ih (if p.scv < p0.scv then p else p0)
    have hh := h _ (List.mem_cons_self ..)
    rcases List.mem_cons.1 hq with rfl | hq
    · refine hh.trans ?_
      split
      · rename_i hlt; exact hlt.le
      · exact le_refl _
    · rcases List.mem_cons.1 hq with rfl | hq
      · refine hh.trans ?_
        split
        · exact le_refl _
        · rename_i hlt; exact not_lt.1 hlt
      · exact h q (List.mem_cons_of_mem _ hq)

/-- C26, start without a feasible particle: nothing is recorded and the swarm is attracted to the position of a particle with the
    smallest sum of violations. -/
theorem C26_start_infeasible (P : PsoProb K n) (c1 c2 w : K) (pop : List ((Fin n → K) × (Fin n → K))) (s0 : Swarm K n)
    (h0 : initSwarm P c1 c2 w pop = .ok s0) (hf : ∀ xr ∈ pop, gTol < P.scv xr.1) :
    s0.bestScv = none ∧ s0.bestF = none ∧ (∃ xr ∈ pop, s0.bestX = xr.1) ∧ ∀ xr ∈ pop, P.scv s0.bestX ≤ P.scv xr.1 := by
  unfold initSwarm at h0
  simp only at h0
  split at h0
  · cases h0
  · rename_i p0 ps hp
    cases h0
    have hmap : ∀ p ∈ p0 :: ps, ∃ xr ∈ pop, p.x = xr.1 ∧ p.scv = P.scv xr.1 := by
      intro p hm
      rw [← hp] at hm
      obtain ⟨xr, hxr, rfl⟩ := List.mem_map.1 hm
      obtain ⟨e1, _, e3, _⟩ := evalParticle_fields P (newParticle xr.1 fun i =>
        (2 / 10 * (P.ub i - P.lb i) - -(2 / 10 * (P.ub i - P.lb i))) * xr.2 i + -(2 / 10 * (P.ub i - P.lb i)))
      exact ⟨xr, hxr, by rw [e1]; rfl, by rw [e3]; rfl⟩
    obtain ⟨x1, hx1, e1, e2⟩ := hmap _ (leastScv_mem p0 ps)
    have hrec : ∀ r : Record K n, (p0 :: ps).foldl recordPart r = r ∨ ∃ p ∈ p0 :: ps, p.scv ≤ gTol := by
      intro r
      by_cases hex : ∃ p ∈ p0 :: ps, p.scv ≤ gTol
      · exact Or.inr hex
      · refine Or.inl ?_
        push Not at hex
        generalize p0 :: ps = l at hex
        induction l with
        | nil => rfl
        | cons p l ih =>
          have hpn := not_le.2 (hex p (by simp))
          rw [List.foldl_cons, show recordPart r p = r by unfold recordPart; simp [hpn]]
          exact ih fun q hq => hex q (by simp [hq])
    rcases hrec ⟨(leastScv p0 ps).x, none, none, false⟩ with h | ⟨p, hpm, hle⟩
    · rw [← hp] at h
      simp only [updateBest, h]
      refine ⟨trivial, trivial, ⟨x1, hx1, e1⟩, ?_⟩
      intro xr hxr
      rw [e1, ← e2]
      have hm : evalParticle P (newParticle xr.1 fun i =>
        (2 / 10 * (P.ub i - P.lb i) - -(2 / 10 * (P.ub i - P.lb i))) * xr.2 i + -(2 / 10 * (P.ub i - P.lb i))) ∈ p0 :: ps := by
        rw [← hp]; exact List.mem_map.2 ⟨xr, hxr, rfl⟩
      have := leastScv_le p0 ps _ hm
      rwa [(evalParticle_fields _ _).2.2.1] at this
    · obtain ⟨xr, hxr, _, e⟩ := hmap p hpm
      rw [e] at hle
      exact absurd hle (not_le.2 (hf xr hxr))

theorem recordAll_changed : ∀ (ps : List (Particle K n)) (r : Record K n),
    ((ps.foldl recordPart r).changed = true) ∨ (ps.foldl recordPart r = r) := by
  intro ps
  induction ps with
  | nil => intro r; exact Or.inr rfl
  | cons p ps ih =>
    intro r
    rw [List.foldl_cons]
    have hstep : recordPart r p = r ∨ (recordPart r p).changed = true := by
      unfold recordPart
      split_ifs <;> simp
    rcases ih (recordPart r p) with h | h
    · exact Or.inl h
    · rw [h]
      rcases hstep with e | e
      · exact Or.inr e
      · exact Or.inl e

/-- C26, end of a run: an iteration that changes the recorded best sets the count of idle iterations to zero, any other iteration raises
    it by one; and after an iteration that raised it no feasible particle is better than the feasible record. -/
theorem C26_idle (P : PsoProb K n) (ds : List (Draw K n)) (s : Swarm K n) :
    ((psoPass P ds s).bestX ≠ s.bestX ∨ (psoPass P ds s).bestF ≠ s.bestF ∨ (psoPass P ds s).bestScv ≠ s.bestScv →
      (psoPass P ds s).counter = 0) ∧
    ((psoPass P ds s).counter = 0 ∨ (psoPass P ds s).counter = s.counter + 1) ∧
    (∀ t f, s.bestScv = some t → t ≤ gTol → s.bestF = some f →
      (psoPass P ds s).counter = s.counter + 1 → ∀ p ∈ (psoPass P ds s).parts, p.scv ≤ gTol → f ≤ p.fval) := by
  set r0 : Record K n := ⟨s.bestX, s.bestF, s.bestScv, false⟩ with hr0
  have hc := recordAll_changed (advanceAll P s ds s.parts) r0
  refine ⟨?_, ?_, ?_⟩
  · intro h
    rcases hc with e | e
    · simp only [psoPass, updateBest, ← hr0, e, if_true]
    · exfalso
      simp only [psoPass, updateBest, ← hr0, e] at h
      simp [hr0] at h
  · simp only [psoPass, updateBest]
    split
    · exact Or.inl rfl
    · exact Or.inr rfl
  · intro t f h1 h2 h3 h4 p hp hs
    have hp' : p ∈ advanceAll P s ds s.parts := hp
    have hown := recordAll_own (advanceAll P s ds s.parts) r0 (fun t _ _ => ⟨f, h3⟩) p hp' hs
    rcases hc with e | e
    · exfalso
      simp only [psoPass, updateBest, ← hr0, e, if_true] at h4
      omega
    · rw [e] at hown
      obtain ⟨t', g, _, _, e3, e4⟩ := hown
      rw [show r0.f = some f from h3] at e3
      cases e3
      exact e4

/-- C26, length of a run: as many iterations as are asked for are done, unless the run ends with more than ten idle iterations after its last
    improvement; in particular a run of at most ten iterations is never cut short. -/
theorem C26_full_run (P : PsoProb K n) : ∀ (dss : List (List (Draw K n))) (s : Swarm K n),
    (psoLoop P dss s = dss.foldl (fun s ds => reduceInertia (psoPass P ds s)) s ∨ 10 < (psoLoop P dss s).counter) ∧
    (s.counter + dss.length ≤ 10 → psoLoop P dss s = dss.foldl (fun s ds => reduceInertia (psoPass P ds s)) s) := by
  have hr : ∀ s : Swarm K n, (reduceInertia s).counter = s.counter := by
    intro s; unfold reduceInertia; split <;> rfl
  intro dss
  induction dss with
  | nil => intro s; exact ⟨Or.inl rfl, fun _ => rfl⟩
  | cons ds dss ih =>
    intro s
    obtain ⟨i1, i2⟩ := ih (reduceInertia (psoPass P ds s))
    have hc := (C26_idle P ds s).2.1
    simp only [psoLoop, List.foldl_cons, List.length_cons]
    split
    · rename_i h10
      exact ⟨Or.inr h10, fun h => by omega⟩
    · refine ⟨i1, fun h => i2 ?_⟩
      rw [hr]
      omega

/-- two infeasible particles: the swarm starts towards the less infeasible one -/
example : ∃ s0, initSwarm exPso 1 1 1 [(fun _ => 1, fun _ => 1 / 2), (fun _ => 2, fun _ => 1 / 2)] = .ok s0 ∧
    (∀ xr ∈ [((fun _ => 1 : Fin 1 → ℚ), (fun _ => 1 / 2 : Fin 1 → ℚ)), (fun _ => 2, fun _ => 1 / 2)], gTol < exPso.scv xr.1) ∧
    s0.bestX 0 = 2 := by
  refine ⟨_, rfl, ?_, ?_⟩
  · intro xr hxr
    simp only [List.mem_cons, List.not_mem_nil, or_false] at hxr
    rcases hxr with rfl | rfl <;>
      norm_num [PsoProb.scv, exactPenalty, exPso, exactCon, exactVar, gTol, List.ofFn_succ, XLB, XUB]
  · norm_num [updateBest, recordPart, leastScv, evalParticle, newParticle, Particle.updateBest, PsoProb.scv, exactPenalty, exPso, exactCon,
      exactVar, gTol, infGt, leInf, ltInf, List.ofFn_succ, XLB, XUB]

end Metku.Opt
