import Verif.Props.FemGlobal

/-!
Concrete runs: a model that meets the hypotheses of C06/C07, and the witnesses of the violations
`C06_violation_stale` and `C13_violation`.
-/
namespace Metku.Fem

open Matrix

theorem run_ok {K : Type} [Field K] (m : Model K) (lc : Nat) {case : LoadCase} {p : Nat → K} {rem keep : List Nat}
    {u0 : List (List K)} (hc : m.loadcases lc = some case)
    (hp : globalLoad m.dofv m.elems m.loads case.load = .ok p)
    (hr : remDofs m.dofv m.supports case.support = .ok rem) (hk : keepDofs m.dofs rem = keep)
    (hu : m.u lc = some u0) (x : Fin keep.length → K)
    (hx : reducedK (globalStiffness m.dofv m.elems) keep *ᵥ x = fun a => p keep[a]) :
    ∃ sol : Fin keep.length → K,
      reducedK (globalStiffness m.dofv m.elems) keep *ᵥ sol = (fun a => p keep[a]) ∧
      staticsREM refSolve m lc = .ok { m with
        u := Function.update m.u lc (some (scatter m.dofv u0
          (List.ofFn fun a : Fin keep.length => (keep[a], sol a))))
        p := some [List.ofFn fun a : Fin keep.length => p keep[a]] } := by
  subst hk
  obtain ⟨y, hy, hy2⟩ := refSolve_some hx
  refine ⟨y, hy2, ?_⟩
  unfold staticsREM
  simp only [bind, Except.bind, hc, getOr, hp, hr]
  rw [hy]
  simp only [hu]
  rfl

/-- Pinned ends of the two bars. -/
def pins : List Support := [⟨0, 0, [0, 1]⟩, ⟨0, 2, [0, 1]⟩]

/-- Displacements of a fresh case. -/
def zeroU : List (List ℚ) := [[0, 0, 0], [0, 0, 0], [0, 0, 0]]

theorem twoBars_G (s u) : let G := globalStiffness (twoBars s u).dofv (twoBars s u).elems
    G (2, 2) = 1 ∧ G (2, 3) = 0 ∧ G (3, 2) = 0 ∧ G (3, 3) = 1 := by
  intro G
  have h1 : G (2, 2) = 0 + matNat (rodK2 1 1 1 1 0) 2 2 + matNat (rodK2 1 1 1 0 1) 0 0 := rfl
  have h2 : G (2, 3) = 0 + matNat (rodK2 1 1 1 1 0) 2 3 + matNat (rodK2 1 1 1 0 1) 0 1 := rfl
  have h3 : G (3, 2) = 0 + matNat (rodK2 1 1 1 1 0) 3 2 + matNat (rodK2 1 1 1 0 1) 1 0 := rfl
  have h4 : G (3, 3) = 0 + matNat (rodK2 1 1 1 1 0) 3 3 + matNat (rodK2 1 1 1 0 1) 1 1 := rfl
  rw [h1, h2, h3, h4]
  refine ⟨?_, ?_, ?_, ?_⟩ <;>
    simp [matNat, rodK2, rodT2, rodKloc, congrT, Matrix.mul_apply, Fin.sum_univ_succ]

/-- First analysis of the two bars: node 1 moves by (1, 1). -/
theorem twoBars_run : ∃ m1, linearStaticsREM refSolve (twoBars pins fun _ => some zeroU) 0 = .ok m1 ∧
    m1 = { twoBars pins (Function.update (fun _ => some zeroU) 0 (some [[0, 0, 0], [1, 1, 0], [0, 0, 0]]))
      with p := some [[1, 1]] } := by
  obtain ⟨g22, g23, g32, g33⟩ := twoBars_G pins fun _ => some zeroU
  obtain ⟨sol, hs, hrun⟩ := run_ok (twoBars pins fun _ => some zeroU) 0 (case := ⟨0, 0⟩) (rem := [0, 1, 4, 5])
    (keep := [2, 3]) (u0 := zeroU) (p := fancyAdd (fun _ => 0) [(2, 1 * 1), (3, 1 * 1)])
    rfl rfl rfl (by decide) rfl (fun _ => 1)
    (by
      ext a
      fin_cases a
      · simp [mulVec, dotProduct, Fin.sum_univ_succ, reducedK, g22, g23, fancyAdd]
      · simp [mulVec, dotProduct, Fin.sum_univ_succ, reducedK, g32, g33, fancyAdd])
  have e0 := congrFun hs 0
  have e1 := congrFun hs 1
  simp [mulVec, dotProduct, Fin.sum_univ_succ, reducedK, g22, g23, g32, g33, fancyAdd] at e0 e1
  refine ⟨_, ?_, rfl⟩
  unfold linearStaticsREM ensureNumbered
  rw [if_neg (by decide), hrun]
  have hp : (List.ofFn fun a : Fin [2, 3].length => fancyAdd (fun _ => (0 : ℚ)) [(2, 1 * 1), (3, 1 * 1)] [2, 3][a])
      = [1, 1] := by
    simp [fancyAdd]
  have hl : (List.ofFn fun a : Fin [2, 3].length => ([2, 3][a], sol a)) = [(2, 1), (3, 1)] := by
    simp [List.ofFn_succ, e0, e1]
  rw [hl, hp]
  rfl

/-- C06 violation: pin the two bars, analyse, then support node 1 in x and analyse again.  The second analysis
    succeeds, node 1 is supported in x, and the displacement reported for it is 1, not 0. -/
theorem C06_violation_stale : ∃ (m0 m1 m2 : Model ℚ),
    m0.u 0 = some zeroU ∧ linearStaticsREM refSolve m0 0 = .ok m1 ∧
    linearStaticsREM refSolve { m1 with supports := m1.supports ++ [⟨0, 1, [0]⟩] } 0 = .ok m2 ∧
    Supported m2.dofv m2.supports 0 2 ∧ entry m2.dofv (1, 0) = some 2 ∧
    ∃ u, m2.u 0 = some u ∧ entryU u (1, 0) = some 1 := by
  obtain ⟨m1, h1, rfl⟩ := twoBars_run
  let m : Model ℚ := { ({ twoBars pins (Function.update (fun _ => some zeroU) 0 (some [[0, 0, 0], [1, 1, 0], [0, 0, 0]]))
      with p := some [[1, 1]] } : Model ℚ) with supports := pins ++ [⟨0, 1, [0]⟩] }
  have g33 : globalStiffness m.dofv m.elems (3, 3) = 1 := (twoBars_G pins fun _ => some zeroU).2.2.2
  obtain ⟨sol, hs, hrun⟩ := run_ok m 0 (case := ⟨0, 0⟩) (rem := [0, 1, 4, 5, 2])
    (keep := [3]) (u0 := [[0, 0, 0], [1, 1, 0], [0, 0, 0]])
    (p := fancyAdd (fun _ => 0) [(2, 1 * 1), (3, 1 * 1)])
    rfl rfl rfl (by decide) rfl (fun _ => 1)
    (by
      ext a
      fin_cases a
      simp [mulVec, dotProduct, reducedK, g33, fancyAdd])
  have hrun' := (show linearStaticsREM refSolve m 0 = staticsREM refSolve m 0 from rfl).trans hrun
  refine ⟨_, _, _, rfl, h1, hrun', ?_, ?_⟩
  · exact ⟨⟨0, 1, [0]⟩, by simp [m, pins], rfl, 0, by simp, rfl⟩
  · have hl : (List.ofFn fun a : Fin [3].length => ([3][a], sol a)) = [(3, sol 0)] := by simp
    refine ⟨rfl, scatter m.dofv [[0, 0, 0], [1, 1, 0], [0, 0, 0]] (List.ofFn fun a => ([3][a], sol a)), rfl, ?_⟩
    rw [hl]
    rfl

/-- The hypotheses of `C06_partial` and `C07` are met by the two bars. -/
example : Numbered (twoBars pins fun _ => some zeroU).dofv 6 ∧
    SameShape (twoBars pins fun _ => some zeroU).dofv zeroU ∧
    ZeroAtSupports (twoBars pins fun _ => some zeroU) ⟨0, 0⟩ zeroU ∧
    ∃ m1, linearStaticsREM refSolve (twoBars pins fun _ => some zeroU) 0 = .ok m1 := by
  have hlt : ∀ ij : Nat × Nat, (entry (twoBars pins fun _ => some zeroU).dofv ij).isSome →
      ij.1 < 3 ∧ ij.2 < 3 := by
    rintro ⟨i, j⟩ h
    by_contra hcon
    rw [not_and_or] at hcon
    have hn : entry (twoBars pins fun _ => some zeroU).dofv (i, j) = none := by
      unfold entry twoBars
      rcases hcon with hi | hj
      · simp only [not_lt] at hi
        rw [List.getElem?_eq_none (by simpa using hi)]; rfl
      · simp only [not_lt] at hj
        match i with
        | 0 => simpa using hj
        | 1 => simpa using hj
        | 2 => simpa using hj
        | i + 3 => simp
    rw [hn] at h; cases h
  have hsh : ∀ i j, i < 3 → j < 3 → entryU zeroU (i, j) = some 0 := by
    intro i j hi hj
    interval_cases i <;> interval_cases j <;> rfl
  refine ⟨(C01 (K := ℚ) { twoBars [] (fun _ => none) with dofv := [freshDofs 2, freshDofs 2, freshDofs 2] }).1,
    ?_, ?_, ?_⟩
  · intro ij h
    obtain ⟨hi, hj⟩ := hlt ij h
    rw [hsh _ _ hi hj]; rfl
  · intro ij d hd _
    obtain ⟨hi, hj⟩ := hlt ij (by rw [hd]; rfl)
    exact hsh _ _ hi hj
  · obtain ⟨m1, h, _⟩ := twoBars_run
    exact ⟨m1, h⟩

/-- Regularity hypothesis of `C07` for the two bars. -/
example : let m := twoBars pins fun _ => some zeroU
    ∀ v : Nat → ℚ, (∀ d, Supported m.dofv m.supports 0 d → v d = 0) →
      (∀ r < m.dofs, ¬ Supported m.dofv m.supports 0 r →
        ∑ c ∈ Finset.range m.dofs, globalStiffness m.dofv m.elems (r, c) * v c = 0) →
      ∀ d < m.dofs, v d = 0 := by
  intro m v hs hr d hd
  have g := twoBars_G pins fun _ => some zeroU
  have hrem : remDofs m.dofv m.supports 0 = .ok [0, 1, 4, 5] := rfl
  have s0 : v 0 = 0 := hs 0 ((mem_remDofs hrem 0).mp (by simp))
  have s1 : v 1 = 0 := hs 1 ((mem_remDofs hrem 1).mp (by simp))
  have s4 : v 4 = 0 := hs 4 ((mem_remDofs hrem 4).mp (by simp))
  have s5 : v 5 = 0 := hs 5 ((mem_remDofs hrem 5).mp (by simp))
  have e2 := hr 2 (by decide) (fun h => by have := (mem_remDofs hrem 2).mpr h; simp at this)
  have e3 := hr 3 (by decide) (fun h => by have := (mem_remDofs hrem 3).mpr h; simp at this)
  have hdofs : m.dofs = 6 := rfl
  rw [hdofs] at e2 e3 hd
  simp only [Finset.sum_range_succ, Finset.sum_range_zero, s0, s1, s4, s5, mul_zero, zero_add, add_zero] at e2 e3
  have g22 : globalStiffness m.dofv m.elems (2, 2) = 1 := g.1
  have g23 : globalStiffness m.dofv m.elems (2, 3) = 0 := g.2.1
  have g32 : globalStiffness m.dofv m.elems (3, 2) = 0 := g.2.2.1
  have g33 : globalStiffness m.dofv m.elems (3, 3) = 1 := g.2.2.2
  rw [g22, g23] at e2
  rw [g32, g33] at e3
  simp at e2 e3
  interval_cases d <;> assumption

/-- C13 violation: analyse the two bars, add a beam between nodes 0 and 1, analyse again.  The second analysis
    succeeds with the rotation of node 1 still inactive, although the new beam has bending stiffness there; the
    numbering of the current model would have eight unknowns instead of six. -/
theorem C13_violation : ∃ (m0 m1 m2 : Model ℚ) (k : Matrix (Fin 6) (Fin 6) ℚ),
    beamK 1 1 1 1 1 0 [] = .ok k ∧
    linearStaticsREM refSolve m0 0 = .ok m1 ∧
    linearStaticsREM refSolve { m1 with elems := m1.elems ++ [⟨.beam2, 0, 1, matNat k⟩] } 0 = .ok m2 ∧
    entry m2.dofv (1, 2) = some (-1) ∧ m2.dofs = 6 ∧ (nodalDofs m2).dofs = 8 ∧
    (∃ j, entry (nodalDofs m2).dofv (1, 2) = some j ∧ 0 ≤ j) := by
  obtain ⟨m1, h1, rfl⟩ := twoBars_run
  have hk : beamK (1 : ℚ) 1 1 1 1 0 [] = .ok (congrT (beamT 1 0) (beamKloc 1 1 1 1)) := by
    simp [beamK, beamKlocRel, condense, bind, Except.bind, pure, Except.pure]
  set k := congrT (beamT 1 0) (beamKloc (1 : ℚ) 1 1 1) with hkk
  let m : Model ℚ := { ({ twoBars pins (Function.update (fun _ => some zeroU) 0 (some [[0, 0, 0], [1, 1, 0], [0, 0, 0]]))
      with p := some [[1, 1]] } : Model ℚ) with
      elems := (twoBars pins fun _ => some zeroU).elems ++ [⟨.beam2, 0, 1, matNat k⟩] }
  have h22 : globalStiffness m.dofv m.elems (2, 2) =
    0 + matNat (rodK2 1 1 1 1 0) 2 2 + matNat (rodK2 1 1 1 0 1) 0 0 + matNat k 3 3 := rfl
  have h23 : globalStiffness m.dofv m.elems (2, 3) =
    0 + matNat (rodK2 1 1 1 1 0) 2 3 + matNat (rodK2 1 1 1 0 1) 0 1 + matNat k 3 4 := rfl
  have h32 : globalStiffness m.dofv m.elems (3, 2) =
    0 + matNat (rodK2 1 1 1 1 0) 3 2 + matNat (rodK2 1 1 1 0 1) 1 0 + matNat k 4 3 := rfl
  have h33 : globalStiffness m.dofv m.elems (3, 3) =
    0 + matNat (rodK2 1 1 1 1 0) 3 3 + matNat (rodK2 1 1 1 0 1) 1 1 + matNat k 4 4 := rfl
  have g22 : globalStiffness m.dofv m.elems (2, 2) = 2 := by
    rw [h22]
    simp [matNat, rodK2, rodT2, rodKloc, congrT, Matrix.mul_apply, Fin.sum_univ_succ, hkk, beamT, beamKloc]
    norm_num
  have g23 : globalStiffness m.dofv m.elems (2, 3) = 0 := by
    rw [h23]
    simp [matNat, rodK2, rodT2, rodKloc, congrT, Matrix.mul_apply, Fin.sum_univ_succ, hkk, beamT, beamKloc]
  have g32 : globalStiffness m.dofv m.elems (3, 2) = 0 := by
    rw [h32]
    simp [matNat, rodK2, rodT2, rodKloc, congrT, Matrix.mul_apply, Fin.sum_univ_succ, hkk, beamT, beamKloc]
  have g33 : globalStiffness m.dofv m.elems (3, 3) = 13 := by
    rw [h33]
    simp [matNat, rodK2, rodT2, rodKloc, congrT, Matrix.mul_apply, Fin.sum_univ_succ, hkk, beamT, beamKloc]
    norm_num
  obtain ⟨sol, hs, hrun⟩ := run_ok m 0 (case := ⟨0, 0⟩) (rem := [0, 1, 4, 5])
    (keep := [2, 3]) (u0 := [[0, 0, 0], [1, 1, 0], [0, 0, 0]])
    (p := fancyAdd (fun _ => 0) [(2, 1 * 1), (3, 1 * 1)])
    rfl rfl rfl (by decide) rfl ![1 / 2, 1 / 13]
    (by
      ext a
      fin_cases a
      · simp [mulVec, dotProduct, Fin.sum_univ_succ, reducedK, g22, g23, fancyAdd]
      · simp [mulVec, dotProduct, Fin.sum_univ_succ, reducedK, g32, g33, fancyAdd])
  have hrun' := (show linearStaticsREM refSolve m 0 = staticsREM refSolve m 0 from rfl).trans hrun
  refine ⟨_, _, _, k, hk, h1, hrun', ?_⟩
  · exact ⟨rfl, rfl, rfl, 5, rfl, by decide⟩

end Metku.Fem
