import Verif.Props.FemElements
import Verif.Lemmas.Solve
import Verif.Lemmas.Renumber
import Mathlib.Tactic.NormNum

/-!
Properties of the whole frame model: C01, C02, C03 (global part), C05, C06, C07, C13.
-/
namespace Metku.Fem

open Matrix

/-! ### C01 numbering -/

/-- Specification: the directions (0, 1, 2: displacements, 3, 4, 5: rotations in space; 0, 1: displacements, 2: rotation in the
    plane) in which an element connects its nodes. -/
def Needs : Kind → Nat → Prop
  | .rod 3, j => j = 0 ∨ j = 1 ∨ j = 2
  | .rod _, j => j = 0 ∨ j = 1
  | .beam2, j => j = 0 ∨ j = 1 ∨ j = 2
  | .beam3, j => j = 0 ∨ j = 1 ∨ j = 2 ∨ j = 3 ∨ j = 4 ∨ j = 5

theorem lead_iff (k : Kind) (j : Nat) : j < k.lead ↔ Needs k j := by
  unfold Kind.lead
  cases k with
  | rod d =>
    by_cases h : d = 3
    · subst h; simp only [if_true, Needs]; omega
    · have : Needs (.rod d) j ↔ j = 0 ∨ j = 1 := by
        unfold Needs
        split
        · rename_i h'; cases h'; exact absurd rfl h
        · exact Iff.rfl
        · rename_i h'; cases h'
        · rename_i h'; cases h'
      simp only [h, if_false, this]; omega
  | beam2 => simp only [Needs]; omega
  | beam3 => simp only [Needs]; omega

/-- C01: after `nodal_dofs()` the active numbers are `0 .. dofs-1`, each on exactly one
    (node, direction); shapes are unchanged; a direction is active exactly when it was active before or an
    element of the model activates it, and otherwise its entry is left as it was (`-1` for fresh nodes). -/
theorem C01 {K : Type} (m : Model K) :
    Numbered (nodalDofs m).dofv (nodalDofs m).dofs ∧
    (∀ i : Nat, ((nodalDofs m).dofv[i]?).map List.length = (m.dofv[i]?).map List.length) ∧
    (∀ i j d, entry m.dofv (i, j) = some d →
      ∃ d', entry (nodalDofs m).dofv (i, j) = some d' ∧
        (0 ≤ d' ↔ 0 ≤ d ∨ ∃ e ∈ m.elems, (e.n1 = i ∨ e.n2 = i) ∧ Needs e.kind j) ∧
        (d' < 0 → d' = d)) := by
  simp only [← lead_iff]
  refine ⟨⟨?_, ?_⟩, ?_, ?_⟩
  · intro ij k h hk
    exact (numberNodes_low _ 0 ij k h hk).2
  · intro k hk
    exact numberNodes_unique _ 0 k (Nat.zero_le _) hk
  · intro i
    unfold nodalDofs
    rw [numberNodes_node_length, initAll_node_length]
  · intro i j d hd
    have h1 : entry (m.elems.foldl initElem m.dofv) (i, j) =
        some (if ∃ e ∈ m.elems, (e.n1 = i ∨ e.n2 = i) ∧ j < e.kind.lead then 0 else d) := by
      rw [entry_initAll, hd]; rfl
    obtain ⟨d', h2, h3, h4⟩ := numberNodes_entry _ 0 i j _ h1
    refine ⟨d', h2, ?_, ?_⟩
    · by_cases hact : ∃ e ∈ m.elems, (e.n1 = i ∨ e.n2 = i) ∧ j < e.kind.lead
      · rw [if_pos hact] at h3
        have := h3 (le_refl _)
        constructor
        · intro _; exact Or.inr hact
        · intro _; omega
      · rw [if_neg hact] at h3 h4
        constructor
        · intro h0
          by_contra hcon
          push Not at hcon
          have := h4 hcon.1
          omega
        · rintro (h0 | h0)
          · have := h3 h0; omega
          · exact absurd h0 hact
    · intro hneg
      by_cases hact : ∃ e ∈ m.elems, (e.n1 = i ∨ e.n2 = i) ∧ j < e.kind.lead
      · rw [if_pos hact] at h3
        have := h3 (le_refl _)
        omega
      · rw [if_neg hact] at h3 h4
        by_cases h0 : 0 ≤ d
        · have := h3 h0; omega
        · exact h4 (by omega)

/-- A portal frame braced by a bar to an otherwise unconnected node: the bar end has no rotation. -/
def demoModel : Model ℚ where
  dofv := [freshDofs 2, freshDofs 2, freshDofs 2, freshDofs 2]
  u := fun _ => none
  elems := [⟨.beam2, 0, 1, fun _ _ => 0⟩, ⟨.beam2, 1, 2, fun _ _ => 0⟩, ⟨.rod 2, 0, 3, fun _ _ => 0⟩]
  supports := []
  loads := []
  loadcases := fun _ => none
  dofs := 0
  p := none

example : (nodalDofs demoModel).dofv = [[0, 1, 2], [3, 4, 5], [6, 7, 8], [9, 10, -1]] ∧
    (nodalDofs demoModel).dofs = 11 := by decide

section field
variable {K : Type} [Field K]

/-! ### C02 assembly -/

/-- C02: for every pair of vectors the virtual work of the assembled matrix is the sum of the virtual works of
    the elements evaluated at the element's own nodal values. -/
theorem C02_virtual_work {dofv : List (List Int)} {n : Nat} (hn : Numbered dofv n) {elems : List (Elem K)}
    (he : ∀ e ∈ elems, e.n1 ≠ e.n2) (w u : Nat → K) :
    form n (fun r c => globalStiffness dofv elems (r, c)) w u =
      (elems.map fun e => form (globalDofs dofv e).length e.ke
        (fun a => valAt w (globalDofs dofv e)[a]?) (fun b => valAt u (globalDofs dofv e)[b]?)).sum := by
  unfold globalStiffness
  rw [globalStiffness_form dofv n w u elems _ (fun e h => globalDofs_activeNodup hn e (he e h))
    (fun e _ => globalDofs_bound hn e)]
  have : form n (fun _ _ => (0 : K)) w u = 0 := by
    unfold form; simp
  rw [this, zero_add]

/-- C02, energy form, after `nodal_dofs()`. -/
theorem C02 (m : Model K) (he : ∀ e ∈ m.elems, e.n1 ≠ e.n2) (u : Nat → K) :
    let m' := nodalDofs m
    ∑ r ∈ Finset.range m'.dofs, ∑ c ∈ Finset.range m'.dofs,
        u r * globalStiffness m'.dofv m'.elems (r, c) * u c =
      (m'.elems.map fun e =>
        ∑ a ∈ Finset.range (globalDofs m'.dofv e).length, ∑ b ∈ Finset.range (globalDofs m'.dofv e).length,
          valAt u (globalDofs m'.dofv e)[a]? * e.ke a b * valAt u (globalDofs m'.dofv e)[b]?).sum :=
  C02_virtual_work (C01 m).1 he u u

/-- C02, the element's numbers: the rows of the element matrix are first those of the first node and then those of the second,
    in both cases the directions the element connects (for beams, all entries of the node). -/
theorem C02_numbers {K : Type} (dofv : List (List Int)) (e : Elem K) (w : Nat)
    (hk : e.kind = .rod w ∧ (∀ n, n = e.n1 ∨ n = e.n2 → ∃ d, dofv[n]? = some d ∧ w ≤ d.length) ∨
      (e.kind = .beam2 ∧ w = 3 ∨ e.kind = .beam3 ∧ w = 6) ∧ ∀ n, n = e.n1 ∨ n = e.n2 → ∃ d, dofv[n]? = some d ∧ d.length = w) (a : Nat) :
    (globalDofs dofv e)[a]? =
      if a < w then entry dofv (e.n1, a) else if a < 2 * w then entry dofv (e.n2, a - w) else none := by
  have key : ∀ d1 d2 l1 l2 : List Int, dofv[e.n1]? = some d1 → dofv[e.n2]? = some d2 → l1 = d1.take w → l2 = d2.take w →
      w ≤ d1.length → w ≤ d2.length → (l1 ++ l2)[a]? =
      if a < w then entry dofv (e.n1, a) else if a < 2 * w then entry dofv (e.n2, a - w) else none := by
    rintro d1 d2 l1 l2 h1 h2 rfl rfl hl1 hl2
    have hlen : (d1.take w).length = w := by simp [hl1]
    unfold entry
    simp only [h1, h2, Option.bind_some]
    by_cases c1 : a < w
    · rw [List.getElem?_append_left (by omega), if_pos c1, List.getElem?_take_of_lt c1]
    · rw [List.getElem?_append_right (by omega), hlen, if_neg c1]
      by_cases c2 : a < 2 * w
      · rw [if_pos c2, List.getElem?_take_of_lt (by omega)]
      · rw [if_neg c2]
        apply List.getElem?_eq_none
        simp; omega
  rcases hk with ⟨hk, hn⟩ | ⟨hk, hn⟩
  · obtain ⟨d1, h1, hl1⟩ := hn _ (Or.inl rfl)
    obtain ⟨d2, h2, hl2⟩ := hn _ (Or.inr rfl)
    apply key d1 d2 _ _ h1 h2 ?_ ?_ hl1 hl2
    · simp [takeDofs, hk, Kind.taken, h1]
    · simp [takeDofs, hk, Kind.taken, h2]
  · obtain ⟨d1, h1, hl1⟩ := hn _ (Or.inl rfl)
    obtain ⟨d2, h2, hl2⟩ := hn _ (Or.inr rfl)
    have ht : e.kind.taken = none := by
      rcases hk with ⟨hk, _⟩ | ⟨hk, _⟩ <;> simp [hk, Kind.taken]
    apply key d1 d2 _ _ h1 h2 ?_ ?_ hl1.ge hl2.ge
    · simp [takeDofs, ht, h1, ← hl1]
    · simp [takeDofs, ht, h2, ← hl2]

/-- The braced frame meets the hypothesis. -/
example : ∃ e ∈ demoModel.elems, e.kind = .rod 2 ∧
    ∀ n, n = e.n1 ∨ n = e.n2 → ∃ d, demoModel.dofv[n]? = some d ∧ 2 ≤ d.length := by
  refine ⟨⟨.rod 2, 0, 3, fun _ _ => 0⟩, by simp [demoModel], rfl, ?_⟩
  rintro n (rfl | rfl)
  · exact ⟨freshDofs 2, rfl, by decide⟩
  · exact ⟨freshDofs 2, rfl, by decide⟩

/-- C02, sparsity: an entry between two unknowns that no element shares is zero. -/
theorem C02_sparsity {dofv : List (List Int)} {n : Nat} (hn : Numbered dofv n) {elems : List (Elem K)}
    (he : ∀ e ∈ elems, e.n1 ≠ e.n2) {r c : Nat} (hr : r < n) (hc : c < n)
    (h : ∀ e ∈ elems, ¬ ((r : Int) ∈ globalDofs dofv e ∧ (c : Int) ∈ globalDofs dofv e)) :
    globalStiffness dofv elems (r, c) = 0 := by
  rw [← form_single n (fun r c => globalStiffness dofv elems (r, c)) r c hr hc, C02_virtual_work hn he]
  apply List.sum_eq_zero
  intro x hx
  rw [List.mem_map] at hx
  obtain ⟨e, hm, rfl⟩ := hx
  have hz : ∀ (t : Nat) (o : Option Int), (t : Int) ∉ o.toList →
      valAt (fun i => if i = t then (1 : K) else 0) o = 0 := by
    intro t o ho
    cases o with
    | none => rfl
    | some d =>
      simp only [valAt]
      split
      · rw [if_neg]
        intro hd
        apply ho
        simp
        omega
      · rfl
  have hmem : ∀ (t a : Nat), (t : Int) ∉ globalDofs dofv e → (t : Int) ∉ ((globalDofs dofv e)[a]?).toList := by
    intro t a ht hin
    rw [Option.mem_toList] at hin
    exact ht (List.mem_of_getElem? hin)
  unfold form
  apply Finset.sum_eq_zero; intro a _
  apply Finset.sum_eq_zero; intro b _
  beta_reduce
  by_cases hr' : (r : Int) ∈ globalDofs dofv e
  · have hc' : (c : Int) ∉ globalDofs dofv e := fun hc' => h e hm ⟨hr', hc'⟩
    rw [hz c _ (hmem c b hc'), mul_zero]
  · rw [hz r _ (hmem r a hr'), zero_mul, zero_mul]

/-- C02, no element writes outside the `dofs × dofs` matrix (numpy raises no `IndexError`). -/
theorem C02_no_out_of_range {dofv : List (List Int)} {n : Nat} (hn : Numbered dofv n) (e : Elem K) :
    ∀ w ∈ elemWrites e.ke (globalDofs dofv e), w.1.1 < n ∧ w.1.2 < n :=
  elemWrites_bound _ _ _ (globalDofs_bound hn e)

example : ∀ e ∈ demoModel.elems, e.n1 ≠ e.n2 := by decide

/-! ### C05 load vector -/

/-- Force of a load in global entry `d`, read off the degree-of-freedom arrays: a point load acts on the
    entries of its node, a line load on the entries of its element. -/
def loadAt (dofv : List (List Int)) (elems : List (Elem K)) (l : Load K) (d : Nat) : K :=
  match l with
  | .point _ n v f =>
    ∑ j ∈ Finset.range v.length, if entry dofv (n, j) = some (d : Int) then f * v.getD j 0 else 0
  | .line _ e F =>
    ∑ a ∈ Finset.range F.length,
      if (elems[e]?).bind (fun el => (globalDofs dofv el)[a]?) = some (d : Int) then F.getD a 0 else 0

theorem contrib_eq_loadAt (dofv : List (List Int)) (elems : List (Elem K)) (l : Load K) (d : Nat) :
    contrib dofv elems l d = loadAt dofv elems l d := by
  cases l with
  | point s n v f =>
    unfold contrib loadAt loadTarget
    simp only [List.length_map]
    apply Finset.sum_congr rfl
    intro j hj
    have hj := Finset.mem_range.mp hj
    have : ((dofv[n]?).getD [])[j]? = entry dofv (n, j) := by
      cases h : dofv[n]? with
      | none => simp [entry, h]
      | some l => simp [entry, h]
    rw [this]
    simp [hj]
  | line s e F =>
    unfold contrib loadAt loadTarget
    simp only
    apply Finset.sum_congr rfl
    intro a _
    cases h : elems[e]? with
    | none => simp
    | some el => simp

/-- C05: the load vector is the sum of the contributions of the loads carrying the case's id. -/
theorem C05 {dofv : List (List Int)} {n : Nat} (hn : Numbered dofv n) {elems : List (Elem K)}
    (he : ∀ e ∈ elems, e.n1 ≠ e.n2) {loads : List (Load K)} {sid : Nat} {g : Nat → K}
    (h : globalLoad dofv elems loads sid = .ok g) (d : Nat) :
    g d = ((loads.filter (·.sid = sid)).map fun l => loadAt dofv elems l d).sum := by
  rw [((globalLoad_iff hn he sid loads g).mp h).2]
  simp only [contrib_eq_loadAt]

/-- C05, order independence: adding the same loads in another order gives the same vector (or the same
    failure to produce one). -/
theorem C05_order {dofv : List (List Int)} {n : Nat} (hn : Numbered dofv n) {elems : List (Elem K)}
    (he : ∀ e ∈ elems, e.n1 ≠ e.n2) {loads loads' : List (Load K)} (hp : loads.Perm loads') (sid : Nat)
    (g : Nat → K) :
    globalLoad dofv elems loads sid = .ok g ↔ globalLoad dofv elems loads' sid = .ok g := by
  have key : ∀ {l1 l2 : List (Load K)}, l1.Perm l2 →
      globalLoad dofv elems l1 sid = .ok g → globalLoad dofv elems l2 sid = .ok g := by
    intro l1 l2 hp h
    rw [globalLoad_iff hn he] at h ⊢
    refine ⟨fun l hl => h.1 l (hp.mem_iff.mpr hl), ?_⟩
    rw [h.2]
    ext d
    exact ((hp.filter _).map _).sum_eq
  exact ⟨key hp, key hp.symm⟩

/-- C05, isolation: loads of other cases have no influence. -/
theorem C05_isolation (dofv : List (List Int)) (elems : List (Elem K)) (loads : List (Load K)) (sid : Nat) :
    globalLoad dofv elems loads sid = globalLoad dofv elems (loads.filter (·.sid = sid)) sid := by
  unfold globalLoad
  suffices h : ∀ g : Nat → K,
      loads.foldlM (fun g l => if l.sid = sid then do
        let W ← loadAndDofs dofv elems l
        pure (fancyAdd g W) else pure g) g =
      (loads.filter (·.sid = sid)).foldlM (fun g l => if l.sid = sid then do
        let W ← loadAndDofs dofv elems l
        pure (fancyAdd g W) else (pure g : Except PyErr _)) g from h _
  induction loads with
  | nil => intro g; rfl
  | cons l loads ih =>
    intro g
    by_cases hs : l.sid = sid
    · rw [List.filter_cons_of_pos (by simpa using hs), List.foldlM_cons, List.foldlM_cons]
      congr 1
      ext g'
      rw [ih]
    · rw [List.filter_cons_of_neg (by simpa using hs), List.foldlM_cons]
      simp only [hs, if_false]
      exact ih g

/-- C05, nothing is added outside the active degrees of freedom. -/
theorem C05_inactive {dofv : List (List Int)} {n : Nat} (hn : Numbered dofv n) {elems : List (Elem K)}
    (he : ∀ e ∈ elems, e.n1 ≠ e.n2) {loads : List (Load K)} {sid : Nat} {g : Nat → K}
    (h : globalLoad dofv elems loads sid = .ok g) (d : Nat) (hd : n ≤ d) : g d = 0 := by
  rw [((globalLoad_iff hn he sid loads g).mp h).2]
  apply List.sum_eq_zero
  intro x hx
  rw [List.mem_map] at hx
  obtain ⟨l, _, rfl⟩ := hx
  unfold contrib
  apply Finset.sum_eq_zero
  intro a _
  rw [if_neg]
  intro hcon
  have := loadTarget_bound hn elems l a d hcon (by omega)
  omega

example : ∃ g, globalLoad [[0, 1, 2], [3, 4, 5]] [⟨.beam2, 0, 1, fun _ _ => (0 : ℚ)⟩]
    [.point 2 1 [10, 0, 5] 2, .line 2 0 [0, -30, -30, 0, -30, 30], .point 3 1 [7, 7, 7] 1] 2 = .ok g ∧
    g 3 = 20 ∧ g 4 = -30 ∧ g 5 = 40 := by
  refine ⟨_, rfl, ?_, ?_, ?_⟩ <;>
    norm_num [fancyAdd, globalDofs, takeDofs, Kind.taken, List.filterMap_cons, Function.update_apply,
      show Int.toNat 2 = 2 from rfl, show Int.toNat 3 = 3 from rfl, show Int.toNat 4 = 4 from rfl,
      show Int.toNat 5 = 5 from rfl]

/-! ### C06, C07 linear statics -/

/-- What is required of `np.linalg.solve`: a returned vector solves the system. -/
def SolverSound (solve : Solver K) : Prop :=
  ∀ n (A : Matrix (Fin n) (Fin n) K) b x, solve n A b = some x → A *ᵥ x = b

/-- Node arrays hold the global vector `U`: every active direction the entry of its own number. -/
def HoldsVector (dofv : List (List Int)) (u : List (List K)) (U : Nat → K) : Prop :=
  ∀ ij (d : Nat), entry dofv ij = some (d : Int) → entryU u ij = some (U d)

/-- Displacements stored before the call are zero at the supported degrees of freedom.  True of a model
    whose case was just created (all zeros) and preserved by every analysis with the same supports. -/
def ZeroAtSupports (m : Model K) (case : LoadCase) (u : List (List K)) : Prop :=
  ∀ ij (d : Nat), entry m.dofv ij = some (d : Int) → Supported m.dofv m.supports case.support d →
    entryU u ij = some 0

/-- Core of C06/C07. -/
theorem statics_core {solve : Solver K} (hsolve : SolverSound solve) {m m' : Model K} {lc : Nat}
    (hnum : Numbered m.dofv m.dofs) {u0 : List (List K)} (hu0 : m.u lc = some u0) (hshape : SameShape m.dofv u0)
    {case : LoadCase} (hcase : m.loadcases lc = some case) (hz : ZeroAtSupports m case u0)
    (h : staticsREM solve m lc = .ok m') :
    ∃ (p U : Nat → K) (u : List (List K)) (rem : List Nat)
      (sol : Fin (keepDofs m.dofs rem).length → K),
      globalLoad m.dofv m.elems m.loads case.load = .ok p ∧
      remDofs m.dofv m.supports case.support = .ok rem ∧
      reducedK (globalStiffness m.dofv m.elems) (keepDofs m.dofs rem) *ᵥ sol
        = (fun a => p (keepDofs m.dofs rem)[a]) ∧
      U = expand (keepDofs m.dofs rem) sol ∧
      m'.u lc = some u ∧ HoldsVector m.dofv u U ∧ m'.dofv = m.dofv ∧
      (∀ d, Supported m.dofv m.supports case.support d → U d = 0) ∧
      (∀ r < m.dofs, ¬ Supported m.dofv m.supports case.support r →
        ∑ c ∈ Finset.range m.dofs, globalStiffness m.dofv m.elems (r, c) * U c = p r) := by
  obtain ⟨case', p, rem, u0', sol, h1, h2, h3, h4, h5, rfl⟩ := staticsREM_ok h
  rw [hcase] at h1; cases h1
  rw [hu0] at h5; cases h5
  have hsol := hsolve _ _ _ _ h4
  have hlt : ∀ d ∈ keepDofs m.dofs rem, d < m.dofs := fun d hd => (mem_keepDofs.mp hd).1
  refine ⟨p, expand (keepDofs m.dofs rem) sol, _, rem, sol, h2, h3, hsol, rfl, by simp; rfl, ?_, rfl, ?_, ?_⟩
  · intro ij d hd
    obtain ⟨y, hy⟩ := Option.isSome_iff_exists.mp (hshape ij (by rw [hd]; rfl))
    have hsc := entryU_scatter m.dofv ij d hd
      (List.ofFn fun a : Fin (keepDofs m.dofs rem).length => ((keepDofs m.dofs rem)[a], sol a)) u0 y hy
    by_cases hk : d ∈ keepDofs m.dofs rem
    · obtain ⟨a, ha, rfl⟩ := List.getElem_of_mem hk
      have hmem : ((keepDofs m.dofs rem)[a], sol ⟨a, ha⟩) ∈
          List.ofFn fun a : Fin (keepDofs m.dofs rem).length => ((keepDofs m.dofs rem)[a], sol a) := by
        rw [List.mem_ofFn]; exact ⟨⟨a, ha⟩, rfl⟩
      have hnd : ((List.ofFn fun a : Fin (keepDofs m.dofs rem).length =>
          ((keepDofs m.dofs rem)[a], sol a)).map Prod.fst).Nodup := by
        rw [List.map_ofFn]
        have : (Prod.fst ∘ fun a : Fin (keepDofs m.dofs rem).length => ((keepDofs m.dofs rem)[a], sol a))
          = fun a => (keepDofs m.dofs rem)[a] := rfl
        rw [this]
        have h9 : List.ofFn (fun a : Fin (keepDofs m.dofs rem).length => (keepDofs m.dofs rem)[a])
          = keepDofs m.dofs rem := List.ofFn_getElem (xs := keepDofs m.dofs rem)
        rw [h9]
        exact keepDofs_nodup _ _
      refine (hsc.2 hnd _ hmem rfl).trans ?_
      have := expand_keep (keepDofs_nodup m.dofs rem) sol ⟨a, ha⟩
      simp only at this ⊢
      rw [← this]; rfl
    · have hdn : d < m.dofs := by
        have := hnum.1 ij d hd (by omega); omega
      have hsup : Supported m.dofv m.supports case.support d := by
        rw [← mem_remDofs h3]
        by_contra hcon
        exact hk (mem_keepDofs.mpr ⟨hdn, hcon⟩)
      have hy0 := hz ij d hd hsup
      rw [hy] at hy0; cases hy0
      rw [expand_off sol hk]
      refine hsc.1 ?_
      intro q hq hqd
      rw [List.mem_ofFn] at hq
      obtain ⟨a, rfl⟩ := hq
      apply hk
      have : (keepDofs m.dofs rem)[a] = d := by simpa using hqd
      rw [← this]
      exact List.getElem_mem _
  · intro d hd
    apply expand_off
    intro hk
    exact (mem_keepDofs.mp hk).2 ((mem_remDofs h3 d).mpr hd)
  · intro r hr hns
    have hk : r ∈ keepDofs m.dofs rem := mem_keepDofs.mpr ⟨hr, fun hm => hns ((mem_remDofs h3 r).mp hm)⟩
    obtain ⟨b, hb, rfl⟩ := List.getElem_of_mem hk
    rw [sum_expand m.dofs hlt]
    exact congrFun hsol ⟨b, hb⟩

/-- C06 for `support_method='REM'`: on success the node arrays hold a vector that is zero at every supported
    degree of freedom and satisfies every equation `(K u)_r = p_r` of an unsupported one; `K` and `p` are the
    assembled global quantities.  `Supported` does not care about duplicates or order of supports.
    Missing from the full statement: models whose stored displacements are non-zero at a degree of freedom
    that was supported only after an earlier analysis (`C06_violation_stale`), and the default
    `support_method` (`C06_violation_default`). -/
theorem C06_partial {solve : Solver K} (hsolve : SolverSound solve) {m m' : Model K} {lc : Nat}
    (hnum : Numbered m.dofv m.dofs) (hpos : m.dofs ≠ 0) {u0 : List (List K)} (hu0 : m.u lc = some u0)
    (hshape : SameShape m.dofv u0)
    {case : LoadCase} (hcase : m.loadcases lc = some case) (hz : ZeroAtSupports m case u0)
    (h : linearStaticsREM solve m lc = .ok m') :
    ∃ (p U : Nat → K) (u : List (List K)),
      globalLoad m.dofv m.elems m.loads case.load = .ok p ∧
      m'.u lc = some u ∧ HoldsVector m'.dofv u U ∧
      (∀ d, Supported m.dofv m.supports case.support d → U d = 0) ∧
      (∀ r < m.dofs, ¬ Supported m.dofv m.supports case.support r →
        ∑ c ∈ Finset.range m.dofs, globalStiffness m.dofv m.elems (r, c) * U c = p r) := by
  unfold linearStaticsREM ensureNumbered at h
  rw [if_neg hpos] at h
  obtain ⟨p, U, u, rem, sol, h1, _, _, _, h5, h6, h7, h8, h9⟩ := statics_core hsolve hnum hu0 hshape hcase hz h
  exact ⟨p, U, u, h1, h5, by rw [h7]; exact h6, h8, h9⟩

/-- C06 on the first analysis of a freshly built model (numbering happens inside the call). -/
theorem C06_first_partial {solve : Solver K} (hsolve : SolverSound solve) {m0 m' : Model K} {lc : Nat}
    (h0 : m0.dofs = 0) {u0 : List (List K)} (hu0 : m0.u lc = some u0)
    (hshape : SameShape (nodalDofs m0).dofv u0) (hzero : ∀ ij y, entryU u0 ij = some y → y = 0)
    {case : LoadCase} (hcase : m0.loadcases lc = some case)
    (h : linearStaticsREM solve m0 lc = .ok m') :
    let m := nodalDofs m0
    ∃ (p U : Nat → K) (u : List (List K)),
      globalLoad m.dofv m.elems m.loads case.load = .ok p ∧
      m'.u lc = some u ∧ HoldsVector m'.dofv u U ∧
      (∀ d, Supported m.dofv m.supports case.support d → U d = 0) ∧
      (∀ r < m.dofs, ¬ Supported m.dofv m.supports case.support r →
        ∑ c ∈ Finset.range m.dofs, globalStiffness m.dofv m.elems (r, c) * U c = p r) := by
  intro m
  unfold linearStaticsREM ensureNumbered at h
  rw [if_pos h0] at h
  have hz : ZeroAtSupports m case u0 := by
    intro ij d hd _
    obtain ⟨y, hy⟩ := Option.isSome_iff_exists.mp (hshape ij (by rw [hd]; rfl))
    rw [hy, hzero ij y hy]
  obtain ⟨p, U, u, rem, sol, h1, _, _, _, h5, h6, h7, h8, h9⟩ :=
    statics_core hsolve (C01 m0).1 (m := m) hu0 hshape hcase hz h
  exact ⟨p, U, u, h1, h5, by rw [h7]; exact h6, h8, h9⟩

/-- C06, history: what the analysis leaves behind satisfies the hypothesis `ZeroAtSupports` again, so `C06_partial`
    applies to every later analysis as long as the supports are not changed. -/
theorem C06_invariant {solve : Solver K} (hsolve : SolverSound solve) {m m' : Model K} {lc : Nat}
    (hnum : Numbered m.dofv m.dofs) (hpos : m.dofs ≠ 0) {u0 : List (List K)} (hu0 : m.u lc = some u0)
    (hshape : SameShape m.dofv u0)
    {case : LoadCase} (hcase : m.loadcases lc = some case) (hz : ZeroAtSupports m case u0)
    (h : linearStaticsREM solve m lc = .ok m') :
    ∃ u, m'.u lc = some u ∧ ZeroAtSupports m' case u ∧ Numbered m'.dofv m'.dofs := by
  unfold linearStaticsREM ensureNumbered at h
  rw [if_neg hpos] at h
  obtain ⟨p, U, u, rem, sol, h1, _, _, _, h5, h6, h7, h8, h9⟩ := statics_core hsolve hnum hu0 hshape hcase hz h
  obtain ⟨_, _, _, _, _, _, _, _, _, _, hm'⟩ := staticsREM_ok h
  refine ⟨u, h5, ?_, ?_⟩
  · intro ij d hd hs
    rw [h7] at hd
    rw [h6 ij d hd, h8 d]
    rw [hm'] at hs
    exact hs
  · rw [hm']; exact hnum

/-- C06, the default `support_method='ZERO'` never succeeds: with at least one active degree of freedom
    every call ends in an exception, whatever the model. -/
theorem C06_violation_default {solve : Solver K} (m : Model K) (lc : Nat)
    (hact : ∃ ij k, entry (ensureNumbered m).dofv ij = some k ∧ 0 ≤ k) :
    ∃ e, linearStaticsZERO solve m lc = .error e := by
  unfold linearStaticsZERO
  simp only [bind, Except.bind]
  set m1 := ensureNumbered m with hm1
  have hany : (m1.dofv.any fun ds => ds.any fun d => decide (0 ≤ d)) = true := by
    obtain ⟨⟨i, j⟩, k, hk, h0⟩ := hact
    unfold entry at hk
    cases h : m1.dofv[i]? with
    | none => simp [h] at hk
    | some ds =>
      simp [h] at hk
      rw [List.any_eq_true]
      refine ⟨ds, List.mem_of_getElem? h, ?_⟩
      rw [List.any_eq_true]
      exact ⟨k, List.mem_of_getElem? hk, by simpa using h0⟩
  cases h1 : m1.loadcases lc with
  | none => exact ⟨_, rfl⟩
  | some case =>
    simp only [getOr]
    cases h2 : globalLoad m1.dofv m1.elems m1.loads case.load with
    | error e => exact ⟨_, rfl⟩
    | ok p =>
      simp only
      cases h3 : remDofs m1.dofv m1.supports case.support with
      | error e => exact ⟨_, rfl⟩
      | ok rem =>
        simp only
        cases h4 : m1.p with
        | none => exact ⟨_, rfl⟩
        | some cols =>
          simp only
          split
          · split
            · exact ⟨_, rfl⟩
            · exact ⟨_, rfl⟩
          · exact ⟨_, rfl⟩

example : ∃ ij k, entry (ensureNumbered demoModel).dofv ij = some k ∧ 0 ≤ k :=
  ⟨(1, 2), 5, by decide, by decide⟩

/-- C06, stale displacements: a successful analysis leaves the stored displacement of a supported degree of
    freedom exactly as it was before the call. -/
theorem C06_supported_unchanged {solve : Solver K} {m m' : Model K} {lc : Nat} (hpos : m.dofs ≠ 0)
    {u0 : List (List K)} (hu0 : m.u lc = some u0)
    {case : LoadCase} (hcase : m.loadcases lc = some case)
    (h : linearStaticsREM solve m lc = .ok m') {ij : Nat × Nat} {d : Nat} {y : K}
    (hd : entry m.dofv ij = some (d : Int)) (hs : Supported m.dofv m.supports case.support d)
    (hy : entryU u0 ij = some y) :
    ∃ u, m'.u lc = some u ∧ entryU u ij = some y := by
  unfold linearStaticsREM ensureNumbered at h
  rw [if_neg hpos] at h
  obtain ⟨case', p, rem, u0', sol, h1, h2, h3, h4, h5, rfl⟩ := staticsREM_ok h
  rw [hcase] at h1; cases h1
  rw [hu0] at h5; cases h5
  refine ⟨_, by simp; rfl, ?_⟩
  refine (entryU_scatter m.dofv ij d hd _ u0 y hy).1 ?_
  intro q hq hqd
  rw [List.mem_ofFn] at hq
  obtain ⟨a, rfl⟩ := hq
  have hmem : (keepDofs m.dofs rem)[a] ∈ keepDofs m.dofs rem := List.getElem_mem _
  have hda : (keepDofs m.dofs rem)[a] = d := by simpa using hqd
  rw [hda] at hmem
  exact (mem_keepDofs.mp hmem).2 ((mem_remDofs h3 d).mpr hs)

/-- C07: superposition.  If the reduced stiffness matrix is nonsingular and the load vector of case `l3` is
    `a * p1 + b * p2`, the displacements stored for `l3` are the same combination of those stored for
    `l1` and `l2`, at every active degree of freedom of every node. -/
theorem C07 {solve : Solver K} (hsolve : SolverSound solve) {m m1 m2 m3 : Model K} {l1 l2 l3 : Nat}
    (hnum : Numbered m.dofv m.dofs) (hpos : m.dofs ≠ 0) {c1 c2 c3 : LoadCase}
    (hc1 : m.loadcases l1 = some c1) (hc2 : m.loadcases l2 = some c2) (hc3 : m.loadcases l3 = some c3)
    (hs2 : c2.support = c1.support) (hs3 : c3.support = c1.support)
    {u1 u2 u3 : List (List K)} (hu1 : m.u l1 = some u1) (hu2 : m.u l2 = some u2) (hu3 : m.u l3 = some u3)
    (hh1 : SameShape m.dofv u1) (hh2 : SameShape m.dofv u2) (hh3 : SameShape m.dofv u3)
    (hz1 : ZeroAtSupports m c1 u1) (hz2 : ZeroAtSupports m c2 u2) (hz3 : ZeroAtSupports m c3 u3)
    (hreg : ∀ v : Nat → K, (∀ d, Supported m.dofv m.supports c1.support d → v d = 0) →
      (∀ r < m.dofs, ¬ Supported m.dofv m.supports c1.support r →
        ∑ c ∈ Finset.range m.dofs, globalStiffness m.dofv m.elems (r, c) * v c = 0) →
      ∀ d < m.dofs, v d = 0)
    {p1 p2 p3 : Nat → K} (hp1 : globalLoad m.dofv m.elems m.loads c1.load = .ok p1)
    (hp2 : globalLoad m.dofv m.elems m.loads c2.load = .ok p2)
    (hp3 : globalLoad m.dofv m.elems m.loads c3.load = .ok p3)
    {a b : K} (hp : ∀ d, p3 d = a * p1 d + b * p2 d)
    (r1 : linearStaticsREM solve m l1 = .ok m1) (r2 : linearStaticsREM solve m l2 = .ok m2)
    (r3 : linearStaticsREM solve m l3 = .ok m3) :
    ∃ v1 v2 v3, m1.u l1 = some v1 ∧ m2.u l2 = some v2 ∧ m3.u l3 = some v3 ∧
      ∀ ij (d : Nat), entry m.dofv ij = some (d : Int) →
        ∃ x1 x2, entryU v1 ij = some x1 ∧ entryU v2 ij = some x2 ∧ entryU v3 ij = some (a * x1 + b * x2) := by
  unfold linearStaticsREM ensureNumbered at r1 r2 r3
  rw [if_neg hpos] at r1 r2 r3
  obtain ⟨q1, U1, v1, _, _, g1, _, _, _, e1, w1, _, s1, k1⟩ := statics_core hsolve hnum hu1 hh1 hc1 hz1 r1
  obtain ⟨q2, U2, v2, _, _, g2, _, _, _, e2, w2, _, s2, k2⟩ := statics_core hsolve hnum hu2 hh2 hc2 hz2 r2
  obtain ⟨q3, U3, v3, _, _, g3, _, _, _, e3, w3, _, s3, k3⟩ := statics_core hsolve hnum hu3 hh3 hc3 hz3 r3
  rw [hp1] at g1; cases g1
  rw [hp2] at g2; cases g2
  rw [hp3] at g3; cases g3
  rw [hs2] at s2 k2
  rw [hs3] at s3 k3
  have hU : ∀ d < m.dofs, U3 d - (a * U1 d + b * U2 d) = 0 := by
    apply hreg (fun d => U3 d - (a * U1 d + b * U2 d))
    · intro d hd; rw [s1 d hd, s2 d hd, s3 d hd]; ring
    · intro r hr hns
      have : ∀ c, globalStiffness m.dofv m.elems (r, c) * (U3 c - (a * U1 c + b * U2 c)) =
          globalStiffness m.dofv m.elems (r, c) * U3 c - (a * (globalStiffness m.dofv m.elems (r, c) * U1 c)
            + b * (globalStiffness m.dofv m.elems (r, c) * U2 c)) := by intro c; ring
      simp only [this, Finset.sum_sub_distrib, Finset.sum_add_distrib, ← Finset.mul_sum]
      rw [k1 r hr hns, k2 r hr hns, k3 r hr hns, hp r]; ring
  refine ⟨v1, v2, v3, e1, e2, e3, ?_⟩
  intro ij d hd
  refine ⟨U1 d, U2 d, w1 ij d hd, w2 ij d hd, ?_⟩
  rw [w3 ij d hd]
  have hdn : d < m.dofs := by
    have := hnum.1 ij d hd (by omega); omega
  have := hU d hdn
  rw [sub_eq_zero] at this
  rw [this]

end field

/-! ### C03, global part -/

section ordered
variable {K : Type} [Field K] [LinearOrder K] [IsStrictOrderedRing K]

/-- Elements as the library builds them, with positive data: plane and space bars, springs, beams with any
    releases for which the stiffness is defined, semi-rigid beams. -/
inductive ElemOk : Elem K → Prop
  | rod2 {n1 n2 : Nat} {E A L c0 c1 : K} : 0 < E → 0 < A → 0 < L →
      ElemOk ⟨.rod 2, n1, n2, matNat (rodK2 E A L c0 c1)⟩
  | rod3 {n1 n2 : Nat} {E A L c0 c1 c2 : K} : 0 < E → 0 < A → 0 < L →
      ElemOk ⟨.rod 3, n1, n2, matNat (rodK3 E A L c0 c1 c2)⟩
  | spring {n1 n2 : Nat} {k c0 c1 : K} : 0 ≤ k → ElemOk ⟨.rod 2, n1, n2, matNat (springK2 k c0 c1)⟩
  | beam {n1 n2 : Nat} {E A I L c0 c1 : K} {rel : List (Fin 6)} {k : Matrix (Fin 6) (Fin 6) K} :
      0 < E → 0 < A → 0 < I → 0 < L → beamK E A I L c0 c1 rel = .ok k →
      ElemOk ⟨.beam2, n1, n2, matNat k⟩
  | semi {n1 n2 : Nat} {E A I L c0 c1 r0 r1 : K} : 0 < E → 0 < A → 0 < I → 0 < L →
      ElemOk ⟨.beam2, n1, n2, matNat (semiK E A I L c0 c1 r0 r1)⟩

theorem ElemOk.symPSD {e : Elem K} (h : ElemOk e) :
    ∃ (n : Nat) (M : Matrix (Fin n) (Fin n) K), e.ke = matNat M ∧ SymPSD M := by
  cases h with
  | rod2 hE hA hL => exact ⟨_, _, rfl, C03_rod2 hE hA hL _ _⟩
  | rod3 hE hA hL => exact ⟨_, _, rfl, C03_rod3 hE hA hL _ _ _⟩
  | spring hk => exact ⟨_, _, rfl, C03_spring hk _ _⟩
  | beam hE hA hI hL h => exact ⟨_, _, rfl, C03_beam hE hA hI hL _ _ h⟩
  | semi hE hA hI hL => exact ⟨_, _, rfl, C03_semi hE hA hI hL _ _ _ _⟩

/-- C03: the assembled stiffness matrix of a model made of such elements is symmetric and its energy is
    never negative. -/
theorem C03 {dofv : List (List Int)} {n : Nat} (hn : Numbered dofv n) {elems : List (Elem K)}
    (he : ∀ e ∈ elems, e.n1 ≠ e.n2) (hok : ∀ e ∈ elems, ElemOk e) :
    (∀ r c, r < n → c < n → globalStiffness dofv elems (r, c) = globalStiffness dofv elems (c, r)) ∧
    (∀ u : Nat → K, 0 ≤ ∑ r ∈ Finset.range n, ∑ c ∈ Finset.range n,
      u r * globalStiffness dofv elems (r, c) * u c) := by
  have hpsd : ∀ e ∈ elems, ∀ (ve : List Int) (u : Nat → K), 0 ≤ form ve.length e.ke
      (fun a => valAt u ve[a]?) (fun b => valAt u ve[b]?) := by
    intro e hm ve u
    obtain ⟨k, M, hM, hsp⟩ := (hok e hm).symPSD
    rw [hM]
    set v : Nat → K := fun a => valAt u ve[a]? with hv
    -- the form only sees indices below both sizes
    have hext : form ve.length (matNat M) v v = form (max ve.length k) (matNat M) v v := by
      have hvz : ∀ a, ve.length ≤ a → v a = 0 := by
        intro a ha; simp [hv, valAt, List.getElem?_eq_none ha]
      unfold form
      have hsub : Finset.range ve.length ⊆ Finset.range (max ve.length k) :=
        Finset.range_mono (le_max_left _ _)
      have hin : ∀ r, ∑ c ∈ Finset.range ve.length, v r * matNat M r c * v c =
          ∑ c ∈ Finset.range (max ve.length k), v r * matNat M r c * v c := by
        intro r
        apply Finset.sum_subset hsub
        intro c _ hc
        rw [hvz c (by simpa using hc), mul_zero]
      simp only [hin]
      apply Finset.sum_subset hsub
      intro r _ hr
      apply Finset.sum_eq_zero
      intro c _
      rw [hvz r (by simpa using hr), zero_mul, zero_mul]
    have hext2 : form k (matNat M) v v = form (max ve.length k) (matNat M) v v := by
      unfold form
      have hsub : Finset.range k ⊆ Finset.range (max ve.length k) := Finset.range_mono (le_max_right _ _)
      have hin : ∀ r, ∑ c ∈ Finset.range k, v r * matNat M r c * v c =
          ∑ c ∈ Finset.range (max ve.length k), v r * matNat M r c * v c := by
        intro r
        apply Finset.sum_subset hsub
        intro c _ hc
        have : matNat M r c = 0 := by unfold matNat; rw [dif_neg]; simp at hc ⊢; omega
        rw [this, mul_zero, zero_mul]
      simp only [hin]
      apply Finset.sum_subset hsub
      intro r _ hr
      apply Finset.sum_eq_zero
      intro c _
      have : matNat M r c = 0 := by unfold matNat; rw [dif_neg]; simp at hr ⊢; omega
      rw [this, mul_zero, zero_mul]
    rw [hext, ← hext2, form_matNat]
    have := hsp.2 (fun i : Fin k => v i)
    simp only [dotProduct, mulVec, Finset.mul_sum, ← mul_assoc]
    exact this
  have hsym : ∀ e ∈ elems, ∀ (N : Nat) (w u : Nat → K), form N e.ke w u = form N e.ke u w := by
    intro e hm N w u
    obtain ⟨k, M, hM, hsp⟩ := (hok e hm).symPSD
    rw [hM]
    unfold form
    rw [Finset.sum_comm]
    apply Finset.sum_congr rfl; intro r _
    apply Finset.sum_congr rfl; intro c _
    have hs : M.IsSymm := by ext i j; exact hsp.1 j i
    rw [matNat_symm M hs c r]
    ring
  constructor
  · intro r c hr hc
    rw [← form_single n (fun r c => globalStiffness dofv elems (r, c)) r c hr hc,
      ← form_single n (fun r c => globalStiffness dofv elems (r, c)) c r hc hr,
      C02_virtual_work hn he, C02_virtual_work hn he]
    congr 1
    apply List.map_congr_left
    intro e hm
    exact hsym e hm _ _ _
  · intro u
    have h1 := C02_virtual_work hn he u u
    unfold form at h1
    rw [h1]
    apply List.sum_nonneg
    intro x hx
    rw [List.mem_map] at hx
    obtain ⟨e, hm, rfl⟩ := hx
    exact hpsd e hm _ u

/-- A bar and a beam sharing a node meet the hypotheses. -/
example : ElemOk (K := ℚ) ⟨.rod 2, 0, 1, matNat (rodK2 210000 500 5 (3/5) (4/5))⟩ ∧
    ElemOk (K := ℚ) ⟨.beam2, 1, 2, matNat (semiK 210000 5380 83600000 6 1 0 0 (10^30))⟩ ∧
    Numbered [[0, 1, -1], [2, 3, 4], [5, 6, 7]] 8 := by
  refine ⟨.rod2 (by norm_num) (by norm_num) (by norm_num), .semi (by norm_num) (by norm_num) (by norm_num) (by norm_num), ?_⟩
  have := (C01 (K := ℚ) ⟨[freshDofs 2, freshDofs 2, freshDofs 2], fun _ => none,
    [⟨.rod 2, 0, 1, fun _ _ => 0⟩, ⟨.beam2, 1, 2, fun _ _ => 0⟩], [], [], fun _ => none, 0, none⟩).1
  exact this

end ordered

/-! ### C06/C07 witnesses -/

/-- A sound solver: returns a solution whenever one exists. -/
noncomputable def refSolve {K : Type} [Field K] : Solver K := fun _ A b =>
  open Classical in if h : ∃ x, A *ᵥ x = b then some h.choose else none

theorem refSolve_sound {K : Type} [Field K] : SolverSound (refSolve (K := K)) := by
  intro n A b x h
  unfold refSolve at h
  split at h
  · rename_i hx
    cases h
    exact hx.choose_spec
  · cases h

theorem refSolve_some {K : Type} [Field K] {n : Nat} {A : Matrix (Fin n) (Fin n) K} {b x : Fin n → K}
    (h : A *ᵥ x = b) : ∃ y, refSolve n A b = some y ∧ A *ᵥ y = b := by
  unfold refSolve
  have hx : ∃ x, A *ᵥ x = b := ⟨x, h⟩
  rw [dif_pos hx]
  exact ⟨_, rfl, hx.choose_spec⟩

/-- Two perpendicular bars meeting at node 1, whose other ends are pinned; a unit load in both directions at
    node 1.  Load case 0 uses support set 0 and load set 0, case 1 load set 1, case 2 load set 2. -/
def twoBars (supports : List Support) (u : Nat → Option (List (List ℚ))) : Model ℚ where
  dofv := [[0, 1, -1], [2, 3, -1], [4, 5, -1]]
  u := u
  elems := [⟨.rod 2, 0, 1, matNat (rodK2 1 1 1 1 0)⟩, ⟨.rod 2, 1, 2, matNat (rodK2 1 1 1 0 1)⟩]
  supports := supports
  loads := [.point 0 1 [1, 1, 0] 1]
  loadcases := fun _ => some ⟨0, 0⟩
  dofs := 6
  p := none


/-! ### C13 editing after an analysis -/

/-- C13: the first analysis numbers the current model.  Missing from the full statement: later analyses
    (`C13_violation`). -/
theorem C13_first_partial {K : Type} [Field K] (solve : Solver K) (m m' : Model K) (lc : Nat) (h0 : m.dofs = 0)
    (h : linearStaticsREM solve m lc = .ok m') :
    m'.dofv = (nodalDofs m).dofv ∧ m'.dofs = (nodalDofs m).dofs := by
  unfold linearStaticsREM ensureNumbered at h
  rw [if_pos h0] at h
  obtain ⟨_, _, _, _, _, _, _, _, _, _, rfl⟩ := staticsREM_ok h
  exact ⟨rfl, rfl⟩

/-- C13, later analyses: if the added elements use only directions that are active already, the kept numbering
    is the numbering of the current model. -/
theorem C13_partial {K : Type} [Field K] (solve : Solver K) (m0 m m' : Model K) (lc : Nat)
    (hv : m.dofv = (nodalDofs m0).dofv) (hd : m.dofs = (nodalDofs m0).dofs)
    (hact : ∀ e ∈ m.elems, Activated m.dofv e)
    (h : linearStaticsREM solve m lc = .ok m') :
    m'.dofv = (nodalDofs m).dofv ∧ m'.dofs = (nodalDofs m).dofs := by
  rw [nodalDofs_stable m0 m hv hd hact]
  unfold linearStaticsREM ensureNumbered at h
  rw [nodalDofs_stable m0 m hv hd hact, ite_self] at h
  obtain ⟨_, _, _, _, _, _, _, _, _, _, rfl⟩ := staticsREM_ok h
  exact ⟨rfl, rfl⟩

/-- C13, what happens in general: once numbered, the numbering is never renewed by an analysis. -/
theorem C13_numbering_frozen {K : Type} [Field K] (solve : Solver K) (m m' : Model K) (lc : Nat) (h0 : m.dofs ≠ 0)
    (h : linearStaticsREM solve m lc = .ok m') : m'.dofv = m.dofv ∧ m'.dofs = m.dofs := by
  unfold linearStaticsREM ensureNumbered at h
  rw [if_neg h0] at h
  obtain ⟨_, _, _, _, _, _, _, _, _, _, rfl⟩ := staticsREM_ok h
  exact ⟨rfl, rfl⟩

end Metku.Fem
