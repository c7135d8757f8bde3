import Verif.Model.Analysis
import Verif.Props.FemGlobal

/-!
Properties C238, C241, C242: complete analyses.
-/
namespace Metku.Fem

open Matrix

variable {K : Type} [Field K]

/-! ### C238: every element knows its forces after an analysis -/

theorem Forall₂_getElem? {α β : Type} {R : α → β → Prop} : ∀ {l : List α} {r : List β}, List.Forall₂ R l r →
    ∀ (i : Nat) (a : α), l[i]? = some a → ∃ b, r[i]? = some b ∧ R a b := by
  intro l r h
  induction h with
  | nil => intro i a hi; simp at hi
  | cons hab _ ih =>
    intro i a hi
    cases i with
    | zero => simp at hi; subst hi; exact ⟨_, by simp, hab⟩
    | succ i => simpa using ih i a (by simpa using hi)

theorem linearStatics_ok {solve : Solver K} {m : AModel K} {lc : Nat} {m1 : Model K} {fs : List (List K)}
    (h : linearStatics solve m lc = .ok (m1, fs)) :
    ∃ case u, m.fem.loadcases lc = some case ∧ (∀ l ∈ m.fem.loads, lineCheck m.info case.load l = .ok ()) ∧
      linearStaticsREM solve m.fem lc = .ok m1 ∧ m1.u lc = some u ∧
      List.Forall₂ (fun p f => internalForces lc u p = .ok f) (m1.elems.zip m.info) fs := by
  unfold linearStatics at h
  simp only [bind, Except.bind] at h
  cases h1 : m.fem.loadcases lc with
  | none => simp only [h1, getOr] at h; cases h
  | some case =>
    cases h2 : m.fem.loads.mapM (lineCheck m.info case.load) with
    | error e => simp only [h1, getOr, h2] at h; cases h
    | ok r =>
      cases h3 : linearStaticsREM solve m.fem lc with
      | error e => simp only [h1, getOr, h2, h3] at h; cases h
      | ok m2 =>
        cases h4 : m2.u lc with
        | none => simp only [h1, getOr, h2, h3, h4] at h; cases h
        | some u =>
          cases h5 : (m2.elems.zip m.info).mapM (internalForces lc u) with
          | error e => simp only [h1, getOr, h2, h3, h4, h5] at h; cases h
          | ok fs' =>
            simp only [h1, getOr, h2, h3, h4, h5] at h
            cases h
            refine ⟨case, u, rfl, ?_, rfl, h4, (mapM_ok_iff _ _ _).mp h5⟩
            have hf := (mapM_ok_iff _ _ _).mp h2
            intro l hl
            obtain ⟨i, hi⟩ := List.mem_iff_getElem?.mp hl
            obtain ⟨_, _, hb⟩ := Forall₂_getElem? hf i _ hi
            exact hb

omit [Field K] in
/-- C238, displacements of an element: first those of its first node, then those of the second; for bars only the
    displacements of the `w` directions the bar connects. -/
theorem C238_displacements (e : Elem K) (u : List (List K)) (w : Nat)
    (hk : e.kind = .rod w ∧ (∀ n, n = e.n1 ∨ n = e.n2 → ∃ d, u[n]? = some d ∧ w ≤ d.length) ∨
      (e.kind = .beam2 ∨ e.kind = .beam3) ∧ ∀ n, n = e.n1 ∨ n = e.n2 → ∃ d, u[n]? = some d ∧ d.length = w) (a : Nat) :
    (nodalDisp e u)[a]? =
      if a < w then entryU u (e.n1, a) else if a < 2 * w then entryU u (e.n2, a - w) else none := by
  have key : ∀ d1 d2 l1 l2 : List K, u[e.n1]? = some d1 → u[e.n2]? = some d2 → l1 = d1.take w → l2 = d2.take w →
      w ≤ d1.length → w ≤ d2.length → (l1 ++ l2)[a]? =
      if a < w then entryU u (e.n1, a) else if a < 2 * w then entryU u (e.n2, a - w) else none := by
    rintro d1 d2 l1 l2 h1 h2 rfl rfl hl1 hl2
    have hlen : (d1.take w).length = w := by simp [hl1]
    unfold entryU
    simp only [h1, h2, Option.bind_some]
    by_cases c1 : a < w
    · rw [List.getElem?_append_left (by omega), if_pos c1, List.getElem?_take_of_lt c1]
    · rw [List.getElem?_append_right (by omega), hlen, if_neg c1]
      by_cases c2 : a < 2 * w
      · rw [if_pos c2, List.getElem?_take_of_lt (by omega)]
      · rw [if_neg c2]
        apply List.getElem?_eq_none
        simp; omega
  rcases hk with ⟨hk, hn⟩ | ⟨hk, hn⟩
  · obtain ⟨d1, h1, hl1⟩ := hn _ (Or.inl rfl)
    obtain ⟨d2, h2, hl2⟩ := hn _ (Or.inr rfl)
    apply key d1 d2 _ _ h1 h2 ?_ ?_ hl1 hl2
    · simp [takeU, hk, Kind.taken, h1]
    · simp [takeU, hk, Kind.taken, h2]
  · obtain ⟨d1, h1, hl1⟩ := hn _ (Or.inl rfl)
    obtain ⟨d2, h2, hl2⟩ := hn _ (Or.inr rfl)
    have ht : e.kind.taken = none := by
      rcases hk with hk | hk <;> simp [hk, Kind.taken]
    apply key d1 d2 _ _ h1 h2 ?_ ?_ hl1.ge hl2.ge
    · simp [takeU, ht, h1, ← hl1]
    · simp [takeU, ht, h2, ← hl2]

/-- C238: when linear statics returns, the displacements left at the nodes are those of the solution, and every element has
    stored exactly one set of forces, computed from these displacements of its own two nodes for this load case. -/
theorem C238_partial {solve : Solver K} {m : AModel K} {lc : Nat} {m1 : Model K} {fs : List (List K)}
    (hlen : m.info.length = m.fem.elems.length) (h : linearStatics solve m lc = .ok (m1, fs)) :
    linearStaticsREM solve m.fem lc = .ok m1 ∧ fs.length = m.fem.elems.length ∧
    ∃ u, m1.u lc = some u ∧ ∀ (i : Nat) (e : Elem K) (x : ElInfo K), m1.elems[i]? = some e → m.info[i]? = some x →
      fs[i]? = some (x.force lc (nodalDisp e u)) := by
  obtain ⟨case, u, h1, h2, h3, h4, h5⟩ := linearStatics_ok h
  have hel : m1.elems = m.fem.elems := by
    unfold linearStaticsREM at h3
    obtain ⟨_, _, _, _, _, _, _, _, _, _, rfl⟩ := staticsREM_ok h3
    simp only [ensureNumbered, nodalDofs]
    split <;> rfl
  refine ⟨h3, ?_, u, h4, ?_⟩
  · rw [← h5.length_eq, List.length_zip, hel, hlen, min_self]
  · intro i e x he hx
    have hz : (m1.elems.zip m.info)[i]? = some (e, x) := by
      rw [List.getElem?_zip_eq_some]; exact ⟨he, hx⟩
    obtain ⟨f, hf, hr⟩ := Forall₂_getElem? h5 i _ hz
    unfold internalForces at hr
    split at hr
    · cases hr; exact hf
    · cases hr

/-- C238, when it works: if every element is a bar or a plane beam and the line loads of the case sit on plane beams, the analysis
    returns whenever the displacements can be computed. -/
theorem C238_success_partial {solve : Solver K} {m : AModel K} {lc : Nat} {m1 : Model K} {case : LoadCase}
    (hcase : m.fem.loadcases lc = some case)
    (hcls : ∀ x ∈ m.info, x.cls = .rod ∨ x.cls = .beam)
    (hline : ∀ (e : Nat) (F : List K), Load.line case.load e F ∈ m.fem.loads → ∃ x, m.info[e]? = some x ∧ x.cls = .beam)
    (h : linearStaticsREM solve m.fem lc = .ok m1) :
    ∃ fs, linearStatics solve m lc = .ok (m1, fs) := by
  have h2 : ∃ r, m.fem.loads.mapM (lineCheck m.info case.load) = .ok r := by
    refine ⟨m.fem.loads.map fun _ => (), (mapM_ok_iff _ _ _).mpr ?_⟩
    rw [List.forall₂_map_right_iff, List.forall₂_same]
    intro l hl
    cases l with
    | point s n v f => rfl
    | line s e F =>
      simp only [lineCheck]
      by_cases hs : s = case.load
      · subst hs
        obtain ⟨x, hx, hb⟩ := hline e F hl
        simp [hx, hb, Cls.acceptsOrder]
      · simp [hs]
  obtain ⟨r, h2⟩ := h2
  have hu : ∃ u, m1.u lc = some u := by
    unfold linearStaticsREM at h
    obtain ⟨_, _, _, _, _, _, _, _, _, _, rfl⟩ := staticsREM_ok h
    exact ⟨_, by simp; rfl⟩
  obtain ⟨u, hu⟩ := hu
  have h5 : ∃ fs, (m1.elems.zip m.info).mapM (internalForces lc u) = .ok fs := by
    refine ⟨(m1.elems.zip m.info).map fun p => p.2.force lc (nodalDisp p.1 u), (mapM_ok_iff _ _ _).mpr ?_⟩
    rw [List.forall₂_map_right_iff, List.forall₂_same]
    rintro ⟨e, x⟩ hp
    have hx := hcls x (List.of_mem_zip hp).2
    unfold internalForces
    rw [if_pos]
    rcases hx with hx | hx <;> simp [hx, Cls.acceptsInitial]
  obtain ⟨fs, h5⟩ := h5
  exact ⟨fs, by simp only [linearStatics, bind, Except.bind, hcase, getOr, h2, h, hu, h5]; rfl⟩

/-- C238 fails: a model containing a spring, a beam with semi-rigid ends or a beam in space is never analysed to the end; where
    the displacements can be computed (and no line load has already raised), the call raises `TypeError` when it asks the
    first such element for its forces. -/
theorem C238_violation {solve : Solver K} {m : AModel K} {lc : Nat} (hlen : m.info.length = m.fem.elems.length)
    {x : ElInfo K} (hx : x ∈ m.info) (hc : x.cls = .spring ∨ x.cls = .semi ∨ x.cls = .beam3) :
    (∀ r, linearStatics solve m lc ≠ .ok r) ∧
    ∀ case m1, m.fem.loadcases lc = some case → (∀ l ∈ m.fem.loads, lineCheck m.info case.load l = .ok ()) →
      linearStaticsREM solve m.fem lc = .ok m1 → linearStatics solve m lc = .error .typeError := by
  have hacc : x.cls.acceptsInitial = false := by
    rcases hc with h | h | h <;> simp [h, Cls.acceptsInitial]
  have hno : ∀ r, linearStatics solve m lc ≠ .ok r := by
    rintro ⟨m1, fs⟩ h
    obtain ⟨i, hi⟩ := List.mem_iff_getElem?.mp hx
    obtain ⟨h3, hl, -⟩ := C238_partial hlen h
    obtain ⟨case, u, h1, h2, h3', h4, h5⟩ := linearStatics_ok h
    have hel : m1.elems = m.fem.elems := by
      unfold linearStaticsREM at h3
      obtain ⟨_, _, _, _, _, _, _, _, _, _, rfl⟩ := staticsREM_ok h3
      simp only [ensureNumbered, nodalDofs]
      split <;> rfl
    have hlt : i < m.fem.elems.length := by
      rw [← hlen]; exact (List.getElem?_eq_some_iff.mp hi).1
    have hz : (m1.elems.zip m.info)[i]? = some (m.fem.elems[i], x) := by
      rw [List.getElem?_zip_eq_some]; exact ⟨by rw [hel]; simp [hlt], hi⟩
    obtain ⟨f, hf, hr⟩ := Forall₂_getElem? h5 i _ hz
    unfold internalForces at hr
    rw [hacc] at hr
    cases hr
  refine ⟨hno, fun case m1 hcase hl h => ?_⟩
  have h2 : ∃ r, m.fem.loads.mapM (lineCheck m.info case.load) = .ok r := by
    refine ⟨m.fem.loads.map fun _ => (), (mapM_ok_iff _ _ _).mpr ?_⟩
    rw [List.forall₂_map_right_iff, List.forall₂_same]
    exact hl
  obtain ⟨r, h2⟩ := h2
  have hu : ∃ u, m1.u lc = some u := by
    unfold linearStaticsREM at h
    obtain ⟨_, _, _, _, _, _, _, _, _, _, rfl⟩ := staticsREM_ok h
    exact ⟨_, by simp; rfl⟩
  obtain ⟨u, hu⟩ := hu
  have herr : ∀ (l : List (Elem K × ElInfo K)) e, l.mapM (internalForces lc u) = .error e → e = .typeError := by
    intro l
    induction l with
    | nil => intro e h; rw [List.mapM_nil] at h; cases h
    | cons p l ih =>
      intro e h
      rw [List.mapM_cons] at h
      simp only [bind, Except.bind] at h
      cases hp : internalForces lc u p with
      | error e' =>
        rw [hp] at h; cases h
        unfold internalForces at hp
        split at hp
        · cases hp
        · cases hp; rfl
      | ok f =>
        rw [hp] at h
        cases hl : l.mapM (internalForces lc u) with
        | error e' => rw [hl] at h; cases h; exact ih _ hl
        | ok fs => rw [hl] at h; cases h
  cases h5 : (m1.elems.zip m.info).mapM (internalForces lc u) with
  | ok fs =>
    exact absurd (by simp only [linearStatics, bind, Except.bind, hcase, getOr, h2, h, hu, h5]; rfl) (hno (m1, fs))
  | error e =>
    obtain rfl := herr _ _ h5
    simp only [linearStatics, bind, Except.bind, hcase, getOr, h2, h, hu, h5]

/-- C238 fails for line loads too: a case with a line load on anything but a plane beam is never analysed. -/
theorem C238_violation_lines {solve : Solver K} {m : AModel K} {lc : Nat} {case : LoadCase} (hcase : m.fem.loadcases lc = some case)
    {e : Nat} {F : List K} (hl : Load.line case.load e F ∈ m.fem.loads) (hx : ∀ x, m.info[e]? = some x → x.cls ≠ .beam) :
    ∀ r, linearStatics solve m lc ≠ .ok r := by
  rintro ⟨m1, fs⟩ h
  obtain ⟨case', u, h1, h2, -⟩ := linearStatics_ok h
  rw [hcase] at h1; cases h1
  have := h2 _ hl
  simp only [lineCheck, if_true] at this
  split at this
  · rename_i x hxe
    have hb := hx x hxe
    split at this
    · rename_i ha
      revert ha
      cases hc : x.cls <;> simp [Cls.acceptsOrder]
      exact hb hc
    · cases this
  · cases this

/-! ### C241: second-order analysis -/

/-- C241: when the second-order analysis of a case returns, the second-order displacements are zero at the supports and in
    equilibrium in every free direction, with element stiffnesses and loads formed from the element forces of a linear analysis of
    the same case; the linear results are kept as well. -/
theorem C241_partial {solve : Solver K} (hsolve : SolverSound solve) {m : AModel K} {u2 : Nat → Option (List (List K))} {lc : Nat}
    {m1 m2 : Model K} {fs2 : List (List K)} {case : LoadCase} {u0 : List (List K)}
    (hnum : Numbered m1.dofv m1.dofs) (hcase : m1.loadcases lc = some case) (hu0 : u2 lc = some u0)
    (hshape : SameShape m1.dofv u0) (hz : ∀ ij y, entryU u0 ij = some y → y = 0)
    (h : secondOrder solve m u2 lc = .ok (m1, m2, fs2)) :
    ∃ (fs : List (List K)) (els : List (Elem K)) (loads : List (Load K)) (p U : Nat → K) (u : List (List K)),
      linearStatics solve m lc = .ok (m1, fs) ∧
      List.Forall₂ (fun q e' => ∃ k, q.1.2.stiff2 q.2 = .ok k ∧ e' = { q.1.1 with ke := k }) ((m1.elems.zip m.info).zip fs) els ∧
      m.loads2 fs = .ok loads ∧ globalLoad m1.dofv els loads lc = .ok p ∧
      m2.u lc = some u ∧ HoldsVector m1.dofv u U ∧
      (∀ d, Supported m1.dofv m1.supports case.support d → U d = 0) ∧
      (∀ r < m1.dofs, ¬ Supported m1.dofv m1.supports case.support r →
        ∑ c ∈ Finset.range m1.dofs, globalStiffness m1.dofv els (r, c) * U c = p r) ∧
      fs2 = ((m1.elems.zip m.info).zip fs).map (fun q => q.1.2.force2 lc q.2 (nodalDisp q.1.1 u)) := by
  unfold secondOrder at h
  simp only [bind, Except.bind] at h
  cases h1 : linearStatics solve m lc with
  | error e => simp only [h1] at h; cases h
  | ok r =>
    obtain ⟨m1', fs⟩ := r
    cases h2 : ((m1'.elems.zip m.info).zip fs).mapM stiff2Of with
    | error e => simp only [h1, h2] at h; cases h
    | ok els =>
      cases h3 : m.loads2 fs with
      | error e => simp only [h1, h2, h3] at h; cases h
      | ok loads =>
        cases h4 : m1'.loadcases lc with
        | none => simp only [h1, h2, h3, h4, getOr] at h; cases h
        | some case' =>
          simp only [h1, h2, h3, h4, getOr] at h
          split at h
          · cases h
          · rename_i m2' h5
            cases h6 : m2'.u lc with
            | none => simp only [h6] at h; cases h
            | some u =>
              simp only [h6] at h
              cases h
              rw [hcase] at h4; cases h4
              obtain ⟨p, U, u', rem, sol, g1, _, _, _, g5, g6, g7, g8, g9⟩ := statics_core hsolve (m := { m1 with
                u := u2, elems := els, loads := loads, loadcases := fun _ => some ⟨case.support, lc⟩ }) hnum hu0 hshape
                (case := ⟨case.support, lc⟩) rfl (by
                  intro ij d hd _
                  obtain ⟨y, hy⟩ := Option.isSome_iff_exists.mp (hshape ij (by rw [hd]; rfl))
                  rw [hy, hz ij y hy]) h5
              rw [h6] at g5; cases g5
              refine ⟨fs, els, loads, p, U, u, rfl, ?_, h3, g1, h6, g6, g8, g9, rfl⟩
              have hf := (mapM_ok_iff _ _ _).mp h2
              refine hf.imp ?_
              intro q e' hq
              unfold stiff2Of at hq
              split at hq
              · simp only [bind, Except.bind] at hq
                cases hk : q.1.2.stiff2 q.2 with
                | error e => rw [hk] at hq; cases hq
                | ok k => rw [hk] at hq; cases hq; exact ⟨k, rfl, rfl⟩
              · cases hq

/-- C241 fails: with a bar (or anything but a plane beam) in the model the second-order analysis never returns. -/
theorem C241_violation_bars {solve : Solver K} {m : AModel K} {u2 : Nat → Option (List (List K))} {lc : Nat}
    (hlen : m.info.length = m.fem.elems.length) {x : ElInfo K} (hx : x ∈ m.info) (hc : x.cls ≠ .beam) :
    ∀ r, secondOrder solve m u2 lc ≠ .ok r := by
  rintro r h
  unfold secondOrder at h
  simp only [bind, Except.bind] at h
  cases h1 : linearStatics solve m lc with
  | error e => simp only [h1] at h; cases h
  | ok r =>
    obtain ⟨m1, fs⟩ := r
    obtain ⟨h3, hfl, -⟩ := C238_partial hlen h1
    have hel : m1.elems = m.fem.elems := by
      unfold linearStaticsREM at h3
      obtain ⟨_, _, _, _, _, _, _, _, _, _, rfl⟩ := staticsREM_ok h3
      simp only [ensureNumbered, nodalDofs]
      split <;> rfl
    cases h2 : ((m1.elems.zip m.info).zip fs).mapM stiff2Of with
    | error e => simp only [h1, h2] at h; cases h
    | ok els =>
      obtain ⟨i, hi⟩ := List.mem_iff_getElem?.mp hx
      have hlt : i < m.fem.elems.length := by
        rw [← hlen]; exact (List.getElem?_eq_some_iff.mp hi).1
      have hz : ((m1.elems.zip m.info).zip fs)[i]? = some ((m.fem.elems[i], x), fs[i]'(by omega)) := by
        rw [List.getElem?_zip_eq_some, List.getElem?_zip_eq_some]
        exact ⟨⟨by rw [hel]; simp [hlt], hi⟩, by simp [hfl, hlt]⟩
      obtain ⟨e', _, hr⟩ := Forall₂_getElem? ((mapM_ok_iff _ _ _).mp h2) i _ hz
      unfold stiff2Of at hr
      rw [if_neg hc] at hr
      cases hr

/-! ### C242: linear buckling -/

/-- What is required of the eigenvalue solver: every returned pair satisfies `A x = w B x` with `x ≠ 0`. -/
def EigSound (eig : EigSolver K) : Prop :=
  ∀ n (A B : Matrix (Fin n) (Fin n) K) k ws, eig n A B k = some ws →
    ∀ wx ∈ ws, A *ᵥ wx.2 = wx.1 • (B *ᵥ wx.2) ∧ wx.2 ≠ 0

theorem entryU_zero (dofv : List (List Int)) (ij : Nat × Nat) (k : Int) (h : entry dofv ij = some k) :
    entryU (dofv.map fun d => d.map fun _ => (0 : K)) ij = some 0 := by
  unfold entry at h
  unfold entryU
  cases h1 : dofv[ij.1]? with
  | none => simp [h1] at h
  | some ds =>
    simp [h1] at h
    have := (List.getElem?_eq_some_iff.mp h).1
    simp [h1, this]

theorem modeAtNodes_holds {dofv : List (List Int)} {keep : List Nat} (hnd : keep.Nodup) (x : Fin keep.length → K) :
    HoldsVector dofv (modeAtNodes dofv keep x) (expand keep x) := by
  intro ij d hd
  have hy := entryU_zero (K := K) dofv ij d hd
  have hsc := entryU_scatter dofv ij d hd (List.ofFn fun a : Fin keep.length => (keep[a], x a)) _ 0 hy
  unfold modeAtNodes
  by_cases hk : d ∈ keep
  · obtain ⟨a, ha, rfl⟩ := List.getElem_of_mem hk
    have hmem : (keep[a], x ⟨a, ha⟩) ∈ List.ofFn fun a : Fin keep.length => (keep[a], x a) := by
      rw [List.mem_ofFn]; exact ⟨⟨a, ha⟩, rfl⟩
    have hnd' : ((List.ofFn fun a : Fin keep.length => (keep[a], x a)).map Prod.fst).Nodup := by
      rw [List.map_ofFn]
      have : (Prod.fst ∘ fun a : Fin keep.length => (keep[a], x a)) = fun a => keep[a] := rfl
      rw [this]
      have h9 : List.ofFn (fun a : Fin keep.length => keep[a]) = keep := List.ofFn_getElem (xs := keep)
      rw [h9]; exact hnd
    refine (hsc.2 hnd' _ hmem rfl).trans ?_
    have := expand_keep hnd x ⟨a, ha⟩
    simp only at this ⊢
    rw [← this]; rfl
  · rw [expand_off x hk]
    refine hsc.1 ?_
    intro q hq hqd
    rw [List.mem_ofFn] at hq
    obtain ⟨a, rfl⟩ := hq
    apply hk
    have : keep[a] = d := by simpa using hqd
    rw [← this]
    exact List.getElem_mem _

/-- C242: every load factor `w` returned by the buckling analysis comes with a mode stored at the nodes that is zero at the supports,
    not zero everywhere, and neutral: for every virtual displacement that is zero at the supports, the virtual work of the elastic
    element stiffnesses plus `w` times the virtual work of the element geometric stiffnesses (formed from the element forces of the
    linear analysis of the case) is zero. -/
theorem C242_partial {solve : Solver K} {eig : EigSolver K} (heig : EigSound eig) {m : AModel K} {lc k : Nat} {m1 : Model K}
    {out : List (K × List (List K))} {case : LoadCase} (hnum : Numbered m1.dofv m1.dofs) (hcase : m1.loadcases lc = some case)
    (he : ∀ e ∈ m1.elems, e.n1 ≠ e.n2) (h : linearBuckling solve eig m lc k = .ok (m1, out)) :
    ∃ fs, linearStatics solve m lc = .ok (m1, fs) ∧
    ∀ w v, (w, v) ∈ out → ∃ U : Nat → K, HoldsVector m1.dofv v U ∧
      (∀ d, Supported m1.dofv m1.supports case.support d → U d = 0) ∧ (∃ d < m1.dofs, U d ≠ 0) ∧
      ∀ δ : Nat → K, (∀ d, Supported m1.dofv m1.supports case.support d → δ d = 0) →
        (m1.elems.map fun e => form (globalDofs m1.dofv e).length e.ke
          (fun a => valAt δ (globalDofs m1.dofv e)[a]?) (fun b => valAt U (globalDofs m1.dofv e)[b]?)).sum +
        w * (((m1.elems.zip m.info).zip fs).map fun q => form (globalDofs m1.dofv q.1.1).length (q.1.2.geo q.2)
          (fun a => valAt δ (globalDofs m1.dofv q.1.1)[a]?) (fun b => valAt U (globalDofs m1.dofv q.1.1)[b]?)).sum = 0 := by
  unfold linearBuckling at h
  simp only [bind, Except.bind] at h
  cases h1 : linearStatics solve m lc with
  | error e => simp only [h1] at h; cases h
  | ok r =>
    obtain ⟨m1', fs⟩ := r
    cases h2 : ((m1'.elems.zip m.info).zip fs).mapM geoOf with
    | error e => simp only [h1, h2] at h; cases h
    | ok els =>
      cases h4 : m1'.loadcases lc with
      | none => simp only [h1, h2, h4, getOr] at h; cases h
      | some case' =>
        cases h5 : remDofs m1'.dofv m1'.supports case'.support with
        | error e => simp only [h1, h2, h4, h5, getOr] at h; cases h
        | ok rem =>
          cases h6 : eig (keepDofs m1'.dofs rem).length (reducedK (globalStiffness m1'.dofv m1'.elems) (keepDofs m1'.dofs rem))
              (-reducedK (globalStiffness m1'.dofv els) (keepDofs m1'.dofs rem)) k with
          | none => simp only [h1, h2, h4, h5, h6, getOr] at h; cases h
          | some ws =>
            simp only [h1, h2, h4, h5, h6, getOr] at h
            cases h
            rw [hcase] at h4; cases h4
            refine ⟨fs, rfl, ?_⟩
            intro w v hv
            rw [List.mem_map] at hv
            obtain ⟨⟨w', x⟩, hx, hwx⟩ := hv
            obtain rfl : w = w' := (congrArg Prod.fst hwx).symm
            obtain rfl := congrArg Prod.snd hwx
            obtain ⟨hAx, hx0⟩ := heig _ _ _ _ _ h6 _ hx
            simp only at hAx hx0
            have hlt : ∀ d ∈ (keepDofs m1.dofs rem), d < m1.dofs := fun d hd => (mem_keepDofs.mp hd).1
            have hnd : (keepDofs m1.dofs rem).Nodup := keepDofs_nodup _ _
            have hsupp : ∀ d, Supported m1.dofv m1.supports case.support d → d ∉ (keepDofs m1.dofs rem) := fun d hd hk =>
              (mem_keepDofs.mp hk).2 ((mem_remDofs h5 d).mpr hd)
            refine ⟨expand (keepDofs m1.dofs rem) x, modeAtNodes_holds hnd x, fun d hd => expand_off x (hsupp d hd), ?_, ?_⟩
            · obtain ⟨a, ha⟩ := Function.ne_iff.mp hx0
              exact ⟨(keepDofs m1.dofs rem)[a], hlt _ (List.getElem_mem _), by rw [expand_keep hnd x a]; exact ha⟩
            · intro δ hδ
              -- the geometric elements
              have hgeo : ((m1.elems.zip m.info).zip fs).map (fun q => form (globalDofs m1.dofv q.1.1).length (q.1.2.geo q.2)
                  (fun a => valAt δ (globalDofs m1.dofv q.1.1)[a]?) (fun b => valAt (expand (keepDofs m1.dofs rem) x) (globalDofs m1.dofv q.1.1)[b]?)) =
                  els.map fun e => form (globalDofs m1.dofv e).length e.ke
                    (fun a => valAt δ (globalDofs m1.dofv e)[a]?) (fun b => valAt (expand (keepDofs m1.dofs rem) x) (globalDofs m1.dofv e)[b]?) := by
                have hf := (mapM_ok_iff _ _ _).mp h2
                clear h2 h6 hAx
                generalize (m1.elems.zip m.info).zip fs = zs at hf
                induction hf with
                | nil => rfl
                | cons hq _ ih =>
                  rw [List.map_cons, List.map_cons, ih]
                  congr 1
                  unfold geoOf at hq
                  split at hq <;> cases hq <;> rfl
              have hels : ∀ e ∈ els, e.n1 ≠ e.n2 := by
                have hf := (mapM_ok_iff _ _ _).mp h2
                intro e hm
                obtain ⟨i, hi⟩ := List.mem_iff_getElem?.mp hm
                obtain ⟨q, hq, hr⟩ := Forall₂_getElem? hf.flip i _ hi
                have hqm : q.1.1 ∈ m1.elems :=
                  (List.of_mem_zip (List.of_mem_zip (List.mem_of_getElem? hq)).1).1
                have := he _ hqm
                unfold geoOf at hr
                split at hr <;> cases hr <;> exact this
              rw [hgeo, ← C02_virtual_work hnum he, ← C02_virtual_work hnum hels]
              -- rows
              have hrow : ∀ r < m1.dofs, δ r * (∑ c ∈ Finset.range m1.dofs, globalStiffness m1.dofv m1.elems (r, c) * expand (keepDofs m1.dofs rem) x c) +
                  w * (δ r * ∑ c ∈ Finset.range m1.dofs, globalStiffness m1.dofv els (r, c) * expand (keepDofs m1.dofs rem) x c) = 0 := by
                intro r hr
                by_cases hs : Supported m1.dofv m1.supports case.support r
                · rw [hδ r hs]; ring
                · have hk : r ∈ (keepDofs m1.dofs rem) := mem_keepDofs.mpr ⟨hr, fun hm => hs ((mem_remDofs h5 r).mp hm)⟩
                  obtain ⟨b, hb, rfl⟩ := List.getElem_of_mem hk
                  rw [sum_expand m1.dofs hlt, sum_expand m1.dofs hlt]
                  have := congrFun hAx ⟨b, hb⟩
                  rw [neg_mulVec] at this
                  simp only [Pi.smul_apply, Pi.neg_apply, smul_eq_mul] at this
                  simp only [mulVec, dotProduct, reducedK] at this
                  have t2 : (∑ a, globalStiffness m1.dofv m1.elems ((keepDofs m1.dofs rem)[b], (keepDofs m1.dofs rem)[a]) * x a) =
                      w * -(∑ a, globalStiffness m1.dofv els ((keepDofs m1.dofs rem)[b], (keepDofs m1.dofs rem)[a]) * x a) := this
                  rw [t2]; ring
              have hform : ∀ M : Nat → Nat → K, form m1.dofs M δ (expand (keepDofs m1.dofs rem) x) =
                  ∑ r ∈ Finset.range m1.dofs, δ r * ∑ c ∈ Finset.range m1.dofs, M r c * expand (keepDofs m1.dofs rem) x c := by
                intro M
                unfold form
                apply Finset.sum_congr rfl; intro r _
                rw [Finset.mul_sum]
                apply Finset.sum_congr rfl; intro c _
                ring
              rw [hform, hform, Finset.mul_sum, ← Finset.sum_add_distrib]
              exact Finset.sum_eq_zero fun r hr => hrow r (Finset.mem_range.mp hr)

/-- C242 fails: a model with a bar or a spring in it is never analysed for buckling. -/
theorem C242_violation_bars {solve : Solver K} {eig : EigSolver K} {m : AModel K} {lc k : Nat}
    (hlen : m.info.length = m.fem.elems.length) {x : ElInfo K} (hx : x ∈ m.info) (hc : x.cls ≠ .beam) :
    ∀ r, linearBuckling solve eig m lc k ≠ .ok r := by
  rintro r h
  by_cases hr : x.cls = .rod
  · unfold linearBuckling at h
    simp only [bind, Except.bind] at h
    cases h1 : linearStatics solve m lc with
    | error e => simp only [h1] at h; cases h
    | ok r =>
      obtain ⟨m1, fs⟩ := r
      obtain ⟨h3, hfl, -⟩ := C238_partial hlen h1
      have hel : m1.elems = m.fem.elems := by
        unfold linearStaticsREM at h3
        obtain ⟨_, _, _, _, _, _, _, _, _, _, rfl⟩ := staticsREM_ok h3
        simp only [ensureNumbered, nodalDofs]
        split <;> rfl
      cases h2 : ((m1.elems.zip m.info).zip fs).mapM geoOf with
      | error e => simp only [h1, h2] at h; cases h
      | ok els =>
        obtain ⟨i, hi⟩ := List.mem_iff_getElem?.mp hx
        have hlt : i < m.fem.elems.length := by
          rw [← hlen]; exact (List.getElem?_eq_some_iff.mp hi).1
        have hz : ((m1.elems.zip m.info).zip fs)[i]? = some ((m.fem.elems[i], x), fs[i]'(by omega)) := by
          rw [List.getElem?_zip_eq_some, List.getElem?_zip_eq_some]
          exact ⟨⟨by rw [hel]; simp [hlt], hi⟩, by simp [hfl, hlt]⟩
        obtain ⟨e', _, hg⟩ := Forall₂_getElem? ((mapM_ok_iff _ _ _).mp h2) i _ hz
        unfold geoOf at hg
        rw [hr] at hg
        cases hg
  · have hb : x.cls = .spring ∨ x.cls = .semi ∨ x.cls = .beam3 := by
      revert hr hc; cases x.cls <;> simp
    have hno := (C238_violation (solve := solve) (lc := lc) hlen hx hb).1
    unfold linearBuckling at h
    simp only [bind, Except.bind] at h
    cases h1 : linearStatics solve m lc with
    | error e => simp only [h1] at h; cases h
    | ok r => exact hno r h1

/-! ### Examples -/

/-- A solver that divides by the diagonal and checks its answer. -/
def exSolve : Solver ℚ := fun n A b =>
  let x : Fin n → ℚ := fun i => b i / A i i
  if (A *ᵥ x) = b then some x else none

/-- The same for eigenvalue problems, for the first coordinate vector. -/
def exEig : EigSolver ℚ := fun n A B _ =>
  (List.finRange n).head?.bind fun i =>
    let w : ℚ := A i i / B i i
    if A *ᵥ Pi.single i 1 = w • (B *ᵥ Pi.single i 1) then some [(w, Pi.single i 1)] else none

theorem exSolve_sound : SolverSound exSolve := by
  intro n A b x h
  unfold exSolve at h
  simp only at h
  split at h
  · rename_i hc; cases h; exact hc
  · cases h

theorem exEig_sound : EigSound exEig := by
  intro n A B k ws h wx hwx
  unfold exEig at h
  rw [Option.bind_eq_some_iff] at h
  obtain ⟨i, _, h⟩ := h
  simp only at h
  split at h
  · rename_i hc
    cases h
    rw [List.mem_singleton] at hwx
    subst hwx
    exact ⟨hc, fun h0 => by have := congrFun h0 i; simp at this⟩
  · cases h

/-- A beam clamped at one end and held at the other, with a moment there. -/
def exBeam : AModel ℚ where
  fem := {
    dofv := [[-1, -1, -1], [-1, -1, -1]]
    u := fun _ => some [[0, 0, 0], [0, 0, 0]]
    elems := [⟨.beam2, 0, 1, fun a b => if a = b then 4 else 1⟩]
    supports := [⟨0, 0, [0, 1, 2]⟩, ⟨0, 1, [0, 1]⟩]
    loads := [.point 0 1 [0, 0, 1] 8]
    loadcases := fun lc => if lc = 0 then some ⟨0, 0⟩ else none
    dofs := 0
    p := none }
  info := [⟨.beam, fun _ q => q.map fun x => 3 * x, fun f a b => if a = b then -((f[5]?).getD 0) else 0,
    fun _ => .ok fun a b => if a = b then 2 else 1, fun _ _ q => q⟩]
  loads2 := fun _ => .ok [.point 0 1 [0, 0, 1] 8]

example : (match linearStatics exSolve exBeam 0 with
    | .ok (m1, fs) => decide (m1.dofv = [[0, 1, 2], [3, 4, 5]] ∧ m1.u 0 = some [[0, 0, 0], [0, 0, 2]] ∧ fs = [[0, 0, 0, 0, 0, 6]])
    | .error _ => false) = true := by
  decide +kernel
example : (match secondOrder exSolve exBeam (fun _ => some [[0, 0, 0], [0, 0, 0]]) 0 with
    | .ok (_, m2, fs2) => decide (m2.u 0 = some [[0, 0, 0], [0, 0, 4]] ∧ fs2 = [[0, 0, 0, 0, 0, 4]])
    | .error _ => false) = true := by
  decide +kernel
example : (match linearBuckling exSolve exEig exBeam 0 1 with
    | .ok (_, out) => decide (out = [(2/3, [[0, 0, 0], [0, 0, 1]])])
    | .error _ => false) = true := by
  decide +kernel

/-- The same beam as a beam with semi-rigid ends: the displacements are found, the forces are not. -/
example : (match linearStatics exSolve { exBeam with info := exBeam.info.map fun x => { x with cls := .semi } } 0 with
    | .ok _ => false
    | .error e => decide (e = .typeError)) = true := by
  decide +kernel

end Metku.Fem
