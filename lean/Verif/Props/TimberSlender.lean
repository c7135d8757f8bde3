import Verif.Props.TimberBuckle

/-!
Slenderness of timber members: from buckling lengths and sections to the reductions of the buckling check.
-/
namespace Metku.Timber

open TimberSpec Real

theorem gyr_strong {b h : ℝ} (hb : 0 < b) (hh : 0 < h) : √(b * h ^ 3 / 12 / (b * h)) = h / √12 := by
  rw [show b * h ^ 3 / 12 / (b * h) = h ^ 2 / 12 by field_simp, Real.sqrt_div (by positivity), Real.sqrt_sq hh.le]

theorem gyr_weak {b h : ℝ} (hb : 0 < b) (hh : 0 < h) : √(h * b ^ 3 / 12 / (b * h)) = b / √12 := by
  rw [show h * b ^ 3 / 12 / (b * h) = b ^ 2 / 12 by field_simp, Real.sqrt_div (by positivity), Real.sqrt_sq hb.le]

theorem lexMax_mem {m : TMember} {l : List Forces} {f : Forces} (h : m.lexMax l = .ok f) : f ∈ l := by
  have key : ∀ (l : List Forces) (a : Forces), l.foldl (fun g h => if lexLt (m.sigmaY g, m.sigmaZ g) (m.sigmaY h, m.sigmaZ h) then h else g) a = a ∨
      l.foldl (fun g h => if lexLt (m.sigmaY g, m.sigmaZ g) (m.sigmaY h, m.sigmaZ h) then h else g) a ∈ l := by
    intro l
    induction l with
    | nil => exact fun a => .inl rfl
    | cons b l ih =>
      intro a
      rw [List.foldl_cons]
      split_ifs
      · rcases ih b with e | e
        · exact .inr (by rw [e]; exact List.mem_cons_self)
        · exact .inr (List.mem_cons_of_mem _ e)
      · rcases ih a with e | e
        · exact .inl e
        · exact .inr (List.mem_cons_of_mem _ e)
  cases l with
  | nil => cases h
  | cons a l =>
    obtain rfl := Except.ok.inj h
    rcases key l a with e | e
    · rw [e]
      exact List.mem_cons_self
    · exact List.mem_cons_of_mem _ e

/-- The relative slenderness of a rectangle of depth `d` in the plane of buckling, EN 1995-1-1 (6.21). -/
noncomputable def relOf (l d fc0k e005 : ℝ) : ℝ := l * √12 / (π * d) * √(fc0k / e005)

/-- Reductions of one axis: one per segment, each solving the equation of struts for the length and the depth of its segment. -/
def Reduced (k : Kind) (fc0k e005 : ℝ) (ln : List ℝ) (depth : ℕ → ℝ → Prop) (kc : List ℝ) : Prop :=
  kc.length = ln.length ∧ ∀ (i : ℕ) (l x : ℝ), ln[i]? = some l → kc[i]? = some x → ∃ d, depth i d ∧ (0.3 ≤ relOf l d fc0k e005 → Perry ((if k = .solid then 1 / 5 else 1 / 10) * (relOf l d fc0k e005 - 0.3)) (relOf l d fc0k e005) x)

theorem gyrY_spec {m : TMember} (h : m.Sound) {s : List ℝ} {r : List ℝ} (hr : m.gyrY s = .ok r) :
    r.length = (segs s).length ∧ ∀ (i : ℕ) (x : ℝ), r[i]? = some x → ∃ g, (segs s)[i]? = some g ∧ ∃ f ∈ m.secsIn g, x = m.H f.loc / √12 := by
  unfold TMember.gyrY at hr
  refine ⟨mapM_length hr, fun i x hx => ?_⟩
  have hi : i < (segs s).length := mapM_length hr ▸ (List.getElem?_eq_some_iff.1 hx).1
  obtain ⟨y, hy, e⟩ := mapM_get hr i hi
  rw [hx] at hy
  obtain rfl := Option.some.inj hy
  simp only [bind, Except.bind] at e
  cases hm : m.lexMax (m.secsIn (segs s)[i]) with
  | error e' => rw [hm] at e; cases e
  | ok f =>
    rw [hm] at e
    refine ⟨_, List.getElem?_eq_getElem hi, f, lexMax_mem hm, ?_⟩
    rw [← gyr_strong h.B (h.H f.loc)]
    exact (Except.ok.inj e).symm

theorem gyrZ_spec {m : TMember} (h : m.Sound) {s : List ℝ} {r : List ℝ} (hr : m.gyrZ s = .ok r) : r.length = (segs s).length ∧ ∀ x ∈ r, x = m.B / √12 := by
  unfold TMember.gyrZ at hr
  refine ⟨mapM_length hr, fun x hx => ?_⟩
  obtain ⟨g, -, e⟩ := (mapM_inv hr).2 x hx
  simp only [bind, Except.bind] at e
  cases hm : m.lexMax (m.secsIn g) with
  | error e' => rw [hm] at e; cases e
  | ok f =>
    rw [hm] at e
    rw [← gyr_weak h.B (h.H f.loc)]
    exact (Except.ok.inj e).symm

theorem relSlender_eq {d : ℝ} (hd : 0 < d) (l fc0k e005 : ℝ) : relSlender (l / (d / √12)) fc0k e005 = relOf l d fc0k e005 := by
  unfold relSlender relOf
  have h12 : √(12 : ℝ) ≠ 0 := (Real.sqrt_pos.2 (by norm_num)).ne'
  have hp := Real.pi_ne_zero
  have hd' := hd.ne'
  congr 1
  field_simp

/-- **C158** (partial).  The buckling check uses one reduction per segment and axis.  About the weak axis each one belongs to the width of the member; about the strong axis to the depth at one of the sections of its segment, which is
the depth of the member if it is constant.  From the relative slenderness 0.3 on it solves the equation of struts for the buckling length of the segment. -/
theorem C158_partial (m : TMember) (h : m.Sound) (k : Kind) (s : Stab) (supY supZ : List ℝ) (fc0k e005 : ℝ) (y z : List ℝ) (hln : s.ln = .ok (y, z)) (hy : y.length = (segs supY).length) (hz : z.length = (segs supZ).length)
    (r : ℝ × ℝ) (hr : m.buckling s supY supZ (betaC k) fc0k e005 = .ok r) :
    ∃ kcy kcz, m.checkBuckling supY supZ kcy kcz = .ok r ∧ Reduced k fc0k e005 z (fun _ d => d = m.B) kcz ∧
      Reduced k fc0k e005 y (fun i d => ∃ g, (segs supY)[i]? = some g ∧ ∃ f ∈ m.secsIn g, d = m.H f.loc) kcy ∧ ∀ d, (∀ x, m.H x = d) → Reduced k fc0k e005 y (fun _ d' => d' = d) kcy := by
  unfold TMember.buckling at hr
  simp only [bind, Except.bind] at hr
  cases hiy : m.gyrY supY with
  | error e => rw [hiy] at hr; cases hr
  | ok iy =>
    cases hiz : m.gyrZ supZ with
    | error e => rw [hiy, hiz] at hr; cases hr
    | ok iz =>
      obtain ⟨ly, sy⟩ := gyrY_spec h hiy
      obtain ⟨lz, sz⟩ := gyrZ_spec h hiz
      have ey : kcList (betaC k) fc0k e005 y iy = .ok (List.zipWith (fun l r => kC (betaC k) (relSlender (l / r) fc0k e005)) y iy) := by
        unfold kcList bcast
        rw [if_pos (hy.trans ly.symm)]
      have ez : kcList (betaC k) fc0k e005 z iz = .ok (List.zipWith (fun l r => kC (betaC k) (relSlender (l / r) fc0k e005)) z iz) := by
        unfold kcList bcast
        rw [if_pos (hz.trans lz.symm)]
      simp only [hiy, hiz, hln, ey, ez] at hr
      have hkey : ∀ (ln is : List ℝ) (i : ℕ) (l x : ℝ), ln[i]? = some l → (List.zipWith (fun l r => kC (betaC k) (relSlender (l / r) fc0k e005)) ln is)[i]? = some x →
          ∃ q, is[i]? = some q ∧ x = kC (betaC k) (relSlender (l / q) fc0k e005) := by
        intro ln is i l x hl hx
        rw [List.getElem?_zipWith, hl] at hx
        cases hq : is[i]? with
        | none => rw [hq] at hx; cases hx
        | some q =>
          rw [hq] at hx
          exact ⟨q, rfl, (Option.some.inj hx).symm⟩
      have hperry : ∀ l, 0.3 ≤ l → Perry ((if k = .solid then 1 / 5 else 1 / 10) * (l - 0.3)) l (kC (betaC k) l) := (C151_partial k).2.1
      have hY : Reduced k fc0k e005 y (fun i d => ∃ g, (segs supY)[i]? = some g ∧ ∃ f ∈ m.secsIn g, d = m.H f.loc) (List.zipWith (fun l r => kC (betaC k) (relSlender (l / r) fc0k e005)) y iy) := by
        refine ⟨by rw [List.length_zipWith, hy, ly, min_self], fun i l x hl hx => ?_⟩
        obtain ⟨q, hq, rfl⟩ := hkey _ _ i l x hl hx
        obtain ⟨g, hg, f, hf, rfl⟩ := sy i q hq
        refine ⟨m.H f.loc, ⟨g, hg, f, hf, rfl⟩, ?_⟩
        rw [relSlender_eq (h.H f.loc)]
        exact hperry _
      refine ⟨_, _, hr, ?_, hY, fun d hd => ⟨hY.1, fun i l x hl hx => ?_⟩⟩
      · refine ⟨by rw [List.length_zipWith, hz, lz, min_self], fun i l x hl hx => ?_⟩
        obtain ⟨q, hq, rfl⟩ := hkey _ _ i l x hl hx
        obtain rfl := sz q (List.mem_of_getElem? hq)
        refine ⟨m.B, rfl, ?_⟩
        rw [relSlender_eq h.B]
        exact hperry _
      · obtain ⟨d', ⟨g, -, f, -, e⟩, hp⟩ := hY.2 i l x hl hx
        exact ⟨d', by rw [e, hd], hp⟩

/-- **C158** (negation).  The section that decides the slenderness of a segment is meant to be the one with the largest bending stress.  Under hogging moments it is the one with the smallest: a member that gets lower towards
the support over which it hogs is taken with the depth at its other end. -/
theorem C158_violation (m : TMember) (h : m.Sound) (f g : Forces) (hm : m.secs = [f, g]) (hf : 0 ≤ f.loc) (hfg : f.loc < g.loc) (hg : g.loc ≤ 1) (hs : m.sigmaY g < m.sigmaY f) (hs0 : m.sigmaY f ≤ 0) (hH : m.H g.loc < m.H f.loc) :
    |m.sigmaY f| < |m.sigmaY g| ∧ ∃ i, m.gyrY [] = .ok [i] ∧ m.H g.loc / √12 < i := by
  refine ⟨by rw [abs_of_nonpos hs0, abs_of_neg (by linarith)]; linarith, m.H f.loc / √12, ?_, ?_⟩
  · have hsec : m.secsIn (0, 1) = [f, g] := by
      unfold TMember.secsIn TMember.locs TMember.firstAt
      rw [hm]
      have h1 : f.loc ≤ 1 := by linarith
      have h2 : 0 ≤ g.loc := by linarith
      simp [hf, hg, h1, h2, hfg.ne]
    have hlex : m.lexMax [f, g] = .ok f := by
      have hn : lexLt (m.sigmaY f, m.sigmaZ f) (m.sigmaY g, m.sigmaZ g) = false := by
        unfold lexLt
        simp only [decide_eq_false_iff_not, not_or, not_and]
        exact ⟨by linarith, fun e => absurd e hs.ne'⟩
      unfold TMember.lexMax
      simp only [List.foldl_cons, List.foldl_nil, hn, Bool.false_eq_true, if_false]
    unfold TMember.gyrY
    simp only [segs_nil, List.mapM_cons, List.mapM_nil, hsec, hlex, bind, Except.bind, pure, Except.pure]
    rw [gyr_strong h.B (h.H f.loc)]
  · exact div_lt_div_of_pos_right hH (Real.sqrt_pos.2 (by norm_num))

/-- A hinged beam of 4 m in one piece under 50 kN. -/
example : ∃ r kcy kcz, (demoMember [⟨-50000, 4000000, 0, 0, 0, 0, 0.5⟩]).buckling ⟨.beam, ⟨none, none, 0, 0⟩, none, [4000], [4000]⟩ [] [] (betaC .solid) 21 7400 = .ok r ∧
    (demoMember [⟨-50000, 4000000, 0, 0, 0, 0, 0.5⟩]).checkBuckling [] [] kcy kcz = .ok r ∧ Reduced .solid 21 7400 [4000] (fun _ d => d = 200) kcy := by
  have hln : Stab.ln ⟨.beam, ⟨none, none, 0, 0⟩, none, [4000], [4000]⟩ = .ok ([1 * 4000], [1 * 4000]) := by
    unfold Stab.ln Stab.factors
    norm_num [formBeta, betaBeam, Beta.times, bind, Except.bind]
  rw [one_mul] at hln
  have hsec : (demoMember [⟨-50000, 4000000, 0, 0, 0, 0, 0.5⟩]).secsIn (0, 1) = [⟨-50000, 4000000, 0, 0, 0, 0, 0.5⟩] := single_secs rfl (by norm_num) (by norm_num)
  obtain ⟨r, hr⟩ : ∃ r, (demoMember [⟨-50000, 4000000, 0, 0, 0, 0, 0.5⟩]).buckling ⟨.beam, ⟨none, none, 0, 0⟩, none, [4000], [4000]⟩ [] [] (betaC .solid) 21 7400 = .ok r := by
    unfold TMember.buckling TMember.gyrY TMember.gyrZ kcList bcast
    simp only [segs_nil, List.mapM_cons, List.mapM_nil, hsec, TMember.lexMax, List.foldl_nil, bind, Except.bind, pure, Except.pure, hln, List.length_singleton, if_true, List.zipWith_cons_cons, List.zipWith_nil_left]
    exact ⟨_, single_check (f := ⟨-50000, 4000000, 0, 0, 0, 0, 0.5⟩) rfl (by norm_num) (by norm_num) _ _⟩
  obtain ⟨kcy, kcz, h1, -, -, h4⟩ := C158_partial _ (demo_sound _) .solid _ [] [] 21 7400 [4000] [4000] hln (by simp [segs_nil]) (by simp [segs_nil]) r hr
  exact ⟨r, kcy, kcz, hr, h1, h4 200 fun _ => rfl⟩

/-- A cantilever of 4 m, 400 mm high at its tip and 200 mm at its support. -/
example : ∃ i, ({ demoMember [⟨0, 0, 0, 0, 0, 0, 0⟩, ⟨0, -8000000, 0, 0, 0, 0, 1⟩] with H := fun x => if x < 1 then 400 else 200 } : TMember).gyrY [] = .ok [i] ∧ 200 / √12 < i := by
  have := (C158_violation { demoMember [⟨0, 0, 0, 0, 0, 0, 0⟩, ⟨0, -8000000, 0, 0, 0, 0, 1⟩] with H := fun x => if x < 1 then 400 else 200 }
    ⟨by norm_num [demoMember], by intro x; dsimp only; split_ifs <;> norm_num, by norm_num [demoMember], by norm_num [demoMember], by norm_num [demoMember], by norm_num [demoMember], by norm_num [demoMember]⟩
    ⟨0, 0, 0, 0, 0, 0, 0⟩ ⟨0, -8000000, 0, 0, 0, 0, 1⟩ rfl (by norm_num) (by norm_num) (by norm_num) (by norm_num [TMember.sigmaY, demoMember]) (by norm_num [TMember.sigmaY, demoMember]) (by norm_num)).2
  simpa using this

end Metku.Timber
