import Verif.Model.TimberMember
import Verif.Spec.TimberMember
import Mathlib.Tactic.Linarith
import Mathlib.Tactic.FieldSimp
import Mathlib.Tactic.NormNum
import Mathlib.Tactic.Positivity

/-!
Cross-section checks of timber members.
-/
namespace Metku.Timber

open TimberSpec

/-! ### C146: checks of a section -/

/-- A member with positive sizes and strengths. -/
structure TMember.Sound (m : TMember) : Prop where
  B : 0 < m.B
  H : ∀ x, 0 < m.H x
  ft0d : 0 < m.ft0d
  fc0d : 0 < m.fc0d
  fmd : 0 < m.fmd
  fvd : 0 < m.fvd
  kcr : 0 < m.kcr

/-- Area at a location. -/
noncomputable def TMember.area (m : TMember) (x : ℝ) : ℝ := m.B * m.H x

/-- Bending stress about the strong axis, related to the strength. -/
noncomputable def TMember.strong (m : TMember) (f : Forces) : ℝ := f.myed / (m.B * m.H f.loc ^ 2 / 6) / m.fmd

/-- Bending stress about the weak axis, related to the strength. -/
noncomputable def TMember.weak (m : TMember) (f : Forces) : ℝ := f.mzed / (m.H f.loc * m.B ^ 2 / 6) / m.fmd

theorem TMember.Sound.area_pos {m : TMember} (h : m.Sound) (x : ℝ) : 0 < m.area x := mul_pos h.B (h.H x)

theorem strong_sign {m : TMember} (h : m.Sound) (f : Forces) : (0 < m.strong f ↔ 0 < f.myed) ∧ (m.strong f < 0 ↔ f.myed < 0) := by
  have hH := h.H f.loc
  have hB := h.B
  have hW : 0 < m.B * m.H f.loc ^ 2 / 6 := by positivity
  unfold TMember.strong
  refine ⟨by rw [lt_div_iff₀ h.fmd, zero_mul, lt_div_iff₀ hW, zero_mul], by rw [div_lt_iff₀ h.fmd, zero_mul, div_lt_iff₀ hW, zero_mul]⟩

theorem weak_sign {m : TMember} (h : m.Sound) (f : Forces) : (0 < m.weak f ↔ 0 < f.mzed) ∧ (m.weak f < 0 ↔ f.mzed < 0) := by
  have hH := h.H f.loc
  have hB := h.B
  have hW : 0 < m.H f.loc * m.B ^ 2 / 6 := by positivity
  unfold TMember.weak
  refine ⟨by rw [lt_div_iff₀ h.fmd, zero_mul, lt_div_iff₀ hW, zero_mul], by rw [div_lt_iff₀ h.fmd, zero_mul, div_lt_iff₀ hW, zero_mul]⟩

theorem bending_eq (m : TMember) (f : Forces) : m.checkBending f = max |m.strong f + 0.7 * m.weak f| |m.weak f + 0.7 * m.strong f| := by
  unfold TMember.checkBending TMember.strong TMember.weak TMember.sigmaY TMember.sigmaZ
  rw [mul_div_assoc 0.7 _ m.fmd, mul_div_assoc 0.7 _ m.fmd]

theorem abs_strong {m : TMember} (h : m.Sound) (f : Forces) : |m.sigmaY f| / m.fmd = |m.strong f| := by
  unfold TMember.strong TMember.sigmaY
  rw [abs_div (f.myed / _) m.fmd, abs_of_pos h.fmd]

theorem bendTens_eq {m : TMember} (h : m.Sound) (f : Forces) :
    m.checkBendTens f = f.ned / m.area f.loc / m.ft0d + max (|m.strong f| + 0.7 * m.weak f) (0.7 * |m.strong f| + m.weak f) := by
  unfold TMember.checkBendTens
  rw [← abs_strong h f, ← max_add_add_left, mul_div_assoc, mul_div_assoc]
  unfold TMember.weak TMember.sigma0 TMember.sigmaZ TMember.area
  congr 1 <;> ring

theorem bendComp_eq {m : TMember} (h : m.Sound) (f : Forces) :
    m.checkBendComp f = (f.ned / m.area f.loc / m.fc0d) ^ 2 + max (|m.strong f| + 0.7 * m.weak f) (0.7 * |m.strong f| + m.weak f) := by
  unfold TMember.checkBendComp
  rw [← abs_strong h f, ← max_add_add_left, mul_div_assoc, mul_div_assoc]
  unfold TMember.weak TMember.sigma0 TMember.sigmaZ TMember.area
  congr 1 <;> ring

/-- **C146** (partial).  A section passes the check of the axial force exactly when tension and compression do not exceed area times strength, and the check of shear exactly when both shear forces do not exceed two thirds of
the effective area times strength.  Bending about both axes is checked at the worst corner when the moments do not have opposite signs, and together with tension or compression when the moment about the weak axis is not
negative. -/
theorem C146_partial (m : TMember) (h : m.Sound) (f : Forces) :
    (m.checkNormal f ≤ 1 ↔ f.ned ≤ m.area f.loc * m.ft0d ∧ -f.ned ≤ m.area f.loc * m.fc0d) ∧
    (m.shearRatio f ≤ 1 ↔ |f.vyed| ≤ 2 / 3 * (m.area f.loc * m.kcr) * m.fvd ∧ |f.vzed| ≤ 2 / 3 * (m.area f.loc * m.kcr) * m.fvd) ∧
    (0 ≤ f.myed * f.mzed → m.checkBending f = biaxial (m.strong f) (m.weak f)) ∧
    (0 ≤ f.mzed → m.checkBendTens f = f.ned / m.area f.loc / m.ft0d + biaxial (m.strong f) (m.weak f)) ∧
    (0 ≤ f.mzed → m.checkBendComp f = (f.ned / m.area f.loc / m.fc0d) ^ 2 + biaxial (m.strong f) (m.weak f)) := by
  have hA := h.area_pos f.loc
  have hwk : 0 ≤ f.mzed → 0 ≤ m.weak f := fun h0 => not_lt.1 fun hc => absurd ((weak_sign h f).2.1 hc) (not_lt.2 h0)
  refine ⟨?_, ?_, ?_, ?_, ?_⟩
  · unfold TMember.checkNormal TMember.sigma0
    change (if 0 < f.ned then |f.ned / m.area f.loc| / m.ft0d else |f.ned / m.area f.loc| / m.fc0d) ≤ 1 ↔ _
    rw [abs_div, abs_of_pos hA]
    split_ifs with hn
    · rw [abs_of_pos hn, div_le_one h.ft0d, div_le_iff₀ hA]
      constructor
      · intro hc
        exact ⟨by linarith, by linarith [mul_pos hA h.fc0d]⟩
      · intro hc
        linarith [hc.1]
    · rw [abs_of_nonpos (not_lt.1 hn), div_le_one h.fc0d, div_le_iff₀ hA]
      constructor
      · intro hc
        exact ⟨by linarith [mul_pos hA h.ft0d, not_lt.1 hn], by linarith⟩
      · intro hc
        linarith [hc.2]
  · have key : ∀ v : ℝ, |3 / 2 * v / (m.H f.loc * m.B * m.kcr)| / m.fvd ≤ 1 ↔ |v| ≤ 2 / 3 * (m.area f.loc * m.kcr) * m.fvd := by
      intro v
      have hd : 0 < m.H f.loc * m.B * m.kcr := mul_pos (mul_pos (h.H _) h.B) h.kcr
      rw [abs_div, abs_of_pos hd, abs_mul, abs_of_pos (by norm_num : (0 : ℝ) < 3 / 2), div_le_one h.fvd, div_le_iff₀ hd]
      unfold TMember.area
      constructor
      · intro hc
        linarith
      · intro hc
        linarith
    unfold TMember.shearRatio
    rw [max_le_iff]
    exact and_congr (key f.vyed) (key f.vzed)
  · intro hs
    rw [bending_eq]
    have hs' : 0 ≤ m.strong f * m.weak f := by
      have hH := h.H f.loc
      have hB := h.B
      have hfm := h.fmd
      have e : m.strong f * m.weak f = f.myed * f.mzed * (36 / (m.B ^ 3 * m.H f.loc ^ 3 * m.fmd ^ 2)) := by
        unfold TMember.strong TMember.weak
        field_simp
        ring
      rw [e]
      exact mul_nonneg hs (by positivity)
    unfold biaxial
    have e1 : |m.strong f + 0.7 * m.weak f| = |m.strong f| + 0.7 * |m.weak f| := by
      rcases le_or_gt 0 (m.strong f) with h1 | h1
      · rcases eq_or_lt_of_le h1 with h2 | h2
        · rw [← h2]
          simp only [zero_add, abs_zero]
          rw [abs_mul, abs_of_pos (by norm_num : (0 : ℝ) < 0.7)]
        · have h3 : 0 ≤ m.weak f := by
            by_contra hc
            nlinarith
          rw [abs_of_nonneg h1, abs_of_nonneg h3, abs_of_nonneg (by linarith)]
      · have h3 : m.weak f ≤ 0 := by
          by_contra hc
          nlinarith
        rw [abs_of_neg h1, abs_of_nonpos h3, abs_of_nonpos (by linarith)]
        ring
    have e2 : |m.weak f + 0.7 * m.strong f| = 0.7 * |m.strong f| + |m.weak f| := by
      rcases le_or_gt 0 (m.strong f) with h1 | h1
      · rcases eq_or_lt_of_le h1 with h2 | h2
        · rw [← h2]
          simp
        · have h3 : 0 ≤ m.weak f := by
            by_contra hc
            nlinarith
          rw [abs_of_nonneg h1, abs_of_nonneg h3, abs_of_nonneg (by linarith)]
          ring
      · have h3 : m.weak f ≤ 0 := by
          by_contra hc
          nlinarith
        rw [abs_of_neg h1, abs_of_nonpos h3, abs_of_nonpos (by linarith)]
        ring
    rw [e1, e2]
  · intro hz
    rw [bendTens_eq h]
    unfold biaxial
    rw [abs_of_nonneg (hwk hz)]
  · intro hz
    rw [bendComp_eq h]
    unfold biaxial
    rw [abs_of_nonneg (hwk hz)]

/-- **C146** (negation).  Moments of opposite signs cancel: bending is rated below the worst corner. -/
theorem C146_violation (m : TMember) (h : m.Sound) (f : Forces) (hs : f.myed * f.mzed < 0) : m.checkBending f < biaxial (m.strong f) (m.weak f) := by
  have hs' : m.strong f * m.weak f < 0 := by
    have hH := h.H f.loc
    have hB := h.B
    have hfm := h.fmd
    have e : m.strong f * m.weak f = f.myed * f.mzed * (36 / (m.B ^ 3 * m.H f.loc ^ 3 * m.fmd ^ 2)) := by
      unfold TMember.strong TMember.weak
      field_simp
      ring
    rw [e]
    exact mul_neg_of_neg_of_pos hs (by positivity)
  rw [bending_eq]
  unfold biaxial
  rcases mul_neg_iff.1 hs' with ⟨h1, h2⟩ | ⟨h1, h2⟩
  · rw [abs_of_pos h1, abs_of_neg h2]
    refine max_lt (lt_max_of_lt_left ?_) (lt_max_of_lt_right ?_)
    · rw [abs_lt]
      constructor <;> linarith
    · rw [abs_lt]
      constructor <;> linarith
  · rw [abs_of_neg h1, abs_of_pos h2]
    refine max_lt (lt_max_of_lt_left ?_) (lt_max_of_lt_right ?_)
    · rw [abs_lt]
      constructor <;> linarith
    · rw [abs_lt]
      constructor <;> linarith

/-- **C146** (negation).  A negative moment about the weak axis relieves: tension at its limit together with bending at its limit passes all six checks of a section. -/
theorem C146_violation_weak (m : TMember) (h : m.Sound) (f : Forces) (n : ℕ) (hf : m.secs[n]? = some f) (hv : f.vyed = 0 ∧ f.vzed = 0) (ht : f.ted = 0) (hy : f.myed = 0) (hz : f.mzed < 0)
    (hzl : |m.weak f| ≤ 1) (hn : 0 < f.ned) (hnl : f.ned ≤ m.area f.loc * m.ft0d) (hnc : f.ned ≤ m.area f.loc * m.fc0d) :
    ∃ rs, m.resistance n false = .ok rs ∧ (∀ r ∈ rs, r ≤ 1) ∧ m.checkBendTens f < f.ned / m.area f.loc / m.ft0d + biaxial (m.strong f) (m.weak f) := by
  have hA := h.area_pos f.loc
  have hw : m.weak f < 0 := (weak_sign h f).2.2 hz
  have hst : m.strong f = 0 := by
    unfold TMember.strong
    rw [hy, zero_div, zero_div]
  have hg : pyGet m.secs (n : ℤ) = .ok f := by
    unfold pyGet
    rw [if_pos (Int.natCast_nonneg n), Int.toNat_natCast, hf]
    rfl
  have hsh : m.shearRatio f = 0 := by
    unfold TMember.shearRatio TMember.tau
    rw [hv.1, hv.2]
    simp
  have hto : m.checkTorsion f = 0 := by
    unfold TMember.checkTorsion torStress
    rw [ht]
    simp
  have hu : f.ned / m.area f.loc / m.ft0d ≤ 1 := by
    rw [div_le_one h.ft0d, div_le_iff₀ hA]
    linarith
  have hc : 0 ≤ f.ned / m.area f.loc / m.fc0d ∧ f.ned / m.area f.loc / m.fc0d ≤ 1 := by
    refine ⟨div_nonneg (div_nonneg hn.le hA.le) h.fc0d.le, ?_⟩
    rw [div_le_one h.fc0d, div_le_iff₀ hA]
    linarith
  refine ⟨[m.checkNormal f, m.shearRatio f, m.checkBending f, m.checkTorsion f, m.checkBendTens f, m.checkBendComp f], ?_, ?_, ?_⟩
  · unfold TMember.resistance TMember.checkShear
    simp only [Bool.false_and, bind, Except.bind, hg, Bool.false_eq_true, if_false]
  · intro r hr
    simp only [List.mem_cons, List.not_mem_nil, or_false] at hr
    rcases hr with rfl | rfl | rfl | rfl | rfl | rfl
    · refine (C146_partial m h f).1.2 ⟨hnl, ?_⟩
      linarith [mul_pos hA h.fc0d]
    · rw [hsh]; norm_num
    · rw [bending_eq, hst]
      simp only [zero_add, mul_zero, add_zero]
      refine max_le ?_ hzl
      rw [abs_mul, abs_of_pos (by norm_num : (0 : ℝ) < 0.7)]
      linarith
    · rw [hto]; norm_num
    · rw [bendTens_eq h, hst]
      have : max (|(0 : ℝ)| + 0.7 * m.weak f) (0.7 * |(0 : ℝ)| + m.weak f) ≤ 0 := by
        rw [abs_zero]
        exact max_le (by linarith) (by linarith)
      linarith
    · rw [bendComp_eq h, hst]
      have h1 : max (|(0 : ℝ)| + 0.7 * m.weak f) (0.7 * |(0 : ℝ)| + m.weak f) ≤ 0 := by
        rw [abs_zero]
        exact max_le (by linarith) (by linarith)
      have h2 : (f.ned / m.area f.loc / m.fc0d) ^ 2 ≤ 1 := pow_le_one₀ hc.1 hc.2
      linarith
  · rw [bendTens_eq h]
    unfold biaxial
    rw [hst, abs_zero, abs_of_neg hw]
    have : max (0 + 0.7 * m.weak f) (0.7 * 0 + m.weak f) < max (0 + 0.7 * -m.weak f) (0.7 * 0 + -m.weak f) := max_lt (lt_max_of_lt_left (by linarith)) (lt_max_of_lt_left (by linarith))
    linarith

/-- A member of 100 by 200 mm with the given sections. -/
noncomputable def demoMember (secs : List Forces) : TMember := ⟨fun _ => 200, 100, 4000, true, 0, 0, 10, 14, 16, 2, 0.67, secs⟩

theorem demo_sound (secs : List Forces) : (demoMember secs).Sound := by
  constructor <;> norm_num [demoMember]

/-- Tension of 190 kN (limit 200) with a moment of 5 kNm about the weak axis (limit 5.33): sound by all checks of the section, rated 1.89 by the standard. -/
example : ∃ rs, (demoMember [⟨190000, 0, -5000000, 0, 0, 0, 0⟩]).resistance 0 false = .ok rs ∧ (∀ r ∈ rs, r ≤ 1) := by
  obtain ⟨rs, h1, h2, -⟩ := C146_violation_weak (demoMember [⟨190000, 0, -5000000, 0, 0, 0, 0⟩]) (demo_sound _) ⟨190000, 0, -5000000, 0, 0, 0, 0⟩ 0 rfl ⟨rfl, rfl⟩ rfl rfl (by norm_num)
    (by norm_num [TMember.weak, demoMember, abs_le]) (by norm_num) (by norm_num [demoMember, TMember.area]) (by norm_num [demoMember, TMember.area])
  exact ⟨rs, h1, h2⟩

/-- Bending about both axes with the same signs is rated at the corner; with opposite signs below it. -/
example : (demoMember []).checkBending ⟨0, 3000000, 2000000, 0, 0, 0, 0⟩ = biaxial ((demoMember []).strong ⟨0, 3000000, 2000000, 0, 0, 0, 0⟩) ((demoMember []).weak ⟨0, 3000000, 2000000, 0, 0, 0, 0⟩) ∧
    (demoMember []).checkBending ⟨0, 3000000, -2000000, 0, 0, 0, 0⟩ < biaxial ((demoMember []).strong ⟨0, 3000000, -2000000, 0, 0, 0, 0⟩) ((demoMember []).weak ⟨0, 3000000, -2000000, 0, 0, 0, 0⟩) :=
  ⟨(C146_partial _ (demo_sound _) _).2.2.1 (by norm_num), C146_violation _ (demo_sound _) _ (by norm_num)⟩

/-! ### C147: checks of all sections -/

theorem fold_zip_ge {n : ℕ} : ∀ (rows : List (List ℝ)) (acc : List ℝ), acc.length = n → (∀ r ∈ rows, r.length = n) →
    (rows.foldl (List.zipWith max) acc).length = n ∧ ∀ (i : ℕ) (y : ℝ), (rows.foldl (List.zipWith max) acc)[i]? = some y →
      (∀ x, acc[i]? = some x → x ≤ y) ∧ (∀ r ∈ rows, ∀ x, r[i]? = some x → x ≤ y) ∧ (acc[i]? = some y ∨ ∃ r ∈ rows, r[i]? = some y) := by
  intro rows
  induction rows with
  | nil =>
    intro acc ha _
    refine ⟨ha, fun i y hy => ⟨fun x hx => ?_, by simp, .inl hy⟩⟩
    rw [List.foldl_nil] at hy
    rw [hy] at hx
    exact (Option.some.inj hx).ge
  | cons r rows ih =>
    intro acc ha hr
    have hrl := hr r List.mem_cons_self
    obtain ⟨h1, h2⟩ := ih (List.zipWith max acc r) (by rw [List.length_zipWith, ha, hrl, min_self]) fun q hq => hr q (List.mem_cons_of_mem r hq)
    refine ⟨h1, fun i y hy => ?_⟩
    rw [List.foldl_cons] at hy
    obtain ⟨g1, g2, g3⟩ := h2 i y hy
    have hi : i < n := by
      rw [← h1]
      exact (List.getElem?_eq_some_iff.1 hy).1
    have ea : acc[i]? = some (acc[i]'(by omega)) := List.getElem?_eq_getElem (by omega)
    have er : r[i]? = some (r[i]'(by omega)) := List.getElem?_eq_getElem (by omega)
    have ez : (List.zipWith max acc r)[i]? = some (max (acc[i]'(by omega)) (r[i]'(by omega))) := by
      rw [List.getElem?_zipWith, ea, er]
    have hm := g1 _ ez
    refine ⟨?_, ?_, ?_⟩
    · intro x hx
      rw [ea] at hx
      obtain rfl := Option.some.inj hx
      exact (le_max_left _ _).trans hm
    · intro q hq x hx
      rcases List.mem_cons.1 hq with rfl | hq
      · rw [er] at hx
        obtain rfl := Option.some.inj hx
        exact (le_max_right _ _).trans hm
      · exact g2 q hq x hx
    · rcases g3 with g3 | ⟨q, hq, g3⟩
      · rw [ez] at g3
        have := Option.some.inj g3
        rcases max_choice (acc[i]'(by omega)) (r[i]'(by omega)) with hc | hc
        · rw [hc] at this
          exact .inl (by rw [ea, this])
        · rw [hc] at this
          exact .inr ⟨r, List.mem_cons_self, by rw [er, this]⟩
      · exact .inr ⟨q, List.mem_cons_of_mem r hq, g3⟩

theorem mapM_inv {α β : Type} {f : α → Except PyErr β} : ∀ {l : List α} {rs : List β}, l.mapM f = .ok rs → (∀ a ∈ l, ∃ r ∈ rs, f a = .ok r) ∧ ∀ r ∈ rs, ∃ a ∈ l, f a = .ok r := by
  intro l
  induction l with
  | nil =>
    intro rs h
    obtain rfl := Except.ok.inj h
    simp
  | cons a l ih =>
    intro rs h
    rw [List.mapM_cons] at h
    simp only [bind, Except.bind, pure, Except.pure] at h
    split at h
    · cases h
    rename_i x hx
    split at h
    · cases h
    rename_i xs hxs
    obtain rfl := Except.ok.inj h
    obtain ⟨h1, h2⟩ := ih hxs
    constructor
    · intro b hb
      rcases List.mem_cons.1 hb with rfl | hb
      · exact ⟨x, List.mem_cons_self, hx⟩
      · obtain ⟨r, hr, e⟩ := h1 b hb
        exact ⟨r, List.mem_cons_of_mem x hr, e⟩
    · intro r hr
      rcases List.mem_cons.1 hr with rfl | hr
      · exact ⟨a, List.mem_cons_self, hx⟩
      · obtain ⟨b, hb, e⟩ := h2 r hr
        exact ⟨b, List.mem_cons_of_mem a hb, e⟩

theorem resistance_length {m : TMember} {n : ℕ} {b : Bool} {r : List ℝ} (h : m.resistance n b = .ok r) : r.length = 6 := by
  unfold TMember.resistance at h
  simp only [bind, Except.bind] at h
  split at h
  · cases h
  split at h
  · cases h
  obtain rfl := Except.ok.inj h
  rfl

theorem foldl_max_ge (l : List ℝ) : ∀ a : ℝ, a ≤ l.foldl max a ∧ ∀ x ∈ l, x ≤ l.foldl max a := by
  induction l with
  | nil => exact fun a => ⟨le_rfl, by simp⟩
  | cons b l ih =>
    intro a
    obtain ⟨h1, h2⟩ := ih (max a b)
    rw [List.foldl_cons]
    refine ⟨(le_max_left _ _).trans h1, fun x hx => ?_⟩
    rcases List.mem_cons.1 hx with rfl | hx
    · exact (le_max_right _ _).trans h1
    · exact h2 x hx

theorem listMax_ge {l : List ℝ} {r : ℝ} (h : listMax l = .ok r) : ∀ x ∈ l, x ≤ r := by
  cases l with
  | nil => cases h
  | cons a l =>
    obtain rfl := Except.ok.inj h
    intro x hx
    rcases List.mem_cons.1 hx with rfl | hx
    · exact (foldl_max_ge l x).1
    · exact (foldl_max_ge l a).2 x hx

theorem checkSections_inv {m : TMember} {b : Bool} {rs : List ℝ} (h : m.checkSections b = .ok rs) :
    rs.length = 6 ∧ (∀ y ∈ rs, 0 ≤ y) ∧ (∀ n, n < m.secs.length → ∃ row, m.resistance n b = .ok row ∧ ∀ (i : ℕ) (x : ℝ), row[i]? = some x → ∃ y, rs[i]? = some y ∧ x ≤ y) ∧
    ∀ (i : ℕ) (y : ℝ), rs[i]? = some y → y = 0 ∨ ∃ n row, n < m.secs.length ∧ m.resistance n b = .ok row ∧ row[i]? = some y := by
  unfold TMember.checkSections at h
  simp only [bind, Except.bind] at h
  split at h
  · cases h
  split at h
  · cases h
  rename_i rows hrows
  obtain rfl := Except.ok.inj h
  obtain ⟨m1, m2⟩ := mapM_inv hrows
  have hl : ∀ r ∈ rows, r.length = 6 := fun r hr => by
    obtain ⟨n, -, e⟩ := m2 r hr
    exact resistance_length e
  obtain ⟨h1, h2⟩ := fold_zip_ge (n := 6) rows [0, 0, 0, 0, 0, 0] rfl hl
  have hz : ∀ (i : ℕ) (y : ℝ), (rows.foldl (List.zipWith max) [0, 0, 0, 0, 0, 0])[i]? = some y → ([0, 0, 0, 0, 0, 0] : List ℝ)[i]? = some 0 := by
    intro i y hy
    have hi : i < 6 := by
      rw [← h1]
      exact (List.getElem?_eq_some_iff.1 hy).1
    match i, hi with
    | 0, _ => rfl
    | 1, _ => rfl
    | 2, _ => rfl
    | 3, _ => rfl
    | 4, _ => rfl
    | 5, _ => rfl
  refine ⟨h1, ?_, ?_, ?_⟩
  · intro y hy
    obtain ⟨i, hi⟩ := List.mem_iff_getElem?.1 hy
    exact (h2 i y hi).1 0 (hz i y hi)
  · intro n hn
    obtain ⟨row, hrow, e⟩ := m1 n (List.mem_range.2 hn)
    refine ⟨row, e, fun i x hx => ?_⟩
    have hi : i < 6 := by
      rw [← hl row hrow]
      exact (List.getElem?_eq_some_iff.1 hx).1
    refine ⟨_, List.getElem?_eq_getElem (by rw [h1]; exact hi), (h2 i _ (List.getElem?_eq_getElem (by rw [h1]; exact hi))).2.1 row hrow x hx⟩
  · intro i y hy
    rcases (h2 i y hy).2.2 with h3 | ⟨r, hr, h3⟩
    · rw [hz i y hy] at h3
      exact .inl (Option.some.inj h3).symm
    · obtain ⟨n, hn, e⟩ := m2 r hr
      exact .inr ⟨n, r, List.mem_range.1 hn, e, h3⟩

/-- **C147** (partial).  The result of the checks of all sections has one value per check: the largest of the sections or zero.  The result of the design is not below any utilisation of any section, nor below the results of
buckling and, for beams, of lateral buckling and compression across the grain; a member found strong enough passes all of them.  A member without sections raises. -/
theorem C147_partial (m : TMember) (buckling : Except PyErr (ℝ × ℝ)) (lateral across : Except PyErr ℝ) :
    (∀ b rs, m.checkSections b = .ok rs → rs.length = 6 ∧ (∀ n, n < m.secs.length → ∃ row, m.resistance n b = .ok row ∧ ∀ (i : ℕ) (x : ℝ), row[i]? = some x → ∃ y, rs[i]? = some y ∧ x ≤ y) ∧
      ∀ (i : ℕ) (y : ℝ), rs[i]? = some y → y = 0 ∨ ∃ n row, n < m.secs.length ∧ m.resistance n b = .ok row ∧ row[i]? = some y) ∧
    (∀ r, m.design buckling lateral across = .ok r → (∀ n, n < m.secs.length → ∃ row, m.resistance n true = .ok row ∧ ∀ x ∈ row, x ≤ r) ∧ (∃ b, buckling = .ok b ∧ b.1 ≤ r ∧ b.2 ≤ r) ∧
      (m.isBeam = true → ∃ l c, lateral = .ok l ∧ across = .ok c ∧ l ≤ r ∧ c ≤ r)) ∧
    (m.strongEnough buckling lateral = .ok true → (∀ n, n < m.secs.length → ∃ row, m.resistance n true = .ok row ∧ ∀ x ∈ row, x ≤ 1) ∧
      ∃ b l, buckling = .ok b ∧ b.1 ≤ 1 ∧ b.2 ≤ 1 ∧ lateral = .ok l ∧ l ≤ 1) ∧
    (m.secs = [] → m.design buckling lateral across = .error .indexError ∧ m.strongEnough buckling lateral = .error .indexError) := by
  have hrow : ∀ rs r, m.checkSections true = .ok rs → (∀ y ∈ rs, y ≤ r) → ∀ n, n < m.secs.length → ∃ row, m.resistance n true = .ok row ∧ ∀ x ∈ row, x ≤ r := by
    intro rs r hrs hle n hn
    obtain ⟨row, e, h1⟩ := (checkSections_inv hrs).2.2.1 n hn
    refine ⟨row, e, fun x hx => ?_⟩
    obtain ⟨i, hi⟩ := List.mem_iff_getElem?.1 hx
    obtain ⟨y, hy, hxy⟩ := h1 i x hi
    exact hxy.trans (hle y (List.mem_of_getElem? hy))
  refine ⟨?_, ?_, ?_, ?_⟩
  · intro b rs h
    obtain ⟨h1, -, h3, h4⟩ := checkSections_inv h
    exact ⟨h1, h3, h4⟩
  · intro r h
    unfold TMember.design at h
    simp only [bind, Except.bind] at h
    split at h
    · cases h
    rename_i rs hrs
    split at h
    · cases h
    rename_i q hq
    cases buckling with
    | error e => cases h
    | ok b =>
    simp only at h
    split at h
    · rename_i hbeam
      cases lateral with
      | error e => cases h
      | ok l =>
      cases across with
      | error e => cases h
      | ok c =>
      obtain rfl := Except.ok.inj h
      refine ⟨hrow rs _ hrs fun y hy => ?_, ⟨b, rfl, ?_, ?_⟩, fun _ => ⟨l, c, rfl, rfl, ?_, le_max_right _ _⟩⟩
      · exact (listMax_ge hq y hy).trans (((le_max_left _ _).trans (le_max_left _ _)).trans (le_max_left _ _))
      · exact (le_max_left _ _).trans (((le_max_right _ _).trans (le_max_left _ _)).trans (le_max_left _ _))
      · exact (le_max_right _ _).trans (((le_max_right _ _).trans (le_max_left _ _)).trans (le_max_left _ _))
      · exact (le_max_right _ _).trans (le_max_left _ _)
    · rename_i hbeam
      obtain rfl := Except.ok.inj h
      refine ⟨hrow rs _ hrs fun y hy => (listMax_ge hq y hy).trans (le_max_left _ _), ⟨b, rfl, (le_max_left _ _).trans (le_max_right _ _), (le_max_right _ _).trans (le_max_right _ _)⟩, fun hc => absurd hc hbeam⟩
  · intro h
    unfold TMember.strongEnough at h
    simp only [bind, Except.bind] at h
    split at h
    · cases h
    rename_i rs hrs
    cases buckling with
    | error e => cases h
    | ok b =>
    cases lateral with
    | error e => cases h
    | ok l =>
    simp only at h
    split at h
    · cases h
    rename_i q hq
    have hq1 : q ≤ 1 := of_decide_eq_true (Except.ok.inj h)
    have hle := listMax_ge hq
    refine ⟨hrow rs 1 hrs fun y hy => (hle y (List.mem_append_left _ hy)).trans hq1, b, l, rfl, ?_, ?_, rfl, ?_⟩
    · exact (hle b.1 (by simp)).trans hq1
    · exact (hle b.2 (by simp)).trans hq1
    · exact (hle l (by simp)).trans hq1
  · intro h
    have hc : m.checkSections true = .error .indexError := by
      unfold TMember.checkSections TMember.resistance
      rw [h]
      rfl
    constructor
    · unfold TMember.design
      rw [hc]
      rfl
    · unfold TMember.strongEnough
      rw [hc]
      rfl

theorem torBeta_bounds {r : ℝ} (hr : 1 ≤ r) : 0.208 ≤ torBeta r ∧ torBeta r ≤ 0.333 := by
  unfold torBeta
  split_ifs with h1 h2 h3 h4 h5 h6 h7 h8 h9 h10 <;> first | (constructor <;> norm_num; done) | skip
  rw [not_and, not_lt] at h1
  have h1' := h1 (by linarith)
  rw [not_lt] at h10
  constructor <;> nlinarith

theorem sideRatio_ge {h b : ℝ} (hh : 0 < h) (hb : 0 < b) : 1 ≤ sideRatio h b := by
  unfold sideRatio
  have hp : 0 < h / b := div_pos hh hb
  split_ifs with h1
  · rw [le_div_iff₀ hp]
    linarith
  · exact not_lt.1 h1

theorem torsion_pos {m : TMember} (h : m.Sound) (x : ℝ) : 0 < torBeta (sideRatio (m.H x) m.B) * m.H x * m.B ^ 2 ∧ 0 < shapeFactor (m.H x) m.B * m.fvd := by
  have h1 := (torBeta_bounds (sideRatio_ge (h.H x) h.B)).1
  have hH := h.H x
  have hB := h.B
  refine ⟨mul_pos (mul_pos (by linarith) hH) (by positivity), mul_pos (lt_min (by norm_num) ?_) h.fvd⟩
  positivity

theorem torsion_sign {m : TMember} (h : m.Sound) (f : Forces) : (f.ted ≤ 0 → m.checkTorsion f ≤ 0) ∧ (0 ≤ f.ted → 0 ≤ m.checkTorsion f) := by
  obtain ⟨h1, h2⟩ := torsion_pos h f.loc
  unfold TMember.checkTorsion torStress
  exact ⟨fun ht => div_nonpos_of_nonpos_of_nonneg (div_nonpos_of_nonpos_of_nonneg ht h1.le) h2.le, fun ht => div_nonneg (div_nonneg ht h1.le) h2.le⟩

/-- A member whose torsion moments are left out. -/
def TMember.noTorsion (m : TMember) : TMember := { m with secs := m.secs.map fun f => { f with ted := 0 } }

theorem pyGet_map {α β : Type} (g : α → β) (l : List α) (k : ℤ) : pyGet (l.map g) k = (pyGet l k).map g := by
  unfold pyGet
  rw [List.length_map]
  split_ifs
  · rw [List.getElem?_map]
    cases l[k.toNat]? <;> rfl
  · rw [List.getElem?_map]
    cases l[(k + l.length).toNat]? <;> rfl
  · rfl

theorem noTorsion_shear (m : TMember) (n : ℕ) (b : Bool) : m.noTorsion.checkShear n b = m.checkShear n b := by
  have hl : m.noTorsion.locs = m.locs := by
    unfold TMember.locs TMember.noTorsion
    simp only [List.map_map]
    rfl
  have hi : ∀ k x, m.noTorsion.shearIndex k x = m.shearIndex k x := by
    intro k x
    unfold TMember.shearIndex
    rw [hl]
    rfl
  have hg : ∀ k, pyGet m.noTorsion.secs k = (pyGet m.secs k).map fun f => { f with ted := 0 } := fun k => pyGet_map _ _ _
  have hs : ∀ f : Forces, m.noTorsion.shearRatio { f with ted := 0 } = m.shearRatio f := fun _ => rfl
  unfold TMember.checkShear
  have hb : m.noTorsion.isBeam = m.isBeam := rfl
  rw [hb]
  split_ifs
  · simp only [bind, Except.bind, hg]
    cases h1 : pyGet m.secs (n : ℤ) with
    | error e => rfl
    | ok f =>
      simp only [Except.map, hi]
      cases h2 : pyGet m.secs (m.shearIndex n f.loc) with
      | error e => rfl
      | ok g => simp only [hs]
  · simp only [bind, Except.bind, hg]
    cases h1 : pyGet m.secs (n : ℤ) with
    | error e => rfl
    | ok f => simp only [Except.map, hs]

/-- **C147** (negation).  Negative torsion is not checked: however large the moments are, all sections have the utilisations they have without torsion, and so has the design. -/
theorem C147_violation (m : TMember) (h : m.Sound) (ht : ∀ f ∈ m.secs, f.ted ≤ 0) (buckling : Except PyErr (ℝ × ℝ)) (lateral across : Except PyErr ℝ) :
    m.checkSections true = m.noTorsion.checkSections true ∧ m.design buckling lateral across = m.noTorsion.design buckling lateral across := by
  have hrow : ∀ n, (∃ e, m.resistance n true = .error e ∧ m.noTorsion.resistance n true = .error e) ∨ ∃ a b c d e t,
      t ≤ 0 ∧ m.resistance n true = .ok [a, b, c, t, d, e] ∧ m.noTorsion.resistance n true = .ok [a, b, c, 0, d, e] := by
    intro n
    unfold TMember.resistance
    rw [noTorsion_shear]
    have hg : pyGet m.noTorsion.secs n = (pyGet m.secs n).map fun f => { f with ted := 0 } := pyGet_map _ _ _
    simp only [bind, Except.bind, hg]
    cases h1 : pyGet m.secs (n : ℤ) with
    | error e => exact .inl ⟨e, rfl, rfl⟩
    | ok f =>
      have hmem : f ∈ m.secs := by
        unfold pyGet at h1
        rw [if_pos (Int.natCast_nonneg n), Int.toNat_natCast] at h1
        cases h2 : m.secs[n]? with
        | none => rw [h2] at h1; cases h1
        | some g =>
          rw [h2] at h1
          obtain rfl := Except.ok.inj h1
          exact List.mem_of_getElem? h2
      simp only [Except.map]
      cases h2 : m.checkShear n true with
      | error e => exact .inl ⟨e, rfl, rfl⟩
      | ok v =>
        refine .inr ⟨m.checkNormal f, v, m.checkBending f, m.checkBendTens f, m.checkBendComp f, m.checkTorsion f, (torsion_sign h f).1 (ht f hmem), rfl, ?_⟩
        have h0 : m.noTorsion.checkTorsion { f with ted := 0 } = 0 := by
          unfold TMember.checkTorsion torStress
          simp
        simp only [h0]
        rfl
  have hmap : ∀ (l : List ℕ) (a b c d e : ℝ), ((l.mapM fun n => m.resistance n true).map fun rows => rows.foldl (List.zipWith max) [a, b, c, 0, d, e]) =
      (l.mapM fun n => m.noTorsion.resistance n true).map fun rows => rows.foldl (List.zipWith max) [a, b, c, 0, d, e] := by
    intro l
    induction l with
    | nil => exact fun a b c d e => rfl
    | cons n l ih =>
      intro a b c d e
      rw [List.mapM_cons, List.mapM_cons]
      simp only [bind, Except.bind, pure, Except.pure]
      rcases hrow n with ⟨x, e1, e2⟩ | ⟨a', b', c', d', e', t, ht0, e1, e2⟩
      · rw [e1, e2]
      · rw [e1, e2]
        have := ih (max a a') (max b b') (max c c') (max d d') (max e e')
        cases h1 : l.mapM fun n => m.resistance n true with
        | error x1 =>
          rw [h1] at this
          cases h2 : l.mapM fun n => m.noTorsion.resistance n true with
          | error x2 =>
            rw [h2] at this
            exact this
          | ok r2 =>
            rw [h2] at this
            cases this
        | ok r1 =>
          rw [h1] at this
          cases h2 : l.mapM fun n => m.noTorsion.resistance n true with
          | error x2 =>
            rw [h2] at this
            cases this
          | ok r2 =>
            rw [h2] at this
            simp only [Except.map, List.foldl_cons, List.zipWith_cons_cons, List.zipWith_nil_left, max_eq_left ht0, max_self] at this ⊢
            exact this
  have hcs : m.checkSections true = m.noTorsion.checkSections true := by
    unfold TMember.checkSections
    have hlen : m.noTorsion.secs.length = m.secs.length := List.length_map _
    rw [hlen]
    have hm := hmap (List.range m.secs.length) 0 0 0 0 0
    simp only [bind, Except.bind]
    rcases hrow 0 with ⟨x, e1, e2⟩ | ⟨a', b', c', d', e', t, ht0, e1, e2⟩
    · rw [e1, e2]
    · rw [e1, e2]
      simp only [Except.map] at hm
      exact hm
  refine ⟨hcs, ?_⟩
  unfold TMember.design
  rw [hcs]
  rfl

/-- A section twisted by 100 kNm, fifty times what it can bear. -/
example : (demoMember [⟨0, 0, 0, 0, 0, -100000000, 0⟩]).checkSections true = (demoMember [⟨0, 0, 0, 0, 0, 0, 0⟩]).checkSections true :=
  (C147_violation (demoMember [⟨0, 0, 0, 0, 0, -100000000, 0⟩]) (demo_sound _) (by intro f hf; rcases List.mem_singleton.1 hf with rfl; norm_num) (.ok (0, 0)) (.ok 0) (.ok 0)).1

/-- A beam with one section under tension has a result, which is not below its utilisation of one half. -/
example : ∃ r, (demoMember [⟨100000, 0, 0, 0, 0, 0, 0.5⟩]).design (.ok (0, 0)) (.ok 0) (.ok 0) = .ok r ∧ 0.5 ≤ r := by
  have hc : ∃ rs, (demoMember [⟨100000, 0, 0, 0, 0, 0, 0.5⟩]).checkSections true = .ok rs ∧ rs.length = 6 := by
    have hres : ∃ row, (demoMember [⟨100000, 0, 0, 0, 0, 0, 0.5⟩]).resistance 0 true = .ok row := by
      have hsi : (demoMember [⟨100000, 0, 0, 0, 0, 0, 0.5⟩]).shearIndex 0 0.5 = 0 := by
        unfold TMember.shearIndex
        have h1 : (demoMember [⟨100000, 0, 0, 0, 0, 0, 0.5⟩]).zoneStart = 0.05 := by norm_num [TMember.zoneStart, demoMember]
        have h2 : (demoMember [⟨100000, 0, 0, 0, 0, 0, 0.5⟩]).zoneEnd = 0.05 := by norm_num [TMember.zoneEnd, demoMember]
        simp only [h1, h2]
        rw [if_neg (by norm_num), if_neg (by norm_num)]
      refine ⟨[(demoMember [⟨100000, 0, 0, 0, 0, 0, 0.5⟩]).checkNormal ⟨100000, 0, 0, 0, 0, 0, 0.5⟩, (demoMember [⟨100000, 0, 0, 0, 0, 0, 0.5⟩]).shearRatio ⟨100000, 0, 0, 0, 0, 0, 0.5⟩,
        (demoMember [⟨100000, 0, 0, 0, 0, 0, 0.5⟩]).checkBending ⟨100000, 0, 0, 0, 0, 0, 0.5⟩, (demoMember [⟨100000, 0, 0, 0, 0, 0, 0.5⟩]).checkTorsion ⟨100000, 0, 0, 0, 0, 0, 0.5⟩,
        (demoMember [⟨100000, 0, 0, 0, 0, 0, 0.5⟩]).checkBendTens ⟨100000, 0, 0, 0, 0, 0, 0.5⟩, (demoMember [⟨100000, 0, 0, 0, 0, 0, 0.5⟩]).checkBendComp ⟨100000, 0, 0, 0, 0, 0, 0.5⟩], ?_⟩
      · unfold TMember.resistance TMember.checkShear
        have hg : pyGet (demoMember [⟨100000, 0, 0, 0, 0, 0, 0.5⟩]).secs ((0 : ℕ) : ℤ) = .ok ⟨100000, 0, 0, 0, 0, 0, 0.5⟩ := rfl
        have hb : (true && (demoMember [⟨100000, 0, 0, 0, 0, 0, 0.5⟩]).isBeam) = true := rfl
        have hsi' : (demoMember [⟨100000, 0, 0, 0, 0, 0, 0.5⟩]).shearIndex ((0 : ℕ) : ℤ) (⟨100000, 0, 0, 0, 0, 0, 0.5⟩ : Forces).loc = ((0 : ℕ) : ℤ) := hsi
        simp only [bind, Except.bind, hg, hb, if_true, hsi']
    obtain ⟨row, hrow⟩ := hres
    have hm : (List.range (demoMember [⟨100000, 0, 0, 0, 0, 0, 0.5⟩]).secs.length).mapM (fun n => (demoMember [⟨100000, 0, 0, 0, 0, 0, 0.5⟩]).resistance n true) = .ok [row] := by
      have e : List.range (demoMember [⟨100000, 0, 0, 0, 0, 0, 0.5⟩]).secs.length = [0] := rfl
      rw [e, List.mapM_cons, hrow]
      rfl
    have hcs : (demoMember [⟨100000, 0, 0, 0, 0, 0, 0.5⟩]).checkSections true = .ok ([row].foldl (List.zipWith max) [0, 0, 0, 0, 0, 0]) := by
      unfold TMember.checkSections
      rw [hrow, hm]
      rfl
    exact ⟨_, hcs, (checkSections_inv hcs).1⟩
  obtain ⟨rs, hrs, hlen⟩ := hc
  have hd : ∃ r, (demoMember [⟨100000, 0, 0, 0, 0, 0, 0.5⟩]).design (.ok (0, 0)) (.ok 0) (.ok 0) = .ok r := by
    unfold TMember.design
    rw [hrs]
    cases rs with
    | nil => cases hlen
    | cons a l => exact ⟨_, rfl⟩
  obtain ⟨r, hr⟩ := hd
  refine ⟨r, hr, ?_⟩
  obtain ⟨row, e, hle⟩ := ((C147_partial (demoMember [⟨100000, 0, 0, 0, 0, 0, 0.5⟩]) (.ok (0, 0)) (.ok 0) (.ok 0)).2.1 r hr).1 0 (by simp [demoMember])
  unfold TMember.resistance at e
  have hg : pyGet (demoMember [⟨100000, 0, 0, 0, 0, 0, 0.5⟩]).secs ((0 : ℕ) : ℤ) = .ok ⟨100000, 0, 0, 0, 0, 0, 0.5⟩ := rfl
  simp only [bind, Except.bind, hg] at e
  split at e
  · cases e
  obtain rfl := Except.ok.inj e
  have := hle _ List.mem_cons_self
  refine le_trans ?_ this
  unfold TMember.checkNormal TMember.sigma0
  norm_num [demoMember]

end Metku.Timber
