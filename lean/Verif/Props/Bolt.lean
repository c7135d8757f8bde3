import Mathlib.Tactic.Linarith
import Mathlib.Tactic.FieldSimp
import Mathlib.Tactic.LinearCombination
import Mathlib.Tactic.NormNum
import Mathlib.Tactic.Positivity
import Mathlib.Tactic.CasesM
import Mathlib.Analysis.Real.Pi.Bounds
import Verif.Model.Bolt
import Verif.Spec.Bolt

/-!
Properties of bolts, welds and components.
-/
namespace Metku.Bolts

open Real

/-- Rows of a table in increasing order of length. -/
def Sorted (t : List (Key × List ℕ)) : Prop :=
  t.Pairwise (fun a b => match a.1, b.1 with
    | .len x, .len y => x < y
    | .len _, .max => True
    | .max, _ => False)

theorem scan_some {L : ℝ} {s k : ℕ} : ∀ {t : List (Key × List ℕ)}, Sorted t → scan L s t = .ok (some k) →
    (∃ av, (Key.len k, av) ∈ t ∧ s ∈ av) ∧ L ≤ k ∧ ∀ k' av, (Key.len k', av) ∈ t → s ∈ av → L ≤ k' → k ≤ k'
  | [], _, h => by simp [scan] at h
  | (.max, _) :: t, _, h => by simp [scan] at h
  | (.len x, av) :: t, hs, h => by
    have hs' := List.pairwise_cons.1 hs
    unfold scan at h
    split_ifs at h with h1 h2 h3
    · obtain rfl : x = k := by simpa using h
      refine ⟨⟨av, by simp, h3⟩, h1, fun k' av' hm _ _ => ?_⟩
      rcases List.mem_cons.1 hm with e | hm
      · injection e with e1 _
        injection e1 with e1
        omega
      · exact (hs'.1 _ hm).le
    · obtain ⟨⟨av', hm, hav⟩, hl, hmin⟩ := scan_some hs'.2 h
      refine ⟨⟨av', List.mem_cons_of_mem _ hm, hav⟩, hl, fun k' av'' hm' hav' hl' => ?_⟩
      rcases List.mem_cons.1 hm' with e | hm'
      · injection e with e1 e2
        exact absurd (e2 ▸ hav') h3
      · exact hmin k' av'' hm' hav' hl'
    · obtain ⟨⟨av', hm, hav⟩, hl, hmin⟩ := scan_some hs'.2 h
      refine ⟨⟨av', List.mem_cons_of_mem _ hm, hav⟩, hl, fun k' av'' hm' hav' hl' => ?_⟩
      rcases List.mem_cons.1 hm' with e | hm'
      · injection e with e1 e2
        injection e1 with e1
        exact absurd (e1 ▸ hl') h1
      · exact hmin k' av'' hm' hav' hl'

theorem scan_found {L : ℝ} {s : ℕ} (hs : s ∈ sizes) : ∀ {t : List (Key × List ℕ)} {k : ℕ} {av : List ℕ}, Sorted t → (Key.len k, av) ∈ t → s ∈ av → L ≤ k →
    ∃ k', scan L s t = .ok (some k')
  | (.max, _) :: t, k, av, ht, hm, hav, hl => by
    rcases List.mem_cons.1 hm with e | hm
    · simp at e
    · exact absurd ((List.pairwise_cons.1 ht).1 _ hm) (by simp)
  | (.len x, av') :: t, k, av, ht, hm, hav, hl => by
    unfold scan
    split_ifs with h1 h3
    · exact ⟨x, rfl⟩
    · rcases List.mem_cons.1 hm with e | hm
      · injection e with e1 e2
        exact absurd (e2 ▸ hav) h3
      · exact scan_found hs (List.pairwise_cons.1 ht).2 hm hav hl
    · rcases List.mem_cons.1 hm with e | hm
      · injection e with e1 e2
        injection e1 with e1
        exact absurd (e1 ▸ hl) h1
      · exact scan_found hs (List.pairwise_cons.1 ht).2 hm hav hl

/-- A table ending with `'max'` never lets the loop end without a bolt. -/
theorem scan_ne_none {L : ℝ} {s : ℕ} : ∀ (t : List (Key × List ℕ)) (av : List ℕ), scan L s (t ++ [(Key.max, av)]) ≠ .ok none
  | [], av => by simp [scan]
  | (.max, _) :: t, av => by simp [scan]
  | (.len x, av') :: t, av => by
    have := scan_ne_none (L := L) (s := s) t av
    rw [List.cons_append]
    unfold scan
    split_ifs <;> first | exact this | simp

theorem partThread_sorted : Sorted partThread := by
  unfold Sorted partThread
  simp

theorem scan_part_ne_none {L : ℝ} {s : ℕ} : scan L s partThread ≠ .ok none :=
  scan_ne_none (partThread.dropLast) []

theorem part_iff {s k : ℕ} (hs : s ∈ sizes) : (∃ av, (Key.len k, av) ∈ partThread ∧ s ∈ av) ↔ k ∈ BoltSpec.stocked s := by
  simp only [sizes, List.mem_cons, List.not_mem_nil, or_false] at hs
  rcases hs with rfl | rfl | rfl | rfl | rfl | rfl <;>
  · simp only [partThread, BoltSpec.stocked, List.mem_cons, Prod.mk.injEq, Key.len.injEq, List.not_mem_nil, or_false, reduceCtorEq, false_and]
    constructor
    · rintro ⟨av, h, hav⟩
      rcases h with h | h | h | h | h | h | h | h | h | h | h | h | h | h | h | h | h | h | h | h | h | h | h | h | h | h | h | h <;>
        obtain ⟨rfl, rfl⟩ := h <;> simp at hav ⊢
    · intro h
      casesm* _ ∨ _ <;> subst_vars <;> simp

theorem mem_sizes_of_dims {s : ℕ} {d : Dims} (h : dims s = .ok d) : s ∈ sizes := by
  unfold dims at h
  split at h <;> simp_all [sizes]

theorem dims_of_mem {s : ℕ} (h : s ∈ sizes) : ∃ d, dims s = .ok d ∧ d.As = BoltSpec.stressArea s := by
  simp only [sizes, List.mem_cons, List.not_mem_nil, or_false] at h
  rcases h with rfl | rfl | rfl | rfl | rfl | rfl <;> refine ⟨_, rfl, ?_⟩ <;> norm_num [BoltSpec.stressArea]

theorem chooseLength_eq {L : ℝ} {s : ℕ} : chooseLength L s = (scan L s partThread).bind (fun o => .ok (match o with
    | some k => ((k : ℝ), Thread.part)
    | none => (L, Thread.full))) := by
  unfold chooseLength
  have h := @scan_part_ne_none L s
  cases e : scan L s partThread with
  | error x => rfl
  | ok o => cases o with
    | none => exact absurd e h
    | some k => rfl

theorem resizeLength_eq {L : ℝ} {s : ℕ} : resizeLength L s = chooseLength L s := by
  unfold chooseLength resizeLength
  have h := @scan_part_ne_none L s
  cases e : scan L s partThread with
  | error x => rfl
  | ok o => cases o with
    | none => exact absurd e h
    | some k => rfl

/-- The two numbers in the name of a strength class. -/
def digits : Cls → ℕ × ℕ
  | .c46 => (4, 6)
  | .c48 => (4, 8)
  | .c56 => (5, 6)
  | .c58 => (5, 8)
  | .c68 => (6, 8)
  | .c88 => (8, 8)
  | .c109 => (10, 9)
  | .other => (0, 0)

/-- **C88 (part).** For the sizes M12 to M36 and the classes 4.6 to 10.9, when a partially threaded bolt of the requested length or longer is in the price list, the constructor gives a
partially threaded bolt with the shortest such length, with the hole of EN 1090-2, the stress area of the size, an ultimate strength of 100 times the first number of the class, and a yield strength of as many tenths of it as the second number. -/
theorem C88_partial {s : ℕ} (hs : s ∈ [12, 16, 20, 24, 30, 36]) {c : Cls} (hc : c ≠ .other) {L : ℝ} (h : ∃ k ∈ BoltSpec.stocked s, L ≤ (k : ℝ)) :
    ∃ b, Bolt.new s c L = .ok b ∧ b.thread = .part ∧ (∃ k : ℕ, b.length = k ∧ IsLeast {k | k ∈ BoltSpec.stocked s ∧ L ≤ (k : ℝ)} k) ∧
      b.d = s ∧ b.d0 = s + BoltSpec.clearance s ∧ b.dims.As = BoltSpec.stressArea s ∧ b.A = π / 4 * s ^ 2 ∧ b.cls = c ∧ b.fub = 100 * (digits c).1 ∧ b.fyb = b.fub * (digits c).2 / 10 := by
  change s ∈ sizes at hs
  obtain ⟨k0, hk0, hl0⟩ := h
  obtain ⟨av, hm, hav⟩ := (part_iff hs).2 hk0
  obtain ⟨k, hk⟩ := scan_found hs partThread_sorted hm hav hl0
  obtain ⟨hex, hl, hmin⟩ := scan_some partThread_sorted hk
  obtain ⟨d, hd, hAs⟩ := dims_of_mem hs
  obtain ⟨f, hf, hf0, hf1⟩ : ∃ f, matBolt c = .ok f ∧ f.2 = 100 * (digits c).1 ∧ f.1 = f.2 * (digits c).2 / 10 := by
    cases c <;> first | exact absurd rfl hc | exact ⟨_, rfl, by norm_num [digits], by norm_num [digits]⟩
  unfold Bolt.new
  rw [chooseLength_eq, hk, hd, hf]
  simp only [bind, Except.bind, pure, Except.pure]
  refine ⟨_, rfl, rfl, ⟨k, rfl, ⟨⟨(part_iff hs).1 hex, hl⟩, ?_⟩⟩, rfl, ?_, hAs, ?_, rfl, hf0, hf1⟩
  · rintro k' ⟨hk', hl'⟩
    obtain ⟨av', hm', hav'⟩ := (part_iff hs).2 hk'
    exact hmin k' av' hm' hav' hl'
  · simp only [holeDiameter, BoltSpec.clearance]
    split_ifs <;> omega
  · ring

example : ∃ k ∈ BoltSpec.stocked 24, (50 : ℝ) ≤ (k : ℝ) := ⟨75, by decide, by norm_num⟩

/-- Without a long enough bolt the loop reaches the key `'max'`. -/
theorem scan_short {s : ℕ} (hs : s ∈ sizes) {L : ℝ} (hL : ∀ k ∈ BoltSpec.stocked s, (k : ℝ) < L) : scan L s partThread = .error .typeError := by
  have key : ∀ t : List (Key × List ℕ), (∀ k av, (Key.len k, av) ∈ t → s ∈ av → (k : ℝ) < L) → scan L s (t ++ [(Key.max, [])]) = .error .typeError := by
    intro t
    induction t with
    | nil => intro _; rfl
    | cons a t ih =>
      intro h
      obtain ⟨k, av⟩ := a
      have ih' := ih (fun k' av' hm => h k' av' (List.mem_cons_of_mem _ hm))
      cases k with
      | max => rfl
      | len x =>
        rw [List.cons_append]
        unfold scan
        split_ifs with h1 h2
        · exact absurd (h x av (by simp) h2) (not_lt.2 h1)
        · exact ih'
        · exact ih'
  exact key partThread.dropLast (fun k av hm hav => hL k ((part_iff hs).1 ⟨av, List.dropLast_subset _ hm, hav⟩))

/-- A constructed bolt has the head of ISO 4014, the nut of ISO 4032 and the washer of ISO 7089 of its size; the washer covers the largest circle. -/
theorem C88_assembly {s : ℕ} {c : Cls} {L : ℝ} {b : Bolt} (h : Bolt.new s c L = .ok b) :
    [b.dims.headT, b.dims.headD, b.dims.nutT, b.dims.nutE, b.dims.washerT, b.dims.washerD] = BoltSpec.assembly s ∧ b.dw = b.dims.washerD ∧ ∀ b' : Bolt,
      b'.dims.headD ≤ b'.dw ∧ b'.dims.nutE ≤ b'.dw ∧ b'.dims.washerD ≤ b'.dw := by
  refine ⟨?_, ?_, fun b' => ⟨(le_max_right _ _).trans (le_max_left _ _), le_max_right _ _, (le_max_left _ _).trans (le_max_left _ _)⟩⟩
  all_goals
    unfold Bolt.new at h
    cases e1 : chooseLength L s with
    | error x => rw [e1] at h; simp [bind, Except.bind] at h
    | ok l =>
      cases hd : dims s with
      | error x => rw [e1, hd] at h; simp [bind, Except.bind] at h
      | ok d =>
        cases hf : matBolt c with
        | error x => rw [e1, hd, hf] at h; simp [bind, Except.bind] at h
        | ok f =>
          rw [e1, hd, hf] at h
          obtain rfl := Except.ok.inj h
          have hs := mem_sizes_of_dims hd
          simp only [sizes, List.mem_cons, List.not_mem_nil, or_false] at hs
          rcases hs with rfl | rfl | rfl | rfl | rfl | rfl <;> obtain rfl := Except.ok.inj hd <;> norm_num [BoltSpec.assembly, Bolt.dw]

example : ∃ b, Bolt.new 24 .c88 50 = .ok b ∧ b.dw = 44 := by
  obtain ⟨b, h, _⟩ := C88_partial (s := 24) (c := .c88) (L := 50) (by decide) (by decide) ⟨75, by decide, by norm_num⟩
  obtain ⟨h1, h2, _⟩ := C88_assembly h
  refine ⟨b, h, ?_⟩
  simp only [BoltSpec.assembly, List.cons.injEq] at h1
  rw [h2, h1.2.2.2.2.2.1]

/-- **C88 (disagreement).** When no partially threaded bolt of the list is long enough, the constructor does not try fully threaded bolts and does not warn as it is written to:
it raises TypeError. A bolt of the constructor is never fully threaded. -/
theorem C88_violation :
    (∀ s ∈ [12, 16, 20, 24, 30, 36], ∀ (c : Cls) (L : ℝ), (∀ k ∈ BoltSpec.stocked s, (k : ℝ) < L) → Bolt.new s c L = .error .typeError) ∧
      ∀ (s : ℕ) (c : Cls) (L : ℝ) (b : Bolt), Bolt.new s c L = .ok b → b.thread ≠ .full := by
  constructor
  · intro s hs c L hL
    unfold Bolt.new
    rw [chooseLength_eq, scan_short hs hL]
    rfl
  · intro s c L b h
    unfold Bolt.new at h
    rw [chooseLength_eq] at h
    cases e : scan L s partThread with
    | error x => rw [e] at h; simp [bind, Except.bind] at h
    | ok o => cases o with
      | none => exact absurd e scan_part_ne_none
      | some k =>
        rw [e] at h
        simp only [bind, Except.bind] at h
        cases hd : dims s with
        | error x => rw [hd] at h; simp at h
        | ok d =>
          cases hf : matBolt c with
          | error x => rw [hd, hf] at h; simp at h
          | ok f =>
            rw [hd, hf] at h
            obtain rfl := Except.ok.inj h
            simp

example : ∀ k ∈ BoltSpec.stocked 36, (k : ℝ) < 281 := by
  simp only [BoltSpec.stocked, List.forall_mem_cons]
  norm_num

/-- **C89 (part).** Giving a new size to a constructed bolt succeeds exactly when a bolt of that size can be constructed with the same class and requested length, and then the
changed bolt is that bolt. -/
theorem C89_partial {s v : ℕ} {c : Cls} {L : ℝ} {b : Bolt} (h : Bolt.new s c L = .ok b) (b' : Bolt) :
    b.setSize v = (b', none) ↔ Bolt.new v c L = .ok b' := by
  unfold Bolt.new at h ⊢
  cases e1 : chooseLength L s with
  | error x => rw [e1] at h; simp [bind, Except.bind] at h
  | ok l =>
    cases hd : dims s with
    | error x => rw [e1, hd] at h; simp [bind, Except.bind] at h
    | ok d =>
      cases hf : matBolt c with
      | error x => rw [e1, hd, hf] at h; simp [bind, Except.bind] at h
      | ok f =>
        rw [e1, hd, hf] at h
        obtain rfl := Except.ok.inj h
        unfold Bolt.setSize
        simp only [bind, Except.bind, pure, Except.pure]
        rw [resizeLength_eq]
        cases hv : dims v with
        | error x => cases chooseLength L v <;> simp
        | ok dv => cases chooseLength L v <;> simp

/-- **C89 (disagreement).** A size outside the tables raises KeyError, but the bolt already has the new diameter, hole and gross area while the stress area and the other dimensions
stay those of the old size. -/
theorem C89_violation (b : Bolt) {v : ℕ} (hv : v ∉ [12, 16, 20, 24, 30, 36]) :
    ∃ b', b.setSize v = (b', some .keyError) ∧ b'.d = v ∧ b'.A = π * v ^ 2 / 4 ∧ b'.dims = b.dims ∧ b'.length = b.length := by
  have hd : dims v = .error .keyError := by
    unfold dims
    simp only [List.mem_cons, List.not_mem_nil, or_false, not_or] at hv
    split <;> first | rfl | (exfalso; simp_all)
  unfold Bolt.setSize
  simp only [hd]
  exact ⟨_, rfl, rfl, rfl, rfl, rfl⟩

/-- **C89 (disagreement, length).** When no bolt of the new size is long enough, TypeError is raised, but the bolt already has diameter, stress area and the other dimensions of the new
size together with the length of the old one, which is not in the list of the new size. -/
theorem C89_violation_length (b : Bolt) {v : ℕ} (hv : v ∈ [12, 16, 20, 24, 30, 36]) (hL : ∀ k ∈ BoltSpec.stocked v, (k : ℝ) < b.minLength) :
    ∃ b', b.setSize v = (b', some .typeError) ∧ b'.d = v ∧ b'.dims.As = BoltSpec.stressArea v ∧ b'.A = π * v ^ 2 / 4 ∧ b'.length = b.length := by
  obtain ⟨d, hd, hAs⟩ := dims_of_mem hv
  have hr : resizeLength b.minLength v = .error .typeError := by
    rw [resizeLength_eq, chooseLength_eq, scan_short hv hL]
    rfl
  unfold Bolt.setSize
  simp only [hd, hr]
  exact ⟨_, rfl, rfl, hAs, rfl, rfl⟩

/-- A bolt M24 of 300 mm cannot become M36. -/
example : (∃ k ∈ BoltSpec.stocked 24, (300 : ℝ) ≤ (k : ℝ)) ∧ ∀ k ∈ BoltSpec.stocked 36, (k : ℝ) < 300 := by
  refine ⟨⟨300, by decide, le_refl _⟩, ?_⟩
  simp only [BoltSpec.stocked, List.forall_mem_cons]
  norm_num

example : 18 ∉ [12, 16, 20, 24, 30, 36] := by decide

/-- Shear factor of Table 3.4 for a plane through the threads, by the class. -/
noncomputable def alphaThreads : Cls → ℝ
  | .c46 | .c56 | .c88 => 0.6
  | _ => 0.5

/-- **C90 (part).** The shear resistance of a bolt object is that of Table 3.4: through the threads the stress area with factor 0.6 for the classes 4.6, 5.6 and 8.8 and 0.5 for the
others, through the shank the gross area with 0.6. -/
theorem C90_partial (b : Bolt) (hc : b.cls ≠ .other) :
    b.shear true = .ok (BoltSpec.shear (alphaThreads b.cls) b.fub b.dims.As) ∧ b.shear false = .ok (BoltSpec.shear 0.6 b.fub b.A) := by
  unfold Bolt.shear BoltSpec.shear alphaThreads gammaM2
  constructor
  · cases e : b.cls <;> first | exact absurd e hc | (simp only [if_true]; refine congrArg Except.ok ?_; norm_num)
  · simp only [Bool.false_eq_true, if_false]
    refine congrArg Except.ok ?_
    norm_num

/-- A plane through the threads is never stronger than one through the shank of a constructed bolt. -/
theorem C90_threads {s : ℕ} {c : Cls} {L : ℝ} {b : Bolt} (h : Bolt.new s c L = .ok b) :
    ∃ x y, b.shear true = .ok x ∧ b.shear false = .ok y ∧ 0 < x ∧ x < y := by
  unfold Bolt.new at h
  cases e1 : chooseLength L s with
  | error x => rw [e1] at h; simp [bind, Except.bind] at h
  | ok l =>
    cases hd : dims s with
    | error x => rw [e1, hd] at h; simp [bind, Except.bind] at h
    | ok d =>
      cases hf : matBolt c with
      | error x => rw [e1, hd, hf] at h; simp [bind, Except.bind] at h
      | ok f =>
        rw [e1, hd, hf] at h
        obtain rfl := Except.ok.inj h
        have hcls : c ≠ .other := by rintro rfl; simp [matBolt] at hf
        obtain ⟨h1, h2⟩ := C90_partial (Bolt.mk s L l.1 l.2 (holeDiameter s) (π * (s : ℝ) ^ 2 / 4) d f.1 f.2 c) hcls
        refine ⟨_, _, h1, h2, ?_⟩
        have hA : 0 < d.As ∧ d.As < π * (s : ℝ) ^ 2 / 4 := by
          have hp := pi_gt_three
          have hs := mem_sizes_of_dims hd
          simp only [sizes, List.mem_cons, List.not_mem_nil, or_false] at hs
          rcases hs with rfl | rfl | rfl | rfl | rfl | rfl <;> obtain rfl := Except.ok.inj hd <;> constructor <;> norm_num <;> nlinarith
        have hf2 : 0 < f.2 := by
          cases c <;> first | exact absurd rfl hcls | (obtain rfl := Except.ok.inj hf; norm_num)
        have ha : (0.5 : ℝ) ≤ alphaThreads c ∧ alphaThreads c ≤ 0.6 := by cases c <;> norm_num [alphaThreads]
        simp only [BoltSpec.shear]
        have ha0 : 0 < alphaThreads c := by linarith [ha.1]
        have h3 : alphaThreads c * f.2 * d.As < 0.6 * f.2 * (π * (s : ℝ) ^ 2 / 4) := by
          calc alphaThreads c * f.2 * d.As ≤ 0.6 * f.2 * d.As := by
                have := hA.1.le
                gcongr
                exact ha.2
            _ < _ := by
                apply mul_lt_mul_of_pos_left hA.2
                positivity
        have h4 := hA.1
        constructor
        · positivity
        · exact div_lt_div_of_pos_right h3 (by norm_num)

/-- **C90 (disagreement).** The function for the shear resistance swaps the two cases: with the threads in the shear plane it uses 0.6 for every class, which for the classes 4.8, 5.8,
6.8 and 10.9 is 1.2 times the resistance of Table 3.4; through the shank it uses 0.5 for these classes. -/
theorem C90_violation {c : Cls} (hc : c = .c48 ∨ c = .c58 ∨ c = .c68 ∨ c = .c109) {fub A : ℝ} (hf : 0 < fub) (hA : 0 < A) :
    (∃ x, shearFn fub A c true = .ok x ∧ x = 1.2 * BoltSpec.shear (alphaThreads c) fub A ∧ BoltSpec.shear (alphaThreads c) fub A < x) ∧
      ∃ y, shearFn fub A c false = .ok y ∧ y < BoltSpec.shear 0.6 fub A := by
  have h0 : 0 < fub * A := mul_pos hf hA
  unfold shearFn BoltSpec.shear gammaM2
  rcases hc with rfl | rfl | rfl | rfl <;>
  · simp only [alphaThreads, if_true, Bool.false_eq_true, if_false]
    refine ⟨⟨_, rfl, ?_, ?_⟩, ⟨_, rfl, ?_⟩⟩
    · ring
    · rw [div_lt_div_iff₀ (by norm_num) (by norm_num)]
      nlinarith
    · rw [div_lt_div_iff₀ (by norm_num) (by norm_num)]
      nlinarith

theorem isLeast_pair (a b : ℝ) : IsLeast {a, b} (min a b) := by
  refine ⟨?_, ?_⟩
  · rcases min_choice a b with h | h <;> simp [h]
  · rintro x hx
    rcases hx with rfl | rfl
    · exact min_le_left _ _
    · exact min_le_right _ _

theorem isLeast_triple (a b c : ℝ) : IsLeast {a, b, c} (min (min a b) c) := by
  have h1 := isLeast_pair (min a b) c
  refine ⟨?_, ?_⟩
  · rcases min_choice (min a b) c with h | h
    · rw [h]
      rcases min_choice a b with h' | h' <;> simp [h']
    · simp [h]
  · rintro x hx
    rcases hx with rfl | rfl | rfl
    · exact (min_le_left _ _).trans (min_le_left _ _)
    · exact (min_le_left _ _).trans (min_le_right _ _)
    · exact min_le_right _ _

/-- **C91 (part).** The bearing resistance of a bolt object is that of Table 3.4. -/
theorem C91_partial (b : Bolt) (fu t e1 e2 p1 p2 : ℝ) (perp load : Pos) :
    BoltSpec.Bearing (perp = .edge) (load = .edge) b.fub fu b.d b.d0 t e1 e2 p1 p2 (b.bearing fu t e1 e2 p1 p2 perp load) := by
  have h1 : ∀ x : ℝ, (28 / 10 : ℝ) * x / b.d0 - 17 / 10 = 2.8 * (x / b.d0) - 1.7 := fun x => by ring
  have h2 : ∀ x : ℝ, (14 / 10 : ℝ) * x / b.d0 - 17 / 10 = 1.4 * (x / b.d0) - 1.7 := fun x => by ring
  have h3 : (25 / 10 : ℝ) = 2.5 := by norm_num
  have h4 : ∀ x : ℝ, x / 3 / (b.d0 : ℝ) = x / (3 * b.d0) := fun x => by rw [div_div]
  have h5 : (25 / 100 : ℝ) = 1 / 4 := by norm_num
  unfold Bolt.bearing BoltSpec.Bearing gammaM2
  refine ⟨_, _, by rw [show (125 / 100 : ℝ) = 1.25 by norm_num], ?_, ?_⟩
  · cases perp <;> simp only [h1, h2, h3, decide_true, decide_false, if_true, if_false, reduceCtorEq, Bool.false_eq_true]
    · exact isLeast_triple _ _ _
    · exact isLeast_pair _ _
  · cases load <;> simp only [h4, h5, decide_true, decide_false, if_true, if_false, reduceCtorEq, Bool.false_eq_true]
    · exact isLeast_triple _ _ _
    · exact isLeast_triple _ _ _

/-- With the distances of Table 3.3 the bearing resistance is positive, at most `2.5 fu d t / 1.25`, and does not decrease when the distances or the thickness grow. -/
theorem C91_bounds (b : Bolt) {fu t e1 e2 p1 p2 : ℝ} (perp load : Pos) (hfu : 0 < fu) (ht : 0 < t) (hd : 0 < b.d) (hd0 : 0 < b.d0) (hfub : 0 < b.fub)
    (h : BoltSpec.Spacing b.d0 e1 e2 p1 p2) :
    0 < b.bearing fu t e1 e2 p1 p2 perp load ∧ b.bearing fu t e1 e2 p1 p2 perp load ≤ 2.5 * fu * b.d * t / 1.25 ∧
      ∀ e1' e2' p1' p2' t', e1 ≤ e1' → e2 ≤ e2' → p1 ≤ p1' → p2 ≤ p2' → t ≤ t' →
        b.bearing fu t e1 e2 p1 p2 perp load ≤ b.bearing fu t' e1' e2' p1' p2' perp load := by
  obtain ⟨h1, h2, h3, h4⟩ := h
  have D0 : (0 : ℝ) < b.d0 := by exact_mod_cast hd0
  have D : (0 : ℝ) < b.d := by exact_mod_cast hd
  have hd1 : ∀ x, 1.2 * (b.d0 : ℝ) ≤ x → 0 < x / 3 / (b.d0 : ℝ) := fun x hx => by
    have : 0 < x := by nlinarith
    positivity
  have hd2 : ∀ x, 2.2 * (b.d0 : ℝ) ≤ x → 0 < x / 3 / (b.d0 : ℝ) - 25 / 100 := fun x hx => by
    have : (2.2 : ℝ) / 3 ≤ x / 3 / (b.d0 : ℝ) := by
      rw [le_div_iff₀ D0]
      linarith
    norm_num at this ⊢
    linarith
  have hk1 : ∀ x, 1.2 * (b.d0 : ℝ) ≤ x → 0 < 28 / 10 * x / (b.d0 : ℝ) - 17 / 10 := fun x hx => by
    have : (28 / 10 : ℝ) * 1.2 ≤ 28 / 10 * x / (b.d0 : ℝ) := by
      rw [le_div_iff₀ D0]
      linarith
    norm_num at this ⊢
    linarith
  have hk2 : ∀ x, 2.4 * (b.d0 : ℝ) ≤ x → 0 < 14 / 10 * x / (b.d0 : ℝ) - 17 / 10 := fun x hx => by
    have : (14 / 10 : ℝ) * 2.4 ≤ 14 / 10 * x / (b.d0 : ℝ) := by
      rw [le_div_iff₀ D0]
      linarith
    norm_num at this ⊢
    linarith
  have hpos : ∀ {k a : ℝ}, 0 < k → 0 < a → 0 < k * a * fu * (b.d : ℝ) * t / gammaM2 := fun hk ha => by
    unfold gammaM2; positivity
  have hle : ∀ {k a : ℝ}, 0 < k → k ≤ 25 / 10 → 0 < a → a ≤ 1 → k * a * fu * (b.d : ℝ) * t / gammaM2 ≤ 2.5 * fu * b.d * t / 1.25 := fun {k a} hk hk' ha ha' => by
    unfold gammaM2
    rw [show (125 / 100 : ℝ) = 1.25 by norm_num]
    have : k * a ≤ 2.5 := by nlinarith
    gcongr
  have hmono : ∀ {k a k' a' t' : ℝ}, 0 < k → 0 < a → k ≤ k' → a ≤ a' → t ≤ t' → k * a * fu * (b.d : ℝ) * t / gammaM2 ≤ k' * a' * fu * (b.d : ℝ) * t' / gammaM2 :=
    fun hk ha hk' ha' ht' => by
      unfold gammaM2
      have := hk.le.trans hk'
      have := ha.le.trans ha'
      gcongr
  unfold Bolt.bearing
  cases perp <;> cases load <;> simp only [if_true, if_false, reduceCtorEq]
  all_goals
    refine ⟨hpos ?_ ?_, hle ?_ (min_le_right _ _) ?_ (min_le_right _ _), fun e1' e2' p1' p2' t' g1 g2 g3 g4 g5 => hmono ?_ ?_ ?_ ?_ g5⟩
  all_goals first
    | exact lt_min (lt_min (hk1 _ h2) (hk2 _ h4)) (by norm_num)
    | exact lt_min (hk2 _ h4) (by norm_num)
    | exact lt_min (lt_min (hd1 _ h1) (by positivity)) one_pos
    | exact lt_min (lt_min (hd2 _ h3) (by positivity)) one_pos
    | gcongr

example : BoltSpec.Spacing 22 60 60 80 90 := by
  unfold BoltSpec.Spacing
  norm_num

/-- **C91 (disagreement).** The function for the bearing resistance does not divide by the partial factor: where the spacing across the load does not govern it returns 1.25 times the value
of the method of the bolt object. -/
theorem C91_violation (b : Bolt) {fu t e1 e2 p1 p2 : ℝ} (perp load : Pos) (h : perp = .edge → e2 ≤ p2 / 2) (hd0 : 0 < b.d0) :
    bearingFn b.fub fu b.d t e1 e2 p1 p2 b.d0 perp load = 1.25 * b.bearing fu t e1 e2 p1 p2 perp load := by
  have D0 : (0 : ℝ) < b.d0 := by exact_mod_cast hd0
  have h1 : perp = .edge → min (28 / 10 * e2 / (b.d0 : ℝ) - 17 / 10) (14 / 10 * p2 / (b.d0 : ℝ) - 17 / 10) = 28 / 10 * e2 / (b.d0 : ℝ) - 17 / 10 := fun hp => by
    apply min_eq_left
    have := h hp
    have : (28 / 10 : ℝ) * e2 / b.d0 ≤ 14 / 10 * p2 / b.d0 := by
      apply div_le_div_of_nonneg_right _ D0.le
      linarith
    linarith
  unfold bearingFn Bolt.bearing gammaM2
  cases perp
  · simp only [if_true, h1 rfl]
    ring
  · simp only [reduceCtorEq, if_false]
    ring

example : ((60 : ℝ)) ≤ 120 / 2 := by norm_num

/-- **C92 (part).** For positive resistances and forces not negative, a bolt in shear and tension is safe by Table 3.4 exactly when the utilisation is at most 1 and the tension is
within the tension resistance. -/
theorem C92_partial {Fv FvRd Ft FtRd : ℝ} (h1 : 0 < FvRd) (h2 : 0 < FtRd) (h4 : 0 ≤ Ft) :
    BoltSpec.ShearTension Fv FvRd Ft FtRd ↔ shearTension Fv FvRd Ft FtRd ≤ 1 ∧ Ft ≤ FtRd := by
  have e : Ft / (1.4 * FtRd) = Ft / FtRd / (14 / 10) := by
    rw [div_div]
    congr 1
    ring
  unfold BoltSpec.ShearTension shearTension
  rw [e]
  constructor
  · rintro ⟨_, h, h'⟩
    exact ⟨h', h⟩
  · rintro ⟨h, h'⟩
    refine ⟨?_, h', h⟩
    have : 0 ≤ Ft / FtRd / (14 / 10) := by positivity
    have : Fv / FvRd ≤ 1 := by linarith
    rwa [div_le_one h1] at this

example : BoltSpec.ShearTension 50 100 60 100 := by
  unfold BoltSpec.ShearTension
  norm_num

/-- **C92 (disagreement).** The utilisation alone accepts bolts with a tension up to 1.4 times the tension resistance. -/
theorem C92_violation {FvRd FtRd : ℝ} (h2 : 0 < FtRd) :
    ∃ Ft, shearTension 0 FvRd Ft FtRd ≤ 1 ∧ FtRd < Ft ∧ ¬ BoltSpec.ShearTension 0 FvRd Ft FtRd := by
  refine ⟨1.4 * FtRd, ?_, by linarith, fun h => ?_⟩
  · unfold shearTension
    rw [mul_div_assoc, div_self h2.ne']
    norm_num
  · have := h.2.1
    linarith

/-- **C93.** Tension and punching resistances are those of Table 3.4 and block tearing is that of 3.10.2; an eccentric load gives at most the resistance of a concentric one. -/
theorem C93 (b : Bolt) (k2 dm tp fu fy Ant Anv : ℝ) :
    b.tension k2 = k2 * b.fub * b.dims.As / 1.25 ∧ tensionFn b.fub b.dims.As k2 = b.tension k2 ∧ punching dm tp fu = 0.6 * π * dm * tp * fu / 1.25 ∧
      blockTearing fy fu Ant Anv true = fu * Ant / 1.25 + fy * Anv / √3 ∧ blockTearing fy fu Ant Anv false = 0.5 * fu * Ant / 1.25 + fy * Anv / √3 ∧
      (0 ≤ fu * Ant → blockTearing fy fu Ant Anv false ≤ blockTearing fy fu Ant Anv true) := by
  unfold Bolt.tension tensionFn punching blockTearing gammaM2 gammaM0
  refine ⟨by norm_num, rfl, by norm_num, ?_, ?_, fun h => ?_⟩
  · simp only [if_true]; norm_num; ring
  · simp only [Bool.false_eq_true, if_false]; norm_num; ring
  · simp only [if_true, Bool.false_eq_true, if_false]
    have : 5 / 10 * fu * Ant / (125 / 100) ≤ fu * Ant / (125 / 100) := by
      apply div_le_div_of_nonneg_right _ (by norm_num)
      nlinarith
    linarith

/-- **C94.** The stiffness ratio is 1 up to two thirds of the moment resistance, 1.5 to the power ψ at the full resistance, never below 1, and does not decrease with the moment: so the
stiffness never exceeds the initial stiffness and never grows with the moment. -/
theorem C94 {ψ : ℝ} (hψ : 0 ≤ ψ) :
    (∀ r, r ≤ 2 / 3 → stiffnessRatio r ψ = 1) ∧ stiffnessRatio 1 ψ = 1.5 ^ ψ ∧ (∀ r, 2 / 3 ≤ r → stiffnessRatio r ψ = (3 * r / 2) ^ ψ) ∧
      Monotone (fun r => stiffnessRatio r ψ) ∧ (∀ r, 1 ≤ stiffnessRatio r ψ) ∧ ∀ r S, 0 ≤ S → S / stiffnessRatio r ψ ≤ S := by
  have h1 : ∀ r, r ≤ 2 / 3 → stiffnessRatio r ψ = 1 := fun r h => by unfold stiffnessRatio; rw [if_pos h]
  have h3 : ∀ r, 2 / 3 ≤ r → stiffnessRatio r ψ = (3 * r / 2) ^ ψ := fun r h => by
    unfold stiffnessRatio
    rcases h.eq_or_lt with e | h
    · rw [if_pos e.symm.le, ← e]; norm_num
    · rw [if_neg (not_le.2 h)]
      congr 1
      ring
  have hge : ∀ r, 1 ≤ stiffnessRatio r ψ := fun r => by
    rcases le_total r (2 / 3) with h | h
    · rw [h1 r h]
    · rw [h3 r h]
      exact one_le_rpow (by linarith) hψ
  refine ⟨h1, ?_, h3, fun a b hab => ?_, hge, fun r S hS => div_le_self hS (hge r)⟩
  · rw [h3 1 (by norm_num)]; norm_num
  · simp only
    rcases le_total a (2 / 3) with ha | ha
    · rw [h1 a ha]; exact hge b
    · rw [h3 a ha, h3 b (ha.trans hab)]
      exact rpow_le_rpow (by linarith) (by linarith) hψ

theorem weld_iff {n : ℕ} (hn : 0 < n) {fy fu β t a : ℝ} (hfy : 0 < fy) (hfu : 0 < fu) (hβ : 8 / 10 ≤ β) (ht : 0 < t) (ha : 0 < a) :
    BoltSpec.WeldSafe n fy fu β t a ↔ 2 / n * (β / √2 * (125 / 100) * fy / fu) * t ≤ a := by
  have hn' : (0 : ℝ) < n := by exact_mod_cast hn
  have hβ0 : 0 < β := by linarith
  have s2 : √2 * √2 = (2 : ℝ) := mul_self_sqrt (by norm_num)
  have s2p : (0 : ℝ) < √2 := by positivity
  have hσ : ∀ σ : ℝ, 0 ≤ σ → ((n * a) ^ 2 * (σ ^ 2 + σ ^ 2) = (fy * t) ^ 2 ↔ σ = fy * t / (n * a * √2)) := fun σ h0 => by
    rw [eq_div_iff (by positivity)]
    constructor
    · intro h
      have h' : (σ * (n * a * √2)) ^ 2 = (fy * t) ^ 2 := by
        calc (σ * (n * a * √2)) ^ 2 = σ ^ 2 * (n * a) ^ 2 * (√2 * √2) := by ring
          _ = (fy * t) ^ 2 := by rw [s2, ← h]; ring
      exact (pow_left_inj₀ (by positivity) (by positivity) (by norm_num)).1 h'
    · intro h
      rw [← h]
      calc (n * a) ^ 2 * (σ ^ 2 + σ ^ 2) = σ ^ 2 * (n * a) ^ 2 * 2 := by ring
        _ = σ ^ 2 * (n * a) ^ 2 * (√2 * √2) := by rw [s2]
        _ = _ := by ring
  have hsq : ∀ σ : ℝ, 0 ≤ σ → √(σ ^ 2 + 3 * σ ^ 2) = 2 * σ := fun σ h0 => by
    rw [show σ ^ 2 + 3 * σ ^ 2 = (2 * σ) ^ 2 by ring, sqrt_sq (by linarith)]
  have hmain : 2 * (fy * t / (n * a * √2)) ≤ fu / (β * 1.25) ↔ 2 / n * (β / √2 * (125 / 100) * fy / fu) * t ≤ a := by
    rw [show (1.25 : ℝ) = 125 / 100 by norm_num]
    rw [show 2 * (fy * t / (n * a * √2)) = 2 * fy * t / (n * a * √2) by ring, div_le_div_iff₀ (by positivity) (by positivity),
      show 2 / n * (β / √2 * (125 / 100) * fy / fu) * t = 2 * fy * t * (β * (125 / 100)) / (n * √2 * fu) by field_simp, div_le_iff₀ (by positivity)]
    rw [show a * (n * √2 * fu) = fu * (n * a * √2) by ring]
  have hpos : 0 ≤ fy * t / (n * a * √2) := by positivity
  constructor
  · rintro ⟨σ, τ, rfl, h0, he, hv, _⟩
    rw [hσ σ h0] at he
    rw [hsq σ h0, he] at hv
    exact hmain.1 hv
  · intro h
    have hv := hmain.2 h
    refine ⟨_, _, rfl, hpos, (hσ _ hpos).2 rfl, ?_, ?_⟩
    · rw [hsq _ hpos]; exact hv
    · have h5 : fu / (β * 1.25) ≤ fu / ((8 / 10) * 1.25) := by gcongr
      have h6 : fu / ((8 / 10) * 1.25) = fu := by norm_num
      have h7 : 0.9 * fu / 1.25 = 0.72 * fu := by ring
      rw [h7]
      linarith

/-- **C95 (part).** For the grades S235, S275, S355 and S420 the full-strength throats are exactly the least throats, per plate thickness, with which the directional method of 4.5.3.2 accepts a plate
at yield: two fillet welds for the plate, one for the tube. -/
theorem C95_partial {g : Grade} {β fy fu t a : ℝ} (hg : (g, β) ∈ [(Grade.S235, (0.8 : ℝ)), (.S275, 0.85), (.S355, 0.9), (.S420, 1)]) (hfy : 0 < fy) (hfu : 0 < fu) (ht : 0 < t) (ha : 0 < a) :
    (∃ c, weldThroat g fy fu = .ok c ∧ (BoltSpec.WeldSafe 2 fy fu β t a ↔ c * t ≤ a)) ∧ ∃ c, weldTube g fy fu = .ok c ∧ (BoltSpec.WeldSafe 1 fy fu β t a ↔ c * t ≤ a) := by
  have hβ : (8 / 10 : ℝ) ≤ β ∧ correlation g = .ok β := by
    simp only [List.mem_cons, Prod.mk.injEq, List.not_mem_nil, or_false] at hg
    rcases hg with ⟨rfl, rfl⟩ | ⟨rfl, rfl⟩ | ⟨rfl, rfl⟩ | ⟨rfl, rfl⟩ <;> refine ⟨by norm_num, ?_⟩ <;> simp only [correlation] <;> norm_num
  unfold weldThroat weldTube gammaM0 gammaM2
  rw [hβ.2]
  simp only [bind, Except.bind, pure, Except.pure]
  refine ⟨⟨_, rfl, ?_⟩, ⟨_, rfl, ?_⟩⟩
  · rw [weld_iff two_pos hfy hfu hβ.1 ht ha]
    norm_num
  · rw [weld_iff one_pos hfy hfu hβ.1 ht ha]
    rw [show 2 / ((1 : ℕ) : ℝ) * (β / √2 * (125 / 100) * fy / fu) * t = 2 * β / √2 * (125 / 100) / 1 * fy / fu * t by push_cast; ring]

example : (Grade.S355, (0.9 : ℝ)) ∈ [(Grade.S235, (0.8 : ℝ)), (.S275, 0.85), (.S355, 0.9), (.S420, 1)] := by simp

/-- **C95 (disagreement).** The table has a factor for S460, but the material names are S460M and S460Q: these grades, S500 and S700 raise KeyError. -/
theorem C95_violation (fy fu : ℝ) : ∀ g ∈ [Grade.S460M, .S460Q, .S500, .S700], weldThroat g fy fu = .error .keyError ∧ weldTube g fy fu = .error .keyError := by
  intro g hg
  simp only [List.mem_cons, List.not_mem_nil, or_false] at hg
  rcases hg with rfl | rfl | rfl | rfl <;> exact ⟨rfl, rfl⟩

theorem omega1_pos (x : ℝ) : 0 < BoltSpec.omega1 x ∧ BoltSpec.omega1 x ≤ 1 := by
  unfold BoltSpec.omega1
  have h : (1 : ℝ) ≤ √(1 + 1.3 * x ^ 2) := by
    rw [le_sqrt' one_pos]
    nlinarith [sq_nonneg x]
  have h0 : 0 < √(1 + 1.3 * x ^ 2) := by linarith
  exact ⟨by positivity, by rw [div_le_one h0]; exact h⟩

theorem omega2_lt {x : ℝ} : 0 < BoltSpec.omega2 x ∧ BoltSpec.omega2 x ≤ BoltSpec.omega1 x := by
  unfold BoltSpec.omega1 BoltSpec.omega2
  have h : √(1 + 1.3 * x ^ 2) ≤ √(1 + 5.2 * x ^ 2) := by
    apply sqrt_le_sqrt
    nlinarith [sq_nonneg x]
  have h0 : 0 < √(1 + 1.3 * x ^ 2) := by
    apply sqrt_pos.2
    positivity
  exact ⟨by positivity, by apply one_div_le_one_div_of_le h0 h⟩

theorem coeffW_forms (beff twc Avc : ℝ) : 1 / √(1 + 13 / 10 * (beff * twc / Avc) ^ 2) = BoltSpec.omega1 (beff * twc / Avc) ∧
    1 / √(1 + 52 / 10 * (beff * twc / Avc) ^ 2) = BoltSpec.omega2 (beff * twc / Avc) := by
  unfold BoltSpec.omega1 BoltSpec.omega2
  norm_num

/-- **C96 (part).** For transformation parameters from 0 to 1 and for 2 the reduction factor for the interaction with shear is that of Table 6.3; it lies above 0 and at most at 1, and from 0 to 1 it does
not increase. -/
theorem C96_partial (beff twc Avc : ℝ) :
    (∀ β, 0 ≤ β → β ≤ 1 ∨ β = 2 → coeffW β beff twc Avc = BoltSpec.omega β (beff * twc / Avc) ∧ 0 < coeffW β beff twc Avc ∧ coeffW β beff twc Avc ≤ 1) ∧
      (∀ β β', 0 ≤ β → β ≤ β' → β' ≤ 1 → coeffW β' beff twc Avc ≤ coeffW β beff twc Avc) ∧ coeffW 2 beff twc Avc ≤ coeffW 1 beff twc Avc := by
  obtain ⟨f1, f2⟩ := coeffW_forms beff twc Avc
  obtain ⟨p1, q1⟩ := omega1_pos (beff * twc / Avc)
  obtain ⟨p2, q2⟩ := @omega2_lt (beff * twc / Avc)
  have heq : ∀ β, 0 ≤ β → β ≤ 1 ∨ β = 2 → coeffW β beff twc Avc = BoltSpec.omega β (beff * twc / Avc) := fun β h0 h => by
    unfold coeffW BoltSpec.omega
    simp only [f1, f2]
    rcases h with h | rfl
    · split_ifs with a1 a2 a3 a4 a5 <;> first | rfl | (exfalso; grind) | (subst_vars; ring_nf)
    · norm_num
  have hb : ∀ β, 0 ≤ β → β ≤ 1 ∨ β = 2 → 0 < BoltSpec.omega β (beff * twc / Avc) ∧ BoltSpec.omega β (beff * twc / Avc) ≤ 1 := fun β h0 h => by
    unfold BoltSpec.omega
    split_ifs with a1 a2
    · exact ⟨one_pos, le_refl _⟩
    · constructor
      · have := mul_nonneg (by linarith : (0 : ℝ) ≤ 2 * (1 - β)) (sub_nonneg.2 q1)
        linarith
      · nlinarith [mul_nonneg (by linarith : (0 : ℝ) ≤ 2 * β - 1) (sub_nonneg.2 q1)]
    · obtain rfl : β = 2 := by rcases h with h | h; exact absurd h a2; exact h
      constructor <;> linarith
  refine ⟨fun β h0 h => by rw [heq β h0 h]; exact ⟨rfl, hb β h0 h⟩, fun β β' h0 h h1 => ?_, ?_⟩
  · rw [heq β h0 (.inl (h.trans h1)), heq β' (h0.trans h) (.inl h1)]
    unfold BoltSpec.omega
    split_ifs with a1 a2 a3 <;> first | exact le_refl _ | (exfalso; linarith) | nlinarith [mul_nonneg (by linarith : (0 : ℝ) ≤ 2 * β' - 1) (sub_nonneg.2 q1), mul_nonneg (sub_nonneg.2 h) (sub_nonneg.2 q1)]
  · rw [heq 2 (by norm_num) (.inr rfl), heq 1 (by norm_num) (.inl (le_refl _))]
    unfold BoltSpec.omega
    norm_num
    linarith

/-- **C96 (disagreement).** Between 1 and 2 the factor grows with the transformation parameter instead of falling: it is above that of Table 6.3, and above 1 from 1.5 on, for every web with an effective
width; outside 0 to 2 it is 0. -/
theorem C96_violation {beff twc Avc : ℝ} (h : beff * twc / Avc ≠ 0) :
    (∀ β, 1 < β → β < 2 → BoltSpec.omega β (beff * twc / Avc) < coeffW β beff twc Avc) ∧ (∀ β, 3 / 2 < β → β < 2 → 1 < coeffW β beff twc Avc) ∧
      ∀ β, β < 0 ∨ 2 < β → coeffW β beff twc Avc = 0 := by
  obtain ⟨f1, f2⟩ := coeffW_forms beff twc Avc
  obtain ⟨p1, q1⟩ := omega1_pos (beff * twc / Avc)
  obtain ⟨p2, q2⟩ := @omega2_lt (beff * twc / Avc)
  have hlt : BoltSpec.omega1 (beff * twc / Avc) < 1 := by
    unfold BoltSpec.omega1
    have hx : 0 < (beff * twc / Avc) ^ 2 := by positivity
    have h1 : (1 : ℝ) < √(1 + 1.3 * (beff * twc / Avc) ^ 2) := by
      rw [lt_sqrt (by norm_num)]
      linarith
    rw [div_lt_one (by linarith)]
    exact h1
  have hval : ∀ β, 1 < β → β < 2 → coeffW β beff twc Avc = BoltSpec.omega1 (beff * twc / Avc) + 2 * (β - 1) * (1 - BoltSpec.omega1 (beff * twc / Avc)) := fun β h1 h2 => by
    unfold coeffW
    simp only [f1, f2]
    rw [if_neg (by rintro ⟨_, _⟩; linarith), if_neg (by rintro ⟨_, _⟩; linarith), if_neg (by linarith), if_pos ⟨h1, h2⟩]
  refine ⟨fun β h1 h2 => ?_, fun β h1 h2 => ?_, fun β hb => ?_⟩
  · rw [hval β h1 h2]
    unfold BoltSpec.omega
    rw [if_neg (by linarith), if_neg (by linarith)]
    have a1 := mul_pos (sub_pos.2 h1) (sub_pos.2 hlt)
    have a2 := mul_nonneg (sub_pos.2 h1).le (sub_nonneg.2 q2)
    nlinarith
  · rw [hval β (by linarith) h2]
    nlinarith [mul_pos (sub_pos.2 h1) (sub_pos.2 hlt)]
  · unfold coeffW
    rcases hb with hb | hb
    · rw [if_neg (by rintro ⟨_, _⟩; linarith), if_neg (by rintro ⟨_, _⟩; linarith), if_neg (by linarith), if_neg (by rintro ⟨_, _⟩; linarith), if_neg (by linarith)]
    · rw [if_neg (by rintro ⟨_, _⟩; linarith), if_neg (by rintro ⟨_, _⟩; linarith), if_neg (by linarith), if_neg (by rintro ⟨_, _⟩; linarith), if_neg (by linarith)]

example : (200 : ℝ) * 8 / 3000 ≠ 0 := by norm_num

end Metku.Bolts
