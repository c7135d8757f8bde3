import Mathlib.Tactic.Linarith
import Mathlib.Tactic.NormNum
import Mathlib.Tactic.FieldSimp
import Mathlib.Tactic.Ring
import Mathlib.Data.Rat.Cast.Order
import Verif.Model.StructProblem

/-! Constraint functions of the structural optimisation problem (C272-C277). -/
namespace Metku.SProb

set_option linter.unusedSectionVars false

open Metku

variable {K : Type} [Field K] [LinearOrder K] [IsStrictOrderedRing K]

/-- A constraint of type `<` is met: it can be evaluated and its value is not positive. -/
def Met : Except PyErr K → Prop
  | .ok v => v ≤ 0
  | .error _ => False

/-- All functions of a dict are met. -/
def AllMet (l : List (String × Except PyErr K)) : Prop := ∀ p ∈ l, Met p.2

/-! ### Arithmetic of the ratios -/

theorem fdiv_ok {x y : K} (h : y ≠ 0) : fdiv x y = .ok (x / y) := by rw [fdiv, if_neg h]

theorem fdiv_zero (x : K) : fdiv x 0 = .error .zeroDivision := by rw [fdiv, if_pos rfl]

theorem met_ratio {x y : K} (h : 0 < y) : Met (do return (← fdiv x y) - 1 : Except PyErr K) ↔ x ≤ y := by
  rw [fdiv_ok h.ne']
  show x / y - 1 ≤ 0 ↔ _
  rw [sub_nonpos, div_le_one h]

theorem pymax_spec (l : List K) (m : K) :
    pymax l = .ok m ↔ m ∈ l ∧ ∀ x ∈ l, x ≤ m := by
  cases l with
  | nil => simp [pymax]
  | cons a l =>
    have key : ∀ (l : List K) (a : K), l.foldl max a ∈ a :: l ∧ ∀ x ∈ a :: l, x ≤ l.foldl max a := by
      intro l
      induction l with
      | nil => intro a; simp
      | cons b l ih =>
        intro a
        obtain ⟨h1, h2⟩ := ih (max a b)
        simp only [List.foldl_cons]
        constructor
        · rcases List.mem_cons.1 h1 with h | h
          · rcases max_choice a b with h' | h' <;> rw [h, h'] <;> simp
          · simp [h]
        · intro x hx
          have hb := h2 (max a b) (by simp)
          rcases List.mem_cons.1 hx with rfl | hx
          · exact (le_max_left _ _).trans hb
          · rcases List.mem_cons.1 hx with rfl | hx
            · exact (le_max_right _ _).trans hb
            · exact h2 x (by simp [hx])
    obtain ⟨h1, h2⟩ := key l a
    rw [pymax]
    constructor
    · intro h; obtain rfl := Except.ok.inj h; exact ⟨h1, h2⟩
    · rintro ⟨h3, h4⟩
      exact congrArg _ (le_antisymm (h4 _ h1) (h2 _ h3))

theorem pymin_spec (l : List K) (m : K) :
    pymin l = .ok m ↔ m ∈ l ∧ ∀ x ∈ l, m ≤ x := by
  cases l with
  | nil => simp [pymin]
  | cons a l =>
    have key : ∀ (l : List K) (a : K), l.foldl min a ∈ a :: l ∧ ∀ x ∈ a :: l, l.foldl min a ≤ x := by
      intro l
      induction l with
      | nil => intro a; simp
      | cons b l ih =>
        intro a
        obtain ⟨h1, h2⟩ := ih (min a b)
        simp only [List.foldl_cons]
        constructor
        · rcases List.mem_cons.1 h1 with h | h
          · rcases min_choice a b with h' | h' <;> rw [h, h'] <;> simp
          · simp [h]
        · intro x hx
          have hb := h2 (min a b) (by simp)
          rcases List.mem_cons.1 hx with rfl | hx
          · exact hb.trans (min_le_left _ _)
          · rcases List.mem_cons.1 hx with rfl | hx
            · exact hb.trans (min_le_right _ _)
            · exact h2 x (by simp [hx])
    obtain ⟨h1, h2⟩ := key l a
    rw [pymin]
    constructor
    · intro h; obtain rfl := Except.ok.inj h; exact ⟨h1, h2⟩
    · rintro ⟨h3, h4⟩
      exact congrArg _ (le_antisymm (h2 _ h3) (h4 _ h1))

theorem pymin_total {l : List K} (h : l ≠ []) : ∃ m, pymin l = .ok m := by
  cases l with
  | nil => exact absurd rfl h
  | cons a l => exact ⟨_, rfl⟩

theorem pymax_total {l : List K} (h : l ≠ []) : ∃ m, pymax l = .ok m := by
  cases l with
  | nil => exact absurd rfl h
  | cons a l => exact ⟨_, rfl⟩

/-! ### C272: section resistance -/

/-- Internal forces at one end are within the resistances. -/
def WithinRes (m : Mem K) (n v b : K) : Prop := |n| ≤ m.NRd ∧ |v| ≤ m.VRd ∧ |b| ≤ m.MRd

/-- With resistances that are positive, and for an element object that carries the three lists of end forces, the section
    constraints are met exactly when the forces at the first end are within the resistances.  Missing: the second end,
    and elements as the finite element model makes them. -/
theorem C272_partial (m : Mem K) (e : Elem K) (N V B : K × K) (hN : e.attrs "axial_force" = some N)
    (hV : e.attrs "shear_force" = some V) (hB : e.attrs "bending_moment" = some B)
    (h1 : 0 < m.NRd) (h2 : 0 < m.VRd) (h3 : 0 < m.MRd) :
    AllMet (sectionFuns m e) ↔ WithinRes m N.1 V.1 B.1 := by
  have gN : e.get "axial_force" = .ok N := by rw [Elem.get, hN]
  have gV : e.get "shear_force" = .ok V := by rw [Elem.get, hV]
  have gB : e.get "bending_moment" = .ok B := by rw [Elem.get, hB]
  have a1 := met_ratio (x := -N.1) h1
  have a2 := met_ratio (x := N.1) h1
  have a3 := met_ratio (x := |V.1|) h2
  have a4 := met_ratio (x := |B.1|) h3
  simp only [AllMet, sectionFuns, gN, gV, gB, List.mem_cons, List.not_mem_nil, or_false, forall_eq_or_imp, forall_eq,
    WithinRes, abs_le (a := N.1)]
  constructor
  · rintro ⟨b1, b2, b3, b4⟩
    exact ⟨⟨by linarith [a1.1 b1], a2.1 b2⟩, a3.1 b3, a4.1 b4⟩
  · rintro ⟨⟨b1, b2⟩, b3, b4⟩
    exact ⟨a1.2 (by linarith), a2.2 b2, a3.2 b3, a4.2 b4⟩

example : (⟨0, ⟨.rhs, 1, 1, 1, 1, 1⟩, [], [], 10, 10, 10, []⟩ : Mem ℚ).NRd = 10 ∧
    WithinRes (⟨0, ⟨.rhs, 1, 1, 1, 1, 1⟩, [], [], 10, 10, 10, []⟩ : Mem ℚ) (-7) 3 (-9) := by
  refine ⟨rfl, ?_, ?_, ?_⟩ <;> norm_num [abs_le]

/-- For elements of the finite element model none of the section constraints can be evaluated: whatever the design,
    reading the forces raises an error. -/
theorem C272_viol (m : Mem K) (n : ℕ) :
    ∀ p ∈ sectionFuns m (Elem.new n), p.2 = .error .attributeError := by
  intro p hp
  simp only [sectionFuns, List.mem_cons, List.not_mem_nil, or_false] at hp
  rcases hp with rfl | rfl | rfl | rfl <;> rfl

/-- A problem made without a list of constraints cannot be evaluated: all its constraints raise an error, and it has
    four for each element. -/
theorem C272_default_viol (S : Struct K) (hS : ∀ m ∈ S.members, ∀ e ∈ m.elems, ∃ n, e = Elem.new n) :
    ∃ cons, problemCons S none none = .ok cons ∧
      (∀ c ∈ cons, c.val = .error .attributeError) ∧
      cons.length = 4 * (S.members.map fun m => m.elems.length).sum := by
  have hw : ∀ k : String, Req.wants (K := K) defaultReq k = true ↔
      k = "compression" ∨ k = "tension" ∨ k = "shear" ∨ k = "bending_moment" := by
    intro k
    by_cases h1 : k = "compression"
    · subst h1; simp [Req.wants, Req.arg, defaultReq, Arg.truthy, List.lookup]
    by_cases h2 : k = "tension"
    · subst h2; simp [Req.wants, Req.arg, defaultReq, Arg.truthy, List.lookup]
    by_cases h3 : k = "shear"
    · subst h3; simp [Req.wants, Req.arg, defaultReq, Arg.truthy, List.lookup]
    by_cases h4 : k = "bending_moment"
    · subst h4; simp [Req.wants, Req.arg, defaultReq, Arg.truthy, List.lookup]
    · simp [Req.wants, Req.arg, defaultReq, Arg.truthy, List.lookup, h1, h2, h3, h4, beq_eq_false_iff_ne.2]
  have hsec : ∀ (m : Mem K) (e : Elem K), pick defaultReq (some m.id) (some e.eid) true (sectionFuns m e) =
      (sectionFuns m e).map fun p => ⟨p.1, some m.id, some e.eid, true, p.2⟩ := by
    intro m e
    rw [pick, List.filter_eq_self.2]
    intro p hp
    simp only [sectionFuns, List.mem_cons, List.not_mem_nil, or_false] at hp
    rcases hp with rfl | rfl | rfl | rfl <;> (rw [hw]; simp)
  have hnone : ∀ (mem part : Option ℕ) (f : Bool) (l : List (String × Except PyErr K)),
      (∀ p ∈ l, p.1 ≠ "compression" ∧ p.1 ≠ "tension" ∧ p.1 ≠ "shear" ∧ p.1 ≠ "bending_moment") →
      pick defaultReq mem part f l = [] := by
    intro mem part f l hl
    rw [pick, List.filter_eq_nil_iff.2, List.map_nil]
    intro p hp hc
    obtain ⟨a, b, c, d⟩ := hl p hp
    rcases (hw p.1).1 hc with h | h | h | h <;> contradiction
  have hmem : ∀ m : Mem K, memCons defaultReq m =
      m.elems.flatMap fun e => (sectionFuns m e).map fun p => ⟨p.1, some m.id, some e.eid, true, p.2⟩ := by
    intro m
    have s1 : (m.subs.zipIdx.flatMap fun p =>
        pick (K := K) defaultReq (some m.id) (some p.2) true (stabilityFuns p.1 (stabClass m.sec.kind))) = [] := by
      rw [List.flatMap_eq_nil_iff]
      intro p _
      apply hnone
      intro q hq
      simp only [stabilityFuns, List.mem_append, List.mem_cons, List.not_mem_nil, or_false] at hq
      rcases hq with (rfl | rfl | rfl | rfl) | hq
      · dsimp only; decide
      · dsimp only; decide
      · dsimp only; decide
      · dsimp only; decide
      · split at hq
        · simp only [List.mem_cons, List.not_mem_nil, or_false] at hq
          subst hq; dsimp only; decide
        · exact absurd hq List.not_mem_nil
    have s3 : pick (K := K) defaultReq (some m.id) none false (classFuns m) = [] := by
      apply hnone
      intro q hq
      simp only [classFuns, List.mem_cons, List.not_mem_nil, or_false] at hq
      rcases hq with rfl | rfl <;> (dsimp only; decide)
    have s4 : pick (K := K) defaultReq (some m.id) none true
        (deflFuns m (Req.arg defaultReq "deflection_x") (Req.arg defaultReq "deflection_y")) = [] := by
      have hx : Req.arg (K := K) defaultReq "deflection_x" = .none := by
        simp [Req.arg, defaultReq, List.lookup]
      have hy : Req.arg (K := K) defaultReq "deflection_y" = .none := by
        simp [Req.arg, defaultReq, List.lookup]
      rw [hx, hy]
      simp [deflFuns, Arg.truthy, pick]
    rw [memCons, s1, s3, s4, List.nil_append, List.append_nil, List.append_nil]
    simp only [hsec]
  have hj : ∀ j : Joint K, jointCons defaultReq j = [] := by
    intro j
    have a : ¬ Req.wants (K := K) defaultReq "joint_geometry_constraints" = true := by rw [hw]; decide
    have b : ¬ Req.wants (K := K) defaultReq "joint_strength_constraints" = true := by rw [hw]; decide
    rw [jointCons, if_neg a, if_neg b, List.append_nil]
  have hnew : newCons S defaultReq S.members = S.members.flatMap (memCons defaultReq) := by
    have : (S.trusses.flatMap fun t => t.flatMap (jointCons defaultReq)) = ([] : List (Con K)) := by
      rw [List.flatMap_eq_nil_iff]; intro t _
      rw [List.flatMap_eq_nil_iff]; intro j _; exact hj j
    rw [newCons, this, List.append_nil]
  refine ⟨newCons S defaultReq S.members, ?_, ?_, ?_⟩
  · have hk : (defaultReq (K := K)).all (fun p => p.1 ∈ keywords) = true := by
      simp [defaultReq, keywords]
    simp only [problemCons, Option.getD_none, createConstraints, hk, if_true, bind, Except.bind, groupConstraints]
  · intro c hc
    rw [hnew, List.mem_flatMap] at hc
    obtain ⟨m, hm, hc⟩ := hc
    rw [hmem, List.mem_flatMap] at hc
    obtain ⟨e, he, hc⟩ := hc
    obtain ⟨p, hp, rfl⟩ := List.mem_map.1 hc
    obtain ⟨n, rfl⟩ := hS m hm e he
    exact C272_viol m n p hp
  · rw [hnew, List.length_flatMap]
    have hl : ∀ m : Mem K, (memCons defaultReq m).length = 4 * m.elems.length := by
      intro m
      rw [hmem, List.length_flatMap]
      simp [sectionFuns, mul_comm]
    simp only [hl]
    induction S.members with
    | nil => rfl
    | cons a l ih => simp only [List.map_cons, List.sum_cons, ih]; omega

example : ∃ S : Struct ℚ, (∀ m ∈ S.members, ∀ e ∈ m.elems, ∃ n, e = Elem.new n) ∧
    (S.members.map fun m => m.elems.length).sum = 3 :=
  ⟨⟨[⟨0, ⟨.rhs, 1, 1, 1, 1, 1⟩, [], [Elem.new 0, Elem.new 1], 1, 1, 1, []⟩,
      ⟨1, ⟨.rhs, 1, 1, 1, 1, 1⟩, [], [Elem.new 2], 1, 1, 1, []⟩], []⟩, by
    intro m hm e he
    simp only [List.mem_cons, List.not_mem_nil, or_false] at hm
    rcases hm with rfl | rfl <;> simp only [List.mem_cons, List.not_mem_nil, or_false] at he
    · rcases he with rfl | rfl <;> exact ⟨_, rfl⟩
    · exact ⟨2, he⟩, rfl⟩

/-- Even when the forces can be read, those at the second end of an element may have any size. -/
theorem C272_end_viol (m : Mem K) (e : Elem K) (N V B : K × K) (hN : e.attrs "axial_force" = some N)
    (hV : e.attrs "shear_force" = some V) (hB : e.attrs "bending_moment" = some B)
    (h1 : 0 < m.NRd) (h2 : 0 < m.VRd) (h3 : 0 < m.MRd) (hm : AllMet (sectionFuns m e)) (n v b : K) :
    ∃ e' : Elem K, e'.attrs "axial_force" = some (N.1, n) ∧ e'.attrs "shear_force" = some (V.1, v) ∧
      e'.attrs "bending_moment" = some (B.1, b) ∧ AllMet (sectionFuns m e') := by
  let e' : Elem K := ⟨e.eid, fun s => if s = "axial_force" then some (N.1, n) else
    if s = "shear_force" then some (V.1, v) else some (B.1, b)⟩
  have a1 : e'.attrs "axial_force" = some (N.1, n) := rfl
  have a2 : e'.attrs "shear_force" = some (V.1, v) := rfl
  have a3 : e'.attrs "bending_moment" = some (B.1, b) := rfl
  exact ⟨e', a1, a2, a3, (C272_partial m e' _ _ _ a1 a2 a3 h1 h2 h3).2
    ((C272_partial m e N V B hN hV hB h1 h2 h3).1 hm)⟩

/-! ### C273: stability -/

/-- The stability constraints of a member that is a hollow section. -/
theorem stab_common (s : Sub K) (cls : ℕ) (hn : s.ned ≠ []) (h1 : 0 < s.NbRd.1) (h2 : 0 < s.NbRd.2) :
    (∀ p ∈ [ ("buckling_y", (do return (← fdiv (-(← pymin s.ned)) s.NbRd.1) - 1 : Except PyErr K)),
        ("buckling_z", (do return (← fdiv (-(← pymin s.ned)) s.NbRd.2) - 1 : Except PyErr K)),
        ("compression_bending_y", Except.ok ((s.beamcol cls).1 - 1)),
        ("compression_bending_z", Except.ok ((s.beamcol cls).2 - 1)) ], Met p.2) ↔
      (∀ n ∈ s.ned, -n ≤ s.NbRd.1 ∧ -n ≤ s.NbRd.2) ∧ (s.beamcol cls).1 ≤ 1 ∧ (s.beamcol cls).2 ≤ 1 := by
  obtain ⟨m, hm⟩ := pymin_total hn
  obtain ⟨hm1, hm2⟩ := (pymin_spec _ _).1 hm
  have a1 := met_ratio (x := -m) h1
  have a2 := met_ratio (x := -m) h2
  simp only [hm, List.mem_cons, List.not_mem_nil, or_false, forall_eq_or_imp, forall_eq]
  constructor
  · rintro ⟨b1, b2, b3, b4⟩
    refine ⟨fun n hn' => ⟨?_, ?_⟩, sub_nonpos.1 b3, sub_nonpos.1 b4⟩
    · have := a1.1 b1; have := hm2 n hn'; linarith
    · have := a2.1 b2; have := hm2 n hn'; linarith
  · rintro ⟨b, b3, b4⟩
    exact ⟨a1.2 (b m hm1).1, a2.2 (b m hm1).2, sub_nonpos.2 b3, sub_nonpos.2 b4⟩

/-- Stability of a steel member with positive resistances.  The constraints are met exactly when all its compression
    forces are within both buckling resistances and both interaction values are at most 1; for a hollow section, also the
    largest signed moment must be within the resistance to lateral-torsional buckling.  Missing: lateral-torsional
    buckling of other sections, and of the moments of negative sign. -/
theorem C273_partial (s : Sub K) (cls : ℕ) (hn : s.ned ≠ []) (hb : s.myed ≠ [])
    (h1 : 0 < s.NbRd.1) (h2 : 0 < s.NbRd.2) (h3 : 0 < s.MbRd) :
    AllMet (stabilityFuns s cls) ↔
      (∀ n ∈ s.ned, -n ≤ s.NbRd.1 ∧ -n ≤ s.NbRd.2) ∧ (s.beamcol cls).1 ≤ 1 ∧ (s.beamcol cls).2 ≤ 1 ∧
      (s.profile = .rhs → ∃ b ∈ s.myed, (∀ x ∈ s.myed, x ≤ b) ∧ |b| ≤ s.MbRd) := by
  have hc := stab_common s cls hn h1 h2
  obtain ⟨b, hb'⟩ := pymax_total hb
  obtain ⟨hb1, hb2⟩ := (pymax_spec _ _).1 hb'
  have a := met_ratio (x := |b|) h3
  rw [AllMet, stabilityFuns]
  simp only [List.mem_append, or_imp, forall_and]
  rw [hc]
  by_cases hp : s.profile = .rhs
  · rw [if_pos hp]
    simp only [List.mem_cons, List.not_mem_nil, or_false, forall_eq, hb', hp, forall_const]
    constructor
    · rintro ⟨⟨c1, c2, c3⟩, c4⟩
      refine ⟨⟨fun n hn => (c1 n hn).1, fun n hn => (c1 n hn).2⟩, c2, c3, b, hb1, hb2, a.1 c4⟩
    · rintro ⟨⟨c1, c1'⟩, c2, c3, b', d1, d2, d3⟩
      obtain rfl : b = b' := le_antisymm (d2 b hb1) (hb2 b' d1)
      exact ⟨⟨fun n hn => ⟨c1 n hn, c1' n hn⟩, c2, c3⟩, a.2 d3⟩
  · rw [if_neg hp]
    simp only [List.not_mem_nil, hp, false_imp_iff, implies_true, and_true]
    constructor
    · rintro ⟨c1, c2, c3⟩
      exact ⟨⟨fun n hn => (c1 n hn).1, fun n hn => (c1 n hn).2⟩, c2, c3⟩
    · rintro ⟨⟨c1, c1'⟩, c2, c3⟩
      exact ⟨fun n hn => ⟨c1 n hn, c1' n hn⟩, c2, c3⟩

example : ∃ s : Sub ℚ, s.ned ≠ [] ∧ s.myed ≠ [] ∧ 0 < s.NbRd.1 ∧ 0 < s.NbRd.2 ∧ 0 < s.MbRd ∧
    s.profile = .rhs ∧ ∃ b ∈ s.myed, (∀ x ∈ s.myed, x ≤ b) ∧ |b| ≤ s.MbRd :=
  ⟨⟨[-3, 5], [4, -1], (4, 6), 5, fun _ => (1 / 2, 1), .rhs⟩, by simp, by simp, by norm_num, by norm_num, by norm_num,
    rfl, 4, by simp, by norm_num, by norm_num⟩

/-- For sections other than hollow ones the stability constraints do not depend on the bending moments and on the
    resistance to lateral-torsional buckling, even if that constraint is asked for. -/
theorem C273_viol (s : Sub K) (hp : s.profile ≠ .rhs) (cls : ℕ) (moments : List K) (MbRd : K) :
    stabilityFuns { s with myed := moments, MbRd := MbRd } cls = stabilityFuns s cls ∧
    ∀ p ∈ stabilityFuns s cls, p.1 ≠ "lt_buckling" := by
  constructor
  · simp only [stabilityFuns, if_neg hp]
  · intro q hq
    simp only [stabilityFuns, if_neg hp, List.append_nil, List.mem_cons, List.not_mem_nil, or_false] at hq
    rcases hq with rfl | rfl | rfl | rfl <;> (dsimp only; decide)

/-- A moment of negative sign passes the constraint on lateral-torsional buckling at any size, if some moment is 0. -/
theorem C273_sign_viol (M : K) (hM : 0 < M) (b : K) (hb : b < 0) :
    ∃ s : Sub K, s.profile = .rhs ∧ b ∈ s.myed ∧ s.MbRd = M ∧ ∀ cls, AllMet (stabilityFuns s cls) := by
  refine ⟨⟨[0], [0, b], (1, 1), M, fun _ => (0, 0), .rhs⟩, rfl, by simp, rfl, fun cls => ?_⟩
  refine (C273_partial _ cls (by simp) (by simp) (by simp) (by simp) hM).2 ⟨by simp, by simp, by simp, fun _ => ?_⟩
  exact ⟨0, by simp, by simp [hb.le], by simp [hM.le]⟩

example : ∃ s : Sub ℚ, s.profile ≠ .rhs ∧ s.myed = [100] ∧ s.MbRd = 1 ∧ AllMet (stabilityFuns s 2) :=
  ⟨⟨[0], [100], (1, 1), 1, fun _ => (0, 0), .isec⟩, by simp, rfl, rfl,
    (C273_partial _ 2 (by simp) (by simp) (by simp) (by simp) (by simp)).2
      ⟨by simp, by simp, by simp, fun h => absurd h (by simp)⟩⟩

/-! ### C274: deflection -/

theorem mapM_ok {α β : Type} (f : α → Except PyErr β) (g : α → β) :
    ∀ l : List α, (∀ a ∈ l, f a = .ok (g a)) → l.mapM f = .ok (l.map g)
  | [], _ => rfl
  | a :: l, h => by
    rw [List.mapM_cons, h a (by simp), mapM_ok f g l fun b hb => h b (by simp [hb])]
    rfl

theorem mapM_err {α β : Type} (f : α → Except PyErr β) (err : PyErr) :
    ∀ l : List α, (∀ a ∈ l, (∃ b, f a = .ok b) ∨ f a = .error err) → (∃ a ∈ l, f a = .error err) →
      l.mapM f = .error err
  | [], _, h => by obtain ⟨a, ha, _⟩ := h; exact absurd ha List.not_mem_nil
  | a :: l, h, h' => by
    rw [List.mapM_cons]
    rcases h a (by simp) with ⟨b, hb⟩ | hb
    · have : l.mapM f = .error err := by
        refine mapM_err f err l (fun c hc => h c (by simp [hc])) ?_
        obtain ⟨c, hc, hc'⟩ := h'
        rcases List.mem_cons.1 hc with rfl | hc
        · rw [hb] at hc'; exact absurd hc' (by simp)
        · exact ⟨c, hc, hc'⟩
      rw [hb, this]; rfl
    · rw [hb]; rfl

/-- The deflection constraint in a direction, for a member that has node 0 and was analysed for at least one load case:
    it is met exactly when the displacement of node 0 is within the limit in every load case.  Missing: all other
    nodes. -/
theorem C274_partial (f : K × K → K) (m : Mem K) (limit : K) (hl : 0 < limit) (hne : m.disp ≠ [])
    (u : (ℕ → Option (K × K)) → K × K) (hu : ∀ d ∈ m.disp, d 0 = some (u d)) :
    Met (deflVal f m limit) ↔ ∀ d ∈ m.disp, |f (u d)| ≤ limit := by
  have h1 : (m.disp.mapM fun d => (do return |f (← dispAt d)| : Except PyErr K)) =
      .ok (m.disp.map fun d => |f (u d)|) := by
    apply mapM_ok
    intro d hd
    rw [dispAt, hu d hd]; rfl
  obtain ⟨v, hv⟩ := pymax_total (l := m.disp.map fun d => |f (u d)|) (by simpa using hne)
  obtain ⟨hv1, hv2⟩ := (pymax_spec _ _).1 hv
  have h2 : deflVal f m limit = (do return (← fdiv v limit) - 1 : Except PyErr K) := by
    rw [deflVal, h1]
    show (do return (← fdiv (← pymax _) limit) - 1 : Except PyErr K) = _
    rw [hv]; rfl
  rw [h2, met_ratio hl]
  constructor
  · intro h d hd
    exact (hv2 _ (List.mem_map.2 ⟨d, hd, rfl⟩)).trans h
  · intro h
    obtain ⟨d, hd, rfl⟩ := List.mem_map.1 hv1
    exact h d hd

/-- For a member that node 0 is not part of, the constraint cannot be evaluated. -/
theorem C274_viol (f : K × K → K) (m : Mem K) (limit : K) (h : ∃ d ∈ m.disp, d 0 = none) :
    deflVal f m limit = .error .keyError := by
  have h1 : (m.disp.mapM fun d => (do return |f (← dispAt d)| : Except PyErr K)) = .error .keyError := by
    apply mapM_err
    · intro d _
      cases hd : d 0 with
      | none => right; rw [dispAt, hd]; rfl
      | some u => left; exact ⟨_, by rw [dispAt, hd]; rfl⟩
    · obtain ⟨d, hd, h0⟩ := h
      exact ⟨d, hd, by rw [dispAt, h0]; rfl⟩
  rw [deflVal, h1]; rfl

/-- For a member that has node 0, the displacements of its other nodes are not looked at. -/
theorem C274_node_viol (f : K × K → K) (m : Mem K) (limit : K) (g : (ℕ → Option (K × K)) → ℕ → Option (K × K)) :
    deflVal f { m with disp := m.disp.map fun d => fun i => if i = 0 then d 0 else g d i } limit =
      deflVal f m limit := by
  have h1 : ∀ l : List (ℕ → Option (K × K)),
      ((l.map fun d => fun i => if i = 0 then d 0 else g d i).mapM fun d => (do return |f (← dispAt d)| : Except PyErr K)) =
      (l.mapM fun d => (do return |f (← dispAt d)| : Except PyErr K)) := by
    intro l
    induction l with
    | nil => rfl
    | cons d l ih =>
      rw [List.map_cons, List.mapM_cons, List.mapM_cons, ih]
      rfl
  rw [deflVal, deflVal, h1]

example : ∃ m : Mem ℚ, m.disp ≠ [] ∧ (∀ d ∈ m.disp, d 0 = some (1, -2)) ∧ (∃ d ∈ m.disp, d 7 = some (0, -500)) ∧
    Met (deflVal Prod.snd m 30) := by
  let d : ℕ → Option (ℚ × ℚ) := fun i => if i = 0 then some (1, -2) else if i = 7 then some (0, -500) else none
  let m : Mem ℚ := ⟨0, ⟨.rhs, 1, 1, 1, 1, 1⟩, [], [], 1, 1, 1, [d]⟩
  have h0 : ∀ x ∈ m.disp, x 0 = some (1, -2) := by
    intro x hx; simp only [m, List.mem_cons, List.not_mem_nil, or_false] at hx; subst hx; rfl
  refine ⟨m, by simp [m], h0, ⟨d, by simp [m], rfl⟩, ?_⟩
  refine (C274_partial Prod.snd m 30 (by norm_num) (by simp [m]) (fun _ => (1, -2)) h0).2 ?_
  intro x _; norm_num

/-! ### C275: cross-section class -/

/-- Limits of EN 1993-1-1, table 5.2, for uniform compression: internal parts. -/
def ecInternal : ℕ → K
  | 1 => 33
  | 2 => 38
  | _ => 42

/-- Limits of EN 1993-1-1, table 5.2, for uniform compression: outstand flanges. -/
def ecOutstand : ℕ → K
  | 1 => 9
  | 2 => 10
  | _ => 14

/-- A section is of class `c` or better in uniform compression. -/
def AtMostClass (s : Sec K) (c : ℕ) : Prop :=
  s.cw ≤ ecInternal c * s.eps * s.tw ∧
  s.cf ≤ (if s.kind = .rhs then ecInternal c else ecOutstand c) * s.eps * s.tf

theorem met_slender {c t k : K} (ht : 0 < t) : Met (do return (← fdiv c t) - k : Except PyErr K) ↔ c ≤ k * t := by
  rw [fdiv_ok ht.ne']
  show c / t - k ≤ 0 ↔ _
  rw [sub_nonpos, div_le_iff₀ ht]

/-- The class constraints are met exactly by I-sections of class 3 or better, and by hollow sections of class 2 or better
    (uniform compression).  Missing: the class that the caller asks for. -/
theorem C275_partial (m : Mem K) (h1 : 0 < m.sec.tw) (h2 : 0 < m.sec.tf) (hk : m.sec.kind ≠ .other) :
    AllMet (classFuns m) ↔ AtMostClass m.sec (if m.sec.kind = .rhs then 2 else 3) := by
  simp only [AllMet, classFuns, List.mem_cons, List.not_mem_nil, or_false, forall_eq_or_imp, forall_eq, AtMostClass]
  cases hs : m.sec.kind with
  | other => exact absurd hs hk
  | rhs =>
    simp only [webClass, flangeClass, hs, if_true]
    exact and_congr (met_slender h1) (met_slender h2)
  | isec =>
    simp only [webClass, flangeClass, hs, reduceCtorEq, if_false]
    exact and_congr (met_slender h1) (met_slender h2)
  | wisec =>
    simp only [webClass, flangeClass, hs, reduceCtorEq, if_false]
    exact and_congr (met_slender h1) (met_slender h2)

example : AtMostClass (⟨.wisec, 400, 10, 130, 10, 1⟩ : Sec ℚ) 3 ∧ ¬ AtMostClass (⟨.wisec, 400, 10, 130, 10, 1⟩ : Sec ℚ) 2 := by
  constructor
  · constructor <;> simp [ecInternal, ecOutstand] <;> norm_num
  · rintro ⟨h, _⟩; norm_num [ecInternal] at h

/-- The class that is asked for has no influence: all true values of the two keys give the same constraints. -/
theorem C275_viol (m : Mem K) (a b a' b' : K) (ha : a ≠ 0) (hb : b ≠ 0) (ha' : a' ≠ 0) (hb' : b' ≠ 0) :
    memCons [("web_class", .num a), ("flange_class", .num b)] m =
      memCons [("web_class", .num a'), ("flange_class", .num b')] m := by
  have hw : ∀ k : String, Req.wants [("web_class", .num a), ("flange_class", .num b)] k =
      Req.wants [("web_class", .num a'), ("flange_class", .num b')] k := by
    intro k
    by_cases h1 : k = "web_class"
    · subst h1; simp [Req.wants, Req.arg, Arg.truthy, List.lookup, ha, ha']
    by_cases h2 : k = "flange_class"
    · subst h2; simp [Req.wants, Req.arg, Arg.truthy, List.lookup, hb, hb']
    · simp [Req.wants, Req.arg, Arg.truthy, List.lookup, beq_eq_false_iff_ne.2 h1, beq_eq_false_iff_ne.2 h2]
  have hd : ∀ (a b : K) (k : String), k ≠ "web_class" → k ≠ "flange_class" →
      Req.arg [("web_class", .num a), ("flange_class", .num b)] k = .none := by
    intro a b k h1 h2
    simp [Req.arg, List.lookup, beq_eq_false_iff_ne.2 h1, beq_eq_false_iff_ne.2 h2]
  simp only [memCons, pick, hw, hd _ _ "deflection_x" (by decide) (by decide),
    hd _ _ "deflection_y" (by decide) (by decide)]

/-- Class 1 is asked for and both constraints are met by a section that is not even of class 2. -/
theorem C275_class1_viol : ∃ m : Mem ℚ,
    (∀ c ∈ memCons [("web_class", .num 1), ("flange_class", .num 1)] m, Met c.val) ∧ ¬ AtMostClass m.sec 2 := by
  let m : Mem ℚ := ⟨0, ⟨.wisec, 400, 10, 130, 10, 1⟩, [], [], 1, 1, 1, []⟩
  refine ⟨m, ?_, ?_⟩
  · have h := (C275_partial m (by norm_num [m]) (by norm_num [m]) (by simp [m])).2
      (by constructor <;> simp [m, ecInternal, ecOutstand] <;> norm_num)
    intro c hc
    simp only [memCons, m, List.zipIdx_nil, List.flatMap_nil, List.nil_append, pick, List.mem_append, List.mem_map,
      List.mem_filter] at hc
    rcases hc with ⟨p, ⟨hp, _⟩, rfl⟩ | ⟨p, ⟨hp, _⟩, rfl⟩
    · exact h p hp
    · simp [deflFuns, Req.arg, List.lookup, Arg.truthy] at hp
  · rintro ⟨h, _⟩; norm_num [m, ecInternal] at h

/-- The class of other sections cannot be evaluated. -/
theorem C275_other_viol (m : Mem K) (hk : m.sec.kind = .other) :
    ∀ p ∈ classFuns m, p.2 = .error .unboundLocal := by
  intro p hp
  simp only [classFuns, List.mem_cons, List.not_mem_nil, or_false] at hp
  rcases hp with rfl | rfl
  · simp only [webClass, hk]
  · simp only [flangeClass, hk]

/-! ### C276: geometry of truss joints -/

/-- Width ratio of a K joint (EN 1993-1-8, 1.5). -/
def ecBeta (c w1 w2 : Tube K) : K := (w1.B + w1.H + w2.B + w2.H) / (4 * c.B)

/-- Range of validity of a welded K joint with gap of hollow sections (EN 1993-1-8, table 7.8, and eccentricity limits
    of 5.1.5): width ratio, gap, brace widths, angles, eccentricity. -/
structure KValid (c w1 w2 : Tube K) (th1 th2 g e : K) : Prop where
  (beta : ecBeta c w1 w2 ≤ 1)
  (b1 : (1 / 10 + c.B / (100 * c.T)) * c.B ≤ w1.B)
  (b2 : (1 / 10 + c.B / (100 * c.T)) * c.B ≤ w2.B)
  (gmin : w1.T + w2.T ≤ g)
  (glo : (1 - ecBeta c w1 w2) * c.B / 2 ≤ g)
  (ghi : g ≤ 3 / 2 * (1 - ecBeta c w1 w2) * c.B)
  (w1lo : 35 / 100 * c.B ≤ w1.B)
  (w1hi : w1.B ≤ 85 / 100 * c.B)
  (w2lo : 35 / 100 * c.B ≤ w2.B)
  (w2hi : w2.B ≤ 85 / 100 * c.B)
  (t1 : 30 ≤ th1 ∧ th1 ≤ 90)
  (t2 : 30 ≤ th2 ∧ th2 ≤ 90)
  (ecc : -(55 / 100 * c.H) ≤ e ∧ e ≤ c.H / 4)

/-- Positive dimensions of a tube. -/
def Tube.Pos (t : Tube K) : Prop := 0 < t.H ∧ 0 < t.B ∧ 0 < t.T

theorem met_inv {k b b0 : K} (hb : 0 < b) (hb0 : 0 < b0) :
    Met (do return (← fdiv k (← fdiv b b0)) - 1 : Except PyErr K) ↔ k * b0 ≤ b := by
  rw [fdiv_ok hb0.ne']
  show Met (do return (← fdiv k (b / b0)) - 1 : Except PyErr K) ↔ _
  rw [met_ratio (div_pos hb hb0), le_div_iff₀ hb0]

/-- For tubes and angles that are positive, the geometry constraints of a K joint are met exactly when the joint is in the
    range of validity and its gap limits can be evaluated (gap other than 0, which the range implies for positive wall
    thickness, and width ratio other than 1). -/
theorem C276_k (c w1 w2 : Tube K) (th1 th2 g e : K) (s : KStrength K) (hc : c.Pos) (h1 : w1.Pos) (h2 : w2.Pos)
    (ht1 : 0 < th1) (ht2 : 0 < th2) :
    AllMet (geomFuns (.k c w1 w2 th1 th2 g e s)) ↔ KValid c w1 w2 th1 th2 g e := by
  obtain ⟨c1, c2, c3⟩ := hc
  obtain ⟨a1, a2, a3⟩ := h1
  obtain ⟨b1, b2, b3⟩ := h2
  have hT : fdiv ((1 / 100) * c.B) c.T = .ok (c.B / (100 * c.T)) := by
    rw [fdiv_ok c3.ne']; congr 1; field_simp
  have hbeta : w1.B + w2.B + w1.H + w2.H = w1.B + w1.H + w2.B + w2.H := by ring
  have hkb : kBeta c w1 w2 = ecBeta c w1 w2 := by rw [kBeta, ecBeta]; congr 1; ring
  have m1 : Met (do return (← fdiv (w1.B + w2.B + w1.H + w2.H) (4 * c.B)) - 1 : Except PyErr K) ↔ ecBeta c w1 w2 ≤ 1 := by
    rw [met_ratio (by linarith), ecBeta, div_le_one (by linarith), hbeta]
  have m2 : ∀ w : Tube K, 0 < w.B →
      (Met (do return (← fdiv (1 / 10 + (← fdiv ((1 / 100) * c.B) c.T)) (← fdiv w.B c.B)) - 1 : Except PyErr K) ↔
        (1 / 10 + c.B / (100 * c.T)) * c.B ≤ w.B) := by
    intro w hw
    rw [hT]
    exact met_inv hw c2
  have mlo : ∀ w : Tube K, 0 < w.B →
      (Met (do return (← fdiv ((35 / 100) * c.B) w.B) - 1 : Except PyErr K) ↔ 35 / 100 * c.B ≤ w.B) :=
    fun w hw => met_ratio hw
  have mhi : ∀ w : Tube K, 0 < w.B →
      (Met (do return (← fdiv (-(85 / 100) * c.B) w.B) + 1 : Except PyErr K) ↔ w.B ≤ 85 / 100 * c.B) := by
    intro w hw
    rw [fdiv_ok hw.ne']
    show -(85 / 100) * c.B / w.B + 1 ≤ 0 ↔ _
    rw [← le_neg_iff_add_nonpos_right, div_le_iff₀ hw]
    constructor <;> intro h <;> linarith
  have mt : ∀ th : K, 0 < th → (Met (do return (← fdiv 30 th) - 1 : Except PyErr K) ↔ 30 ≤ th) :=
    fun th h => met_ratio h
  have mT : ∀ th : K, (Met (do return (← fdiv th 90) - 1 : Except PyErr K) ↔ th ≤ 90) :=
    fun th => met_ratio (by norm_num)
  have me : Met (do return (← fdiv e ((1 / 4) * c.H)) - 1 : Except PyErr K) ↔ e ≤ c.H / 4 := by
    rw [met_ratio (by linarith)]; constructor <;> intro h <;> linarith
  have mn : Met (do return -1 - (← fdiv e ((55 / 100) * c.H)) : Except PyErr K) ↔ -(55 / 100 * c.H) ≤ e := by
    have hp : 0 < 55 / 100 * c.H := by linarith
    rw [fdiv_ok hp.ne']
    show -1 - e / (55 / 100 * c.H) ≤ 0 ↔ _
    rw [sub_nonpos, le_div_iff₀ hp]
    constructor <;> intro h <;> linarith
  -- the gap
  have gm : Met (fdiv (w1.T + w2.T - g) |g|) ↔ w1.T + w2.T ≤ g := by
    by_cases hg : g = 0
    · subst hg
      rw [abs_zero, fdiv_zero]
      show False ↔ _
      constructor
      · intro h; exact h.elim
      · intro h; linarith
    · have hpos : 0 < |g| := abs_pos.2 hg
      rw [fdiv_ok hpos.ne']
      show (w1.T + w2.T - g) / |g| ≤ 0 ↔ _
      rw [div_le_iff₀ hpos]
      constructor <;> intro h <;> linarith
  simp only [AllMet, geomFuns, List.mem_cons, List.not_mem_nil, or_false, forall_eq_or_imp, forall_eq, hkb]
  rw [m1, m2 w1 a2, m2 w2 b2, gm, mlo w1 a2, mhi w1 a2, mlo w2 b2, mhi w2 b2, mt th1 ht1, mT th1, mt th2 ht2, mT th2,
    me, mn]
  constructor
  · rintro ⟨q1, q2, q3, q4, q5, q6, q7, q8, q9, q10, q11, q12, q13, q14, q15, q16⟩
    have hg : 0 < g := by linarith
    rw [abs_of_pos hg, met_ratio hg] at q5
    have hβ : ecBeta c w1 w2 ≠ 1 := by
      intro h
      rw [h] at q6
      rw [show (3 / 2 : K) * (1 - 1) * c.B = 0 by ring, fdiv_zero] at q6
      exact q6
    have hlt : 0 < 3 / 2 * (1 - ecBeta c w1 w2) * c.B := by
      have : 0 < 1 - ecBeta c w1 w2 := by
        rcases lt_or_eq_of_le q1 with h | h
        · linarith
        · exact absurd h hβ
      positivity
    rw [met_ratio hlt] at q6
    exact ⟨q1, q2, q3, q4, by linarith, q6, q7, q8, q9, q10, ⟨q11, q12⟩, ⟨q13, q14⟩, ⟨q16, q15⟩⟩
  · intro q
    have hg : 0 < g := by linarith [q.gmin]
    have hlt : 0 < 3 / 2 * (1 - ecBeta c w1 w2) * c.B := by linarith [q.ghi]
    refine ⟨q.beta, q.b1, q.b2, q.gmin, ?_, ?_, q.w1lo, q.w1hi, q.w2lo, q.w2hi, q.t1.1, q.t1.2, q.t2.1, q.t2.2,
      q.ecc.2, q.ecc.1⟩
    · rw [abs_of_pos hg, met_ratio hg]; linarith [q.glo]
    · rw [met_ratio hlt]; exact q.ghi

example : KValid (⟨150, 150, 8⟩ : Tube ℚ) ⟨100, 100, 5⟩ ⟨80, 80, 5⟩ 45 50 40 10 := by
  constructor <;> norm_num [ecBeta]

/-- For tubes and angle that are positive, the geometry constraints of a Y joint are met exactly when the brace is not
    wider than the chord, at least 0.35 times as wide, and its angle is at least 30 degrees.  Missing: an upper bound of
    the angle, and any check of joints with three braces. -/
theorem C276_partial (c w : Tube K) (th : K) (s : YStrength K) (hc : c.Pos) (hw : w.Pos) (ht : 0 < th) :
    (AllMet (geomFuns (.y c w th s)) ↔ w.B ≤ c.B ∧ 35 / 100 * c.B ≤ w.B ∧ 30 ≤ th) ∧
    AllMet (geomFuns (.kt : Joint K)) := by
  constructor
  · simp only [AllMet, geomFuns, List.mem_cons, List.not_mem_nil, or_false, forall_eq_or_imp, forall_eq]
    rw [met_ratio hc.2.1, met_ratio hw.2.1, met_ratio ht]
  · intro p hp; exact absurd hp List.not_mem_nil

/-! ### C277: strength of truss joints -/

/-- Positive resistances of a K joint. -/
def KStrength.Pos (s : KStrength K) : Prop :=
  (0 < s.face.1 ∧ 0 < s.face.2) ∧ (0 < s.punch.1 ∧ 0 < s.punch.2) ∧ (0 < s.shear.1 ∧ 0 < s.shear.2) ∧
    (0 < s.brace.1 ∧ 0 < s.brace.2) ∧ 0 < s.N0Rd

/-- The strength constraints of a K joint with positive resistances are met exactly when the force in each brace is, in
    absolute value, within the resistances to chord face failure, punching shear, chord shear and brace failure, and the
    signed force in the chord is within the reduced resistance of the chord.  Missing: compression in the chord. -/
theorem C277_partial (c w1 w2 : Tube K) (th1 th2 g e : K) (s : KStrength K) (h : s.Pos) :
    AllMet (strengthFuns (.k c w1 w2 th1 th2 g e s)) ↔
      (|s.ned.1| ≤ min (min s.face.1 s.punch.1) (min s.shear.1 s.brace.1)) ∧
      (|s.ned.2| ≤ min (min s.face.2 s.punch.2) (min s.shear.2 s.brace.2)) ∧ s.N0 ≤ s.N0Rd := by
  obtain ⟨⟨f1, f2⟩, ⟨p1, p2⟩, ⟨s1, s2⟩, ⟨b1, b2⟩, n0⟩ := h
  simp only [AllMet, strengthFuns, List.mem_cons, List.not_mem_nil, or_false, forall_eq_or_imp, forall_eq]
  rw [met_ratio f1, met_ratio f2, met_ratio p1, met_ratio p2, met_ratio n0, met_ratio s1, met_ratio s2, met_ratio b1,
    met_ratio b2]
  simp only [le_min_iff]
  tauto

example : (⟨(-3, 4), (5, 6), (7, 8), (9, 10), (5, 5), -100, 20⟩ : KStrength ℚ).Pos := by
  refine ⟨⟨?_, ?_⟩, ⟨?_, ?_⟩, ⟨?_, ?_⟩, ⟨?_, ?_⟩, ?_⟩ <;> norm_num

/-- The strength constraints of a Y joint with positive resistances: chord face failure is checked for tension only, chord
    web buckling for compression only.  Missing: chord face failure under a compressed brace. -/
theorem C277_y_partial (c w : Tube K) (th : K) (s : YStrength K) (h1 : 0 < s.face) (h2 : 0 < s.web) (h3 : 0 < s.brace) :
    AllMet (strengthFuns (.y c w th s)) ↔ s.ned ≤ s.face ∧ -s.ned ≤ s.web ∧ |s.ned| ≤ s.brace := by
  simp only [AllMet, strengthFuns, List.mem_cons, List.not_mem_nil, or_false, forall_eq_or_imp, forall_eq]
  rw [met_ratio h1, met_ratio h2, met_ratio h3]

/-- Compression of any size in the chord of a K joint, and compression in the brace of a Y joint beyond the resistance to
    chord face failure, meet all constraints. -/
theorem C277_viol (c w1 w2 : Tube K) (th1 th2 g e N : K) (hN : N < 0) :
    (∃ s : KStrength K, s.Pos ∧ s.N0 = N ∧ s.N0Rd < |N| ∧ AllMet (strengthFuns (.k c w1 w2 th1 th2 g e s))) ∧
    (∃ s : YStrength K, 0 < s.face ∧ 0 < s.web ∧ 0 < s.brace ∧ s.ned = N ∧ s.face < |N| ∧
      AllMet (strengthFuns (.y c w1 th1 s))) := by
  have ha : |N| = -N := abs_of_neg hN
  constructor
  · let s : KStrength K := ⟨(0, 0), (1, 1), (1, 1), (1, 1), (1, 1), N, -N / 2⟩
    have hp : s.Pos := by
      refine ⟨⟨?_, ?_⟩, ⟨?_, ?_⟩, ⟨?_, ?_⟩, ⟨?_, ?_⟩, ?_⟩ <;> first | exact one_pos | (show 0 < -N / 2; linarith)
    refine ⟨s, hp, rfl, by rw [ha]; show -N / 2 < -N; linarith, (C277_partial c w1 w2 th1 th2 g e s hp).2 ⟨?_, ?_, ?_⟩⟩
    · simp [s]
    · simp [s]
    · show N ≤ -N / 2; linarith
  · let s : YStrength K := ⟨N, -N / 2, -N, -N⟩
    have q1 : 0 < s.face := by show 0 < -N / 2; linarith
    have q2 : 0 < s.web := by show 0 < -N; linarith
    refine ⟨s, q1, q2, q2, rfl, by rw [ha]; show -N / 2 < -N; linarith, (C277_y_partial c w1 th1 s q1 q2 q2).2 ⟨?_, ?_, ?_⟩⟩
    · show N ≤ -N / 2; linarith
    · show -N ≤ -N; exact le_rfl
    · show |N| ≤ -N; rw [ha]

/-- Joints with three braces have no strength constraints. -/
theorem C277_kt_viol : strengthFuns (.kt : Joint K) = [] ∧ geomFuns (.kt : Joint K) = [] := ⟨rfl, rfl⟩

end Metku.SProb
