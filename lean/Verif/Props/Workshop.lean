import Verif.Model.Workshop
import Mathlib.Tactic.LinearCombination
import Mathlib.Tactic.FieldSimp
import Mathlib.Tactic.NormNum
import Mathlib.Tactic.Positivity
import Mathlib.Tactic.GCongr

/-! Properties C212-C217: costs of the work done in a workshop. -/

namespace Metku.Shop

open Metku.Steel

noncomputable section

/-! ### C212 -/

/-- What remains of a debt `P` after `k` years if the interest `I` is added at the end of each year and then `a` is paid. -/
def debt (P I a : ℝ) : ℕ → ℝ
  | 0 => P
  | k + 1 => debt P I a k * (1 + I) - a

theorem debt_eq (P I a : ℝ) (k : ℕ) : debt P I a k * I = P * I * (1 + I) ^ k - a * ((1 + I) ^ k - 1) := by
  induction k with
  | zero => simp [debt]
  | succ k ih =>
    rw [debt, pow_succ]
    linear_combination (1 + I) * ih

/-- **C212 (partial).** With interest the annual cost is exactly the payment that clears the investment at the end of the last year, and all payments together are at least the investment.
    Missing: no interest (`C212_violation`). -/
theorem C212_partial (P : ℝ) {I : ℝ} (hI : 0 < I) {n : ℕ} (hn : 0 < n) :
    ∃ a, annualCost P I n = .ok a ∧ (∀ b, debt P I b n = 0 ↔ b = a) ∧ (0 ≤ P → P ≤ n * a) ∧ (0 < P → 0 < a) := by
  have h1 : 1 < (1 + I) ^ n := one_lt_pow₀ (by linarith) hn.ne'
  have h2 : (1 + I) ^ n - 1 ≠ 0 := by linarith
  refine ⟨P * (I * (1 + I) ^ n / ((1 + I) ^ n - 1)), ?_, ?_, ?_, ?_⟩
  · simp [annualCost, pyDiv, h2, bind, Except.bind]
  · intro b
    have hd := debt_eq P I b n
    constructor
    · intro h
      rw [h, zero_mul] at hd
      rw [← mul_div_assoc, eq_div_iff h2]
      linarith
    · intro h
      have : debt P I b n * I = 0 := by
        rw [hd, h, mul_assoc P (_ / _), div_mul_cancel₀ _ h2]
        ring
      exact (mul_eq_zero.1 this).resolve_right hI.ne'
  · intro hP
    have hb : 1 + (n : ℝ) * (-(I / (1 + I))) ≤ (1 + -(I / (1 + I))) ^ n := one_add_mul_le_pow (by
      have : I / (1 + I) ≤ 1 := (div_le_one (by linarith)).2 (by linarith)
      linarith) n
    have e : (1 + -(I / (1 + I))) = (1 + I)⁻¹ := by
      field_simp
      ring
    rw [e, inv_pow] at hb
    have hpos : (0 : ℝ) < (1 + I) ^ n := by positivity
    have h3 : (1 + I) ^ n - 1 ≤ n * (I * (1 + I) ^ n) := by
      have h4 := mul_le_mul_of_nonneg_right hb hpos.le
      rw [inv_mul_cancel₀ hpos.ne'] at h4
      have h5 : I / (1 + I) ≤ I := div_le_self hI.le (by linarith)
      have h6 : (n : ℝ) * (I / (1 + I)) * (1 + I) ^ n ≤ n * I * (1 + I) ^ n := by gcongr
      nlinarith
    rw [← mul_assoc, mul_comm (n : ℝ) P, mul_assoc]
    refine le_mul_of_one_le_right hP ?_
    rw [← mul_div_assoc, le_div_iff₀ (by linarith), one_mul]
    exact h3
  · intro hP
    have : 0 < (1 + I) ^ n - 1 := by linarith
    positivity

/-- **C212 (violation).** An investment without interest, whose payment is its `n`-th part, makes the function raise a `ZeroDivisionError`. -/
theorem C212_violation (P : ℝ) {n : ℕ} (hn : 0 < n) : debt P 0 (P / n) n = 0 ∧ annualCost P 0 n = .error .zeroDivision := by
  constructor
  · have h : ∀ k : ℕ, debt P 0 (P / n) k = P - k * (P / n) := by
      intro k
      induction k with
      | zero => simp [debt]
      | succ k ih =>
        rw [debt, ih]
        push_cast
        ring
    rw [h, mul_div_cancel₀ _ (by positivity), sub_self]
  · simp [annualCost, pyDiv, bind, Except.bind]

example : ∃ a, annualCost 1000 (1 / 10) 2 = .ok a ∧ a = 121000 / 210 := by
  refine ⟨_, ?_, rfl⟩
  simp only [annualCost, pyDiv, bind, Except.bind]
  norm_num

/-! ### C213 -/

/-- The workshop after some jobs, whether they succeed or not. -/
def after (w : Workshop) : List Job → Workshop
  | [] => w
  | j :: js => after (w.run j).1 js

/-- Two workshops that differ only in what `cost` overwrites. -/
structure Same (v w : Workshop) : Prop where
  blasting : ∃ tp, v.blasting = { w.blasting with c := { w.blasting.c with productive := tp } }
  cutting : ∃ tp k e, v.cutting = { w.cutting with productive := tp, consumables := k, energy := e }
  welding : ∃ tp k a l ty, v.welding = { w.welding with size := a, length := l, type := ty, c := { w.welding.c with productive := tp, consumablesCost := k } }
  sawing : ∃ tp np k, v.sawing = { w.sawing with c := { w.sawing.c with productive := tp, nonProductive := np, consumablesCost := k } }
  painting : ∃ tp k, v.painting = { w.painting with c := { w.painting.c with productive := tp, consumablesCost := k } }
  price : v.platePrice = w.platePrice

theorem Same.refl (w : Workshop) : Same w w :=
  ⟨⟨_, rfl⟩, ⟨_, _, _, rfl⟩, ⟨_, _, _, _, _, rfl⟩, ⟨_, _, _, rfl⟩, ⟨_, _, rfl⟩, rfl⟩

theorem Same.trans {u v w : Workshop} (a : Same u v) (b : Same v w) : Same u w := by
  obtain ⟨⟨_, a1⟩, ⟨_, _, _, a2⟩, ⟨_, _, _, _, _, a3⟩, ⟨_, _, _, a4⟩, ⟨_, _, a5⟩, a6⟩ := a
  obtain ⟨⟨_, b1⟩, ⟨_, _, _, b2⟩, ⟨_, _, _, _, _, b3⟩, ⟨_, _, _, b4⟩, ⟨_, _, b5⟩, b6⟩ := b
  refine ⟨⟨_, by rw [a1, b1]⟩, ⟨_, _, _, by rw [a2, b2]⟩, ⟨_, _, _, _, _, by rw [a3, b3]⟩, ⟨_, _, _, by rw [a4, b4]⟩, ⟨_, _, by rw [a5, b5]⟩, a6.trans b6⟩

theorem blast_same (b : Blasting) (L : ℝ) : ∃ tp, (b.cost L).1 = { b with c := { b.c with productive := tp } } := by
  unfold Blasting.cost
  cases pyDiv L b.vc with
  | error e => exact ⟨_, rfl⟩
  | ok t => exact ⟨_, rfl⟩

theorem cut_same (c : Centre) (t l : ℝ) : ∃ tp k e, (cuttingCost c t l).1 = { c with productive := tp, consumables := k, energy := e } := by
  unfold cuttingCost
  cases pyDiv l (cutSpeed t) with
  | error e => exact ⟨_, _, _, rfl⟩
  | ok t => exact ⟨_, _, _, rfl⟩

theorem weld_same (w : Welding) (a l : ℝ) (ty : WeldType) :
    ∃ tp k a' l' ty', (w.cost a l ty).1 = { w with size := a', length := l', type := ty', c := { w.c with productive := tp, consumablesCost := k } } := by
  cases ty with
  | fillet => exact ⟨_, _, _, _, _, rfl⟩
  | butt => exact ⟨_, _, _, _, _, rfl⟩
  | other => exact ⟨_, _, _, _, _, rfl⟩

theorem saw_same (s : Sawing) (L b : ℝ) (g : SawGrade) (es : List SawEnd) :
    ∃ tp np k, (s.cost L b g es).1 = { s with c := { s.c with productive := tp, nonProductive := np, consumablesCost := k } } := by
  unfold Sawing.cost
  cases pyDiv L s.conveyor with
  | error e => exact ⟨_, _, _, rfl⟩
  | ok x =>
    dsimp only
    generalize ({ s with c := { s.c with nonProductive := sawBase + 1 * b + x } } : Sawing).ends g es (0, 0) = r
    cases r with
    | error e => exact ⟨_, _, _, rfl⟩
    | ok r => exact ⟨_, _, _, rfl⟩

theorem run_same (w : Workshop) (j : Job) : Same (w.run j).1 w := by
  have r := Same.refl w
  cases j with
  | blast L => exact { r with blasting := blast_same _ _ }
  | cut t l => exact { r with cutting := cut_same _ _ _ }
  | weld a l ty => exact { r with welding := weld_same _ _ _ _ }
  | saw L b g es => exact { r with sawing := saw_same _ _ _ _ _ }
  | paint A => exact { r with painting := ⟨_, _, rfl⟩ }

theorem after_same (w : Workshop) (js : List Job) : Same (after w js) w := by
  induction js generalizing w with
  | nil => exact Same.refl w
  | cons j js ih => exact (ih _).trans (run_same w j)

theorem ends_c (s : Sawing) (c : Centre) (g : SawGrade) (es : List SawEnd) (p : ℝ × ℝ) : ({ s with c := c } : Sawing).ends g es p = s.ends g es p := by
  induction es generalizing p with
  | nil => rfl
  | cons e es ih =>
    simp only [Sawing.ends, Sawing.consume, ih]

theorem Same.run {v w : Workshop} (h : Same v w) (j : Job) : (v.run j).2 = (w.run j).2 := by
  obtain ⟨⟨_, h1⟩, ⟨_, _, _, h2⟩, ⟨_, _, _, _, _, h3⟩, ⟨_, _, _, h4⟩, ⟨_, _, h5⟩⟩ := h
  cases j with
  | blast L =>
    simp only [Workshop.run, h1, Blasting.cost]
    cases pyDiv L w.blasting.vc <;> rfl
  | cut t l =>
    simp only [Workshop.run, h2, cuttingCost]
    cases pyDiv l (cutSpeed t) <;> rfl
  | weld a l ty =>
    simp only [Workshop.run, h3]
    cases ty <;> rfl
  | saw L b g es =>
    simp only [Workshop.run, h4, Sawing.cost]
    cases pyDiv L w.sawing.conveyor with
    | error e => rfl
    | ok x =>
      dsimp only
      rw [ends_c w.sawing { w.sawing.c with nonProductive := sawBase + 1 * b + x }, ends_c w.sawing]
      cases w.sawing.ends g es (0, 0) <;> rfl
  | paint A =>
    simp only [Workshop.run, h5, Painting.cost]

/-- **C213.** The cost of a job (or the exception it raises) does not depend on the jobs evaluated before, whether they succeeded or not. -/
theorem C213 (w : Workshop) (js : List Job) (j : Job) : ((after w js).run j).2 = (w.run j).2 := (after_same w js).run j

/-! ### C214 -/

/-- A cost centre with nothing negative: it costs something per minute, and its preparation time and its consumption per minute are not negative. -/
structure SoundCentre (c : Centre) : Prop where
  rate : 0 < c.labour + c.equipment + c.equipMaintenance + c.realEstate + c.realMaintenance
  utility : 0 < c.utility
  flow : 0 ≤ c.consumables + c.energy
  idle : 0 ≤ c.nonProductive

/-- A workshop whose rates are not negative; blasting and painting need no preparation. The workshop of the library is one (`sound_new`). -/
structure Sound (w : Workshop) : Prop where
  blasting : SoundCentre w.blasting.c
  cutting : SoundCentre w.cutting
  welding : SoundCentre w.welding.c
  sawing : SoundCentre w.sawing.c
  painting : SoundCentre w.painting.c
  vc : 0 < w.blasting.vc
  conveyor : 0 < w.sawing.conveyor
  fs : 0 < w.sawing.fs
  blade : 0 < w.sawing.blade
  wire : 0 ≤ w.welding.wire
  tacking : 0 ≤ w.welding.tacking
  blastIdle : w.blasting.c.nonProductive = 0
  blastCost : w.blasting.c.consumablesCost = 0
  cutCost : w.cutting.consumablesCost = 0
  paintIdle : w.painting.c.nonProductive = 0

/-- The workshop of the library is built without an exception and is sound. -/
theorem sound_new : ∃ w, Workshop.new = .ok w ∧ Sound w := by
  have a50 : ∀ P, annualCost P (5 / 100) 50 = .ok (P * (5 / 100 * (1 + 5 / 100) ^ 50 / ((1 + 5 / 100) ^ 50 - 1))) := by
    intro P
    simp only [annualCost, pyDiv, bind, Except.bind]
    norm_num
  have a20 : ∀ P, annualCost P (5 / 100) 20 = .ok (P * (5 / 100 * (1 + 5 / 100) ^ 20 / ((1 + 5 / 100) ^ 20 - 1))) := by
    intro P
    simp only [annualCost, pyDiv, bind, Except.bind]
    norm_num
  have a10 : ∀ P, annualCost P (5 / 100) 10 = .ok (P * (5 / 100 * (1 + 5 / 100) ^ 10 / ((1 + 5 / 100) ^ 10 - 1))) := by
    intro P
    simp only [annualCost, pyDiv, bind, Except.bind]
    norm_num
  refine ⟨_, by simp only [Workshop.new, Blasting.new, cuttingNew, Welding.new, Sawing.new, Painting.new, Centre.new, a50, a20, a10, bind, Except.bind, Welding.work, Welding.consume, weldTime, weldWeight]; rfl, ?_⟩
  constructor
  all_goals first | constructor | skip
  all_goals norm_num [machineWage, overhead, workMinutes, constructionCost, landCost, maintenanceCost, energyMin, sawBase, tackingTime, wirePrice, cutConsumables, cutEnergy]

/-- The price of a minute. -/
theorem Centre.value {c : Centre} (h : 0 < c.utility) :
    c.cost = .ok ((c.productive + c.nonProductive) * c.rate / c.utility + c.productive * (c.consumables + c.energy) + c.consumablesCost) := by
  simp [Centre.cost, pyDiv, h.ne', bind, Except.bind]

theorem blast_value {w : Workshop} (h : Sound w) (L : ℝ) :
    (w.run (.blast L)).2 = .ok (L * ((w.blasting.c.rate / w.blasting.c.utility + (w.blasting.c.consumables + w.blasting.c.energy)) / w.blasting.vc)) := by
  have e : pyDiv L w.blasting.vc = .ok (L / w.blasting.vc) := if_neg h.vc.ne'
  simp only [Workshop.run, Blasting.cost, e]
  rw [Centre.value (by exact h.blasting.utility)]
  have h1 := h.vc.ne'
  have h2 := h.blasting.utility.ne'
  simp only [h.blastIdle, h.blastCost, Centre.rate]
  congr 1
  field_simp
  ring

theorem paint_value {w : Workshop} (h : Sound w) (A : ℝ) :
    (w.run (.paint A)).2 = .ok (A * (paintTime w.painting.paint * (w.painting.c.rate / w.painting.c.utility + (w.painting.c.consumables + w.painting.c.energy)) + paintPrice w.painting.paint)) := by
  simp only [Workshop.run, Painting.cost]
  rw [Centre.value (by exact h.painting.utility)]
  have h2 := h.painting.utility.ne'
  simp only [h.paintIdle, Centre.rate]
  congr 1
  field_simp
  ring

theorem cut_value {w : Workshop} (h : Sound w) {t : ℝ} (ht : cutSpeed t ≠ 0) (l : ℝ) :
    (w.run (.cut t l)).2 =
      .ok (l * ((w.cutting.rate / w.cutting.utility + (cutConsumables t + cutEnergy t)) / cutSpeed t) + w.cutting.nonProductive * (w.cutting.rate / w.cutting.utility)) := by
  have e : pyDiv l (cutSpeed t) = .ok (l / cutSpeed t) := if_neg ht
  simp only [Workshop.run, cuttingCost, e]
  rw [Centre.value (by exact h.cutting.utility)]
  have h2 := h.cutting.utility.ne'
  simp only [h.cutCost, Centre.rate]
  congr 1
  field_simp
  ring

/-- Minutes and kilograms of a weld of length one. -/
def weldUnit (a : ℝ) : WeldType → ℝ × ℝ
  | .fillet => (1 / 1000 * (4988 / 10000 * a ^ 2 - 5 / 10000 * a + 21 / 10000), a ^ 2 * (7850 / 10 ^ 9))
  | .butt => (1 / 1000 * (249 / 1000 * a ^ 2 + 96 / 10000 * a - 506 / 10000), a ^ 2 / 2 * (7850 / 10 ^ 9))
  | .other => (0, 0)

theorem weld_value {w : Workshop} (h : Sound w) (a l : ℝ) {ty : WeldType} (hty : ty ≠ .other) :
    (w.run (.weld a l ty)).2 =
      .ok (l * ((weldUnit a ty).1 * (w.welding.c.rate / w.welding.c.utility + (w.welding.c.consumables + w.welding.c.energy)) +
          (weldUnit a ty).2 * (w.welding.wire + 4 / 10 * (379 / 100))) +
        (w.welding.tacking * (w.welding.c.rate / w.welding.c.utility + (w.welding.c.consumables + w.welding.c.energy)) +
          w.welding.c.nonProductive * (w.welding.c.rate / w.welding.c.utility))) := by
  have h2 := h.welding.utility.ne'
  cases ty with
  | other => exact absurd rfl hty
  | fillet =>
    simp only [Workshop.run, Welding.cost, Welding.consume, Welding.work, weldWeight, weldTime, weldUnit]
    rw [Centre.value (by exact h.welding.utility)]
    simp only [Centre.rate]
    congr 1
    field_simp
    ring
  | butt =>
    simp only [Workshop.run, Welding.cost, Welding.consume, Welding.work, weldWeight, weldTime, weldUnit]
    rw [Centre.value (by exact h.welding.utility)]
    simp only [Centre.rate]
    congr 1
    field_simp
    ring

theorem SoundCentre.unit {c : Centre} (h : SoundCentre c) : 0 < c.rate / c.utility := div_pos h.rate h.utility

/-- Thicknesses up to 157 mm are cut with positive speed. -/
theorem cutSpeed_pos {t : ℝ} (ht : t ≤ 157) : 0 < cutSpeed t := by
  unfold cutSpeed
  split_ifs with h
  · nlinarith [sq_nonneg (t - 273 / 10)]
  · linarith

theorem cutConsumables_pos (t : ℝ) : 0 < cutConsumables t + cutEnergy t := by
  unfold cutConsumables cutEnergy energyMin
  split_ifs with h
  · norm_num
  · push Not at h
    have : 0 < t := by linarith
    positivity

theorem paintTime_pos (p : Paint) : 0 < paintTime p := by
  cases p <;> norm_num [paintTime, films, Film.wet, tipFlow]

theorem paintPrice_pos (p : Paint) : 0 < paintPrice p := by
  cases p <;> norm_num [paintPrice, films, Film.wet]

/-- Work whose cost is defined: cutting of plates up to 157 mm and fillet welds of any size or butt welds of at least half a millimetre. `job` is the job with a given amount of work:
    a length, an area or a length of a weld. -/
inductive Usual : (ℝ → Job) → Prop
  | blast : Usual .blast
  | paint : Usual .paint
  | cut {t : ℝ} (ht : t ≤ 157) : Usual (.cut t)
  | fillet (a : ℝ) : Usual (fun l => .weld a l .fillet)
  | butt {a : ℝ} (ha : 1 / 2 ≤ a) : Usual (fun l => .weld a l .butt)

theorem usual_value {w : Workshop} (h : Sound w) {job : ℝ → Job} (u : Usual job) : ∃ p q : ℝ, 0 < p ∧ 0 ≤ q ∧ ∀ x, (w.run (job x)).2 = .ok (x * p + q) := by
  cases u with
  | blast =>
    refine ⟨_, 0, ?_, le_rfl, fun x => by rw [blast_value h, add_zero]⟩
    exact div_pos (add_pos_of_pos_of_nonneg h.blasting.unit h.blasting.flow) h.vc
  | paint =>
    refine ⟨_, 0, ?_, le_rfl, fun x => by rw [paint_value h, add_zero]⟩
    exact add_pos (mul_pos (paintTime_pos _) (add_pos_of_pos_of_nonneg h.painting.unit h.painting.flow)) (paintPrice_pos _)
  | cut ht =>
    refine ⟨_, _, ?_, ?_, cut_value h (cutSpeed_pos ht).ne'⟩
    · exact div_pos (add_pos h.cutting.unit (cutConsumables_pos _)) (cutSpeed_pos ht)
    · exact mul_nonneg h.cutting.idle h.cutting.unit.le
  | fillet a =>
    refine ⟨_, _, ?_, ?_, fun x => weld_value h a x (by simp)⟩
    · have h1 := add_pos_of_pos_of_nonneg h.welding.unit h.welding.flow
      have h2 := h.wire
      have h3 : 0 < (weldUnit a .fillet).1 := by
        simp only [weldUnit]
        nlinarith [sq_nonneg (a - 1 / 1000)]
      have h4 : 0 ≤ (weldUnit a .fillet).2 := by
        simp only [weldUnit]
        positivity
      positivity
    · have h1 := add_pos_of_pos_of_nonneg h.welding.unit h.welding.flow
      exact add_nonneg (mul_nonneg h.tacking h1.le) (mul_nonneg h.welding.idle h.welding.unit.le)
  | @butt a ha =>
    refine ⟨_, _, ?_, ?_, fun x => weld_value h a x (by simp)⟩
    · have h1 := add_pos_of_pos_of_nonneg h.welding.unit h.welding.flow
      have h2 := h.wire
      have h3 : 0 < (weldUnit a .butt).1 := by
        simp only [weldUnit]
        nlinarith
      have h4 : 0 ≤ (weldUnit a .butt).2 := by
        simp only [weldUnit]
        positivity
      positivity
    · have h1 := add_pos_of_pos_of_nonneg h.welding.unit h.welding.flow
      exact add_nonneg (mul_nonneg h.tacking h1.le) (mul_nonneg h.welding.idle h.welding.unit.le)

/-- **C214 (partial).** A usual job costs something that is not negative, more work costs more, and doing two jobs at once saves exactly the preparation of one of them, which for blasting and painting
    is nothing. Missing: very thick plates and very thin butt welds (`C214_violation_cut`, `C214_violation_weld`); sawing is in C216. -/
theorem C214_partial {w : Workshop} (h : Sound w) {job : ℝ → Job} (u : Usual job) {x y : ℝ} (hx : 0 ≤ x) (hxy : x < y) :
    ∃ cx cy cxy c0, (w.run (job x)).2 = .ok cx ∧ (w.run (job y)).2 = .ok cy ∧ (w.run (job (x + y))).2 = .ok cxy ∧ (w.run (job 0)).2 = .ok c0 ∧
      0 ≤ cx ∧ cx < cy ∧ cxy + c0 = cx + cy ∧ (job = .blast ∨ job = .paint → c0 = 0) := by
  by_cases hb : job = .blast ∨ job = .paint
  · rcases hb with rfl | rfl
    · refine ⟨_, _, _, _, blast_value h _, blast_value h _, blast_value h _, blast_value h _, ?_, ?_, by ring, fun _ => zero_mul _⟩
      · have := div_pos (add_pos_of_pos_of_nonneg h.blasting.unit h.blasting.flow) h.vc
        positivity
      · exact mul_lt_mul_of_pos_right hxy (div_pos (add_pos_of_pos_of_nonneg h.blasting.unit h.blasting.flow) h.vc)
    · have hp := add_pos (mul_pos (paintTime_pos w.painting.paint) (add_pos_of_pos_of_nonneg h.painting.unit h.painting.flow)) (paintPrice_pos w.painting.paint)
      refine ⟨_, _, _, _, paint_value h _, paint_value h _, paint_value h _, paint_value h _, ?_, ?_, by ring, fun _ => zero_mul _⟩
      · positivity
      · exact mul_lt_mul_of_pos_right hxy hp
  · obtain ⟨p, q, hp, hq, v⟩ := usual_value h u
    refine ⟨_, _, _, _, v x, v y, v _, v 0, by positivity, ?_, by ring, fun c => absurd c hb⟩
    have := mul_lt_mul_of_pos_right hxy hp
    linarith

/-- **C214 (violation).** Cutting a plate thicker than 157.1 mm has a negative cost when the cut is long enough: the formula gives a negative speed. -/
theorem C214_violation_cut {w : Workshop} (h : Sound w) {t : ℝ} (ht : 1571 / 10 ≤ t) : ∃ l, 0 < l ∧ ∃ c, (w.run (.cut t l)).2 = .ok c ∧ c < 0 := by
  have hs : cutSpeed t < 0 := by
    unfold cutSpeed
    rw [if_neg (by linarith)]
    linarith
  refine ⟨-cutSpeed t * (w.cutting.nonProductive + 1), by have := h.cutting.idle; exact mul_pos (by linarith) (by linarith), _, cut_value h hs.ne _, ?_⟩
  have e : -cutSpeed t * (w.cutting.nonProductive + 1) * ((w.cutting.rate / w.cutting.utility + (cutConsumables t + cutEnergy t)) / cutSpeed t) =
      -((w.cutting.nonProductive + 1) * (w.cutting.rate / w.cutting.utility + (cutConsumables t + cutEnergy t))) := by
    have := hs.ne
    field_simp
  rw [e]
  have h1 := h.cutting.unit
  have h2 := cutConsumables_pos t
  have h3 := h.cutting.idle
  nlinarith [mul_nonneg h3 h2.le]

/-- **C214 (violation).** A butt weld of no size has a negative cost when it is long enough. -/
theorem C214_violation_weld {w : Workshop} (h : Sound w) : ∃ l, 0 < l ∧ ∃ c, (w.run (.weld 0 l .butt)).2 = .ok c ∧ c < 0 := by
  set R := w.welding.c.rate / w.welding.c.utility with hR
  set F := w.welding.c.consumables + w.welding.c.energy with hF
  have h1 : 0 < R := h.welding.unit
  have h2 : 0 ≤ F := h.welding.flow
  have h3 := h.tacking
  have h4 := h.welding.idle
  refine ⟨(w.welding.tacking + w.welding.c.nonProductive + 1) / (506 / 10 ^ 7), by positivity, _, weld_value h 0 _ (by simp), ?_⟩
  have e : (w.welding.tacking + w.welding.c.nonProductive + 1) / (506 / 10 ^ 7) * ((weldUnit 0 .butt).1 * (R + F) + (weldUnit 0 .butt).2 * (w.welding.wire + 4 / 10 * (379 / 100))) =
      -((w.welding.tacking + w.welding.c.nonProductive + 1) * (R + F)) := by
    simp only [weldUnit]
    ring
  rw [← hR, ← hF, e]
  nlinarith [mul_nonneg h4 h2]

example : ∃ w c, Workshop.new = .ok w ∧ Sound w ∧ (w.run (.cut 200 (10 ^ 6))).2 = .ok c ∧ c < 0 := by
  obtain ⟨w, hw, h⟩ := sound_new
  have hs : cutSpeed 200 = -(18011 / 100) := by norm_num [cutSpeed]
  have hc : cutConsumables 200 + cutEnergy 200 = 2822052 / 10 ^ 6 := by norm_num [cutConsumables, cutEnergy, energyMin]
  refine ⟨w, _, hw, h, cut_value h (by rw [hs]; norm_num) _, ?_⟩
  have hn : w.cutting.nonProductive = 3 := by
    simp only [Workshop.new, bind, Except.bind, cuttingNew] at hw
    split at hw
    · cases hw
    split at hw
    · cases hw
    rename_i _ heq
    split at hw
    · cases hw
    split at hw
    · cases hw
    split at hw
    · cases hw
    obtain rfl := Except.ok.inj hw
    split at heq
    · cases heq
    obtain rfl := Except.ok.inj heq
    rfl
  rw [hs, hc, hn]
  have := h.cutting.unit
  linarith

/-! ### C215 -/

/-- **C215 (partial).** Cutting a thicker plate does not cost less: among plates up to 27 mm, among plates between 30 and 157 mm, and from one of these ranges to the other; larger welds do not
    cost less, from a thousandth of a millimetre on for fillet welds. Missing: plates between 27 and 30 mm (`C215_violation`). -/
theorem C215_partial {w : Workshop} (h : Sound w) {l : ℝ} (hl : 0 ≤ l) :
    (∀ t t', (t ≤ t' ∧ t' ≤ 27 ∨ 30 < t ∧ t ≤ t' ∧ t' ≤ 157 ∨ t ≤ 30 ∧ 30 < t' ∧ t' ≤ 157) → ∃ c c', (w.run (.cut t l)).2 = .ok c ∧ (w.run (.cut t' l)).2 = .ok c' ∧ c ≤ c') ∧
    (∀ a a', 1 / 1000 ≤ a → a ≤ a' → ∃ c c', (w.run (.weld a l .fillet)).2 = .ok c ∧ (w.run (.weld a' l .fillet)).2 = .ok c' ∧ c ≤ c') ∧
    (∀ a a', 0 ≤ a → a ≤ a' → ∃ c c', (w.run (.weld a l .butt)).2 = .ok c ∧ (w.run (.weld a' l .butt)).2 = .ok c' ∧ c ≤ c') := by
  have hr := h.cutting.unit
  have hR := add_pos_of_pos_of_nonneg h.welding.unit h.welding.flow
  have hw : 0 ≤ w.welding.wire + 4 / 10 * (379 / 100) := by have := h.wire; positivity
  have key : ∀ a a' ty, ty ≠ .other → (weldUnit a ty).1 ≤ (weldUnit a' ty).1 → (weldUnit a ty).2 ≤ (weldUnit a' ty).2 →
      ∃ c c', (w.run (.weld a l ty)).2 = .ok c ∧ (w.run (.weld a' l ty)).2 = .ok c' ∧ c ≤ c' := by
    intro a a' ty hty h1 h2
    refine ⟨_, _, weld_value h a l hty, weld_value h a' l hty, ?_⟩
    gcongr
  refine ⟨?_, ?_, ?_⟩
  · intro t t' ht
    have b' : t' ≤ 157 := by rcases ht with ht | ht | ht <;> linarith [ht.2]
    have b : t ≤ 157 := by rcases ht with ht | ht | ht <;> linarith [ht.1, ht.2]
    refine ⟨_, _, cut_value h (cutSpeed_pos b).ne' l, cut_value h (cutSpeed_pos b').ne' l, ?_⟩
    have s' := cutSpeed_pos b'
    have hspeed : cutSpeed t' ≤ cutSpeed t := by
      unfold cutSpeed
      rcases ht with ⟨h1, h2⟩ | ⟨h1, h2, h3⟩ | ⟨h1, h2, h3⟩
      · rw [if_pos (by linarith), if_pos (by linarith)]
        nlinarith [mul_nonneg (sub_nonneg.2 h1) (by linarith : 0 ≤ 54 - t - t')]
      · rw [if_neg (by linarith), if_neg (by linarith)]
        linarith
      · rw [if_neg (by linarith), if_pos h1]
        nlinarith [sq_nonneg (t - 273 / 10)]
    have hcons : cutConsumables t + cutEnergy t ≤ cutConsumables t' + cutEnergy t' := by
      unfold cutConsumables cutEnergy energyMin
      rcases ht with ⟨h1, h2⟩ | ⟨h1, h2, h3⟩ | ⟨h1, h2, h3⟩
      · rw [if_pos (by linarith), if_pos (by linarith), if_pos (by linarith), if_pos (by linarith)]
      · rw [if_neg (by linarith), if_neg (by linarith), if_neg (by linarith), if_neg (by linarith)]
        nlinarith
      · rw [if_pos h1, if_pos h1, if_neg (by linarith), if_neg (by linarith)]
        nlinarith
    have := cutConsumables_pos t'
    gcongr
  · intro a a' ha haa
    refine key a a' .fillet (by simp) ?_ ?_
    · simp only [weldUnit]
      nlinarith [mul_nonneg (sub_nonneg.2 haa) (by linarith : 0 ≤ a + a' - 2 / 1000)]
    · simp only [weldUnit]
      have : (0 : ℝ) ≤ a := by linarith
      gcongr
  · intro a a' ha haa
    refine key a a' .butt (by simp) ?_ ?_
    · simp only [weldUnit]
      have : a ^ 2 ≤ a' ^ 2 := by gcongr
      linarith
    · simp only [weldUnit]
      gcongr

/-- **C215 (violation).** Cutting a plate of 30 mm costs less than cutting one of 27 mm. -/
theorem C215_violation {w : Workshop} (h : Sound w) {l : ℝ} (hl : 0 < l) :
    ∃ c c', (w.run (.cut 27 l)).2 = .ok c ∧ (w.run (.cut 30 l)).2 = .ok c' ∧ c' < c := by
  refine ⟨_, _, cut_value h (cutSpeed_pos (by norm_num)).ne' l, cut_value h (cutSpeed_pos (by norm_num)).ne' l, ?_⟩
  have e : cutConsumables 30 + cutEnergy 30 = cutConsumables 27 + cutEnergy 27 := by
    unfold cutConsumables cutEnergy
    norm_num
  rw [e]
  have h1 := add_pos h.cutting.unit (cutConsumables_pos 27)
  have h2 : cutSpeed 27 < cutSpeed 30 := by norm_num [cutSpeed]
  have h3 : 0 < cutSpeed 27 := cutSpeed_pos (by norm_num)
  gcongr

/-! ### C216 -/

/-- A value by thickness: the first entry of the table whose limit is not exceeded, the last value above all limits. -/
def byThickness (last : ℝ) (t : ℝ) : List (ℝ × ℝ) → ℝ
  | [] => last
  | (b, v) :: l => if t ≤ b then v else byThickness last t l

/-- Feeding speed of the saw by wall thickness. -/
def speedTable : List (ℝ × ℝ) := [(5, 120), (10, 100), (15, 90), (20, 80), (25, 70), (30, 60), (35, 50)]

/-- Factor of the life of the blade by wall thickness. -/
def bladeTable : List (ℝ × ℝ) := [(5, 40 / 100), (10, 45 / 100), (15, 50 / 100), (20, 55 / 100), (25, 60 / 100), (30, 65 / 100), (35, 70 / 100)]

/-- Minutes of sawing one end: the vertical walls at the feeding speed of their thickness, the horizontal ones at 1800 mm² a minute. -/
def endTime (e : SawEnd) : ℝ := e.h / 2 / byThickness 40 e.t speedTable + e.ah / 1800

/-- The share of the life of a blade that one end uses. -/
def endWear (fs : ℝ) (e : SawEnd) : ℝ := e.at' / (1800 * fs * byThickness (80 / 100) e.t bladeTable)

theorem feedingSpeed_eq (t : ℝ) : byThickness 40 t speedTable = feedingSpeed t := by
  simp only [byThickness, speedTable, feedingSpeed]

theorem sawFsp_eq (t : ℝ) : byThickness (80 / 100) t bladeTable = sawFsp t := by
  norm_num [byThickness, bladeTable, sawFsp]

theorem feedingSpeed_pos (t : ℝ) : 0 < feedingSpeed t := by
  unfold feedingSpeed
  split_ifs <;> norm_num

theorem sawFsp_pos (t : ℝ) : 0 < sawFsp t := by
  unfold sawFsp
  split_ifs <;> norm_num

theorem parameters_eq {g : SawGrade} (hg : g ≠ .other) : sawParameters g = .ok (2, 1800) := by
  cases g <;> first | rfl | exact absurd rfl hg

theorem ends_value (s : Sawing) (hf : 0 < s.fs) {g : SawGrade} (hg : g ≠ .other) {es : List SawEnd} (h : ∀ e ∈ es, 0 < endTime e) (p : ℝ × ℝ) :
    s.ends g es p = .ok (p.1 + (es.map endTime).sum, p.2 + (es.map (fun e => endWear s.fs e / endTime e * s.blade)).sum) := by
  induction es generalizing p with
  | nil => simp [Sawing.ends]
  | cons e es ih =>
    obtain ⟨tp, cs⟩ := p
    have h1 := h e (by simp)
    have e1 : sawTime g e = .ok (endTime e) := by
      rw [sawTime, parameters_eq hg, endTime, feedingSpeed_eq]
      rfl
    have e2 : s.consume g e (endTime e) = .ok (endWear s.fs e / endTime e * s.blade) := by
      have q : 1800 * s.fs * sawFsp e.t ≠ 0 := by have := sawFsp_pos e.t; positivity
      simp only [Sawing.consume, parameters_eq hg, bind, Except.bind, pyDiv, q, h1.ne', if_false, endWear, sawFsp_eq]
    simp only [Sawing.ends, e1, e2, bind, Except.bind]
    rw [ih fun e he => h e (by simp [he])]
    simp only [List.map_cons, List.sum_cons, add_assoc]

theorem saw_value {w : Workshop} (h : Sound w) (L b : ℝ) {g : SawGrade} (hg : g ≠ .other) {es : List SawEnd} (he : ∀ e ∈ es, 0 < endTime e) :
    (w.run (.saw L b g es)).2 = .ok (((es.map endTime).sum + (45 / 10 + b + L / w.sawing.conveyor)) * (w.sawing.c.rate / w.sawing.c.utility) +
      (es.map endTime).sum * (w.sawing.c.consumables + w.sawing.c.energy) + (es.map (fun e => endWear w.sawing.fs e / endTime e * w.sawing.blade)).sum) := by
  have e : pyDiv L w.sawing.conveyor = .ok (L / w.sawing.conveyor) := if_neg h.conveyor.ne'
  simp only [Workshop.run, Sawing.cost, e]
  rw [ends_c w.sawing { w.sawing.c with nonProductive := sawBase + 1 * b + L / w.sawing.conveyor }, ends_value w.sawing h.fs hg he]
  dsimp only
  rw [Centre.value (by exact h.sawing.utility)]
  simp only [Centre.rate, sawBase, zero_add]
  congr 1
  ring

/-- An end with something to saw. -/
structure RealEnd (e : SawEnd) : Prop where
  h : 0 ≤ e.h
  ah : 0 ≤ e.ah
  some : 0 < e.h ∨ 0 < e.ah
  at' : 0 ≤ e.at'

theorem RealEnd.time {e : SawEnd} (r : RealEnd e) : 0 < endTime e := by
  have := feedingSpeed_pos e.t
  have h1 := r.h
  have h2 := r.ah
  rw [endTime, feedingSpeed_eq]
  rcases r.some with h | h <;> positivity

/-- **C216 (partial).** Sawing a member of a grade with sawing parameters has a cost that is not negative, does not depend on the order of the ends, and grows with the length of the member and the number
    of bevels. Missing: the cost of the blade (`C216_violation`) and the other steel grades (`C216_violation_grade`). -/
theorem C216_partial {w : Workshop} (h : Sound w) {L b : ℝ} (hL : 0 ≤ L) (hb : 0 ≤ b) {g : SawGrade} (hg : g ≠ .other) {es : List SawEnd} (he : ∀ e ∈ es, RealEnd e) :
    ∃ c, (w.run (.saw L b g es)).2 = .ok c ∧ 0 ≤ c ∧ (∀ es', es.Perm es' → (w.run (.saw L b g es')).2 = .ok c) ∧
      (∀ L' > L, ∃ c' > c, (w.run (.saw L' b g es)).2 = .ok c') ∧ (∀ b' > b, ∃ c' > c, (w.run (.saw L b' g es)).2 = .ok c') := by
  have ht : ∀ e ∈ es, 0 < endTime e := fun e h => (he e h).time
  have hr := h.sawing.unit
  have hv := h.conveyor
  have hf := h.fs
  have hbl := h.blade
  have h0 : 0 ≤ (es.map endTime).sum := List.sum_nonneg (by
    intro x hx
    obtain ⟨e, he', rfl⟩ := List.mem_map.1 hx
    exact (ht e he').le)
  have h1 : 0 ≤ (es.map (fun e => endWear w.sawing.fs e / endTime e * w.sawing.blade)).sum := List.sum_nonneg (by
    intro x hx
    obtain ⟨e, he', rfl⟩ := List.mem_map.1 hx
    have a := ht e he'
    have b := (he e he').at'
    have c := sawFsp_pos e.t
    rw [endWear, sawFsp_eq]
    positivity)
  refine ⟨_, saw_value h L b hg ht, ?_, ?_, ?_, ?_⟩
  · have := h.sawing.flow
    positivity
  · intro es' p
    rw [saw_value h L b hg (fun e h => ht e (p.mem_iff.2 h)), (p.map endTime).sum_eq, (p.map _).sum_eq]
  · intro L' hL'
    refine ⟨_, ?_, saw_value h L' b hg ht⟩
    have : L / w.sawing.conveyor < L' / w.sawing.conveyor := by gcongr
    gcongr
  · intro b' hb'
    refine ⟨_, ?_, saw_value h L b' hg ht⟩
    gcongr

/-- **C216 (violation).** The wear of the blade is divided by the time of sawing: if sawing an end takes more than a minute the cost is too small for the share of the blade used, if it takes less it is too
    large. -/
theorem C216_violation {w : Workshop} (h : Sound w) (L b : ℝ) {g : SawGrade} (hg : g ≠ .other) {e : SawEnd} (r : RealEnd e) (ha : 0 < e.at') :
    ∃ c, (w.run (.saw L b g [e])).2 = .ok c ∧
      (1 < endTime e → c < (endTime e + (45 / 10 + b + L / w.sawing.conveyor)) * (w.sawing.c.rate / w.sawing.c.utility) + endTime e * (w.sawing.c.consumables + w.sawing.c.energy) +
        endWear w.sawing.fs e * w.sawing.blade) ∧
      (endTime e < 1 → (endTime e + (45 / 10 + b + L / w.sawing.conveyor)) * (w.sawing.c.rate / w.sawing.c.utility) + endTime e * (w.sawing.c.consumables + w.sawing.c.energy) +
        endWear w.sawing.fs e * w.sawing.blade < c) := by
  have t := r.time
  have hw : 0 < endWear w.sawing.fs e := by
    have a := sawFsp_pos e.t
    have b := h.fs
    rw [endWear, sawFsp_eq]
    positivity
  have hb := h.blade
  refine ⟨_, saw_value h L b hg (by simpa using t), ?_, ?_⟩
  · intro h1
    simp only [List.map_cons, List.map_nil, List.sum_cons, List.sum_nil, add_zero]
    have : endWear w.sawing.fs e / endTime e < endWear w.sawing.fs e := div_lt_self hw h1
    gcongr
  · intro h1
    simp only [List.map_cons, List.map_nil, List.sum_cons, List.sum_nil, add_zero]
    have : endWear w.sawing.fs e < endWear w.sawing.fs e / endTime e := by
      rw [lt_div_iff₀ t]
      exact mul_lt_of_lt_one_right hw h1
    gcongr

/-- **C216 (violation).** Steel grades without sawing parameters, like S275 and S460, raise a `KeyError`. -/
theorem C216_violation_grade {w : Workshop} (h : Sound w) (L b : ℝ) (e : SawEnd) (es : List SawEnd) : (w.run (.saw L b .other (e :: es))).2 = .error .keyError := by
  have e : pyDiv L w.sawing.conveyor = .ok (L / w.sawing.conveyor) := if_neg h.conveyor.ne'
  simp only [Workshop.run, Sawing.cost, e]
  rfl

/-- Both ends of a square tube 200 x 8: each takes more than a minute. -/
example : ∃ w, Workshop.new = .ok w ∧ Sound w ∧ RealEnd ⟨8, 200, 3200, 5924⟩ ∧ 1 < endTime ⟨8, 200, 3200, 5924⟩ ∧ RealEnd ⟨4, 100, 800, 1495⟩ ∧ endTime ⟨4, 100, 800, 1495⟩ < 1 := by
  obtain ⟨w, hw, h⟩ := sound_new
  refine ⟨w, hw, h, ⟨?_, ?_, ?_, ?_⟩, ?_, ⟨?_, ?_, ?_, ?_⟩, ?_⟩ <;> norm_num [endTime, byThickness, speedTable]

/-! ### C217 -/

/-- What painting an area with one film needs: the film leaves its solids, dry film thickness times area plus 30 % and 0.01 mm of loss; volumes in cubic millimetres. -/
structure FilmUse (A : ℝ) (f : Film) (volume : ℝ) : Prop where
  solids : volume * f.solid = A * (f.dft / 1000) + A * (1 / 100 + 3 / 10 * (f.dft / 1000))

theorem wet_use (A : ℝ) (f : Film) (hf : f.solid ≠ 0) : FilmUse A f (f.wet * A) := by
  constructor
  unfold Film.wet
  field_simp

/-- **C217.** Painting. There are volumes of paint, one for each film, that leave the dry film thickness on the area and cover the loss; the work lasts as long as the gun needs for them and the cost is that of
    the time and, per litre, of the paint. -/
theorem C217 {w : Workshop} (h : Sound w) (A : ℝ) : ∃ vols : List ℝ, List.Forall₂ (FilmUse A) (films w.painting.paint) vols ∧
    (w.run (.paint A)).1.painting.c.productive = vols.sum / 900000 ∧
    (w.run (.paint A)).2 = .ok (vols.sum / 900000 * (w.painting.c.rate / w.painting.c.utility + (w.painting.c.consumables + w.painting.c.energy)) +
      (List.zipWith (fun f v => f.price * (v / 10 ^ 6)) (films w.painting.paint) vols).sum) := by
  refine ⟨(films w.painting.paint).map (fun f => f.wet * A), ?_, ?_, ?_⟩
  · rw [List.forall₂_map_right_iff, List.forall₂_same]
    intro f hf
    apply wet_use
    cases hp : w.painting.paint <;> rw [hp] at hf <;> simp only [films, List.mem_cons, List.not_mem_nil, or_false] at hf
    · rcases hf with rfl | rfl | rfl <;> norm_num
    · rcases hf with rfl | rfl | rfl <;> norm_num
    · rcases hf with rfl | rfl <;> norm_num
    · rcases hf with rfl | rfl | rfl <;> norm_num
  · simp only [Workshop.run, Painting.cost, paintTime, tipFlow]
    cases w.painting.paint <;> simp only [films, List.map_cons, List.map_nil, List.sum_cons, List.sum_nil, List.foldl_cons, List.foldl_nil] <;> ring
  · rw [paint_value h]
    congr 1
    simp only [paintTime, paintPrice, tipFlow]
    cases w.painting.paint <;>
      simp only [films, List.map_cons, List.map_nil, List.sum_cons, List.sum_nil, List.foldl_cons, List.foldl_nil, List.zipWith_cons_cons, List.zipWith_nil_left] <;> ring

end

end Metku.Shop
