import Mathlib.Tactic.Linarith
import Mathlib.Tactic.NormNum
import Mathlib.Tactic.FieldSimp
import Mathlib.Tactic.Ring
import Mathlib.Tactic.Positivity
import Mathlib.Tactic.GCongr
import Mathlib.Algebra.Order.Floor.Semiring
import Mathlib.Algebra.Order.Archimedean.Real.Basic
import Mathlib.Analysis.SpecialFunctions.Pow.Real
import Verif.Props.Ec3Fire

/-!
Property C57: heating of unprotected steel (`steel_temp`), gas temperature curves and thermal properties.
-/
namespace Metku.Fire

set_option linter.unusedSectionVars false

/-! ### The loop -/

section Field
variable {K : Type} [Field K] [LinearOrder K] [IsStrictOrderedRing K]

/-- Iterates of the steps `f 0, f 1, ...`. -/
def iter (f : ℕ → K → K) (T : K) : ℕ → K
  | 0 => T
  | n + 1 => f n (iter f T n)

theorem iter_shift (f : ℕ → K → K) (T : K) (n : ℕ) : iter (fun k => f (k + 1)) (f 0 T) n = iter f T (n + 1) := by
  induction n with
  | zero => rfl
  | succ n ih => simp only [iter] at ih ⊢; rw [ih]

theorem tempLoop_eq (cp gas : K → K) (ksh AmV epsM ac tmax dt : K) : ∀ (n m : ℕ) (t T : K) (Ts times : List K),
    (∀ k < n, t + k * dt < tmax) → tmax ≤ t + n * dt →
    tempLoop cp gas ksh AmV epsM ac tmax dt (n + m) t T Ts times = some
      (Ts.reverse ++ (List.range n).map (fun k : ℕ => iter (fun (k : ℕ) T => nextTemp cp ksh AmV epsM ac (gas ((t + k * dt) / 60)) dt T) T (k + 1)),
       times.reverse ++ (List.range n).map fun k : ℕ => (t + ((k : K) + 1) * dt) / 60) := by
  intro n
  induction n with
  | zero =>
    intro m t T Ts times _ h
    have h' : ¬ t < tmax := not_lt.2 (by simpa using h)
    rcases m with _ | m <;> simp [tempLoop, h']
  | succ n ih =>
    intro m t T Ts times hk h
    have h0 : t < tmax := by simpa using hk 0 (by omega)
    rw [show n + 1 + m = (n + m) + 1 by omega]
    simp only [tempLoop, if_pos h0]
    rw [ih m (t + dt) _ _ _ (fun k hkn => by
      have := hk (k + 1) (by omega)
      push_cast at this
      linarith) (by push_cast at h; linarith)]
    congr 2
    · rw [List.range_succ_eq_map, List.map_cons, List.map_map, List.reverse_cons, List.append_assoc, List.singleton_append]
      congr 2
      · simp [iter]
      · apply List.map_congr_left
        intro k _
        simp only [Function.comp]
        rw [← iter_shift (fun (k : ℕ) T => nextTemp cp ksh AmV epsM ac (gas ((t + k * dt) / 60)) dt T)]
        congr 1
        · funext k T
          push_cast
          rw [show t + dt + k * dt = t + (k + 1) * dt by ring]
        · simp
    · rw [List.range_succ_eq_map, List.map_cons, List.map_map, List.reverse_cons, List.append_assoc, List.singleton_append]
      congr 2
      · simp
      · apply List.map_congr_left
        intro k _
        simp only [Function.comp]
        push_cast
        ring

theorem tempLoop_none (cp gas : K → K) (ksh AmV epsM ac tmax dt : K) (hdt : dt ≤ 0) : ∀ (n : ℕ) (t T : K) (Ts times : List K),
    t < tmax → tempLoop cp gas ksh AmV epsM ac tmax dt n t T Ts times = none := by
  intro n
  induction n with
  | zero => intro t T Ts times h; simp [tempLoop, h]
  | succ n ih =>
    intro t T Ts times h
    simp only [tempLoop, if_pos h]
    exact ih _ _ _ _ (by linarith)

/-! ### Thermal properties -/

theorem specHeat_ge {T : K} (h : 0 ≤ T) : 425 ≤ specHeat T := by
  unfold specHeat
  split
  · have : 0 ≤ T * (773 / 1000 - 169 / 100000 * T + 222 / 100000000 * T ^ 2) := by
      apply mul_nonneg h
      nlinarith [sq_nonneg (T - 380)]
    nlinarith
  · split
    · have : 0 ≤ 13002 / (738 - T) := div_nonneg (by norm_num) (by linarith)
      linarith
    · split
      · rename_i h1 h2 h3
        push Not at h2
        have : 0 ≤ 17820 / (T - 731) := div_nonneg (by norm_num) (by linarith)
        linarith
      · norm_num

/-- The radiative and convective flux is proportional to the temperature difference with a factor between `ac` and `ac + 4 ε σ (Tg + 273)³`. -/
theorem hnet_bounds {Tg T eps ac : K} (hT : 0 ≤ T) (h : T ≤ Tg) (he : 0 ≤ eps) (hac : 0 ≤ ac) :
    0 ≤ hnet Tg T eps ac ∧ hnet Tg T eps ac ≤ (ac + 4 * eps * (567 / 10000000000) * (Tg + 273) ^ 3) * (Tg - T) := by
  unfold hnet
  have a : (0 : K) ≤ T + 273 := by linarith
  have hab : T + 273 ≤ Tg + 273 := by linarith
  have key : (Tg + 273) ^ 4 - (T + 273) ^ 4 ≤ 4 * (Tg + 273) ^ 3 * (Tg - T) := by
    have e : (Tg + 273) ^ 4 - (T + 273) ^ 4 =
        ((Tg + 273) ^ 3 + (Tg + 273) ^ 2 * (T + 273) + (Tg + 273) * (T + 273) ^ 2 + (T + 273) ^ 3) * (Tg - T) := by ring
    rw [e]
    apply mul_le_mul_of_nonneg_right _ (by linarith)
    have b : (0 : K) ≤ Tg + 273 := by linarith
    have h1 : (Tg + 273) ^ 2 * (T + 273) ≤ (Tg + 273) ^ 2 * (Tg + 273) := by gcongr
    have h2 : (Tg + 273) * (T + 273) ^ 2 ≤ (Tg + 273) * (Tg + 273) ^ 2 := by gcongr
    have h3 : (T + 273) ^ 3 ≤ (Tg + 273) ^ 3 := by gcongr
    nlinarith
  have pos : 0 ≤ (Tg + 273) ^ 4 - (T + 273) ^ 4 := sub_nonneg.2 (by gcongr)
  have hd : 0 ≤ Tg - T := by linarith
  constructor
  · have : 0 ≤ eps * (567 / 10000000000) * ((Tg + 273) ^ 4 - (T + 273) ^ 4) := by positivity
    have : 0 ≤ ac * (Tg - T) := by positivity
    linarith
  · have := mul_le_mul_of_nonneg_left key (show 0 ≤ eps * (567 / 10000000000) by positivity)
    linarith

/-- One step heats the steel and does not overshoot when the step is short enough. -/
theorem nextTemp_bounds {Tg T eps ac ksh AmV dt G : K} (hT : 0 ≤ T) (h : T ≤ Tg) (hG : Tg ≤ G) (he : 0 ≤ eps) (hac : 0 ≤ ac)
    (hk : 0 ≤ ksh * AmV * dt)
    (hs : ksh * AmV * dt * (ac + 4 * eps * (567 / 10000000000) * (G + 273) ^ 3) ≤ 425 * 7850) :
    T ≤ nextTemp specHeat ksh AmV eps ac Tg dt T ∧ nextTemp specHeat ksh AmV eps ac Tg dt T ≤ Tg := by
  have hc := specHeat_ge hT
  have hc0 : 0 < specHeat T := by linarith
  obtain ⟨f0, f1⟩ := hnet_bounds hT h he hac
  have e : nextTemp specHeat ksh AmV eps ac Tg dt T = T + (ksh * AmV * dt) * hnet Tg T eps ac / (specHeat T * 7850) := by
    unfold nextTemp
    field_simp
  rw [e]
  have hd : 0 < specHeat T * 7850 := by positivity
  constructor
  · have : 0 ≤ (ksh * AmV * dt) * hnet Tg T eps ac / (specHeat T * 7850) := by positivity
    linarith
  · have : (ksh * AmV * dt) * hnet Tg T eps ac / (specHeat T * 7850) ≤ Tg - T := by
      rw [div_le_iff₀ hd]
      have hG3 : (Tg + 273) ^ 3 ≤ (G + 273) ^ 3 := by
        have : (0 : K) ≤ Tg + 273 := by linarith
        gcongr
      have s1 : (ksh * AmV * dt) * hnet Tg T eps ac ≤
          (ksh * AmV * dt) * ((ac + 4 * eps * (567 / 10000000000) * (Tg + 273) ^ 3) * (Tg - T)) :=
        mul_le_mul_of_nonneg_left f1 hk
      have s2 : (ksh * AmV * dt) * ((ac + 4 * eps * (567 / 10000000000) * (Tg + 273) ^ 3) * (Tg - T)) ≤
          (ksh * AmV * dt) * ((ac + 4 * eps * (567 / 10000000000) * (G + 273) ^ 3) * (Tg - T)) := by
        apply mul_le_mul_of_nonneg_left _ hk
        apply mul_le_mul_of_nonneg_right _ (by linarith)
        gcongr
      have s3 : (ksh * AmV * dt * (ac + 4 * eps * (567 / 10000000000) * (G + 273) ^ 3)) * (Tg - T) ≤ 425 * 7850 * (Tg - T) :=
        mul_le_mul_of_nonneg_right hs (by linarith)
      have s4 : 425 * 7850 * (Tg - T) ≤ specHeat T * 7850 * (Tg - T) := by
        apply mul_le_mul_of_nonneg_right _ (by linarith)
        linarith
      nlinarith
    linarith

/-- **C57, thermal elongation.** The relative elongation of carbon steel is zero at 20 degrees, and when the temperature grows from any value in
    20 to 1200 degrees it falls by at most 0.0000084 (the jump of the formulas at 750 degrees).
    Missing: that it never falls, see `C57_elongation_violation`. -/
theorem C57_elongation_partial : thermElongation (20 : K) = 0 ∧
    (∀ t t' : K, 20 ≤ t → t ≤ t' → thermElongation t ≤ thermElongation t' + 84 / 10000000) := by
  constructor
  · unfold thermElongation
    rw [if_pos (by norm_num)]
    norm_num
  · intro t t' h1 h
    unfold thermElongation
    split_ifs <;> nlinarith

/-- The elongation does fall: from just below 750 degrees to 750 degrees. -/
theorem C57_elongation_violation : ∃ t t' : K, 20 ≤ t ∧ t < t' ∧ t' ≤ 1200 ∧ thermElongation t' < thermElongation t := by
  refine ⟨74999 / 100, 750, by norm_num, by norm_num, by norm_num, ?_⟩
  unfold thermElongation
  rw [if_neg (by norm_num), if_pos (by norm_num), if_pos (by norm_num)]
  norm_num

end Field

/-! ### Gas temperatures -/

theorem standardFire_zero : standardFire 0 = 20 := by
  unfold standardFire
  simp

theorem standardFire_mono {s t : ℝ} (h0 : 0 ≤ s) (h : s ≤ t) : standardFire s ≤ standardFire t := by
  unfold standardFire
  have : Real.log (8 * s + 1) ≤ Real.log (8 * t + 1) := Real.log_le_log (by linarith) (by linarith)
  have hl : 0 < Real.log 10 := Real.log_pos (by norm_num)
  have : Real.log (8 * s + 1) / Real.log 10 ≤ Real.log (8 * t + 1) / Real.log 10 := div_le_div_of_nonneg_right this hl.le
  linarith

theorem hydrocarbonFire_zero : hydrocarbonFire 0 = 20 := by
  unfold hydrocarbonFire
  norm_num

theorem hydrocarbonFire_mono {s t : ℝ} (h : s ≤ t) : hydrocarbonFire s ≤ hydrocarbonFire t := by
  unfold hydrocarbonFire
  have h1 : Real.exp (-(167 / 1000) * t) ≤ Real.exp (-(167 / 1000) * s) := Real.exp_le_exp.2 (by linarith)
  have h2 : Real.exp (-(5 / 2) * t) ≤ Real.exp (-(5 / 2) * s) := Real.exp_le_exp.2 (by linarith)
  linarith

/-- **C57, gas temperatures.** Both fire curves are those of EN 1991-1-2, start at 20 degrees and rise strictly; the hydrocarbon curve stays below 1100 degrees, the standard curve
    passes every temperature. -/
theorem C57_gas : (standardFire 0 = 20 ∧ ∀ s t : ℝ, 0 ≤ s → s < t → standardFire s < standardFire t) ∧
    (∀ T, ∃ t, 0 ≤ t ∧ T ≤ standardFire t) ∧
    (∀ t : ℝ, 0 ≤ t → (10 : ℝ) ^ ((standardFire t - 20) / 345) = 8 * t + 1) ∧
    (∀ t : ℝ, hydrocarbonFire t = 20 + 1080 * (1 - 0.325 * Real.exp (-0.167 * t) - 0.675 * Real.exp (-2.5 * t))) ∧
    hydrocarbonFire 0 = 20 ∧ (∀ s t : ℝ, s < t → hydrocarbonFire s < hydrocarbonFire t) ∧ ∀ t, hydrocarbonFire t < 1100 := by
  have hl : 0 < Real.log 10 := Real.log_pos (by norm_num)
  refine ⟨⟨standardFire_zero, ?_⟩, ?_, ?_, ?_, hydrocarbonFire_zero, ?_, ?_⟩
  · intro s t h0 h
    unfold standardFire
    have : Real.log (8 * s + 1) < Real.log (8 * t + 1) := Real.log_lt_log (by linarith) (by linarith)
    have := div_lt_div_of_pos_right this hl
    linarith
  · intro T
    refine ⟨Real.exp (|T| * Real.log 10), (Real.exp_pos _).le, ?_⟩
    unfold standardFire
    have h1 : |T| * Real.log 10 ≤ Real.log (8 * Real.exp (|T| * Real.log 10) + 1) := by
      rw [Real.le_log_iff_exp_le (by positivity)]
      linarith [Real.exp_pos (|T| * Real.log 10)]
    have h2 : |T| ≤ Real.log (8 * Real.exp (|T| * Real.log 10) + 1) / Real.log 10 := (le_div_iff₀ hl).2 h1
    have := le_abs_self T
    have := abs_nonneg T
    linarith
  · intro t h
    have e : (standardFire t - 20) / 345 = Real.log (8 * t + 1) / Real.log 10 := by
      unfold standardFire
      ring
    rw [e, Real.rpow_def_of_pos (by norm_num), mul_div_cancel₀ _ hl.ne', Real.exp_log (by linarith)]
  · intro t
    unfold hydrocarbonFire
    norm_num
  · intro s t h
    unfold hydrocarbonFire
    have h1 : Real.exp (-(167 / 1000) * t) < Real.exp (-(167 / 1000) * s) := Real.exp_lt_exp.2 (by linarith)
    have h2 : Real.exp (-(5 / 2) * t) < Real.exp (-(5 / 2) * s) := Real.exp_lt_exp.2 (by linarith)
    linarith
  · intro t
    unfold hydrocarbonFire
    have := Real.exp_pos (-(167 / 1000) * t)
    have := Real.exp_pos (-(5 / 2) * t)
    linarith

/-! ### The heating of the steel -/

/-- Specification: what the two fire models of EN 1991-1-2 prescribe as convection coefficient (3.2.1(2), 3.2.3(2)). -/
def ConvectionOf : Gas → ℝ → Prop
  | .standard, a => a = 25
  | .hydrocarbon, a => a = 50
  | .other _, _ => False

/-- Specification: specific heat of carbon steel, EN 1993-1-2, 3.4.1.2 (the first formula is used below 20 degrees too). -/
def ConformHeat (T c : ℝ) : Prop :=
  (T < 600 → c = 425 + 0.773 * T - 0.00169 * T ^ 2 + 0.00000222 * T ^ 3) ∧
  (600 ≤ T → T < 735 → (c - 666) * (738 - T) = 13002) ∧
  (735 ≤ T → T < 900 → (c - 545) * (T - 731) = 17820) ∧
  (900 ≤ T → c = 650)

theorem specHeat_conform (T : ℝ) : ConformHeat T (specHeat T) := by
  unfold ConformHeat specHeat
  refine ⟨fun h => ?_, fun h1 h2 => ?_, fun h1 h2 => ?_, fun h => ?_⟩
  · rw [if_pos h]
    norm_num
  · rw [if_neg (not_lt.2 h1), if_pos h2]
    have : (738 - T) ≠ 0 := by linarith
    field_simp
    ring
  · rw [if_neg (by linarith), if_neg (not_lt.2 h1), if_pos h2]
    have : (T - 731) ≠ 0 := by linarith
    field_simp
    ring
  · rw [if_neg (by linarith), if_neg (by linarith), if_neg (not_lt.2 h)]

/-- **C57, material data.** Between 20 and 1200 degrees the specific heat lies between 425 and 5000 J/kgK and reaches 5000 at 735 degrees, where the formulas meet; the conductivity lies
    between 27.3 and 53.4 W/mK and does not increase with the temperature. -/
theorem C57_material {t : ℝ} (h1 : 20 ≤ t) (h2 : t ≤ 1200) :
    (425 ≤ specHeat t ∧ specHeat t ≤ 5000) ∧ specHeat (735 : ℝ) = 5000 ∧
    (27.3 ≤ thermConductivity t ∧ thermConductivity t ≤ 53.4) ∧ ∀ t', t ≤ t' → thermConductivity t' ≤ thermConductivity t := by
  refine ⟨⟨specHeat_ge (by linarith), ?_⟩, ?_, ⟨?_, ?_⟩, ?_⟩
  · unfold specHeat
    split_ifs with a b c
    · have e1 : t ^ 3 ≤ 600 * t ^ 2 := by nlinarith [sq_nonneg t]
      nlinarith [sq_nonneg t]
    · have : 13002 / (738 - t) ≤ 13002 / 3 := div_le_div_of_nonneg_left (by norm_num) (by norm_num) (by linarith)
      linarith
    · have : 17820 / (t - 731) ≤ 17820 / 4 := div_le_div_of_nonneg_left (by norm_num) (by norm_num) (by linarith)
      linarith
    · norm_num
  · norm_num [specHeat]
  · unfold thermConductivity
    split_ifs with a
    · norm_num; linarith
    · norm_num
  · unfold thermConductivity
    split_ifs with a
    · norm_num; linarith
    · norm_num
  · intro t' h
    unfold thermConductivity
    split_ifs with a b b <;> linarith

example : 425 ≤ specHeat (700 : ℝ) := (C57_material (by norm_num) (by norm_num)).1.1

/-- **C57.** For both fire curves, every step `dt > 0` and duration: `steel_temp` terminates and returns two lists of the same length `⌈tmax/dt⌉ + 1`; the times
    are `0, dt/60, 2 dt/60, ...`; the first temperature is the initial one; consecutive temperatures satisfy the heat balance (4.25) of
    EN 1993-1-2 with the gas temperature at the beginning of the step. When the step is short enough and the initial temperature lies between 0 and 20 degrees,
    the steel never cools and never gets hotter than the gas.
    Missing: other gas temperature functions and steps that are not positive, see `C57_violation`. -/
theorem C57_partial (gas : Gas) (hgas : gas = .standard ∨ gas = .hydrocarbon) {ksh AmV tmax dt Tini : ℝ} (hdt : 0 < dt) :
    ∃ (N : ℕ) (Ts times : List ℝ) (ac : ℝ), ConvectionOf gas ac ∧
      (∀ m, steelTemp (N + m) ksh AmV tmax gas dt Tini = some (.ok (Ts, times))) ∧
      N = ⌈tmax / dt⌉₊ ∧ Ts.length = N + 1 ∧ times.length = N + 1 ∧
      (∀ i ≤ N, times[i]? = some ((i : ℝ) * dt / 60)) ∧ Ts[0]? = some Tini ∧
      (∀ i < N, ∃ T T' : ℝ, Ts[i]? = some T ∧ Ts[i + 1]? = some T' ∧
        (∃ c, ConformHeat T c ∧ (c ≠ 0 → c * 7850 * (T' - T) = ksh * AmV * dt *
          (ac * (gas.temp (i * dt / 60) - T) + 0.7 * 5.67e-8 * ((gas.temp (i * dt / 60) + 273) ^ 4 - (T + 273) ^ 4)))) ∧
        (0 ≤ Tini → Tini ≤ 20 → 0 ≤ ksh → 0 ≤ AmV →
          ksh * AmV * dt * (ac + 4 * 0.7 * 5.67e-8 * (gas.temp (tmax / 60) + 273) ^ 3) ≤ 425 * 7850 →
          T ≤ T' ∧ T' ≤ gas.temp (i * dt / 60))) := by
  obtain ⟨ac, hac, hac0, hconv⟩ : ∃ ac, gas.aconv = some ac ∧ 0 ≤ ac ∧ ConvectionOf gas ac := by
    rcases hgas with rfl | rfl
    · exact ⟨25, rfl, by norm_num, rfl⟩
    · exact ⟨50, rfl, by norm_num, rfl⟩
  have g0 : gas.temp 0 = 20 := by
    rcases hgas with rfl | rfl
    · exact standardFire_zero
    · exact hydrocarbonFire_zero
  have gm : ∀ s t : ℝ, 0 ≤ s → s ≤ t → gas.temp s ≤ gas.temp t := by
    rcases hgas with rfl | rfl
    · intro s t h0 h
      exact standardFire_mono h0 h
    · intro s t _ h
      exact hydrocarbonFire_mono h
  set f : ℕ → ℝ → ℝ := fun k T => nextTemp specHeat ksh AmV (7 / 10) ac (gas.temp ((0 + k * dt) / 60)) dt T with hf
  have hlow : ∀ k < ⌈tmax / dt⌉₊, (0 : ℝ) + k * dt < tmax := by
    intro k hk
    have := Nat.lt_ceil.1 hk
    rw [zero_add]
    exact (lt_div_iff₀ hdt).1 this
  have hhigh : tmax ≤ 0 + (⌈tmax / dt⌉₊ : ℕ) * dt := by
    rw [zero_add]
    exact (div_le_iff₀ hdt).1 (Nat.le_ceil _)
  set N := ⌈tmax / dt⌉₊ with hN
  refine ⟨N, [Tini] ++ (List.range N).map (fun k : ℕ => iter f Tini (k + 1)),
    [0] ++ (List.range N).map (fun k : ℕ => (0 + ((k : ℝ) + 1) * dt) / 60), ac, hconv, ?_, rfl, by simp, by simp, ?_, by simp, ?_⟩
  · intro m
    simp only [steelTemp, hac]
    rw [tempLoop_eq _ _ _ _ _ _ _ _ N m 0 Tini [Tini] [0] hlow hhigh]
    rfl
  · intro i hi
    rcases i with _ | i
    · simp
    · rw [List.singleton_append, List.getElem?_cons_succ, List.getElem?_map, List.getElem?_range (by omega)]
      simp
  · have val : ∀ i ≤ N, ([Tini] ++ (List.range N).map (fun k : ℕ => iter f Tini (k + 1)))[i]? = some (iter f Tini i) := by
      intro i hi
      rcases i with _ | i
      · simp [iter]
      · rw [List.singleton_append, List.getElem?_cons_succ, List.getElem?_map, List.getElem?_range (by omega)]
        simp
    intro i hi
    refine ⟨_, _, val i hi.le, val (i + 1) hi, ?_, ?_⟩
    · refine ⟨_, specHeat_conform _, ?_⟩
      intro hc
      have e : iter f Tini (i + 1) = nextTemp specHeat ksh AmV (7 / 10) ac (gas.temp (i * dt / 60)) dt (iter f Tini i) := by
        simp only [iter, hf, zero_add]
      rw [e]
      generalize iter f Tini i = T at hc ⊢
      generalize gas.temp (i * dt / 60) = g
      simp only [nextTemp, hnet]
      field_simp
      ring
    · intro h0 h20 hk hA hstep
      have hstep' : ksh * AmV * dt * (ac + 4 * (7 / 10) * (567 / 10000000000) * (gas.temp (tmax / 60) + 273) ^ 3) ≤ 425 * 7850 := by
        refine le_trans (le_of_eq ?_) hstep
        norm_num
      have hinv : ∀ j ≤ i, 0 ≤ iter f Tini j ∧ iter f Tini j ≤ gas.temp (j * dt / 60) := by
        intro j hj
        induction j with
        | zero => simpa [iter, g0] using ⟨h0, h20⟩
        | succ j ih =>
          obtain ⟨p0, p1⟩ := ih (by omega)
          have hjt : (j : ℝ) * dt / 60 ≤ tmax / 60 := by
            have := hlow j (by omega)
            rw [zero_add] at this
            linarith
          have hb := nextTemp_bounds (ksh := ksh) (AmV := AmV) (dt := dt) p0 p1 (gm _ _ (by positivity) hjt)
            (show (0 : ℝ) ≤ 7 / 10 by norm_num) hac0 (by positivity) hstep'
          have e : iter f Tini (j + 1) = nextTemp specHeat ksh AmV (7 / 10) ac (gas.temp (j * dt / 60)) dt (iter f Tini j) := by
            simp only [iter, hf, zero_add]
          rw [e]
          refine ⟨p0.trans hb.1, hb.2.trans (gm _ _ (by positivity) ?_)⟩
          push_cast
          linarith
      obtain ⟨p0, p1⟩ := hinv i le_rfl
      have hit : (i : ℝ) * dt / 60 ≤ tmax / 60 := by
        have := hlow i hi
        rw [zero_add] at this
        linarith
      have hb := nextTemp_bounds (ksh := ksh) (AmV := AmV) (dt := dt) p0 p1 (gm _ _ (by positivity) hit)
        (show (0 : ℝ) ≤ 7 / 10 by norm_num) hac0 (by positivity) hstep'
      have e : iter f Tini (i + 1) = nextTemp specHeat ksh AmV (7 / 10) ac (gas.temp (i * dt / 60)) dt (iter f Tini i) := by
        simp only [iter, hf, zero_add]
      rw [e]
      exact hb

/-- A section with section factor 200 1/m, half an hour of hydrocarbon fire, steps of five seconds: the step is short enough. -/
example : ∃ Ts times : List ℝ, steelTemp ⌈(1800 : ℝ) / 5⌉₊ 1 200 1800 .hydrocarbon 5 20 = some (.ok (Ts, times)) ∧
    ∃ T T' : ℝ, Ts[0]? = some T ∧ Ts[1]? = some T' ∧ T ≤ T' := by
  obtain ⟨N, Ts, times, ac, hc, h, hN, _, _, _, _, hs⟩ :=
    C57_partial .hydrocarbon (.inr rfl) (ksh := 1) (AmV := 200) (tmax := 1800) (dt := 5) (Tini := 20) (by norm_num)
  have hc' : ac = 50 := hc
  have h0 := h 0
  rw [Nat.add_zero, hN] at h0
  have hpos : 0 < N := by rw [hN]; exact Nat.ceil_pos.2 (by norm_num)
  obtain ⟨T, T', e, e', _, hb⟩ := hs 0 hpos
  refine ⟨Ts, times, h0, T, T', e, e', (hb (by norm_num) le_rfl (by norm_num) (by norm_num) ?_).1⟩
  have hlt : hydrocarbonFire (1800 / 60) < 1100 := C57_gas.2.2.2.2.2.2 _
  have hge : 20 ≤ hydrocarbonFire (1800 / 60) := by
    rw [← hydrocarbonFire_zero]
    exact hydrocarbonFire_mono (by norm_num)
  have : (Gas.hydrocarbon.temp (1800 / 60) + 273) ^ 3 ≤ (1373 : ℝ) ^ 3 := by
    apply pow_le_pow_left₀
    · show (0 : ℝ) ≤ hydrocarbonFire (1800 / 60) + 273
      linarith
    · show hydrocarbonFire (1800 / 60) + 273 ≤ 1373
      linarith
  rw [hc']
  norm_num at this ⊢
  linarith

/-- **C57, failures.** A step that is zero or negative never ends the loop (whatever number of passes is allowed), and a gas temperature function other than the two of
    the module raises `UnboundLocalError`, although the code says that any function of the time may be given. -/
theorem C57_violation {ksh AmV tmax dt Tini : ℝ} (h : 0 < tmax) :
    (dt ≤ 0 → ∀ fuel, steelTemp fuel ksh AmV tmax .standard dt Tini = none) ∧
    ∀ (f : ℝ → ℝ) (fuel : ℕ), steelTemp fuel ksh AmV tmax (.other f) dt Tini = some (.error .unboundLocal) := by
  constructor
  · intro hd fuel
    simp only [steelTemp, Gas.aconv]
    rw [tempLoop_none _ _ _ _ _ _ _ _ hd _ _ _ _ _ h]
    rfl
  · intro f fuel
    simp only [steelTemp, Gas.aconv, if_pos h]

example : steelTemp 1000 1 200 1800 (.other fun t => 20 + 10 * t) 5 20 = some (.error .unboundLocal) :=
  (C57_violation (by norm_num)).2 _ _

end Metku.Fire
