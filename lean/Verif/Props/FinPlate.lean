import Verif.Model.FinPlate
import Verif.Spec.FinPlate
import Verif.Spec.Bolt
import Verif.Props.Bolt
import Verif.Props.Ec3More
import Mathlib.Algebra.BigOperators.Field
import Mathlib.Tactic.Linarith
import Mathlib.Tactic.FieldSimp
import Mathlib.Tactic.NormNum
import Mathlib.Tactic.Positivity

/-!
Fin plate joints: elastic bolt groups, bearing, bending and lateral-torsional buckling of the plate, block tearing, distances of holes.
-/
namespace Metku.FinPlates

open Real Bolts FinPlateSpec

/-! ### Sums over a grid -/

theorem sum_coord (p : ℝ) (n : ℕ) : ∑ i ∈ Finset.range n, coord p n i = 0 := by
  have key : ∀ (m : ℕ) (c : ℝ), ∑ i ∈ Finset.range m, ((i : ℝ) - c) * p = (m * ((m : ℝ) - 1) / 2 - m * c) * p := by
    intro m c
    induction m with
    | zero => simp
    | succ m ih =>
      rw [Finset.sum_range_succ, ih]
      push_cast
      ring
  unfold coord
  rw [key]
  ring

theorem sum_coord_sq (p : ℝ) (n : ℕ) : ∑ i ∈ Finset.range n, coord p n i ^ 2 = p ^ 2 * n * ((n : ℝ) ^ 2 - 1) / 12 := by
  have key : ∀ (m : ℕ) (c : ℝ), ∑ i ∈ Finset.range m, (((i : ℝ) - c) * p) ^ 2 = (m * ((m : ℝ) - 1) * (2 * m - 1) / 6 - m * ((m : ℝ) - 1) * c + m * c ^ 2) * p ^ 2 := by
    intro m c
    induction m with
    | zero => simp
    | succ m ih =>
      rw [Finset.sum_range_succ, ih]
      push_cast
      ring
  unfold coord
  rw [key]
  ring

theorem polar_eq (p1 p2 : ℝ) (n1 n2 : ℕ) : polar p1 p2 n1 n2 = n1 * (p2 ^ 2 * n2 * ((n2 : ℝ) ^ 2 - 1) / 12) + n2 * (p1 ^ 2 * n1 * ((n1 : ℝ) ^ 2 - 1) / 12) := by
  unfold polar
  simp only [Finset.sum_add_distrib, Finset.sum_const, Finset.card_range, nsmul_eq_mul]
  rw [← Finset.mul_sum, sum_coord_sq, sum_coord_sq]

/-- The elastic forces are in equilibrium with the force `V` at the distance `z`: they justify the definition of the specification. -/
theorem equilibrium {p1 p2 : ℝ} {n1 n2 : ℕ} (h1 : n1 ≠ 0) (h2 : n2 ≠ 0) (hI : polar p1 p2 n1 n2 ≠ 0) (z V : ℝ) :
    ∑ i ∈ Finset.range n2, ∑ k ∈ Finset.range n1, vertical p1 p2 n1 n2 z V i k = V ∧ ∑ i ∈ Finset.range n2, ∑ k ∈ Finset.range n1, horizontal p1 p2 n1 n2 z V i k = 0 ∧
      ∑ i ∈ Finset.range n2, ∑ k ∈ Finset.range n1, (vertical p1 p2 n1 n2 z V i k * coord p2 n2 i - horizontal p1 p2 n1 n2 z V i k * coord p1 n1 k) = V * z := by
  have h1' : (n1 : ℝ) ≠ 0 := by exact_mod_cast h1
  have h2' : (n2 : ℝ) ≠ 0 := by exact_mod_cast h2
  refine ⟨?_, ?_, ?_⟩
  · unfold vertical
    simp only [Finset.sum_add_distrib, Finset.sum_const, Finset.card_range, nsmul_eq_mul]
    rw [← Finset.mul_sum, ← Finset.sum_div, ← Finset.mul_sum, sum_coord]
    field_simp
    ring
  · unfold horizontal
    simp only [Finset.sum_neg_distrib, ← Finset.sum_div, ← Finset.mul_sum, sum_coord]
    simp
  · have e : ∀ i k, vertical p1 p2 n1 n2 z V i k * coord p2 n2 i - horizontal p1 p2 n1 n2 z V i k * coord p1 n1 k =
        V / (n1 * n2) * coord p2 n2 i + V * z / polar p1 p2 n1 n2 * (coord p2 n2 i ^ 2 + coord p1 n1 k ^ 2) := by
      intro i k
      unfold vertical horizontal
      ring
    simp only [e]
    have e2 : ∀ i, ∑ k ∈ Finset.range n1, (V / (n1 * n2) * coord p2 n2 i + V * z / polar p1 p2 n1 n2 * (coord p2 n2 i ^ 2 + coord p1 n1 k ^ 2)) =
        n1 * (V / (n1 * n2)) * coord p2 n2 i + V * z / polar p1 p2 n1 n2 * ∑ k ∈ Finset.range n1, (coord p2 n2 i ^ 2 + coord p1 n1 k ^ 2) := by
      intro i
      rw [Finset.sum_add_distrib, Finset.sum_const, Finset.card_range, nsmul_eq_mul, ← Finset.mul_sum]
      ring
    simp only [e2]
    rw [Finset.sum_add_distrib, ← Finset.mul_sum, ← Finset.mul_sum, sum_coord, mul_zero, zero_add]
    change V * z / polar p1 p2 n1 n2 * polar p1 p2 n1 n2 = V * z
    exact div_mul_cancel₀ _ hI

theorem coord_abs {p : ℝ} (hp : 0 ≤ p) {n i : ℕ} (h : i < n) : |coord p n i| ≤ ((n : ℝ) - 1) / 2 * p := by
  have h1 : (i : ℝ) + 1 ≤ n := by exact_mod_cast h
  have h0 : (0 : ℝ) ≤ i := by positivity
  unfold coord
  rw [abs_mul, abs_of_nonneg hp]
  apply mul_le_mul_of_nonneg_right _ hp
  rw [abs_le]
  constructor <;> linarith

theorem coord_last (p : ℝ) {n : ℕ} (h : n ≠ 0) : coord p n (n - 1) = ((n : ℝ) - 1) / 2 * p := by
  unfold coord
  rw [Nat.cast_sub (Nat.one_le_iff_ne_zero.2 h)]
  push_cast
  ring

/-- All bolts satisfy a quadratic interaction exactly if the outermost one does. -/
theorem group_iff {p1 p2 z V Fv Fh : ℝ} {n1 n2 : ℕ} (h1 : n1 ≠ 0) (h2 : n2 ≠ 0) (hp1 : 0 ≤ p1) (hp2 : 0 ≤ p2) (hI : 0 < polar p1 p2 n1 n2) (hz : 0 ≤ z) (hV : 0 ≤ V) (hv : 0 < Fv) (hh : 0 < Fh) :
    (∀ i < n2, ∀ k < n1, (vertical p1 p2 n1 n2 z V i k / Fv) ^ 2 + (horizontal p1 p2 n1 n2 z V i k / Fh) ^ 2 ≤ 1) ↔
      V * √(((1 / (n1 * n2) + z * (((n2 : ℝ) - 1) / 2 * p2) / polar p1 p2 n1 n2) / Fv) ^ 2 + (z * (((n1 : ℝ) - 1) / 2 * p1) / polar p1 p2 n1 n2 / Fh) ^ 2) ≤ 1 := by
  have h1' : (1 : ℝ) ≤ n1 := by exact_mod_cast Nat.one_le_iff_ne_zero.2 h1
  have h2' : (1 : ℝ) ≤ n2 := by exact_mod_cast Nat.one_le_iff_ne_zero.2 h2
  set I := polar p1 p2 n1 n2 with hIdef
  have hA : 0 ≤ 1 / ((n1 : ℝ) * n2) + z * (((n2 : ℝ) - 1) / 2 * p2) / I := by
    have : 0 ≤ ((n2 : ℝ) - 1) / 2 * p2 := mul_nonneg (by linarith) hp2
    positivity
  have hB : 0 ≤ z * (((n1 : ℝ) - 1) / 2 * p1) / I := by
    have : 0 ≤ ((n1 : ℝ) - 1) / 2 * p1 := mul_nonneg (by linarith) hp1
    positivity
  set A := 1 / ((n1 : ℝ) * n2) + z * (((n2 : ℝ) - 1) / 2 * p2) / I with hAdef
  set B := z * (((n1 : ℝ) - 1) / 2 * p1) / I with hBdef
  have hQ : V * √((A / Fv) ^ 2 + (B / Fh) ^ 2) ≤ 1 ↔ (V * A / Fv) ^ 2 + (V * B / Fh) ^ 2 ≤ 1 := by
    have e : (V * A / Fv) ^ 2 + (V * B / Fh) ^ 2 = (V * √((A / Fv) ^ 2 + (B / Fh) ^ 2)) ^ 2 := by
      rw [mul_pow, Real.sq_sqrt (by positivity)]
      ring
    rw [e, sq_le_one_iff₀ (by positivity)]
  rw [hQ]
  constructor
  · intro h
    have := h (n2 - 1) (by omega) (n1 - 1) (by omega)
    unfold vertical horizontal at this
    rw [coord_last p2 h2, coord_last p1 h1, ← hIdef] at this
    have e1 : V / (n1 * n2) + V * z * (((n2 : ℝ) - 1) / 2 * p2) / I = V * A := by
      rw [hAdef]
      ring
    have e2 : -(V * z * (((n1 : ℝ) - 1) / 2 * p1) / I) = -(V * B) := by
      rw [hBdef]
      ring
    rw [e1, e2] at this
    have e3 : (-(V * B) / Fh) ^ 2 = (V * B / Fh) ^ 2 := by ring
    rw [e3] at this
    exact this
  · intro h i hi k hk
    refine le_trans ?_ h
    have b1 : |vertical p1 p2 n1 n2 z V i k| ≤ V * A := by
      unfold vertical
      rw [← hIdef, hAdef, mul_add]
      refine (abs_add_le _ _).trans (add_le_add ?_ ?_)
      · rw [abs_of_nonneg (by positivity)]
        exact le_of_eq (by ring)
      · rw [abs_div, abs_mul, abs_mul, abs_of_nonneg hV, abs_of_nonneg hz, abs_of_pos hI, ← mul_div_assoc, ← mul_assoc]
        gcongr
        exact coord_abs hp2 hi
    have b2 : |horizontal p1 p2 n1 n2 z V i k| ≤ V * B := by
      unfold horizontal
      rw [← hIdef, hBdef, abs_neg, abs_div, abs_mul, abs_mul, abs_of_nonneg hV, abs_of_nonneg hz, abs_of_pos hI, ← mul_div_assoc, ← mul_assoc]
      gcongr
      exact coord_abs hp1 hk
    have s1 : (vertical p1 p2 n1 n2 z V i k / Fv) ^ 2 ≤ (V * A / Fv) ^ 2 := by
      rw [← sq_abs, abs_div, abs_of_pos hv]
      gcongr
    have s2 : (horizontal p1 p2 n1 n2 z V i k / Fh) ^ 2 ≤ (V * B / Fh) ^ 2 := by
      rw [← sq_abs, abs_div, abs_of_pos hh]
      gcongr
    linarith

/-! ### Bolts in shear and bearing -/

theorem factors_ok {j : Joint} (h : j.plate.n2 = 1 ∧ 2 ≤ j.plate.n1 ∨ j.plate.n2 = 2 ∧ 1 ≤ j.plate.n1) (hp1 : 0 < j.plate.py) (hp2 : j.plate.n2 = 2 → 0 < j.plate.px) :
    0 < polar j.plate.py j.plate.px j.plate.n1 j.plate.n2 ∧
    ∃ f, j.factors = .ok f ∧ f.1 = j.z * (((j.plate.n2 : ℝ) - 1) / 2 * j.plate.px) / polar j.plate.py j.plate.px j.plate.n1 j.plate.n2 ∧
      f.2.1 = j.z * (((j.plate.n1 : ℝ) - 1) / 2 * j.plate.py) / polar j.plate.py j.plate.px j.plate.n1 j.plate.n2 ∧ f.2.2 = (if j.plate.n2 = 1 then 10 ^ 5 else j.plate.px) := by
  rcases h with ⟨h2, h1⟩ | ⟨h2, h1⟩
  · have h1' : (2 : ℝ) ≤ j.plate.n1 := by exact_mod_cast h1
    have hI : polar j.plate.py j.plate.px j.plate.n1 j.plate.n2 = j.plate.py ^ 2 * j.plate.n1 * (((j.plate.n1 : ℝ) - 1) * (j.plate.n1 + 1)) / 12 := by
      rw [polar_eq, h2]
      push_cast
      ring
    have h3 : (0 : ℝ) < (j.plate.n1 : ℝ) - 1 := by linarith
    have h4 : (0 : ℝ) < j.plate.n1 := by linarith
    refine ⟨by rw [hI]; positivity, ?_⟩
    have hn : ¬ (j.plate.n1 = 0 ∨ j.plate.py = 0) := by
      rintro (h | h)
      · omega
      · exact hp1.ne' h
    unfold Joint.factors
    rw [if_pos h2, if_neg hn]
    refine ⟨_, rfl, ?_, ?_, by rw [if_pos h2]⟩
    · rw [h2]
      push_cast
      ring
    · rw [hI]
      field_simp
      ring
  · have h1' : (1 : ℝ) ≤ j.plate.n1 := by exact_mod_cast h1
    have hp2 := hp2 h2
    have hI : polar j.plate.py j.plate.px j.plate.n1 j.plate.n2 = j.I := by
      rw [polar_eq, h2]
      unfold Joint.I
      push_cast
      ring
    have hpos : 0 < j.I := by
      unfold Joint.I
      have : (0 : ℝ) ≤ (j.plate.n1 : ℝ) ^ 2 - 1 := by nlinarith
      have : (0 : ℝ) < j.plate.n1 := by linarith
      positivity
    refine ⟨by rw [hI]; exact hpos, ?_⟩
    unfold Joint.factors
    rw [if_neg (by omega), if_neg hpos.ne', hI]
    refine ⟨_, rfl, ?_, ?_, by rw [if_neg (by omega)]⟩
    · rw [h2]
      push_cast
      ring
    · ring

/-- **C110 (part).** With one column of two or more bolts or with two columns, the shear resistance of the bolt group is the largest force `V` for which no bolt of the elastic group exceeds
the resistance of a bolt through its threads, Table 3.4; the distance of the force is that of the middle of the group from the support. -/
theorem C110_partial {j : Joint} (h : j.plate.n2 = 1 ∧ 2 ≤ j.plate.n1 ∨ j.plate.n2 = 2 ∧ 1 ≤ j.plate.n1) (hp1 : 0 < j.plate.py) (hp2 : 0 ≤ j.plate.px) (hp2' : j.plate.n2 = 2 → 0 < j.plate.px)
    (hx : 0 ≤ j.plate.x0) (hc : j.bolt.cls ≠ .other) (hF : 0 < BoltSpec.shear (alphaThreads j.bolt.cls) j.bolt.fub j.bolt.dims.As) :
    ∃ R, j.boltShear = .ok R ∧ ∀ V, 0 ≤ V → (V ≤ R ↔ ∀ i < j.plate.n2, ∀ k < j.plate.n1,
      √(vertical j.plate.py j.plate.px j.plate.n1 j.plate.n2 (j.plate.x0 + ((j.plate.n2 : ℝ) - 1) * j.plate.px / 2) V i k ^ 2 +
        horizontal j.plate.py j.plate.px j.plate.n1 j.plate.n2 (j.plate.x0 + ((j.plate.n2 : ℝ) - 1) * j.plate.px / 2) V i k ^ 2) ≤
          BoltSpec.shear (alphaThreads j.bolt.cls) j.bolt.fub j.bolt.dims.As) := by
  obtain ⟨hI, f, hf, ha, hb, _⟩ := factors_ok h hp1 hp2'
  have hn1 : j.plate.n1 ≠ 0 := by omega
  have hn2 : j.plate.n2 ≠ 0 := by omega
  have n1p : (0 : ℝ) < j.plate.n1 := by exact_mod_cast Nat.pos_of_ne_zero hn1
  have n2p : (1 : ℝ) ≤ j.plate.n2 := by exact_mod_cast Nat.one_le_iff_ne_zero.2 hn2
  have hz : j.plate.x0 + ((j.plate.n2 : ℝ) - 1) * j.plate.px / 2 = j.z := by
    unfold Joint.z Plate.eLeft
    ring
  have hz0 : 0 ≤ j.z := by
    rw [← hz]
    have : 0 ≤ ((j.plate.n2 : ℝ) - 1) * j.plate.px := mul_nonneg (by linarith) hp2
    linarith
  rw [hz]
  have hFe := (C90_partial j.bolt hc).1
  generalize BoltSpec.shear (alphaThreads j.bolt.cls) j.bolt.fub j.bolt.dims.As = F at *
  have hR : ∃ R, j.boltShear = .ok R ∧ R = F / √((1 / (j.plate.n1 * j.plate.n2) + f.1) ^ 2 + f.2.1 ^ 2) := by
    unfold Joint.boltShear
    rw [hFe]
    simp only [bind, Except.bind, pure, Except.pure]
    rcases h with ⟨h2, h1⟩ | ⟨h2, h1⟩
    · rw [if_pos h2, if_neg hp1.ne']
      refine ⟨_, rfl, ?_⟩
      unfold Joint.factors at hf
      rw [if_pos h2, if_neg (by rintro (h | h); exact hn1 h; exact hp1.ne' h)] at hf
      obtain rfl := Except.ok.inj hf
      have hn : ((j.plate.n : ℕ) : ℝ) = j.plate.n1 := by simp [Plate.n, h2]
      rw [hn, h2]
      have e : (1 / ((j.plate.n1 : ℝ) * (1 : ℕ)) + 0) ^ 2 + (6 * j.z / (j.plate.n1 : ℝ) / ((j.plate.n1 : ℝ) + 1) / j.plate.py) ^ 2 =
          (1 + (6 * j.z / ((j.plate.n1 : ℝ) + 1) / j.plate.py) ^ 2) / (j.plate.n1 : ℝ) ^ 2 := by
        push_cast
        field_simp
        ring
      rw [e, Real.sqrt_div (by positivity), Real.sqrt_sq n1p.le]
      have : 0 < √(1 + (6 * j.z / ((j.plate.n1 : ℝ) + 1) / j.plate.py) ^ 2) := by positivity
      field_simp
    · have hI' : j.I ≠ 0 := by
        intro h0
        unfold Joint.factors at hf
        rw [if_neg (by omega), if_pos h0] at hf
        cases hf
      have hn0 : j.plate.n ≠ 0 := Nat.mul_ne_zero hn1 hn2
      rw [if_neg (by omega), if_neg (by rintro (h | h); exact hI' h; exact hn0 h)]
      refine ⟨_, rfl, ?_⟩
      unfold Joint.factors at hf
      rw [if_neg (by omega), if_neg hI'] at hf
      obtain rfl := Except.ok.inj hf
      have hn : ((j.plate.n : ℕ) : ℝ) = j.plate.n1 * j.plate.n2 := by simp [Plate.n]
      rw [hn, add_comm (1 / 2 * j.z * j.plate.px / j.I)]
      ring
  obtain ⟨R, hRe, hR⟩ := hR
  refine ⟨R, hRe, fun V hV => ?_⟩
  have g := group_iff (Fv := F) (Fh := F) hn1 hn2 hp1.le hp2 hI hz0 hV hF hF
  rw [← ha, ← hb] at g
  have a0 : 0 ≤ f.1 := by
    rw [ha]
    have : 0 ≤ ((j.plate.n2 : ℝ) - 1) / 2 * j.plate.px := mul_nonneg (by linarith) hp2
    positivity
  have s0 : 0 < √((1 / ((j.plate.n1 : ℝ) * j.plate.n2) + f.1) ^ 2 + f.2.1 ^ 2) := by
    have : 0 < 1 / ((j.plate.n1 : ℝ) * j.plate.n2) + f.1 := by positivity
    positivity
  have e : √(((1 / ((j.plate.n1 : ℝ) * j.plate.n2) + f.1) / F) ^ 2 + (f.2.1 / F) ^ 2) = √((1 / ((j.plate.n1 : ℝ) * j.plate.n2) + f.1) ^ 2 + f.2.1 ^ 2) / F := by
    rw [div_pow, div_pow, ← add_div, Real.sqrt_div (by positivity), Real.sqrt_sq hF.le]
  rw [e] at g
  have e2 : V ≤ R ↔ V * (√((1 / ((j.plate.n1 : ℝ) * j.plate.n2) + f.1) ^ 2 + f.2.1 ^ 2) / F) ≤ 1 := by
    rw [hR, le_div_iff₀ s0, ← mul_div_assoc, div_le_one hF]
  rw [e2, ← g]
  refine forall_congr' fun i => forall_congr' fun _ => forall_congr' fun k => forall_congr' fun _ => ?_
  rw [Real.sqrt_le_left hF.le, div_pow, div_pow, ← add_div, div_le_one (by positivity)]

/-- A bolt M20 8.8 and a plate of 110 x 230 x 10 mm with three of them at 70 mm, in an IPE 330. -/
noncomputable def sampleBolt : Bolt where
  d := 20
  minLength := 60
  length := 65
  thread := .part
  d0 := 22
  A := π * 20 ^ 2 / 4
  dims := ⟨245, 125 / 10, 30, 18, 3295 / 100, 3, 37⟩
  fyb := 640
  fub := 800
  cls := .c88

@[inherit_doc sampleBolt] noncomputable def sampleJoint : Joint where
  hb := 330
  twb := 75 / 10
  fyb := 355
  fub := 510
  Avb := 3081
  Vb := 631000
  plate := ⟨110, 230, 10, 355, 510, 210000, 60, 45, 0, 70, 3, 1⟩
  bolt := sampleBolt
  posY := 0
  gh := 10
  symm := true

example : (sampleJoint.plate.n2 = 1 ∧ 2 ≤ sampleJoint.plate.n1) ∧ 0 < sampleJoint.plate.py ∧ 0 ≤ sampleJoint.plate.x0 ∧
    0 < BoltSpec.shear (alphaThreads sampleBolt.cls) sampleBolt.fub sampleBolt.dims.As := by
  norm_num [sampleJoint, sampleBolt, BoltSpec.shear, alphaThreads]

/-- **C110 (disagreement).** A single bolt gets a positive resistance although no force on it balances the moment; a row of three bolts gets less than the elastic group can carry. -/
theorem C110_violation {j : Joint} (hc : j.bolt.cls ≠ .other) (hF : 0 < BoltSpec.shear (alphaThreads j.bolt.cls) j.bolt.fub j.bolt.dims.As) (h1 : j.plate.n1 = 1) (hx : 0 < j.plate.x0) :
    (j.plate.n2 = 1 → 0 < j.plate.py → ∃ R, 0 < R ∧ j.boltShear = .ok R ∧ ∀ ver hor : ℕ → ℕ → ℝ,
      ∑ i ∈ Finset.range j.plate.n2, ∑ k ∈ Finset.range j.plate.n1, (ver i k * coord j.plate.px j.plate.n2 i - hor i k * coord j.plate.py j.plate.n1 k) ≠ R * j.plate.x0) ∧
    (j.plate.n2 = 3 → 0 < j.plate.px → ∃ R V, R < V ∧ j.boltShear = .ok R ∧ ∀ i < j.plate.n2, ∀ k < j.plate.n1,
      √(vertical j.plate.py j.plate.px j.plate.n1 j.plate.n2 (j.plate.x0 + j.plate.px) V i k ^ 2 + horizontal j.plate.py j.plate.px j.plate.n1 j.plate.n2 (j.plate.x0 + j.plate.px) V i k ^ 2) ≤
          BoltSpec.shear (alphaThreads j.bolt.cls) j.bolt.fub j.bolt.dims.As) := by
  have hFe := (C90_partial j.bolt hc).1
  generalize BoltSpec.shear (alphaThreads j.bolt.cls) j.bolt.fub j.bolt.dims.As = F at *
  constructor
  · intro h2 hp
    unfold Joint.boltShear
    rw [hFe]
    simp only [bind, Except.bind, pure, Except.pure]
    rw [if_pos h2, if_neg hp.ne']
    have hn : (0 : ℝ) < (j.plate.n : ℕ) := by simp [Plate.n, h1, h2]
    have hR : 0 < ((j.plate.n : ℕ) : ℝ) / √(1 + (6 * j.z / (((j.plate.n : ℕ) : ℝ) + 1) / j.plate.py) ^ 2) * F := by positivity
    refine ⟨_, hR, rfl, fun ver hor => ?_⟩
    rw [h1, h2]
    have e : ∀ p : ℝ, coord p 1 0 = 0 := fun p => by simp [coord]
    simp only [Finset.range_one, Finset.sum_singleton, e, mul_zero, sub_zero]
    exact (mul_pos hR hx).ne
  · intro h2 hp
    have hz : j.z = j.plate.x0 + j.plate.px := by
      unfold Joint.z Plate.eLeft
      rw [h2]
      push_cast
      ring
    have hI : j.I = j.plate.px ^ 2 / 2 := by
      unfold Joint.I
      rw [h1]
      push_cast
      ring
    have hpol : polar j.plate.py j.plate.px 1 3 = 2 * j.plate.px ^ 2 := by
      rw [polar_eq]
      push_cast
      ring
    have hI0 : j.I ≠ 0 := by
      rw [hI]
      positivity
    have hn0 : j.plate.n ≠ 0 := by simp [Plate.n, h1, h2]
    have hn : ((j.plate.n : ℕ) : ℝ) = 3 := by simp [Plate.n, h1, h2]
    unfold Joint.boltShear
    rw [hFe]
    simp only [bind, Except.bind, pure, Except.pure]
    rw [if_neg (by omega), if_neg (by rintro (h | h); exact hI0 h; exact hn0 h), hn, h1, hI, hz]
    set z := j.plate.x0 + j.plate.px with hzdef
    have z0 : 0 < z := by positivity
    refine ⟨_, F / (z / (2 * j.plate.px) + 1 / 3), ?_, rfl, ?_⟩
    · have e : (1 / 2 * z * j.plate.px / (j.plate.px ^ 2 / 2) + 1 / 3) ^ 2 + (1 / 2 * z * j.plate.py / (j.plate.px ^ 2 / 2) * (((1 : ℕ) : ℝ) - 1)) ^ 2 = (z / j.plate.px + 1 / 3) ^ 2 := by
        push_cast
        field_simp
        ring
      rw [e, Real.sqrt_sq (by positivity), one_div_mul_eq_div]
      apply div_lt_div_of_pos_left hF (by positivity)
      have : z / (2 * j.plate.px) < z / j.plate.px := div_lt_div_of_pos_left z0 hp (by linarith)
      linarith
    · rw [h2]
      intro i hi k hk
      obtain rfl : k = 0 := by omega
      unfold vertical horizontal
      rw [hpol]
      have hc0 : coord j.plate.py 1 0 = 0 := by simp [coord]
      have hci : |coord j.plate.px 3 i| ≤ j.plate.px := by
        have := coord_abs hp.le hi
        norm_num at this
        exact this
      set V := F / (z / (2 * j.plate.px) + 1 / 3) with hV
      have V0 : 0 < V := by positivity
      rw [hc0]
      have e : V / (((1 : ℕ) : ℝ) * ((3 : ℕ) : ℝ)) = V / 3 := by norm_num
      rw [e, mul_zero, zero_div, neg_zero, zero_pow two_ne_zero, add_zero, Real.sqrt_sq_eq_abs]
      refine (abs_add_le _ _).trans ?_
      rw [abs_of_pos (by positivity), abs_div, abs_mul, abs_of_pos (mul_pos V0 z0), abs_of_pos (by positivity : 0 < 2 * j.plate.px ^ 2)]
      have e2 : V * z * |coord j.plate.px 3 i| / (2 * j.plate.px ^ 2) ≤ V * z * j.plate.px / (2 * j.plate.px ^ 2) := by gcongr
      refine (add_le_add_right e2 _).trans (le_of_eq ?_)
      rw [hV]
      field_simp
      ring

/-- Bearing of a bolt that has no neighbour across the force does not depend on the distance to it. -/
theorem bearing_far (b : Bolt) (fu t e1 e2 p1 : ℝ) (hd : 0 < b.d0) {p p' : ℝ} (hp : 3 * (b.d0 : ℝ) ≤ p) (hp' : 3 * (b.d0 : ℝ) ≤ p') :
    b.bearing fu t e1 e2 p1 p .edge .edge = b.bearing fu t e1 e2 p1 p' .edge .edge := by
  have D : (0 : ℝ) < b.d0 := by exact_mod_cast hd
  have key : ∀ q, 3 * (b.d0 : ℝ) ≤ q → min (min (28 / 10 * e2 / (b.d0 : ℝ) - 17 / 10) (14 / 10 * q / (b.d0 : ℝ) - 17 / 10)) (25 / 10) = min (28 / 10 * e2 / (b.d0 : ℝ) - 17 / 10) (25 / 10) := by
    intro q hq
    have : (25 / 10 : ℝ) ≤ 14 / 10 * q / (b.d0 : ℝ) - 17 / 10 := by
      have : (42 / 10 : ℝ) ≤ 14 / 10 * q / (b.d0 : ℝ) := by
        rw [le_div_iff₀ D]
        linarith
      linarith
    rw [min_assoc, min_eq_right this]
  unfold Bolt.bearing
  simp only [if_true, key p hp, key p' hp']

/-- Bearing of a group with given distances to the edges. -/
theorem bearing_group {j : Joint} (h : j.plate.n2 = 1 ∧ 2 ≤ j.plate.n1 ∨ j.plate.n2 = 2 ∧ 1 ≤ j.plate.n1) (hp1 : 0 < j.plate.py) (hp2 : 0 ≤ j.plate.px) (hp2' : j.plate.n2 = 2 → 0 < j.plate.px)
    (hx : 0 ≤ j.plate.x0) (hd : 0 < j.bolt.d0) (hd' : j.bolt.d0 ≤ 1000) (fu t e1 e2 : ℝ) :
    ∃ Fver Fhor, (∀ P, (j.plate.n2 = 1 → 3 * (j.bolt.d0 : ℝ) ≤ P) → (j.plate.n2 = 2 → P = j.plate.px) → BoltSpec.Bearing true true j.bolt.fub fu j.bolt.d j.bolt.d0 t e1 e2 j.plate.py P Fver ∧
        BoltSpec.Bearing true true j.bolt.fub fu j.bolt.d j.bolt.d0 t e2 e1 P j.plate.py Fhor) ∧
      (0 < Fver → 0 < Fhor → ∃ R, j.bearing fu t e1 e2 = .ok R ∧ ∀ V, 0 ≤ V → (V ≤ R ↔ ∀ i < j.plate.n2, ∀ k < j.plate.n1,
        (vertical j.plate.py j.plate.px j.plate.n1 j.plate.n2 (j.plate.x0 + ((j.plate.n2 : ℝ) - 1) * j.plate.px / 2) V i k / Fver) ^ 2 +
          (horizontal j.plate.py j.plate.px j.plate.n1 j.plate.n2 (j.plate.x0 + ((j.plate.n2 : ℝ) - 1) * j.plate.px / 2) V i k / Fhor) ^ 2 ≤ 1)) := by
  obtain ⟨hI, f, hf, ha, hb, hq⟩ := factors_ok h hp1 hp2'
  have hn1 : j.plate.n1 ≠ 0 := by omega
  have hn2 : j.plate.n2 ≠ 0 := by omega
  have n1p : (0 : ℝ) < j.plate.n1 := by exact_mod_cast Nat.pos_of_ne_zero hn1
  have n2p : (1 : ℝ) ≤ j.plate.n2 := by exact_mod_cast Nat.one_le_iff_ne_zero.2 hn2
  have hd1 : (j.bolt.d0 : ℝ) ≤ 1000 := by exact_mod_cast hd'
  have hz : j.plate.x0 + ((j.plate.n2 : ℝ) - 1) * j.plate.px / 2 = j.z := by
    unfold Joint.z Plate.eLeft
    ring
  have hz0 : 0 ≤ j.z := by
    rw [← hz]
    have : 0 ≤ ((j.plate.n2 : ℝ) - 1) * j.plate.px := mul_nonneg (by linarith) hp2
    linarith
  rw [hz]
  have hver := fun P => C91_partial j.bolt fu t e1 e2 j.plate.py P .edge .edge
  have hhor := fun P => C91_partial j.bolt fu t e2 e1 P j.plate.py .edge .edge
  refine ⟨j.bolt.bearing fu t e1 e2 j.plate.py f.2.2 .edge .edge, j.bolt.bearing fu t e2 e1 f.2.2 j.plate.py .edge .edge, ?_, ?_⟩
  · intro P hP1 hP2
    have v := hver P
    have w := hhor P
    simp only [decide_true] at v w
    refine ⟨?_, w⟩
    rcases h with ⟨h2, _⟩ | ⟨h2, _⟩
    · rw [hq, if_pos h2, bearing_far j.bolt fu t e1 e2 j.plate.py hd (p := 10 ^ 5) (p' := P) (by norm_num; linarith) (hP1 h2)]
      exact v
    · rw [hq, if_neg (by omega), ← hP2 h2]
      exact v
  · generalize hA : j.bolt.bearing fu t e1 e2 j.plate.py f.2.2 .edge .edge = A
    generalize hB : j.bolt.bearing fu t e2 e1 f.2.2 j.plate.py .edge .edge = B
    intro A0 B0
    unfold Joint.bearing
    rw [hf]
    simp only [bind, Except.bind, pure, Except.pure]
    rw [hA, hB, if_neg (by rintro (h | h); exact A0.ne' h; exact B0.ne' h)]
    refine ⟨_, rfl, fun V hV => ?_⟩
    rw [group_iff hn1 hn2 hp1.le hp2 hI hz0 hV A0 B0, ← ha, ← hb]
    have hn : ((j.plate.n : ℕ) : ℝ) = j.plate.n1 * j.plate.n2 := by simp [Plate.n]
    have a0 : 0 ≤ f.1 := by
      rw [ha]
      have : 0 ≤ ((j.plate.n2 : ℝ) - 1) / 2 * j.plate.px := mul_nonneg (by linarith) hp2
      positivity
    rw [hn]
    have N0 : (0 : ℝ) < j.plate.n1 * j.plate.n2 := by positivity
    generalize (j.plate.n1 : ℝ) * j.plate.n2 = N at *
    have e : √(((1 + N * f.1) / A) ^ 2 + (N * f.2.1 / B) ^ 2) = N * √(((1 / N + f.1) / A) ^ 2 + (f.2.1 / B) ^ 2) := by
      have : ((1 + N * f.1) / A) ^ 2 + (N * f.2.1 / B) ^ 2 = N ^ 2 * (((1 / N + f.1) / A) ^ 2 + (f.2.1 / B) ^ 2) := by
        field_simp
      rw [this, Real.sqrt_mul (by positivity), Real.sqrt_sq N0.le]
    have s0 : 0 < √(((1 / N + f.1) / A) ^ 2 + (f.2.1 / B) ^ 2) := by positivity
    rw [e, ← div_div, div_self N0.ne', le_div_iff₀ s0]

/-- **C111 (part).** With one column of two or more bolts or with two columns, the bearing resistances of the plate and of the beam web are the largest force `V` for which every bolt of the elastic
group satisfies the quadratic interaction of its vertical and horizontal force with the resistances of Table 3.4 of a bolt at the edge; across the force a single column has no
neighbours. The distance to the upper edge is that of the plate, also for the web; the distance to the side is that to the edge of the plate or to the end of the beam. -/
theorem C111_partial {j : Joint} (h : j.plate.n2 = 1 ∧ 2 ≤ j.plate.n1 ∨ j.plate.n2 = 2 ∧ 1 ≤ j.plate.n1) (hp1 : 0 < j.plate.py) (hp2 : 0 ≤ j.plate.px) (hp2' : j.plate.n2 = 2 → 0 < j.plate.px)
    (hx : 0 ≤ j.plate.x0) (hd : 0 < j.bolt.d0) (hd' : j.bolt.d0 ≤ 1000) {e1 : ℝ}
    (he : e1 = if j.symm then (j.plate.h - ((j.plate.n1 : ℝ) - 1) * j.plate.py) / 2 else j.plate.h - j.plate.y0 - ((j.plate.n1 : ℝ) - 1) * j.plate.py) :
    ∀ c ∈ [(j.plateBearing, j.plate.fu, j.plate.t, j.plate.b - (j.plate.x0 + ((j.plate.n2 : ℝ) - 1) * j.plate.px)), (j.webBearing, j.fub, j.twb, j.plate.x0 - j.gh)],
    ∃ Fver Fhor, (∀ P, (j.plate.n2 = 1 → 3 * (j.bolt.d0 : ℝ) ≤ P) → (j.plate.n2 = 2 → P = j.plate.px) →
        BoltSpec.Bearing true true j.bolt.fub c.2.1 j.bolt.d j.bolt.d0 c.2.2.1 e1 c.2.2.2 j.plate.py P Fver ∧
        BoltSpec.Bearing true true j.bolt.fub c.2.1 j.bolt.d j.bolt.d0 c.2.2.1 c.2.2.2 e1 P j.plate.py Fhor) ∧
      (0 < Fver → 0 < Fhor → ∃ R, c.1 = .ok R ∧ ∀ V, 0 ≤ V → (V ≤ R ↔ ∀ i < j.plate.n2, ∀ k < j.plate.n1,
        (vertical j.plate.py j.plate.px j.plate.n1 j.plate.n2 (j.plate.x0 + ((j.plate.n2 : ℝ) - 1) * j.plate.px / 2) V i k / Fver) ^ 2 +
          (horizontal j.plate.py j.plate.px j.plate.n1 j.plate.n2 (j.plate.x0 + ((j.plate.n2 : ℝ) - 1) * j.plate.px / 2) V i k / Fhor) ^ 2 ≤ 1)) := by
  have he1 : j.e1 = e1 := by
    rw [he]
    unfold Joint.e1 Joint.centred Plate.eTop
    split_ifs
    · ring
    · rfl
  have he2 : j.e2 = j.plate.b - (j.plate.x0 + ((j.plate.n2 : ℝ) - 1) * j.plate.px) := by
    unfold Joint.e2 Plate.eRight
    ring
  have he2b : j.e2b = j.plate.x0 - j.gh := rfl
  intro c hc
  simp only [List.mem_cons, List.not_mem_nil, or_false] at hc
  rcases hc with rfl | rfl
  · have := bearing_group h hp1 hp2 hp2' hx hd hd' j.plate.fu j.plate.t j.e1 j.e2
    rw [he1, he2] at this
    simpa only [Joint.plateBearing, he1, he2] using this
  · have := bearing_group h hp1 hp2 hp2' hx hd hd' j.fub j.twb j.e1 j.e2b
    rw [he1, he2b] at this
    simpa only [Joint.webBearing, he1, he2b] using this

/-- The resistances of the sample joint are positive: the plate has 45 mm to its upper edge and 50 mm to its side. -/
example : 0 < sampleBolt.bearing 510 10 45 50 70 (10 ^ 5) .edge .edge ∧ 0 < sampleBolt.bearing 510 10 50 45 (10 ^ 5) 70 .edge .edge := by
  norm_num [sampleBolt, Bolt.bearing, gammaM2]

/-- **C111 (disagreement, inner bolts).** All bolts get the resistance of a bolt at the edge. In this joint, which passes the check of distances, the middle one of five bolts carries more than the
resistance of an inner bolt of Table 3.4 when the force equals the computed resistance. -/
theorem C111_violation : ∃ j : Joint, j.checkPosition = true ∧ ∃ R F, j.plateBearing = .ok R ∧
    BoltSpec.Bearing true false j.bolt.fub j.plate.fu j.bolt.d j.bolt.d0 j.plate.t j.e1 j.e2 j.plate.py (3 * j.bolt.d0) F ∧ 0 < F ∧
    F < vertical j.plate.py j.plate.px j.plate.n1 j.plate.n2 j.plate.x0 R 0 2 ∧ horizontal j.plate.py j.plate.px j.plate.n1 j.plate.n2 j.plate.x0 R 0 2 = 0 := by
  refine ⟨{ sampleJoint with plate := ⟨106, 328, 10, 355, 510, 210000, 40, 66, 0, 49, 5, 1⟩ }, ?_, ?_⟩
  · norm_num [Joint.checkPosition, Joint.e1, Joint.e2, Joint.e2b, Joint.centred, Plate.eTop, Plate.eRight, Plate.eLeft, sampleJoint, sampleBolt]
  · refine ⟨5 / √((1 / 204000) ^ 2 + (5 * (8 / 49) / (204000 * (156 / 275))) ^ 2), 204000 * (65 / 132), ?_, ?_, by norm_num, ?_, ?_⟩
    · have hv : sampleBolt.bearing 510 10 66 66 49 (10 ^ 5) .edge .edge = 204000 := by norm_num [sampleBolt, Bolt.bearing, gammaM2]
      have hh : sampleBolt.bearing 510 10 66 66 (10 ^ 5) 49 .edge .edge = 204000 * (156 / 275) := by norm_num [sampleBolt, Bolt.bearing, gammaM2]
      have h1 : ∀ j : Joint, j.symm = true → j.plate = ⟨106, 328, 10, 355, 510, 210000, 40, 66, 0, 49, 5, 1⟩ → j.bolt = sampleBolt →
          j.plateBearing = .ok (5 / √((1 / 204000) ^ 2 + (5 * (8 / 49) / (204000 * (156 / 275))) ^ 2)) := by
        intro j hs hp hb
        have e1 : j.e1 = 66 := by norm_num [Joint.e1, Joint.centred, Plate.eTop, hs, hp]
        have e2 : j.e2 = 66 := by norm_num [Joint.e2, Plate.eRight, hp]
        have hf : j.factors = .ok (0, 8 / 49, 10 ^ 5) := by norm_num [Joint.factors, Joint.z, Plate.eLeft, hp]
        unfold Joint.plateBearing Joint.bearing
        rw [hf, e1, e2, hp, hb]
        simp only [bind, Except.bind, pure, Except.pure]
        rw [hv, hh]
        norm_num [Plate.n]
      exact h1 _ rfl rfl rfl
    · have := C91_partial sampleBolt 510 10 66 66 49 66 .edge .inner
      have e : sampleBolt.bearing 510 10 66 66 49 66 .edge .inner = 204000 * (65 / 132) := by
        simp only [Bolt.bearing, reduceCtorEq, if_false, if_true]
        norm_num [sampleBolt, gammaM2]
      rw [e] at this
      norm_num [Joint.e1, Joint.e2, Joint.centred, Plate.eTop, Plate.eRight, sampleJoint, sampleBolt] at this ⊢
      exact this
    · have hc : coord 0 1 0 = 0 := by simp [coord]
      simp only [vertical, hc, mul_zero, zero_div, add_zero]
      have s0 : √((1 / 204000) ^ 2 + (5 * (8 / 49) / (204000 * (156 / 275))) ^ 2) < 1 / (204000 * (65 / 132) : ℝ) := by
        rw [Real.sqrt_lt' (by norm_num)]
        norm_num
      have s1 : 0 < √((1 / 204000) ^ 2 + (5 * (8 / 49) / (204000 * (156 / 275))) ^ 2 : ℝ) := by positivity
      have e : ∀ x : ℝ, 5 / x / (((5 : ℕ) : ℝ) * ((1 : ℕ) : ℝ)) = 1 / x := fun x => by
        push_cast
        ring
      rw [e, lt_one_div (by norm_num) s1]
      exact s0
    · simp [horizontal, coord]
      norm_num

/-- **C111 (disagreement, web).** The bearing resistance of the web does not depend on the depth of the beam: it stays the same in a beam so shallow that the upper bolt lies outside of it. -/
theorem C111_violation_web {j : Joint} {R : ℝ} (h : j.webBearing = .ok R) (hb : 0 < j.posY + j.plate.h / 2 - j.e1) :
    ∃ b, 0 < b ∧ ({ j with hb := b } : Joint).webBearing = .ok R ∧ b / 2 < j.posY + j.plate.h / 2 - j.e1 ∧ ({ j with hb := b } : Joint).e1b < 0 := by
  have he : ∀ b, ({ j with hb := b } : Joint).e1 = j.e1 := fun b => by
    unfold Joint.e1 Joint.centred
    dsimp only
    split_ifs <;> rfl
  obtain ⟨b, hbd⟩ : ∃ b, b = j.posY + j.plate.h / 2 - j.e1 := ⟨_, rfl⟩
  refine ⟨b, by linarith, ?_, by linarith, ?_⟩
  · rw [← h]
    unfold Joint.webBearing
    rw [he b]
    rfl
  · unfold Joint.e1b
    rw [he b]
    dsimp only
    linarith

example : 0 < sampleJoint.posY + sampleJoint.plate.h / 2 - sampleJoint.e1 := by
  norm_num [Joint.e1, Joint.centred, Plate.eTop, sampleJoint]

/-! ### The plate and the web -/

/-- **C112.** The plate is safe in shear exactly up to its gross resistance, 1.27 times the mean shear stress against the yield stress, and its net resistance, the shear stress in the section
through the holes against the ultimate strength; the web of the beam up to its net resistance with the holes taken off its shear area. -/
theorem C112 {j : Joint} (ht : 0 < j.plate.t) (hh : 0 < j.plate.h) (V : ℝ) :
    (V ≤ j.shearGross ↔ 1.27 * √3 * (V / (j.plate.h * j.plate.t)) ≤ j.plate.fy) ∧
    ((j.plate.n1 : ℝ) * j.bolt.d0 < j.plate.h → (V ≤ j.shearNet ↔ √3 * (V / (j.plate.t * (j.plate.h - j.plate.n1 * j.bolt.d0))) ≤ j.plate.fu / 1.25)) ∧
    ((j.plate.n1 : ℝ) * (j.bolt.d0 * j.twb) < j.Avb → (V ≤ j.webShearNet ↔ √3 * (V / (j.Avb - j.plate.n1 * (j.bolt.d0 * j.twb))) ≤ j.fub / 1.25)) := by
  have s3 : (0 : ℝ) < √3 := by positivity
  refine ⟨?_, fun hn => ?_, fun hn => ?_⟩
  · unfold Joint.shearGross gammaM0
    rw [show (127 / 100 : ℝ) = 1.27 by norm_num, div_one, le_div_iff₀ s3, le_div_iff₀ (by norm_num), ← mul_div_assoc, div_le_iff₀ (by positivity)]
    constructor <;> intro h <;> linarith
  · unfold Joint.shearNet gammaM2
    rw [← mul_div_assoc, div_le_iff₀ (mul_pos ht (by linarith)), le_div_iff₀ (by norm_num), le_div_iff₀ s3, div_mul_eq_mul_div, le_div_iff₀ (by norm_num)]
    constructor <;> intro h <;> linarith
  · unfold Joint.webShearNet gammaM2
    rw [← mul_div_assoc, div_le_iff₀ (by linarith), le_div_iff₀ (by norm_num), le_div_iff₀ s3, div_mul_eq_mul_div, le_div_iff₀ (by norm_num)]
    constructor <;> intro h <;> linarith

example : (sampleJoint.plate.n1 : ℝ) * sampleJoint.bolt.d0 < sampleJoint.plate.h ∧ (sampleJoint.plate.n1 : ℝ) * (sampleJoint.bolt.d0 * sampleJoint.twb) < sampleJoint.Avb := by
  norm_num [sampleJoint, sampleBolt]

/-- **C113.** The plate is safe in bending exactly up to its bending resistance: the elastic stress of the force at the middle of the bolt group is at most yield. From a depth of 2.73 times the
lever arm on, bending never governs over gross shear; up to 2.72 times it always does. -/
theorem C113 {j : Joint} (ht : 0 < j.plate.t) (hh : 0 < j.plate.h) (hf : 0 < j.plate.fy) {z : ℝ} (hz : z = j.plate.x0 + ((j.plate.n2 : ℝ) - 1) * j.plate.px / 2) (hz0 : 0 < z) :
    ∃ R, j.bending = .ok R ∧ (∀ V, V ≤ R ↔ V * z / (j.plate.t * j.plate.h ^ 2 / 6) ≤ j.plate.fy) ∧ (2.73 * z ≤ j.plate.h → j.shearGross ≤ R) ∧ (j.plate.h ≤ 2.72 * z → R < j.shearGross) := by
  have hze : j.z = z := by
    rw [hz]
    unfold Joint.z Plate.eLeft
    ring
  have s3 : (0 : ℝ) < √3 := by positivity
  have q3 : √3 ^ 2 = 3 := Real.sq_sqrt (by norm_num)
  have l3 : (1.7320 : ℝ) < √3 := Real.lt_sqrt_of_sq_lt (by norm_num)
  have u3 : √3 < (1.7321 : ℝ) := by
    rw [Real.sqrt_lt' (by norm_num)]
    norm_num
  unfold Joint.bending
  rw [hze, if_neg hz0.ne']
  have key : j.plate.fy * (j.plate.t * j.plate.h ^ 2 / 6) / z / gammaM0 = j.plate.fy * j.plate.t * j.plate.h * (j.plate.h / (6 * z)) := by
    unfold gammaM0
    field_simp
  have key2 : j.shearGross = j.plate.fy * j.plate.t * j.plate.h * (1 / (1.27 * √3)) := by
    unfold Joint.shearGross gammaM0
    rw [show (127 / 100 : ℝ) = 1.27 by norm_num]
    field_simp
  refine ⟨_, rfl, fun V => ?_, fun h => ?_, fun h => ?_⟩
  · unfold gammaM0
    rw [div_one, le_div_iff₀ hz0, div_le_iff₀ (by positivity)]
  · rw [key, key2]
    apply mul_le_mul_of_nonneg_left _ (by positivity)
    rw [div_le_div_iff₀ (by positivity) (by positivity)]
    nlinarith
  · rw [key, key2]
    apply mul_lt_mul_of_pos_left _ (by positivity)
    rw [div_lt_div_iff₀ (by positivity) (by positivity)]
    nlinarith

example : 2.73 * (sampleJoint.plate.x0 + ((sampleJoint.plate.n2 : ℝ) - 1) * sampleJoint.plate.px / 2) ≤ sampleJoint.plate.h := by
  norm_num [sampleJoint]

/-- **C114.** With a lever arm below `t/0.15` lateral-torsional buckling does not reduce the bending resistance. From there on it is reduced by `χ/0.6`, never above it, with the reduction factor of curve d
for the slenderness `2.8/(π√(E/fy)) √(zh/(1.5t²))`: the only number in `(0, 1]` not above the Euler value that satisfies the Ayrton-Perry equation, for slendernesses above 0.2. -/
theorem C114 {j : Joint} (ht : 0 < j.plate.t) (hh : 0 < j.plate.h) (hf : 0 < j.plate.fy) {z : ℝ} (hz : z = j.plate.x0 + ((j.plate.n2 : ℝ) - 1) * j.plate.px / 2) (hz0 : 0 < z) :
    ∃ R Rb, j.ltb = .ok R ∧ j.bending = .ok Rb ∧ 0 ≤ R ∧ R ≤ Rb ∧ (0.15 * z < j.plate.t → R = Rb) ∧
      (j.plate.t ≤ 0.15 * z → ∀ l, l = 2.8 / (π * √(j.plate.E / j.plate.fy)) * √(z * j.plate.h / (1.5 * j.plate.t ^ 2)) → 0.2 ≤ l → ∀ x, 0 < x → x ≤ 1 → x * l ^ 2 ≤ 1 →
        (1 - x) * (1 - x * l ^ 2) = 0.76 * (l - 0.2) * x → R = min (x / 0.6) 1 * Rb) := by
  have hze : j.z = z := by
    rw [hz]
    unfold Joint.z Plate.eLeft
    ring
  unfold Joint.ltb Joint.bending
  rw [hze, if_neg hz0.ne', if_neg hz0.ne']
  have e1 : j.plate.t / (15 / 100) = j.plate.t / 0.15 := by norm_num
  have hV : j.plate.fy * j.plate.t * j.plate.h ^ 2 / 6 / z = j.plate.fy * (j.plate.t * j.plate.h ^ 2 / 6) / z / gammaM0 := by
    unfold gammaM0
    ring
  have hV0 : 0 < j.plate.fy * (j.plate.t * j.plate.h ^ 2 / 6) / z / gammaM0 := by
    unfold gammaM0
    positivity
  rw [hV]
  generalize j.plate.fy * (j.plate.t * j.plate.h ^ 2 / 6) / z / gammaM0 = Rb at *
  refine ⟨_, Rb, rfl, rfl, ?_⟩
  rw [e1]
  have hl : 28 / 10 / (π * √(j.plate.E / j.plate.fy)) * √(z * j.plate.h / (3 / 2) / j.plate.t ^ 2) = 2.8 / (π * √(j.plate.E / j.plate.fy)) * √(z * j.plate.h / (1.5 * j.plate.t ^ 2)) := by
    rw [div_div (z * j.plate.h), show (28 / 10 : ℝ) = 2.8 by norm_num, show (3 / 2 : ℝ) = 1.5 by norm_num]
  dsimp only
  rw [hl]
  set l := 2.8 / (π * √(j.plate.E / j.plate.fy)) * √(z * j.plate.h / (1.5 * j.plate.t ^ 2)) with hldef
  have hl0 : 0 ≤ l := by
    have := Real.pi_pos
    positivity
  have hchi := (Ec3.C32 hl0 (a := 76 / 100) (by norm_num) (by norm_num)).2.1
  have hg : Ec3.bucklingReduction l (76 / 100) / (6 / 10) / gammaM1 = Ec3.bucklingReduction l (76 / 100) / 0.6 := by
    unfold gammaM1
    norm_num
  have hg1 : (1 : ℝ) / gammaM0 = 1 := by
    unfold gammaM0
    norm_num
  rw [hg, hg1]
  have hiff : z < j.plate.t / 0.15 ↔ 0.15 * z < j.plate.t := by
    rw [lt_div_iff₀ (by norm_num), mul_comm]
  simp only [hiff]
  have hm0 : 0 ≤ min (Ec3.bucklingReduction l (76 / 100) / 0.6) 1 := le_min (by have := hchi.1; positivity) (by norm_num)
  have hm1 : min (Ec3.bucklingReduction l (76 / 100) / 0.6) 1 ≤ 1 := min_le_right _ _
  split_ifs with hc
  · refine ⟨by linarith, by linarith, fun _ => one_mul _, fun h => absurd hc (not_lt.2 h)⟩
  · refine ⟨mul_nonneg hm0 hV0.le, ?_, fun h => absurd h hc, ?_⟩
    · nlinarith
    · rintro _ l' rfl hl2 x x0 x1 xe xa
      have := (Ec3.C32_value (l := l) (by norm_num at hl2 ⊢; linarith) (Ec3.Curve.d, (0.76 : ℝ)) (by simp) x).2 ⟨x0, x1, xe, xa⟩
      rw [this]
      rfl

/-- A thinner plate of the same joint is checked for buckling. -/
example : ∃ t : ℝ, 0 < t ∧ t ≤ 0.15 * (sampleJoint.plate.x0 + ((sampleJoint.plate.n2 : ℝ) - 1) * sampleJoint.plate.px / 2) := ⟨8, by norm_num, by norm_num [sampleJoint]⟩

/-- **C115 (part).** The resistances to block tearing of the plate and of the web are those of (3.10) for a block bounded by the bolts: in the plate down from the upper bolt to the lower edge and
across to the side, in the web from the upper edge of the beam down to the lower bolt; for two columns, or one column with the distance of columns set to zero. -/
theorem C115_partial {j : Joint} (h : j.plate.n2 = 2 ∨ j.plate.n2 = 1 ∧ j.plate.px = 0) :
    j.blockTearing = block j.plate.fy j.plate.fu j.plate.t (tensionPath (j.plate.b - (j.plate.x0 + ((j.plate.n2 : ℝ) - 1) * j.plate.px)) j.plate.px j.bolt.d0 j.plate.n2)
      (tensionPath (j.plate.h - j.e1 - ((j.plate.n1 : ℝ) - 1) * j.plate.py) j.plate.py j.bolt.d0 j.plate.n1) ∧
    j.webBlockTearing = block j.fyb j.fub j.twb (tensionPath (j.plate.x0 - j.gh) j.plate.px j.bolt.d0 j.plate.n2)
      (tensionPath (j.hb / 2 - (j.posY + j.plate.h / 2 - j.e1)) j.plate.py j.bolt.d0 j.plate.n1) := by
  unfold Joint.blockTearing Joint.webBlockTearing block tensionPath Joint.e1b Joint.e2b Joint.e2 Plate.eRight Plate.eLeft gammaM0 gammaM2
  rw [show (0.5 : ℝ) = 1 / 2 by norm_num, show (1.25 : ℝ) = 125 / 100 by norm_num]
  rcases h with h | ⟨h, hp⟩
  · rw [h]
    push_cast
    constructor <;> ring
  · rw [h, hp]
    push_cast
    constructor <;> ring

example : sampleJoint.plate.n2 = 2 ∨ sampleJoint.plate.n2 = 1 ∧ sampleJoint.plate.px = 0 := .inr ⟨rfl, rfl⟩

/-- **C115 (disagreement).** With one column and a distance of columns above zero, which then means nothing, the resistances are too large; with three or more columns they are too small. -/
theorem C115_violation {j : Joint} (hfu : 0 < j.plate.fu) (ht : 0 < j.plate.t) (hp : 0 < j.plate.px) :
    (j.plate.n2 = 1 → block j.plate.fy j.plate.fu j.plate.t (tensionPath (j.plate.b - j.plate.x0) j.plate.px j.bolt.d0 1)
      (tensionPath (j.plate.h - j.e1 - ((j.plate.n1 : ℝ) - 1) * j.plate.py) j.plate.py j.bolt.d0 j.plate.n1) < j.blockTearing) ∧
    (3 ≤ j.plate.n2 → j.blockTearing < block j.plate.fy j.plate.fu j.plate.t (tensionPath (j.plate.b - (j.plate.x0 + ((j.plate.n2 : ℝ) - 1) * j.plate.px)) j.plate.px j.bolt.d0 j.plate.n2)
      (tensionPath (j.plate.h - j.e1 - ((j.plate.n1 : ℝ) - 1) * j.plate.py) j.plate.py j.bolt.d0 j.plate.n1)) := by
  have hpos : 0 < j.plate.fu * j.plate.t * j.plate.px := by positivity
  unfold Joint.blockTearing block tensionPath Joint.e2 Plate.eRight gammaM0 gammaM2
  constructor
  · intro h
    rw [h, ← sub_pos]
    push_cast
    norm_num
    ring_nf
    linarith
  · intro h
    have h3 : (3 : ℝ) ≤ j.plate.n2 := by exact_mod_cast h
    have h4 : 0 < j.plate.fu * j.plate.t * j.plate.px * ((j.plate.n2 : ℝ) - 2) := mul_pos hpos (by linarith)
    rw [← sub_pos]
    norm_num
    ring_nf at h4 ⊢
    linarith

/-! ### Distances of holes -/

/-- **C116 (part).** A pattern accepted by the check has the minimum distances of Table 3.3 to the upper edge and the side of the plate and to the end of the beam, and between bolts along the
force; across it, when the distance of columns is positive. A pattern with all these distances is accepted. -/
theorem C116_partial (j : Joint) :
    j.checkPosition = true ↔ 1.2 * j.bolt.d0 ≤ j.e1 ∧ 1.2 * j.bolt.d0 ≤ j.plate.b - (j.plate.x0 + ((j.plate.n2 : ℝ) - 1) * j.plate.px) ∧ 1.2 * j.bolt.d0 ≤ j.plate.x0 - j.gh ∧
      2.2 * j.bolt.d0 ≤ j.plate.py ∧ (0 < j.plate.px → 2.4 * j.bolt.d0 ≤ j.plate.px) := by
  have e2 : j.e2 = j.plate.b - (j.plate.x0 + ((j.plate.n2 : ℝ) - 1) * j.plate.px) := by
    unfold Joint.e2 Plate.eRight
    ring
  have a : (12 / 10 : ℝ) = 1.2 := by norm_num
  have b : (22 / 10 : ℝ) = 2.2 := by norm_num
  have c : (24 / 10 : ℝ) = 2.4 := by norm_num
  unfold Joint.checkPosition
  dsimp only
  rw [a, b, c, e2, show j.e2b = j.plate.x0 - j.gh from rfl]
  split_ifs with h1 h2 h3 h4 h5
  · simp [not_le.2 h1]
  · simp [not_le.2 h2]
  · simp [not_le.2 h3]
  · simp [not_le.2 h4]
  · simp [h5.1, not_le.2 h5.2]
  · simp only [true_iff]
    exact ⟨not_lt.1 h1, not_lt.1 h2, not_lt.1 h3, not_lt.1 h4, fun h => not_lt.1 fun h' => h5 ⟨h, h'⟩⟩

example : sampleJoint.checkPosition = true := by
  norm_num [Joint.checkPosition, Joint.e1, Joint.e2, Joint.e2b, Joint.centred, Plate.eTop, Plate.eRight, Plate.eLeft, sampleJoint, sampleBolt]

/-- **C116 (disagreement).** The lower edge of the plate and the upper edge of the beam are not checked, two columns at the same place are accepted, and a single column is rejected for a distance of
columns that does not exist. -/
theorem C116_violation :
    (∃ j : Joint, j.checkPosition = true ∧ j.plate.y0 < 0) ∧ (∃ j : Joint, j.checkPosition = true ∧ j.e1b < 0) ∧ (∃ j : Joint, j.checkPosition = true ∧ j.plate.n2 = 2 ∧ j.plate.px = 0) ∧
      ∃ j : Joint, j.checkPosition = false ∧ j.plate.n2 = 1 ∧ ({ j with plate := { j.plate with px := 0 } } : Joint).checkPosition = true := by
  refine ⟨⟨{ sampleJoint with plate := { sampleJoint.plate with y0 := -1 }, symm := false }, ?_, ?_⟩, ⟨{ sampleJoint with hb := 100 }, ?_, ?_⟩,
    ⟨{ sampleJoint with plate := { sampleJoint.plate with n2 := 2 } }, ?_, rfl, rfl⟩, ⟨{ sampleJoint with plate := { sampleJoint.plate with px := 1 } }, ?_, rfl, ?_⟩⟩ <;>
  norm_num [Joint.checkPosition, Joint.e1, Joint.e2, Joint.e2b, Joint.e1b, Joint.centred, Plate.eTop, Plate.eRight, Plate.eLeft, sampleJoint, sampleBolt]

/-- **C117 (part).** Without vertical symmetry reading the distance to the upper edge leaves the plate as it is. With it, the holes are at equal distances from the upper and lower edge after reading, and
the side distances and the lever arm are as before; reading again changes nothing. -/
theorem C117_partial (j : Joint) :
    (j.symm = false → j.centred = j) ∧ (j.symm = true → j.centred.plate.y0 = j.centred.plate.eTop ∧ 2 * j.e1 + ((j.plate.n1 : ℝ) - 1) * j.plate.py = j.plate.h) ∧
      j.centred.e2 = j.e2 ∧ j.centred.e2b = j.e2b ∧ j.centred.z = j.z ∧ j.centred.e1 = j.e1 ∧ j.centred.centred = j.centred ∧ j.e1 = j.centred.plate.eTop := by
  unfold Joint.e1 Joint.centred
  cases hs : j.symm
  · simp [hs]
  · refine ⟨fun h => absurd h (by simp), fun _ => ?_, rfl, rfl, rfl, rfl, rfl, rfl⟩
    simp only [if_true]
    constructor
    · unfold Plate.eTop
      ring
    · unfold Plate.eTop
      ring

/-- **C117 (disagreement).** With vertical symmetry reading the distance to the upper edge moves the holes of the plate whenever they are not in the middle: the distance the plate itself
reports changes. -/
theorem C117_violation {j : Joint} (hs : j.symm = true) (hy : 2 * j.plate.y0 + ((j.plate.n1 : ℝ) - 1) * j.plate.py ≠ j.plate.h) : j.centred.plate.eTop ≠ j.plate.eTop := by
  unfold Joint.centred Plate.eTop
  rw [if_pos hs]
  dsimp only
  intro h
  apply hy
  linarith

example : ∃ y : ℝ, 2 * y + ((sampleJoint.plate.n1 : ℝ) - 1) * sampleJoint.plate.py ≠ sampleJoint.plate.h := ⟨30, by norm_num [sampleJoint]⟩

end Metku.FinPlates
