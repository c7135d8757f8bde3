import Mathlib.Tactic.Linarith
import Mathlib.Tactic.Ring
import Mathlib.Tactic.NormNum
import Mathlib.Tactic.Positivity
import Mathlib.Tactic.FieldSimp
import Verif.Model.Wind

/-! Wind loads of EN 1991-1-4: C75-C77. -/
namespace Metku.Wind

set_option linter.unusedSectionVars false

/-- EN 1991-1-4 Table 4.1: roughness length, minimum height, and terrain factor (4.5), for category 0 that of the Finnish annex. -/
noncomputable def category : Fin 5 → ℝ × ℝ × ℝ
  | 0 => (0.003, 1, 0.18)
  | 1 => (0.01, 1, 0.19 * (0.01 / 0.05) ^ (0.07 : ℝ))
  | 2 => (0.05, 2, 0.19)
  | 3 => (0.3, 5, 0.19 * (0.3 / 0.05) ^ (0.07 : ℝ))
  | 4 => (1, 10, 0.19 * (1 / 0.05) ^ (0.07 : ℝ))

theorem terrain_eq (cat : Fin 5) : terrain cat = .ok ((category cat).1, (category cat).2.1) := by
  fin_cases cat <;> simp only [terrain, category] <;> norm_num

theorem kr_eq (cat : Fin 5) : (if (cat : ℕ) = 0 then (18 / 100 : ℝ) else 19 / 100 * ((category cat).1 / (5 / 100)) ^ (7 / 100 : ℝ)) = (category cat).2.2 := by
  fin_cases cat <;> simp only [category] <;> norm_num

theorem log_pos_of (cat : Fin 5) (z : ℝ) : 0 < Real.log (max (category cat).2.1 z / (category cat).1) := by
  apply Real.log_pos
  have h : 0 < (category cat).1 ∧ (category cat).1 < (category cat).2.1 := by
    fin_cases cat <;> simp only [category] <;> norm_num
  rw [lt_div_iff₀ h.1, one_mul]
  exact h.2.trans_le (le_max_left _ _)

/-- The peak velocity pressure is `½ ρ (kr vb)² (L² + 7 L)` with `L = ln(max(z, zmin)/z0)`. -/
theorem C75_value (cat : Fin 5) (z vb : ℝ) :
    let L := Real.log (max (category cat).2.1 z / (category cat).1)
    peakPressure z cat vb = .ok (0.625 * ((category cat).2.2 * vb) ^ 2 * (L ^ 2 + 7 * L)) := by
  have hL := (log_pos_of cat z).ne'
  simp only [peakPressure, turbulence, meanVelocity, roughness, terrain_eq, bind, Except.bind, pure, Except.pure, kr_eq]
  refine congrArg Except.ok ?_
  generalize Real.log (max (category cat).2.1 z / (category cat).1) = L at hL ⊢
  field_simp
  ring

/-- **C75.** In every terrain category the peak velocity pressure exists, is positive for wind, does not fall with height, is constant up to the minimum height, and grows with the square of the wind velocity; any other
category raises KeyError. -/
theorem C75 (cat : Fin 5) (vb : ℝ) (hv : vb ≠ 0) :
    ∃ q : ℝ → ℝ, (∀ z, peakPressure z cat vb = .ok (q z)) ∧ (∀ z, 0 < q z) ∧ Monotone q ∧ (∀ z, z ≤ (category cat).2.1 → q z = q (category cat).2.1) ∧
      StrictMonoOn q {z | (category cat).2.1 ≤ z} ∧ (∀ z s, peakPressure z cat (s * vb) = .ok (s ^ 2 * q z)) := by
  have hcat : 0 < (category cat).1 ∧ (category cat).1 < (category cat).2.1 ∧ 0 < (category cat).2.2 := by
    fin_cases cat <;> simp only [category] <;> refine ⟨by norm_num, by norm_num, ?_⟩ <;> positivity
  have hA : 0 < 0.625 * ((category cat).2.2 * vb) ^ 2 := by
    have : (category cat).2.2 * vb ≠ 0 := mul_ne_zero hcat.2.2.ne' hv
    positivity
  have hlog : ∀ {z z' : ℝ}, (category cat).2.1 ≤ z → z < z' → Real.log (z / (category cat).1) < Real.log (z' / (category cat).1) := by
    intro z z' h h'
    exact Real.log_lt_log (div_pos ((hcat.1.trans hcat.2.1).trans_le h) hcat.1) (div_lt_div_of_pos_right h' hcat.1)
  have hmono : ∀ {z z' : ℝ}, z ≤ z' → Real.log (max (category cat).2.1 z / (category cat).1) ≤ Real.log (max (category cat).2.1 z' / (category cat).1) := by
    intro z z' h
    exact Real.log_le_log (div_pos ((hcat.1.trans hcat.2.1).trans_le (le_max_left _ _)) hcat.1) (div_le_div_of_nonneg_right (max_le_max_left _ h) hcat.1.le)
  refine ⟨fun z => 0.625 * ((category cat).2.2 * vb) ^ 2 * (Real.log (max (category cat).2.1 z / (category cat).1) ^ 2 + 7 * Real.log (max (category cat).2.1 z / (category cat).1)), fun z => C75_value cat z vb, fun z => ?_, fun z z' h => ?_, fun z h => ?_, fun z hz z' hz' h => ?_, fun z s => ?_⟩
  · have := log_pos_of cat z
    positivity
  · have h1 := log_pos_of cat z
    have h2 := hmono h
    exact mul_le_mul_of_nonneg_left (by nlinarith) hA.le
  · simp only [max_eq_left h, max_self]
  · have hz1 : (category cat).2.1 ≤ z := hz
    have hz2 : (category cat).2.1 ≤ z' := hz'
    have h1 := log_pos_of cat z
    have h2 := hlog hz1 h
    simp only [max_eq_right hz1, max_eq_right hz2] at h1 ⊢
    exact mul_lt_mul_of_pos_left (by nlinarith) hA
  · rw [C75_value]
    refine congrArg Except.ok ?_
    ring

theorem C75_keyError (cat : ℕ) (h : 5 ≤ cat) (z vb : ℝ) : peakPressure z cat vb = .error .keyError := by
  match cat, h with
  | n + 5, _ => rfl

variable {K : Type} [Field K] [LinearOrder K] [IsStrictOrderedRing K]

/-- Broken line through the points of a table; constant after the last point. -/
def broken : List (K × K) → K → K
  | [], _ => 0
  | [p], _ => p.2
  | p :: q :: l, x => if x < q.1 then p.2 + (q.2 - p.2) * ((x - p.1) / (q.1 - p.1)) else broken (q :: l) x

/-- **C76 (partial).** For a wall of more than 10 m² the zones A, B, C follow each other along the side wall and fill it, with A reaching to e/5 and B to e; the coefficients are those of Table 7.1, interpolated in h/d, and each
pressure is the coefficient times the peak pressure. Missing: walls of at most 10 m². -/
theorem C76_partial (length width h qp : K) (dir : WindDir) (b d : K) (hdir : (dir = .long ∧ b = length ∧ d = width) ∨ (dir = .short ∧ b = width ∧ d = length)) (hb : 0 < b) (hd : 0 < d) (hh : 0 < h) (hA : 10 < b * h) :
    ∃ w, wallPressure length width h qp dir = .ok w ∧
      0 ≤ w.A.length ∧ 0 ≤ w.B.length ∧ 0 ≤ w.C.length ∧ w.A.length + w.B.length + w.C.length = d ∧
      w.A.length = min (min b (2 * h) / 5) d ∧ w.A.length + w.B.length = min (min b (2 * h)) d ∧ w.D.length = b ∧ w.E.length = b ∧
      w.A.cpe = -1.2 ∧ w.B.cpe = -0.8 ∧ w.C.cpe = -0.5 ∧
      w.D.cpe = broken [(0.25, 0.7), (1, 0.8)] (max 0.25 (h / d)) ∧ w.E.cpe = broken [(0.25, -0.3), (1, -0.5), (5, -0.7)] (max 0.25 (h / d)) ∧
      w.A.we = qp * w.A.cpe ∧ w.B.we = qp * w.B.cpe ∧ w.C.we = qp * w.C.cpe ∧ w.D.we = qp * w.D.cpe ∧ w.E.we = qp * w.E.cpe := by
  have he : 0 < min b (2 * h) := lt_min hb (by linarith)
  have hsel : wallPressure length width h qp dir = wallPressure b d h qp .long := by
    rcases hdir with ⟨rfl, rfl, rfl⟩ | ⟨rfl, rfl, rfl⟩ <;> rfl
  rw [hsel]
  simp only [wallPressure, bind, Except.bind, pure, Except.pure, if_neg hd.ne', if_pos hA]
  refine ⟨_, rfl, ?_⟩
  generalize min b (2 * h) = e at he
  generalize h / d = r
  simp only
  refine ⟨?_, ?_, ?_, ?_, ?_, ?_, trivial, trivial, ?_, ?_, ?_, ?_, ?_, trivial, trivial, trivial, trivial, trivial⟩
  · split_ifs <;> simp only <;> linarith
  · split_ifs <;> simp only <;> linarith
  · split_ifs <;> simp only <;> linarith
  · split_ifs <;> simp only <;> ring
  · split_ifs with h1 h2 <;> simp only
    · rw [min_eq_left (by linarith)]
    · rw [min_eq_right (by linarith)]
    · rw [min_eq_left (by linarith)]; ring
  · split_ifs with h1 h2 <;> simp only
    · rw [min_eq_left h1.le]; ring
    · rw [min_eq_right (by linarith)]; ring
    · rw [min_eq_right (by linarith)]; ring
  · norm_num
  · norm_num
  · norm_num
  · have q : (0.25 : K) = 25 / 100 := by norm_num
    rw [q]
    split_ifs with h1 h2 h3 <;> simp only [broken, interpolate]
    · rw [max_eq_right (by linarith), if_neg (by linarith)]; norm_num
    · rw [max_eq_right (by linarith), if_neg (by linarith)]; norm_num
    · rw [max_eq_right (by linarith), if_pos (by linarith)]; norm_num; ring
    · rw [max_eq_left (by linarith), if_pos (by norm_num)]; norm_num
  · have q : (0.25 : K) = 25 / 100 := by norm_num
    rw [q]
    split_ifs with h1 h2 h3 <;> simp only [broken, interpolate]
    · rw [max_eq_right (by linarith), if_neg (by linarith), if_neg (by linarith)]; norm_num
    · rw [max_eq_right (by linarith), if_neg (by linarith), if_pos (by linarith)]; norm_num; ring
    · rw [max_eq_right (by linarith), if_pos (by linarith)]; norm_num; ring
    · rw [max_eq_left (by linarith), if_pos (by norm_num)]; norm_num

/-- **C76 (violation).** A wall of at most 10 m² gets no wind at all, whatever the peak pressure. -/
theorem C76_violation (length width h qp : K) (hw : width ≠ 0) (hA : length * h ≤ 10) :
    ∃ w, wallPressure length width h qp .long = .ok w ∧ w.A.we = 0 ∧ w.B.we = 0 ∧ w.C.we = 0 ∧ w.D.we = 0 ∧ w.E.we = 0 := by
  simp only [wallPressure, bind, Except.bind, pure, Except.pure, if_neg hw, if_neg (not_lt.2 hA)]
  exact ⟨_, rfl, by simp⟩

/-- **C77 (partial).** Without parapets and for a depth of at least e/2, the zones of a flat roof have nonnegative sizes and fill it: two zones F and one G along the eave, F/G, H and I over the depth; the pressures are those of
Table 7.2. Missing: shallow roofs, parapets, monopitch roofs. -/
theorem C77_partial (d b h qp : K) (hb : 0 < b) (hd : 0 < d) (hde : min b (2 * h) / 2 ≤ d) :
    ∃ r, flatRoof d b h qp 0 = .ok r ∧ 2 * r.F.length + r.G.length = b ∧ r.H.length = b ∧ r.I.length = b ∧ r.F.length = min b (2 * h) / 4 ∧ r.G.width = r.F.width ∧
      r.F.width = min b (2 * h) / 10 ∧ r.F.width + r.H.width = min b (2 * h) / 2 ∧ r.F.width + r.H.width + r.I.width = d ∧ 0 ≤ r.G.length ∧ 0 ≤ r.I.width ∧
      r.F.cpe = .one (-1.8) ∧ r.G.cpe = .one (-1.2) ∧ r.H.cpe = .one (-0.7) ∧ r.I.cpe = .two 0.2 (-0.2) ∧
      r.F.we = .one (qp * -1.8) ∧ r.G.we = .one (qp * -1.2) ∧ r.H.we = .one (qp * -0.7) ∧ r.I.we = .two (qp * 0.2) (qp * -0.2) := by
  have hmin : min b (2 * h) ≤ b := min_le_left _ _
  simp only [flatRoof, if_neg hd.ne', if_true]
  refine ⟨_, rfl, ?_⟩
  generalize min b (2 * h) = e at hmin hde
  simp only
  refine ⟨by ring, trivial, trivial, by ring, trivial, by ring, by ring, by ring, by linarith, by linarith, ?_⟩
  norm_num

/-- **C77 (violation).** A shallow roof gets a zone I of negative width; a roof with parapets and every monopitch roof get no wind. -/
theorem C77_violation :
    (∃ r, flatRoof (4 : ℚ) 20 10 1 0 = .ok r ∧ r.I.width < 0) ∧
    (∀ (d b h qp hp : K), d ≠ 0 → hp ≠ 0 → ∃ r, flatRoof d b h qp hp = .ok r ∧ r.F.we = .one 0 ∧ r.G.we = .one 0 ∧ r.H.we = .one 0 ∧ r.I.we = .one 0) ∧
    (∀ (l w h qp : K) (angle : ℕ) (p : List K), monopitchPressures l w h qp angle = .ok p → ∀ x ∈ p, x = 0) := by
  refine ⟨?_, ?_, ?_⟩
  · refine ⟨_, rfl, ?_⟩
    norm_num
  · intro d b h qp hp hd hhp
    simp only [flatRoof, if_neg hd, if_neg hhp]
    exact ⟨_, rfl, rfl, rfl, rfl, rfl⟩
  · intro l w h qp angle p hp x hx
    unfold monopitchPressures at hp
    simp only at hp
    split_ifs at hp
    all_goals
      simp only [Except.ok.injEq] at hp
      subst hp
      rw [List.eq_of_mem_replicate hx, mul_zero]

/-- Lower and upper value of a coefficient. -/
def Cpe.lo : Cpe K → K
  | .one c => c
  | .two l _ => l

def Cpe.hi : Cpe K → K
  | .one c => c
  | .two _ u => u

/-- EN 1991-1-4 Table 7.3a, wind on the low eave: suction values of the zones F, G, H over the pitch angle, for 10 m² and 1 m², from 15 degrees. -/
def suction0 : List (List (K × K)) :=
  [[(15, -0.9), (30, -0.5), (45, 0)], [(15, -2), (30, -1.5), (45, 0)], [(15, -0.8), (30, -0.5), (45, 0)], [(15, -1.5), (30, -1.5), (45, 0)], [(15, -0.3), (30, -0.2), (45, 0)], [(15, -0.3), (30, -0.2), (45, 0)]]

/-- The same, pressure values. -/
def pressure0 : List (List (K × K)) :=
  [[(15, 0.2), (30, 0.7), (45, 0.7), (60, 0.7), (75, 0.8)], [(15, 0.2), (30, 0.7), (45, 0.7), (60, 0.7), (75, 0.8)], [(15, 0.2), (30, 0.7), (45, 0.7), (60, 0.7), (75, 0.8)],
   [(15, 0.2), (30, 0.7), (45, 0.7), (60, 0.7), (75, 0.8)], [(15, 0.2), (30, 0.4), (45, 0.6), (60, 0.7), (75, 0.8)], [(15, 0.2), (30, 0.4), (45, 0.6), (60, 0.7), (75, 0.8)]]

/-- Wind on the high eave, from 5 degrees. -/
def suction180 : List (List (K × K)) :=
  [[(5, -2.3), (15, -2.5), (30, -1.1), (45, -0.6), (60, -0.5), (75, -0.5)], [(5, -2.5), (15, -2.8), (30, -2.3), (45, -1.3), (60, -1), (75, -1)],
   [(5, -1.3), (15, -1.3), (30, -0.8), (45, -0.5), (60, -0.5), (75, -0.5)], [(5, -2), (15, -2), (30, -1.5), (45, -0.5), (60, -0.5), (75, -0.5)],
   [(5, -0.8), (15, -0.9), (30, -0.8), (45, -0.7), (60, -0.5), (75, -0.5)], [(5, -1.2), (15, -1.2), (30, -0.8), (45, -0.7), (60, -0.5), (75, -0.5)]]

/-- The six coefficients of the zones F, G, H. -/
def six (z : ZoneCpe K × ZoneCpe K × ZoneCpe K) : List (Cpe K) := [z.1.cpe10, z.1.cpe1, z.2.1.cpe10, z.2.1.cpe1, z.2.2.cpe10, z.2.2.cpe1]

set_option maxHeartbeats 4000000 in
/-- **C78 (partial).** The coefficients of monopitch roofs are those of Table 7.3a, interpolated linearly between its pitch angles: for wind on the low eave from 15 degrees, the suction up to 60 degrees and the pressure; for wind on
the high eave from 5 degrees. Missing: wind on the low eave between 5 and 15 degrees, wind along the ridge. -/
theorem C78_partial (a : K) :
    (15 ≤ a → ∃ z, monoRoof 0 a = some z ∧ (six z).map Cpe.hi = pressure0.map (fun t => broken t a) ∧ (a < 60 → (six z).map Cpe.lo = suction0.map (fun t => broken t a))) ∧
    (5 ≤ a → ∃ z, monoRoof 180 a = some z ∧ (six z).map Cpe.hi = suction180.map (fun t => broken t a) ∧ (six z).map Cpe.lo = suction180.map (fun t => broken t a)) := by
  have n180 : ¬((180 : ℕ) = 0) := by decide
  constructor
  · intro h15
    have h5 : 5 ≤ a := by linarith
    rcases le_or_gt 75 a with h1 | h1
    · have g : ¬a < 30 ∧ ¬a < 45 ∧ ¬a < 60 ∧ ¬a < 75 := ⟨by linarith, by linarith, by linarith, by linarith⟩
      refine ⟨_, by (simp only [monoRoof, if_pos h1, if_true]; rfl), ?_, fun h => absurd h g.2.2.1⟩
      simp only [six, pressure0, List.map_cons, List.map_nil, Cpe.hi, broken, g, if_false]
      norm_num
    rcases le_or_gt 60 a with h2 | h2
    · have g : ¬a < 30 ∧ ¬a < 45 ∧ ¬a < 60 := ⟨by linarith, by linarith, by linarith⟩
      refine ⟨_, by (simp only [monoRoof, if_neg h1.not_ge, if_pos h2, if_true]; rfl), ?_, fun h => absurd h g.2.2⟩
      simp only [six, pressure0, List.map_cons, List.map_nil, Cpe.hi, broken, g, h1, if_false, if_true, interpolate, List.cons.injEq, and_true]
      refine ⟨?_, ?_, ?_, ?_, ?_, ?_⟩ <;> norm_num <;> ring
    rcases le_or_gt 45 a with h3 | h3
    · have g : ¬a < 30 ∧ ¬a < 45 := ⟨by linarith, by linarith⟩
      refine ⟨_, by (simp only [monoRoof, if_neg h1.not_ge, if_neg h2.not_ge, if_pos h3, if_true]; rfl), ?_, fun _ => ?_⟩
      · simp only [six, pressure0, List.map_cons, List.map_nil, Cpe.hi, broken, g, h2, if_false, if_true, interpolate, List.cons.injEq, and_true]
        refine ⟨?_, ?_, ?_, ?_, ?_, ?_⟩ <;> norm_num <;> ring
      · simp only [six, suction0, List.map_cons, List.map_nil, Cpe.lo, broken, g, if_false]
    rcases le_or_gt 30 a with h4 | h4
    · have g : ¬a < 30 := by linarith
      refine ⟨_, by (simp only [monoRoof, if_neg h1.not_ge, if_neg h2.not_ge, if_neg h3.not_ge, if_pos h4, if_true]; rfl), ?_, fun _ => ?_⟩
      · simp only [six, pressure0, List.map_cons, List.map_nil, Cpe.hi, broken, g, h3, if_false, if_true, interpolate, List.cons.injEq, and_true]
        refine ⟨?_, ?_, ?_, ?_, ?_, ?_⟩ <;> norm_num <;> ring
      · simp only [six, suction0, List.map_cons, List.map_nil, Cpe.lo, broken, g, h3, if_false, if_true, interpolate, List.cons.injEq, and_true]
        refine ⟨?_, ?_, ?_, ?_, ?_, ?_⟩ <;> norm_num <;> ring
    · refine ⟨_, by (simp only [monoRoof, if_neg h1.not_ge, if_neg h2.not_ge, if_neg h3.not_ge, if_neg h4.not_ge, if_pos h5, if_true]; rfl), ?_, fun _ => ?_⟩
      · simp only [six, pressure0, List.map_cons, List.map_nil, Cpe.hi, broken, h4, if_true, interpolate, List.cons.injEq, and_true]
        refine ⟨?_, ?_, ?_, ?_, ?_, ?_⟩ <;> norm_num <;> ring
      · simp only [six, suction0, List.map_cons, List.map_nil, Cpe.lo, broken, h4, if_true, interpolate, List.cons.injEq, and_true]
        refine ⟨?_, ?_, ?_, ?_, ?_, ?_⟩ <;> norm_num <;> ring
  · intro h5
    rcases le_or_gt 75 a with h1 | h1
    · have g : ¬a < 15 ∧ ¬a < 30 ∧ ¬a < 45 ∧ ¬a < 60 ∧ ¬a < 75 := ⟨by linarith, by linarith, by linarith, by linarith, by linarith⟩
      refine ⟨_, by (simp only [monoRoof, if_pos h1, if_neg n180, if_true]; rfl), ?_, ?_⟩ <;>
        simp only [six, suction180, List.map_cons, List.map_nil, Cpe.hi, Cpe.lo, broken, g, if_false] <;> norm_num
    rcases le_or_gt 60 a with h2 | h2
    · have g : ¬a < 15 ∧ ¬a < 30 ∧ ¬a < 45 ∧ ¬a < 60 := ⟨by linarith, by linarith, by linarith, by linarith⟩
      refine ⟨_, by (simp only [monoRoof, if_neg h1.not_ge, if_pos h2, if_neg n180, if_true]; rfl), ?_, ?_⟩ <;>
        simp only [six, suction180, List.map_cons, List.map_nil, Cpe.hi, Cpe.lo, broken, g, h1, if_false, if_true] <;> norm_num
    rcases le_or_gt 45 a with h3 | h3
    · have g : ¬a < 15 ∧ ¬a < 30 ∧ ¬a < 45 := ⟨by linarith, by linarith, by linarith⟩
      refine ⟨_, by (simp only [monoRoof, if_neg h1.not_ge, if_neg h2.not_ge, if_pos h3, if_neg n180, if_true]; rfl), ?_, ?_⟩ <;>
      · simp only [six, suction180, List.map_cons, List.map_nil, Cpe.hi, Cpe.lo, broken, g, h2, if_false, if_true, interpolate, List.cons.injEq, and_true]
        refine ⟨?_, ?_, ?_, ?_, ?_, ?_⟩ <;> norm_num <;> ring
    rcases le_or_gt 30 a with h4 | h4
    · have g : ¬a < 15 ∧ ¬a < 30 := ⟨by linarith, by linarith⟩
      refine ⟨_, by (simp only [monoRoof, if_neg h1.not_ge, if_neg h2.not_ge, if_neg h3.not_ge, if_pos h4, if_neg n180, if_true]; rfl), ?_, ?_⟩ <;>
      · simp only [six, suction180, List.map_cons, List.map_nil, Cpe.hi, Cpe.lo, broken, g, h3, if_false, if_true, interpolate, List.cons.injEq, and_true]
        refine ⟨?_, ?_, ?_, ?_, ?_, ?_⟩ <;> norm_num <;> ring
    rcases le_or_gt 15 a with h6 | h6
    · have g : ¬a < 15 := by linarith
      refine ⟨_, by (simp only [monoRoof, if_neg h1.not_ge, if_neg h2.not_ge, if_neg h3.not_ge, if_neg h4.not_ge, if_pos h5, if_pos h6, if_neg n180, if_true]; rfl), ?_, ?_⟩ <;>
      · simp only [six, suction180, List.map_cons, List.map_nil, Cpe.hi, Cpe.lo, broken, g, h4, if_false, if_true, interpolate, List.cons.injEq, and_true]
        refine ⟨?_, ?_, ?_, ?_, ?_, ?_⟩ <;> norm_num <;> ring
    · refine ⟨_, by (simp only [monoRoof, if_neg h1.not_ge, if_neg h2.not_ge, if_neg h3.not_ge, if_neg h4.not_ge, if_pos h5, if_neg h6.not_ge, if_neg n180, if_true]; rfl), ?_, ?_⟩ <;>
      · simp only [six, suction180, List.map_cons, List.map_nil, Cpe.hi, Cpe.lo, broken, h6, if_true, interpolate, List.cons.injEq, and_true]
        refine ⟨?_, ?_, ?_, ?_, ?_, ?_⟩ <;> norm_num <;> ring

/-- **C78 (violation).** At 5 degrees, where Table 7.3a has suction -1.7 and pressure 0 in zone F for wind on the low eave, the suction is less than -1.2 in size and the pressure is negative. -/
theorem C78_violation : ∃ z, monoRoof 0 (5 : K) = some z ∧ -1.2 < z.1.cpe10.lo ∧ z.1.cpe10.hi < 0 := by
  have h : ¬(75 : K) ≤ 5 ∧ ¬(60 : K) ≤ 5 ∧ ¬(45 : K) ≤ 5 ∧ ¬(30 : K) ≤ 5 := by norm_num
  refine ⟨_, by (simp only [monoRoof, if_neg h.1, if_neg h.2.1, if_neg h.2.2.1, if_neg h.2.2.2, if_true, le_refl]; rfl), ?_, ?_⟩ <;>
    simp only [Cpe.lo, Cpe.hi, interpolate] <;> norm_num

/-- A wall and a roof that meet the hypotheses. -/
example : (0 : ℚ) < 15 ∧ (0 : ℚ) < 12 ∧ (0 : ℚ) < 7 ∧ (10 : ℚ) < 15 * 7 ∧ min (15 : ℚ) (2 * 7) / 2 ≤ 12 := by norm_num

end Metku.Wind
