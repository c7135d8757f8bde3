import Verif.Model.Bench
import Mathlib.Tactic.Linarith
import Mathlib.Tactic.Positivity
import Mathlib.Tactic.Ring
import Mathlib.Tactic.FieldSimp
import Mathlib.Algebra.Order.Group.MinMax

/-!
Properties of the benchmark trusses (model: `Verif.Model.Bench`).
-/
namespace Metku.Bench

open Metku

/-! ### Adding variables -/

/-- `add` makes an unlocked variable a variable of the problem, behind the others; a variable that is already there is not added again and no other variable changes. -/
theorem add_variable_spec (p : Problem) (v : PVar) (hv : v.locked = false) :
    v ∈ (p.add v).vars ∧ ((p.add v).add v) = p.add v ∧
    (v ∉ p.all → (p.add v).vars = p.vars ++ [v]) ∧ (v ∈ p.all → (p.add v).vars = p.vars) := by
  unfold Problem.add
  by_cases h : v ∈ p.all
  · simp only [if_pos h]
    refine ⟨?_, ?_, fun h' => absurd h h', fun _ => trivial⟩
    · simp [Problem.vars, h, hv]
    · trivial
  · simp only [if_neg h]
    have h1 : v ∈ p.all ++ [v] := by simp
    refine ⟨?_, by rw [if_pos h1], fun _ => ?_, fun h' => absurd h' h⟩
    · simp [Problem.vars, hv]
    · simp [Problem.vars, hv]

/-- `add_variable` and `add_variables` never add anything. -/
theorem add_variable_viol (p : Problem) (l : List PVar) : p.addVariables l = p := by
  unfold Problem.addVariables
  induction l with
  | nil => rfl
  | cons v l ih => rw [List.foldl_cons]; exact ih

example : ((⟨[⟨1, false⟩]⟩ : Problem).addVariables [⟨2, false⟩]).vars = [⟨1, false⟩] ∧
    ((⟨[⟨1, false⟩]⟩ : Problem).add ⟨2, false⟩).vars = [⟨1, false⟩, ⟨2, false⟩] := by
  rw [add_variable_viol]; decide

/-- Setting the variables to a list without repetitions gives the problem exactly its unlocked variables, in this order. -/
theorem set_variables (p : Problem) (l : List PVar) (hl : l.Nodup) :
    (p.setVars l).all = l ∧ (p.setVars l).vars = l.filter fun v => !v.locked := by
  have key : ∀ (l pre : List PVar), (pre ++ l).Nodup → (l.foldl Problem.add ⟨pre⟩).all = pre ++ l := by
    intro l
    induction l with
    | nil => intro pre _; simp
    | cons v l ih =>
      intro pre h
      rw [List.foldl_cons]
      have hv : v ∉ pre := by
        intro hm
        have := (List.nodup_append.1 h).2.2 v hm v List.mem_cons_self
        exact this rfl
      rw [show Problem.add ⟨pre⟩ v = ⟨pre ++ [v]⟩ from if_neg hv, ih (pre ++ [v]) (by simpa using h)]
      simp
  have := key l [] (by simpa using hl)
  simp only [List.nil_append] at this
  refine ⟨this, ?_⟩
  unfold Problem.vars
  rw [show (p.setVars l).all = l from this]

example : ((⟨[]⟩ : Problem).setVars [⟨1, false⟩, ⟨2, true⟩, ⟨3, false⟩]).vars =
    [⟨1, false⟩, ⟨3, false⟩] := (set_variables _ _ (by decide)).2

/-- The three bar truss with areas from a list has variables without bounds: no values can be substituted. -/
theorem three_discrete_viol (x y : ℝ) : clip [x, y] threeBarDiscrete = .error .typeError := rfl

/-- With a list of values the substituted value lies between the smallest and the largest one, and values of the list are kept. -/
theorem three_discrete_partial (a : ℝ) (l : List ℝ) (x : ℝ) :
    ∃ y, clip [x] [discreteBounds (some (a :: l))] = .ok [y] ∧
      (∃ u ∈ a :: l, u ≤ y) ∧ (∃ u ∈ a :: l, y ≤ u) ∧ (x ∈ a :: l → y = x) := by
  have hmin : ∀ (l : List ℝ) (a : ℝ), l.foldl min a ∈ a :: l ∧ ∀ b ∈ a :: l, l.foldl min a ≤ b := by
    intro l
    induction l with
    | nil => intro a; simp
    | cons c l ih =>
      intro a
      rw [List.foldl_cons]
      obtain ⟨h1, h2⟩ := ih (min a c)
      constructor
      · rcases List.mem_cons.1 h1 with h | h
        · rw [h]; rcases min_choice a c with h' | h' <;> rw [h'] <;> simp
        · simp [h]
      · intro b hb
        rcases List.mem_cons.1 hb with rfl | hb
        · exact le_trans (h2 _ List.mem_cons_self) (min_le_left _ _)
        · rcases List.mem_cons.1 hb with rfl | hb
          · exact le_trans (h2 _ List.mem_cons_self) (min_le_right _ _)
          · exact h2 b (List.mem_cons_of_mem _ hb)
  have hmax : ∀ (l : List ℝ) (a : ℝ), l.foldl max a ∈ a :: l ∧ ∀ b ∈ a :: l, b ≤ l.foldl max a := by
    intro l
    induction l with
    | nil => intro a; simp
    | cons c l ih =>
      intro a
      rw [List.foldl_cons]
      obtain ⟨h1, h2⟩ := ih (max a c)
      constructor
      · rcases List.mem_cons.1 h1 with h | h
        · rw [h]; rcases max_choice a c with h' | h' <;> rw [h'] <;> simp
        · simp [h]
      · intro b hb
        rcases List.mem_cons.1 hb with rfl | hb
        · exact le_trans (le_max_left _ _) (h2 _ List.mem_cons_self)
        · rcases List.mem_cons.1 hb with rfl | hb
          · exact le_trans (le_max_right _ _) (h2 _ List.mem_cons_self)
          · exact h2 b (List.mem_cons_of_mem _ hb)
  obtain ⟨m1, m2⟩ := hmin l a
  obtain ⟨n1, n2⟩ := hmax l a
  refine ⟨max (l.foldl min a) (min x (l.foldl max a)), rfl, ⟨_, m1, le_max_left _ _⟩,
    ⟨_, n1, max_le (m2 _ n1) (min_le_right _ _)⟩, ?_⟩
  intro hx
  rw [min_eq_left (n2 x hx), max_eq_right (m2 x hx)]

example : ∃ y, clip [5] [discreteBounds (some [2, 5, 9])] = .ok [y] ∧ y = 5 := by
  obtain ⟨y, h, _, _, h3⟩ := three_discrete_partial 2 [5, 9] 5
  exact ⟨y, h, h3 (by simp)⟩

/-! ### Constraints -/

theorem foldl_max_le (l : List ℝ) : ∀ (a c : ℝ), l.foldl max a ≤ c ↔ ∀ b ∈ a :: l, b ≤ c := by
  induction l with
  | nil => intro a c; simp
  | cons d l ih =>
    intro a c
    rw [List.foldl_cons, ih]
    simp [and_assoc]

theorem le_foldl_min (l : List ℝ) : ∀ (a c : ℝ), c ≤ l.foldl min a ↔ ∀ b ∈ a :: l, c ≤ b := by
  induction l with
  | nil => intro a c; simp
  | cons d l ih =>
    intro a c
    rw [List.foldl_cons, ih]
    simp [and_assoc]

/-- The larger of the maximum and the absolute value of the minimum bounds all absolute values. -/
theorem range_le (a b : ℝ) (l m : List ℝ) (d : ℝ) (hd : 0 < d)
    (hlo : ∀ y ∈ b :: m, ∃ x ∈ a :: l, y ≤ x) :
    max (pyMax a l) |pyMin b m| / d - 1 ≤ 0 ↔
      (∀ x ∈ a :: l, x ≤ d) ∧ ∀ y ∈ b :: m, -d ≤ y := by
  rw [sub_nonpos, div_le_one hd, max_le_iff, pyMax, foldl_max_le, abs_le, pyMin, le_foldl_min]
  constructor
  · rintro ⟨h1, h2, _⟩; exact ⟨h1, h2⟩
  · rintro ⟨h1, h2⟩
    refine ⟨h1, h2, ?_⟩
    have h3 : m.foldl min b ≤ b := (le_foldl_min m b _).1 le_rfl b List.mem_cons_self
    obtain ⟨x, hx, hyx⟩ := hlo b List.mem_cons_self
    exact le_trans h3 (le_trans hyx (h1 x hx))

/-- The displacements of the nodes of a bar. -/
def Bar.nodes (b : Bar) : List Disp := b.d0 :: b.ds

theorem axial_iff (n r : ℝ) (hr : 0 < r) : (-n / r - 1 ≤ 0 ∧ n / r - 1 ≤ 0) ↔ |n| ≤ r := by
  rw [sub_nonpos, sub_nonpos, div_le_one hr, div_le_one hr, abs_le]
  constructor
  · rintro ⟨h1, h2⟩; exact ⟨by linarith, h2⟩
  · rintro ⟨h1, h2⟩; exact ⟨by linarith, h2⟩

/-- A design of the ten bar truss satisfies all constraints exactly if the stress of every bar is at most the strength in absolute value and every vertical displacement of a node of a bar is at most the limit in absolute value. -/
theorem ten_bar_feasible (delta : ℝ) (hd : 0 < delta) (bars : List Bar)
    (hb : ∀ b ∈ bars, 0 < b.a ∧ 0 < b.fy) :
    (∀ g ∈ tenCons delta bars, g ≤ 0) ↔
      ∀ b ∈ bars, |b.n / b.a| ≤ b.fy ∧ ∀ d ∈ b.nodes, |d.dy| ≤ delta := by
  have hone : ∀ b ∈ bars, (tenCompression b ≤ 0 ∧ tenTension b ≤ 0 ∧ tenDisp delta b ≤ 0) ↔
      (|b.n / b.a| ≤ b.fy ∧ ∀ d ∈ b.nodes, |d.dy| ≤ delta) := by
    intro b hbm
    obtain ⟨ha, hf⟩ := hb b hbm
    have h1 := axial_iff b.n (b.a * b.fy) (mul_pos ha hf)
    have h2 : |b.n| ≤ b.a * b.fy ↔ |b.n / b.a| ≤ b.fy := by
      rw [abs_div, abs_of_pos ha, div_le_iff₀ ha, mul_comm]
    have h3 : tenDisp delta b ≤ 0 ↔ ∀ d ∈ b.nodes, |d.dy| ≤ delta := by
      unfold tenDisp
      rw [range_le _ _ _ _ _ hd (fun y hy => ⟨y, hy, le_rfl⟩)]
      constructor
      · rintro ⟨g1, g2⟩ d hdm
        have : d.dy ∈ b.d0.dy :: b.ds.map Disp.dy := by
          rw [← List.map_cons]; exact List.mem_map_of_mem hdm
        exact abs_le.2 ⟨g2 _ this, g1 _ this⟩
      · intro g
        constructor
        · intro x hx
          rw [← List.map_cons (f := Disp.dy)] at hx
          obtain ⟨d, hdm, rfl⟩ := List.mem_map.1 hx
          exact (abs_le.1 (g d hdm)).2
        · intro x hx
          rw [← List.map_cons (f := Disp.dy)] at hx
          obtain ⟨d, hdm, rfl⟩ := List.mem_map.1 hx
          exact (abs_le.1 (g d hdm)).1
    rw [← and_assoc, h3, ← h2, ← h1]
    rfl
  constructor
  · intro h b hbm
    refine (hone b hbm).1 ⟨?_, ?_, ?_⟩ <;>
      exact h _ (List.mem_flatMap.2 ⟨b, hbm, by simp⟩)
  · intro h g hg
    obtain ⟨b, hbm, hg⟩ := List.mem_flatMap.1 hg
    obtain ⟨h1, h2, h3⟩ := (hone b hbm).2 (h b hbm)
    simp only [List.mem_cons, List.not_mem_nil, or_false] at hg
    rcases hg with rfl | rfl | rfl
    · exact h1
    · exact h2
    · exact h3

/-- The other formulation of the ten bar truss limits all components of the displacements, also the horizontal ones and the rotations. -/
theorem simple_ten_feasible (delta : ℝ) (hd : 0 < delta) (bars : List Bar)
    (hb : ∀ b ∈ bars, 0 < b.a ∧ 0 < b.fy) :
    (∀ g ∈ simpleCons delta bars, g ≤ 0) ↔
      ∀ b ∈ bars, |b.n / b.a| ≤ b.fy ∧
        ∀ d ∈ b.nodes, |d.dx| ≤ delta ∧ |d.dy| ≤ delta ∧ |d.rz| ≤ delta := by
  have hone : ∀ b ∈ bars, (tenCompression b ≤ 0 ∧ tenTension b ≤ 0 ∧ simpleDisp delta b ≤ 0) ↔
      (|b.n / b.a| ≤ b.fy ∧
        ∀ d ∈ b.nodes, |d.dx| ≤ delta ∧ |d.dy| ≤ delta ∧ |d.rz| ≤ delta) := by
    intro b hbm
    obtain ⟨ha, hf⟩ := hb b hbm
    have h1 := axial_iff b.n (b.a * b.fy) (mul_pos ha hf)
    have h2 : |b.n| ≤ b.a * b.fy ↔ |b.n / b.a| ≤ b.fy := by
      rw [abs_div, abs_of_pos ha, div_le_iff₀ ha, mul_comm]
    have htb : ∀ d : Disp, (d.top ≤ delta ∧ -delta ≤ d.bot) ↔
        (|d.dx| ≤ delta ∧ |d.dy| ≤ delta ∧ |d.rz| ≤ delta) := by
      intro d
      simp only [Disp.top, Disp.bot, max_le_iff, le_min_iff, abs_le]
      tauto
    have hbt : ∀ d : Disp, d.bot ≤ d.top := fun d =>
      le_trans (min_le_right _ _) (le_max_right _ _)
    have h3 : simpleDisp delta b ≤ 0 ↔
        ∀ d ∈ b.nodes, |d.dx| ≤ delta ∧ |d.dy| ≤ delta ∧ |d.rz| ≤ delta := by
      unfold simpleDisp
      rw [range_le _ _ _ _ _ hd (by
        intro y hy
        rw [← List.map_cons (f := Disp.bot)] at hy
        obtain ⟨d, hdm, rfl⟩ := List.mem_map.1 hy
        refine ⟨d.top, ?_, hbt d⟩
        rw [← List.map_cons (f := Disp.top)]
        exact List.mem_map_of_mem hdm)]
      rw [← List.map_cons (f := Disp.top), ← List.map_cons (f := Disp.bot)]
      simp only [List.forall_mem_map]
      constructor
      · rintro ⟨g1, g2⟩ d hdm
        exact (htb d).1 ⟨g1 d hdm, g2 d hdm⟩
      · intro g
        exact ⟨fun d hdm => ((htb d).2 (g d hdm)).1, fun d hdm => ((htb d).2 (g d hdm)).2⟩
    rw [← and_assoc, h3, ← h2, ← h1]
    rfl
  constructor
  · intro h b hbm
    refine (hone b hbm).1 ⟨?_, ?_, ?_⟩ <;>
      exact h _ (List.mem_flatMap.2 ⟨b, hbm, by simp⟩)
  · intro h g hg
    obtain ⟨b, hbm, hg⟩ := List.mem_flatMap.1 hg
    obtain ⟨h1, h2, h3⟩ := (hone b hbm).2 (h b hbm)
    simp only [List.mem_cons, List.not_mem_nil, or_false] at hg
    rcases hg with rfl | rfl | rfl
    · exact h1
    · exact h2
    · exact h3

/-- A bar with given force and horizontal displacement. -/
noncomputable def demoBar (n dx : ℝ) : Bar :=
  { n := n, a := 10, fy := 100, nrd := 1000, e := 70000, len := 500, d0 := ⟨0, 0, 0⟩,
    ds := [⟨dx, -20, 0⟩] }

/-- The two formulations disagree: a bar whose node moves sideways by more than the limit is feasible in one and infeasible in the other. -/
theorem ten_bar_agree_viol : ∃ (bars : List Bar) (delta : ℝ), 0 < delta ∧
    (∀ g ∈ tenCons delta bars, g ≤ 0) ∧ ¬ ∀ g ∈ simpleCons delta bars, g ≤ 0 := by
  have hb : ∀ b ∈ [demoBar (-900) 60], 0 < b.a ∧ 0 < b.fy := by
    intro b hb; simp at hb; subst hb; norm_num [demoBar]
  refine ⟨[demoBar (-900) 60], 50, by norm_num, ?_, ?_⟩
  · rw [ten_bar_feasible 50 (by norm_num) _ hb]
    intro b hbm
    simp at hbm; subst hbm
    refine ⟨by norm_num [demoBar, abs_le], ?_⟩
    intro d hd
    simp [Bar.nodes, demoBar] at hd
    rcases hd with rfl | rfl <;> norm_num
  · rw [simple_ten_feasible 50 (by norm_num) _ hb]
    intro h
    have := ((h _ List.mem_cons_self).2 ⟨60, -20, 0⟩ (by simp [Bar.nodes, demoBar])).1
    norm_num at this

/-- A design of the three bar truss satisfies all constraints exactly if no axial force exceeds the resistance in absolute value and no compression the buckling load `100 E A² / (8 L²)`. -/
theorem three_bar_feasible (bars : List Bar)
    (hb : ∀ b ∈ bars, 0 < b.a ∧ 0 < b.nrd ∧ 0 < b.e ∧ 0 < b.len) :
    (∀ g ∈ threeCons bars, g ≤ 0) ↔
      ∀ b ∈ bars, |b.n| ≤ b.nrd ∧ -b.n ≤ 100 * b.e * b.a ^ 2 / (8 * b.len ^ 2) := by
  have hone : ∀ b ∈ bars, ((threeGen b).1 ≤ 0 ∧ (threeGen b).2.1 ≤ 0 ∧ (threeGen b).2.2 ≤ 0) ↔
      (|b.n| ≤ b.nrd ∧ -b.n ≤ 100 * b.e * b.a ^ 2 / (8 * b.len ^ 2)) := by
    intro b hbm
    obtain ⟨ha, hr, he, hl⟩ := hb b hbm
    have h1 := axial_iff b.n b.nrd hr
    have hcr : 0 < 100 * b.e * b.a / (8 * b.len ^ 2) := by positivity
    have h2 : (threeGen b).2.2 ≤ 0 ↔ -b.n ≤ 100 * b.e * b.a ^ 2 / (8 * b.len ^ 2) := by
      simp only [threeGen]
      rw [sub_nonpos, div_le_one hcr, div_le_iff₀ ha]
      rw [show 100 * b.e * b.a / (8 * b.len ^ 2) * b.a = 100 * b.e * b.a ^ 2 / (8 * b.len ^ 2) by
        ring]
    rw [h2, ← h1]
    simp only [threeGen]
    tauto
  constructor
  · intro h b hbm
    refine (hone b hbm).1 ⟨?_, ?_, ?_⟩ <;>
      exact h _ (List.mem_flatMap.2 ⟨b, hbm, by simp [threeNamed]⟩)
  · intro h g hg
    obtain ⟨b, hbm, hg⟩ := List.mem_flatMap.1 hg
    obtain ⟨h1, h2, h3⟩ := (hone b hbm).2 (h b hbm)
    simp only [threeNamed, List.map_cons, List.map_nil, List.mem_cons, List.not_mem_nil, or_false] at hg
    rcases hg with rfl | rfl | rfl
    · exact h1
    · exact h2
    · exact h3

/-- The constraints of the fifteen bar truss limit the axial forces by the resistances. -/
theorem fifteen_bar_feasible (bars : List Bar) (hb : ∀ b ∈ bars, 0 < b.nrd) :
    (∀ g ∈ fifteenCons bars, g ≤ 0) ↔ ∀ b ∈ bars, |b.n| ≤ b.nrd := by
  constructor
  · intro h b hbm
    refine (axial_iff b.n b.nrd (hb b hbm)).1 ⟨?_, ?_⟩ <;>
      exact h _ (List.mem_flatMap.2 ⟨b, hbm, by simp [threeNamed, threeGen]⟩)
  · intro h g hg
    obtain ⟨b, hbm, hg⟩ := List.mem_flatMap.1 hg
    obtain ⟨h1, h2⟩ := (axial_iff b.n b.nrd (hb b hbm)).2 (h b hbm)
    simp only [threeNamed, threeGen, List.take_succ_cons, List.take_zero, List.map_cons, List.map_nil,
      List.mem_cons, List.not_mem_nil, or_false] at hg
    rcases hg with rfl | rfl
    · exact h2
    · exact h1

/-- The names are interchanged: for every bar compressed beyond its resistance the constraint called "Compression" is satisfied and the one called "Tension" is violated. -/
theorem three_names_viol (b : Bar) (hr : 0 < b.nrd) (hn : b.n < -b.nrd) :
    (∃ g, ("Compression", g) ∈ threeNamed b ∧ g < 0) ∧ ∃ g, ("Tension", g) ∈ threeNamed b ∧ 0 < g := by
  refine ⟨⟨(threeGen b).1, by simp [threeNamed], ?_⟩, ⟨(threeGen b).2.1, by simp [threeNamed], ?_⟩⟩
  · have : b.n / b.nrd < 0 := div_neg_of_neg_of_pos (by linarith) hr
    simp only [threeGen]; linarith
  · have : 1 < -b.n / b.nrd := by rw [lt_div_iff₀ hr]; linarith
    simp only [threeGen]; linarith

example : ∃ g, ("Compression", g) ∈ threeNamed (demoBar (-2000) 0) ∧ g < 0 :=
  (three_names_viol (demoBar (-2000) 0) (by norm_num [demoBar]) (by norm_num [demoBar])).1

example : ∀ g ∈ threeCons [demoBar (-300) 0, demoBar 1000 0], g ≤ 0 := by
  rw [three_bar_feasible _ (by
    intro b hb; simp at hb; rcases hb with rfl | rfl <;> norm_num [demoBar])]
  intro b hb
  simp at hb
  rcases hb with rfl | rfl <;> norm_num [demoBar, abs_le]

example : ¬ ∀ g ∈ fifteenCons [demoBar (-900) 0, demoBar 1001 0], g ≤ 0 := by
  rw [fifteen_bar_feasible _ (by
    intro b hb; simp at hb; rcases hb with rfl | rfl <;> norm_num [demoBar])]
  intro h
  have := h (demoBar 1001 0) (by simp)
  norm_num [demoBar] at this

/-! ### Weights -/

theorem dist_axis (a b : Pt) (d : ℝ) (hd : 0 ≤ d)
    (h : (b.1 - a.1) ^ 2 + (b.2 - a.2) ^ 2 = d ^ 2) : dist a b = d := by
  unfold dist; rw [h, Real.sqrt_sq hd]

theorem dist_diag (a b : Pt) (d : ℝ) (hd : 0 ≤ d)
    (h : (b.1 - a.1) ^ 2 + (b.2 - a.2) ^ 2 = 2 * d ^ 2) : dist a b = Real.sqrt 2 * d := by
  unfold dist; rw [h, Real.sqrt_mul (by norm_num), Real.sqrt_sq hd]

/-- Weight of the ten bar truss: six bars of length `L` and four diagonals of length `√2 L`. -/
theorem ten_bar_weight (rho l : ℝ) (hl : 0 ≤ l) (a1 a2 a3 a4 a5 a6 a7 a8 a9 a10 : ℝ) :
    tenWeight rho l [a1, a2, a3, a4, a5, a6, a7, a8, a9, a10] =
      rho * l * ((a1 + a2 + a3 + a4 + a5 + a6) + Real.sqrt 2 * (a7 + a8 + a9 + a10)) := by
  unfold tenWeight weight lengths tenBars tenNodes
  simp only [List.map_cons, List.map_nil, List.getD_eq_getElem?_getD, List.getElem?_cons_succ,
    List.getElem?_cons_zero, Option.getD_some, List.zip_cons_cons, List.zip_nil_right,
    List.foldl_cons, List.foldl_nil]
  rw [dist_axis (0, l) (l, l) l hl (by ring), dist_axis (l, l) (2 * l, l) l hl (by ring),
    dist_axis (0, 0) (l, 0) l hl (by ring), dist_axis (l, 0) (2 * l, 0) l hl (by ring),
    dist_axis (l, l) (l, 0) l hl (by ring), dist_axis (2 * l, l) (2 * l, 0) l hl (by ring),
    dist_diag (0, l) (l, 0) l hl (by ring), dist_diag (0, 0) (l, l) l hl (by ring),
    dist_diag (l, l) (2 * l, 0) l hl (by ring), dist_diag (l, 0) (2 * l, l) l hl (by ring)]
  ring

/-- Weight in the other formulation: the bars are the same, but numbered differently. -/
theorem simple_ten_weight (rho l : ℝ) (hl : 0 ≤ l) (a1 a2 a3 a4 a5 a6 a7 a8 a9 a10 : ℝ) :
    simpleWeight rho l [a1, a2, a3, a4, a5, a6, a7, a8, a9, a10] =
      tenWeight rho l [a8, a2, a7, a4, a5, a6, a3, a1, a9, a10] := by
  rw [ten_bar_weight rho l hl]
  unfold simpleWeight weight lengths simpleBars tenNodes
  simp only [List.map_cons, List.map_nil, List.getD_eq_getElem?_getD, List.getElem?_cons_succ,
    List.getElem?_cons_zero, Option.getD_some, List.zip_cons_cons, List.zip_nil_right,
    List.foldl_cons, List.foldl_nil]
  rw [dist_axis (0, l) (l, l) l hl (by ring), dist_axis (l, l) (2 * l, l) l hl (by ring),
    dist_axis (0, 0) (l, 0) l hl (by ring), dist_axis (l, 0) (2 * l, 0) l hl (by ring),
    dist_axis (l, l) (l, 0) l hl (by ring), dist_axis (2 * l, l) (2 * l, 0) l hl (by ring),
    dist_diag (0, l) (l, 0) l hl (by ring), dist_diag (0, 0) (l, l) l hl (by ring),
    dist_diag (l, l) (2 * l, 0) l hl (by ring), dist_diag (l, 0) (2 * l, l) l hl (by ring)]
  ring

/-- The same design vector has different weights in the two formulations unless the first and third area have the sum of the seventh and eighth. -/
theorem ten_bar_order_viol (rho l : ℝ) (hrho : 0 < rho) (hl : 0 < l)
    (a1 a2 a3 a4 a5 a6 a7 a8 a9 a10 : ℝ) (h : a1 + a3 ≠ a7 + a8) :
    simpleWeight rho l [a1, a2, a3, a4, a5, a6, a7, a8, a9, a10] ≠
      tenWeight rho l [a1, a2, a3, a4, a5, a6, a7, a8, a9, a10] := by
  rw [simple_ten_weight rho l hl.le, ten_bar_weight rho l hl.le, ten_bar_weight rho l hl.le]
  intro heq
  have hk : rho * l ≠ 0 := (mul_pos hrho hl).ne'
  have h1 := mul_left_cancel₀ hk heq
  have h2 : (Real.sqrt 2 - 1) * ((a1 + a3) - (a7 + a8)) = 0 := by linarith
  have h3 : Real.sqrt 2 - 1 ≠ 0 := by
    have : (1 : ℝ) < Real.sqrt 2 := by
      rw [Real.lt_sqrt (by norm_num)]; norm_num
    linarith
  rcases mul_eq_zero.1 h2 with h4 | h4
  · exact h3 h4
  · exact h (by linarith)

example : simpleWeight 1 1 [2, 1, 1, 1, 1, 1, 1, 1, 1, 1] ≠ tenWeight 1 1 [2, 1, 1, 1, 1, 1, 1, 1, 1, 1] :=
  ten_bar_order_viol 1 1 (by norm_num) (by norm_num) _ _ _ _ _ _ _ _ _ _ (by norm_num)

/-- Weight of the three bar truss. -/
theorem three_bar_weight (rho l a1 a2 : ℝ) (hl : 0 ≤ l) :
    threeWeight rho l a1 a2 = rho * l * (2 * Real.sqrt 2 * a1 + a2) := by
  unfold threeWeight weight lengths threeBars threeNodes
  simp only [List.map_cons, List.map_nil, List.getD_eq_getElem?_getD, List.getElem?_cons_succ,
    List.getElem?_cons_zero, Option.getD_some, List.zip_cons_cons, List.zip_nil_right,
    List.foldl_cons, List.foldl_nil]
  rw [dist_diag (0, 0) (l, -l) l hl (by ring), dist_axis (l, 0) (l, -l) l hl (by ring),
    dist_diag (2 * l, 0) (l, -l) l hl (by ring)]
  ring

/-- The older three bar problem leaves out the third bar: its weight is too small by the weight of this bar. -/
theorem old_three_weight_viol (rho l a1 a2 : ℝ) (hl : 0 ≤ l) :
    oldThreeWeight rho l [a1, a2] = threeWeight rho l a1 a2 - rho * a1 * (Real.sqrt 2 * l) := by
  rw [three_bar_weight rho l a1 a2 hl]
  unfold oldThreeWeight weight lengths threeBars threeNodes
  simp only [List.map_cons, List.map_nil, List.getD_eq_getElem?_getD, List.getElem?_cons_succ,
    List.getElem?_cons_zero, Option.getD_some, List.zip_cons_cons, List.zip_nil_left,
    List.foldl_cons, List.foldl_nil]
  rw [dist_diag (0, 0) (l, -l) l hl (by ring), dist_axis (l, 0) (l, -l) l hl (by ring)]
  ring

/-- The constraints of the older three bar problem depend on the last bar only: forces, strengths and lengths of the other bars do not matter. -/
theorem old_three_cons_viol (b1 b3 c1 c3 b2 : Bar) (x : List ℝ) :
    oldThreeCons [[b1, b3], [b2]] x = oldThreeCons [[c1, c3], [b2]] x := by
  unfold oldThreeCons
  simp only [List.flatten_cons, List.flatten_nil, List.append_nil, List.cons_append, List.nil_append]
  cases x with
  | nil => rfl
  | cons y ys => cases ys <;> rfl

example : (∀ g ∈ oldThreeCons [[demoBar 5000 0, demoBar 5000 0], [demoBar 500 0]] [10, 10], g ≤ 0) ∧
    (demoBar 5000 0).fy < (demoBar 5000 0).n / (demoBar 5000 0).a := by
  constructor
  · rw [old_three_cons_viol _ _ (demoBar 500 0) (demoBar 500 0)]
    intro g hg
    simp [oldThreeCons, demoBar] at hg
    rcases hg with rfl | rfl | rfl | rfl | rfl | rfl <;> norm_num
  · norm_num [demoBar]

/-- If all bars have the same force, strength, modulus and length, the constraints limit tension and buckling of every bar with the area of its variable. -/
theorem old_three_partial (b : Bar) (n : ℕ) (m : ℕ) (x1 x2 : ℝ) (h1 : 0 < x1) (h2 : 0 < x2)
    (hf : 0 < b.fy) (he : 0 < b.e) (hl : 0 < b.len) :
    (∀ g ∈ oldThreeCons [List.replicate (n + 1) b, List.replicate (m + 1) b] [x1, x2], g ≤ 0) ↔
      ∀ x ∈ [x1, x2], b.n ≤ x * b.fy ∧ -b.n ≤ 100 * b.e * x ^ 2 / (8 * b.len ^ 2) := by
  have hone : ∀ x : ℝ, 0 < x → ((b.n / (x * b.fy) - 1 ≤ 0 ∧
      -b.n / x / (100 * b.e * x / (8 * b.len ^ 2)) - 1 ≤ 0) ↔
      (b.n ≤ x * b.fy ∧ -b.n ≤ 100 * b.e * x ^ 2 / (8 * b.len ^ 2))) := by
    intro x hx
    have hcr : 0 < 100 * b.e * x / (8 * b.len ^ 2) := by positivity
    rw [sub_nonpos, sub_nonpos, div_le_one (mul_pos hx hf), div_le_one hcr, div_le_iff₀ hx,
      show 100 * b.e * x / (8 * b.len ^ 2) * x = 100 * b.e * x ^ 2 / (8 * b.len ^ 2) by ring]
  have hlast : [List.replicate (n + 1) b, List.replicate (m + 1) b].flatten.getLast? = some b := by
    simp [List.getLast?_replicate]
  unfold oldThreeCons
  rw [hlast]
  simp only [List.zip_cons_cons, List.zip_nil_right, List.flatMap_cons, List.flatMap_nil,
    List.append_nil, List.mem_append, List.mem_flatMap, List.mem_replicate, List.mem_cons,
    List.not_mem_nil, or_false]
  constructor
  · intro h x hx
    refine (hone x (by rcases hx with rfl | rfl <;> assumption)).1 ?_
    rcases hx with rfl | rfl
    · exact ⟨h _ (Or.inl ⟨b, ⟨by simp, rfl⟩, Or.inl rfl⟩), h _ (Or.inl ⟨b, ⟨by simp, rfl⟩, Or.inr rfl⟩)⟩
    · exact ⟨h _ (Or.inr ⟨b, ⟨by simp, rfl⟩, Or.inl rfl⟩), h _ (Or.inr ⟨b, ⟨by simp, rfl⟩, Or.inr rfl⟩)⟩
  · intro h g hg
    have k1 := (hone x1 h1).2 (h x1 (Or.inl rfl))
    have k2 := (hone x2 h2).2 (h x2 (Or.inr rfl))
    rcases hg with ⟨_, _, rfl | rfl⟩ | ⟨_, _, rfl | rfl⟩
    · exact k1.1
    · exact k1.2
    · exact k2.1
    · exact k2.2

/-! ### Binary variables -/

theorem dot_append (a b x y : List ℝ) (h : a.length = x.length) :
    dot (a ++ b) (x ++ y) = dot a x + dot b y := by
  unfold dot
  rw [List.zipWith_append h, List.sum_append]

theorem dot_zeros : ∀ (x : List ℝ) (n : ℕ), dot (List.replicate n 0) x = 0
  | [], n => by simp [dot]
  | a :: x, 0 => by simp [dot]
  | a :: x, n + 1 => by
    have := dot_zeros x n
    unfold dot at this ⊢
    rw [List.replicate_succ, List.zipWith_cons_cons, List.sum_cons, this]
    simp

theorem dot_ones : ∀ (x : List ℝ), dot (List.replicate x.length 1) x = x.sum
  | [] => by simp [dot]
  | a :: x => by
    have := dot_ones x
    unfold dot at this ⊢
    rw [List.length_cons, List.replicate_succ, List.zipWith_cons_cons, List.sum_cons, this]
    simp

/-- No constraint on the binary variables can be evaluated, at no values. -/
theorem binary_viol (areas x : List ℝ) : ∀ c ∈ binaryCons areas, c.call x = .error .attributeError := by
  intro c hc
  have : c.owner = false := by
    unfold binaryCons at hc
    simp only [List.flatMap_cons, List.flatMap_nil, List.append_nil, List.mem_append, List.mem_cons,
      List.not_mem_nil, or_false] at hc
    rcases hc with (rfl | rfl) | (rfl | rfl) <;> rfl
  unfold LinCon.call
  rw [this]
  rfl

/-- The list with a one at one place. -/
def oneHot (n k : ℕ) : List ℝ := (List.range n).map fun i => if i = k then 1 else 0

theorem oneHot_zero (n : ℕ) : oneHot (n + 1) 0 = 1 :: List.replicate n 0 := by
  unfold oneHot
  rw [List.range_succ_eq_map, List.map_cons, List.map_map]
  simp only [if_true, List.cons.injEq, true_and]
  apply List.ext_getElem
  · simp
  · intro i h1 h2; simp

theorem oneHot_succ (n k : ℕ) : oneHot (n + 1) (k + 1) = 0 :: oneHot n k := by
  unfold oneHot
  rw [List.range_succ_eq_map, List.map_cons, List.map_map]
  simp

theorem sum_nonneg01 : ∀ (b : List ℝ), (∀ v ∈ b, v = 0 ∨ v = 1) → 0 ≤ b.sum
  | [], _ => by simp
  | a :: b, h => by
    have h1 := sum_nonneg01 b (fun v hv => h v (List.mem_cons_of_mem _ hv))
    rw [List.sum_cons]
    rcases h a List.mem_cons_self with rfl | rfl <;> linarith

theorem all_zero_of_sum : ∀ (b : List ℝ), (∀ v ∈ b, v = 0 ∨ v = 1) → b.sum = 0 →
    b = List.replicate b.length 0
  | [], _, _ => rfl
  | a :: b, h, hs => by
    have hb := fun v hv => h v (List.mem_cons_of_mem _ hv)
    have h1 := sum_nonneg01 b hb
    rw [List.sum_cons] at hs
    rcases h a List.mem_cons_self with rfl | rfl
    · rw [List.length_cons, List.replicate_succ, ← all_zero_of_sum b hb (by linarith)]
    · linarith

/-- Zeros and ones with sum one: exactly one of them is one. -/
theorem sum_one_iff : ∀ (b : List ℝ), (∀ v ∈ b, v = 0 ∨ v = 1) →
    (b.sum = 1 ↔ ∃ k < b.length, b = oneHot b.length k)
  | [], _ => by simp
  | a :: b, h => by
    have hb := fun v hv => h v (List.mem_cons_of_mem _ hv)
    have ih := sum_one_iff b hb
    rw [List.sum_cons]
    rcases h a List.mem_cons_self with rfl | rfl
    · rw [zero_add, ih]
      constructor
      · rintro ⟨k, hk, hbk⟩
        exact ⟨k + 1, by simpa using hk, by rw [List.length_cons, oneHot_succ, ← hbk]⟩
      · rintro ⟨k, hk, hbk⟩
        cases k with
        | zero => rw [List.length_cons, oneHot_zero] at hbk; simp at hbk
        | succ k =>
          rw [List.length_cons, oneHot_succ] at hbk
          exact ⟨k, by simpa using hk, (List.cons.inj hbk).2⟩
    · constructor
      · intro hs
        refine ⟨0, by simp, ?_⟩
        rw [List.length_cons, oneHot_zero, ← all_zero_of_sum b hb (by linarith)]
      · rintro ⟨k, hk, hbk⟩
        cases k with
        | zero =>
          rw [List.length_cons, oneHot_zero] at hbk
          rw [(List.cons.inj hbk).2]
          simp
        | succ k => rw [List.length_cons, oneHot_succ] at hbk; simp at hbk

theorem dot_oneHot : ∀ (a : List ℝ) (k : ℕ), k < a.length →
    dot a (oneHot a.length k) = a.getD k 0
  | [], k, h => by simp at h
  | x :: a, 0, _ => by
    rw [List.length_cons, oneHot_zero]
    have := dot_zeros a a.length
    unfold dot at this ⊢
    rw [List.zipWith_cons_cons, List.sum_cons]
    have h2 : (List.zipWith (· * ·) a (List.replicate a.length 0)).sum = 0 := by
      rw [List.zipWith_comm_of_comm (by intro x y; ring)]; exact this
    rw [h2]; simp
  | x :: a, k + 1, h => by
    rw [List.length_cons, oneHot_succ]
    have := dot_oneHot a k (by simpa using h)
    unfold dot at this ⊢
    rw [List.zipWith_cons_cons, List.sum_cons, this]
    simp

/-- The constraints with a problem, as they were meant: zeros and ones `b1`, `b2` satisfy all of them exactly if one of the ones is chosen for each area and the areas are the corresponding list entries. -/
theorem binary_partial (areas b1 b2 : List ℝ) (x1 x2 : ℝ)
    (h1 : b1.length = areas.length) (h2 : b2.length = areas.length)
    (hb1 : ∀ v ∈ b1, v = 0 ∨ v = 1) (hb2 : ∀ v ∈ b2, v = 0 ∨ v = 1) :
    (∀ c ∈ binaryCons areas,
        LinCon.call { c with owner := true } ([x1, x2] ++ b1 ++ b2) = .ok 0) ↔
      (∃ k < areas.length, b1 = oneHot areas.length k ∧ x1 = areas.getD k 0) ∧
      ∃ k < areas.length, b2 = oneHot areas.length k ∧ x2 = areas.getD k 0 := by
  have hdot0 : ∀ vals : List ℝ, vals.length = areas.length →
      dot (binRow areas.length 0 vals) ([x1, x2] ++ b1 ++ b2) = dot vals b1 := by
    intro vals hv
    unfold binRow
    simp only [if_true]
    rw [dot_append _ _ _ _ (by simp [hv, h1]), dot_append _ _ _ _ (by simp), dot_zeros]
    simp [dot]
  have hdot1 : ∀ vals : List ℝ,
      dot (binRow areas.length 1 vals) ([x1, x2] ++ b1 ++ b2) = dot vals b2 := by
    intro vals
    unfold binRow
    simp only [one_ne_zero, if_false]
    rw [dot_append _ _ _ _ (by simp [h1]), dot_append _ _ _ _ (by simp), dot_zeros]
    simp [dot]
  have hone : ∀ b : List ℝ, b.length = areas.length →
      dot (List.replicate areas.length 1) b = b.sum := by
    intro b hb; rw [← hb]; exact dot_ones b
  have hcase : ∀ (b : List ℝ) (x : ℝ), b.length = areas.length → (∀ v ∈ b, v = 0 ∨ v = 1) →
      ((b.sum = 1 ∧ dot areas b = x) ↔
        ∃ k < areas.length, b = oneHot areas.length k ∧ x = areas.getD k 0) := by
    intro b x hb hb01
    rw [sum_one_iff b hb01, hb]
    constructor
    · rintro ⟨⟨k, hk, rfl⟩, hd⟩
      exact ⟨k, hk, rfl, by rw [← hd, dot_oneHot areas k hk]⟩
    · rintro ⟨k, hk, rfl, hx⟩
      exact ⟨⟨k, hk, rfl⟩, by rw [hx, dot_oneHot areas k hk]⟩
  rw [← hcase b1 x1 h1 hb1, ← hcase b2 x2 h2 hb2]
  have e1 : ∀ c, (Except.ok c : Except PyErr ℝ) = .ok 0 ↔ c = 0 :=
    fun c => ⟨fun h => Except.ok.inj h, fun h => by rw [h]⟩
  unfold binaryCons
  simp only [List.flatMap_cons, List.flatMap_nil, List.append_nil, List.mem_append, List.mem_cons,
    List.not_mem_nil, or_false, or_imp, forall_and, forall_eq, LinCon.call, if_true,
    e1, hdot0 _ (List.length_replicate ..), hdot0 areas rfl, hdot1, hone b1 h1, hone b2 h2, sub_eq_zero]
  rfl

example : ∀ c ∈ binaryCons [10, 20, 30],
    LinCon.call { c with owner := true } ([20, 10] ++ [0, 1, 0] ++ [1, 0, 0]) = .ok 0 := by
  refine (binary_partial [10, 20, 30] [0, 1, 0] [1, 0, 0] 20 10 rfl rfl (by simp) (by simp)).2
    ⟨⟨1, by decide, ?_, by simp⟩, ⟨0, by decide, ?_, by simp⟩⟩ <;>
  simp [oneHot, List.range_succ]

/-! ### Fifty-two bars -/

/-- Node `i` lies in column `i % 4` and storey `i / 4`. -/
theorem fifty_two_nodes (l h : ℝ) : gridLoop l h 20 0 0 0 =
    (List.range 20).map fun i => (((i % 4 : ℕ) : ℝ) * l, ((i / 4 : ℕ) : ℝ) * h) := by
  have key : ∀ (k i : ℕ) (x y : ℝ),
      (i ≠ 0 → x = (((i - 1) % 4 : ℕ) : ℝ) * l ∧ y = (((i - 1) / 4 : ℕ) : ℝ) * h) →
      (i = 0 → x = 0 ∧ y = 0) →
      gridLoop l h k i x y =
        (List.range' i k).map fun i => (((i % 4 : ℕ) : ℝ) * l, ((i / 4 : ℕ) : ℝ) * h) := by
    intro k
    induction k with
    | zero => intros; rfl
    | succ k ih =>
      intro i x y h1 h0
      have hx : (if i % 4 ≠ 0 then x + l else 0) = ((i % 4 : ℕ) : ℝ) * l := by
        by_cases hm : i % 4 = 0
        · simp [hm]
        · rw [if_pos hm]
          have hi : i ≠ 0 := by rintro rfl; simp at hm
          rw [(h1 hi).1]
          have : i % 4 = (i - 1) % 4 + 1 := by omega
          rw [this]; push_cast; ring
      have hy : (if i % 4 ≠ 0 then y else if i = 0 then 0 else y + h) = ((i / 4 : ℕ) : ℝ) * h := by
        by_cases hm : i % 4 = 0
        · rw [if_neg (by simpa using hm)]
          by_cases hi : i = 0
          · simp [hi]
          · rw [if_neg hi, (h1 hi).2]
            have : i / 4 = (i - 1) / 4 + 1 := by omega
            rw [this]; push_cast; ring
        · rw [if_pos hm]
          have hi : i ≠ 0 := by rintro rfl; simp at hm
          rw [(h1 hi).2]
          have : i / 4 = (i - 1) / 4 := by omega
          rw [this]
      unfold gridLoop
      simp only
      rw [hx, hy, List.range'_succ, List.map_cons]
      congr 1
      refine ih (i + 1) _ _ ?_ ?_
      · intro _; exact ⟨by simp, by simp⟩
      · intro h; omega
  rw [key 20 0 0 0 (fun h => absurd rfl h) (fun _ => ⟨rfl, rfl⟩), List.range_eq_range']

/-- In every storey there are four vertical, six diagonal and three horizontal bars: thirteen different bars that connect nodes of the storey with nodes of the same or the next one, in the same or a neighbouring column. -/
theorem fifty_two_bars (j : ℕ) : (vertGroup j).length = 4 ∧ (diagGroup j).length = 6 ∧
    (horizGroup j).length = 3 ∧ (storey j).Nodup ∧
    (∀ ab ∈ vertGroup j, ab.1 / 4 = j ∧ ab.2 / 4 = j + 1 ∧ ab.1 % 4 = ab.2 % 4) ∧
    (∀ ab ∈ diagGroup j, ab.1 / 4 = j ∧ ab.2 / 4 = j + 1 ∧
      (ab.2 % 4 = ab.1 % 4 + 1 ∨ ab.1 % 4 = ab.2 % 4 + 1)) ∧
    ∀ ab ∈ horizGroup j, ab.1 / 4 = j + 1 ∧ ab.2 / 4 = j + 1 ∧ ab.2 % 4 = ab.1 % 4 + 1 := by
  have hv : vertGroup j = [(j * 4, j * 4 + 4), (j * 4 + 1, j * 4 + 5), (j * 4 + 2, j * 4 + 6),
      (j * 4 + 3, j * 4 + 7)] := by simp [vertGroup, List.range_succ]
  have hd : diagGroup j = [(j * 4 + 1, j * 4 + 4), (j * 4, j * 4 + 5), (j * 4 + 2, j * 4 + 5),
      (j * 4 + 1, j * 4 + 6), (j * 4 + 3, j * 4 + 6), (j * 4 + 2, j * 4 + 7)] := by
    simp [diagGroup, List.range_succ]
  have hh : horizGroup j = [(j * 4 + 4, j * 4 + 5), (j * 4 + 5, j * 4 + 6), (j * 4 + 6, j * 4 + 7)] := by
    simp [horizGroup, List.range_succ]
  refine ⟨by rw [hv]; rfl, by rw [hd]; rfl, by rw [hh]; rfl, ?_, ?_, ?_, ?_⟩
  · rw [storey, hv, hd, hh]
    simp [List.nodup_cons]
  · rw [hv]
    simp only [List.mem_cons, List.not_mem_nil, or_false, forall_eq_or_imp, forall_eq]
    omega
  · rw [hd]
    simp only [List.mem_cons, List.not_mem_nil, or_false, forall_eq_or_imp, forall_eq]
    omega
  · rw [hh]
    simp only [List.mem_cons, List.not_mem_nil, or_false, forall_eq_or_imp, forall_eq]
    omega

/-- The fifty-two bar problem has no variables and no constraints, whatever the groups of bars are: every design is feasible. -/
theorem fifty_two_viol (groups : List (List (ℕ × ℕ))) (barsOf : PVar → List Bar) :
    (createVariables groups).vars = [] ∧ createCons (createVariables groups) barsOf = [] := by
  have : createVariables groups = ⟨[]⟩ := by
    unfold createVariables
    rw [add_variable_viol]
    rfl
  rw [this]
  exact ⟨rfl, rfl⟩

/-- Were the variables added with `add`, the constraints would limit the stresses of all bars of all groups. -/
theorem fifty_two_partial (vs : List PVar) (hn : vs.Nodup) (hu : ∀ v ∈ vs, v.locked = false)
    (barsOf : PVar → List Bar) (hb : ∀ v ∈ vs, ∀ b ∈ barsOf v, 0 < b.a ∧ 0 < b.fy) :
    (∀ g ∈ createCons ((⟨[]⟩ : Problem).setVars vs) barsOf, g ≤ 0) ↔
      ∀ v ∈ vs, ∀ b ∈ barsOf v, |b.n / b.a| ≤ b.fy := by
  have hvars : ((⟨[]⟩ : Problem).setVars vs).vars = vs := by
    rw [(set_variables _ vs hn).2]
    exact List.filter_eq_self.2 (fun v hv => by simp [hu v hv])
  have hone : ∀ v ∈ vs, ∀ b ∈ barsOf v, (tenCompression b ≤ 0 ∧ tenTension b ≤ 0) ↔
      |b.n / b.a| ≤ b.fy := by
    intro v hv b hbm
    obtain ⟨ha, hf⟩ := hb v hv b hbm
    have h1 := axial_iff b.n (b.a * b.fy) (mul_pos ha hf)
    have h2 : |b.n| ≤ b.a * b.fy ↔ |b.n / b.a| ≤ b.fy := by
      rw [abs_div, abs_of_pos ha, div_le_iff₀ ha, mul_comm]
    rw [← h2, ← h1]; rfl
  unfold createCons
  rw [hvars]
  constructor
  · intro h v hv b hbm
    refine (hone v hv b hbm).1 ⟨?_, ?_⟩ <;>
      exact h _ (List.mem_flatMap.2 ⟨v, hv, List.mem_flatMap.2 ⟨b, hbm, by simp⟩⟩)
  · intro h g hg
    obtain ⟨v, hv, hg⟩ := List.mem_flatMap.1 hg
    obtain ⟨b, hbm, hg⟩ := List.mem_flatMap.1 hg
    obtain ⟨h1, h2⟩ := (hone v hv b hbm).2 (h v hv b hbm)
    simp only [List.mem_cons, List.not_mem_nil, or_false] at hg
    rcases hg with rfl | rfl
    · exact h1
    · exact h2

example : ¬ ∀ g ∈ createCons ((⟨[]⟩ : Problem).setVars [⟨0, false⟩]) (fun _ => [demoBar 2000 0]), g ≤ 0 := by
  rw [fifty_two_partial _ (by decide) (by decide) _ (by
    intro v _ b hb; simp at hb; subst hb; norm_num [demoBar])]
  intro h
  have := h ⟨0, false⟩ (by simp) (demoBar 2000 0) (by simp)
  norm_num [demoBar] at this

end Metku.Bench
