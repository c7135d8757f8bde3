import Verif.Model.JointCost
import Verif.Props.Workshop

/-! Properties C218-C220: costs of plates and of joints. -/

namespace Metku.Shop

open Metku.Steel

noncomputable section

/-- The workshop asks `c` for the job. -/
def Quote (w : Workshop) (j : Job) (c : ℝ) : Prop := (w.run j).2 = .ok c

theorem Quote.unique {w : Workshop} {j : Job} {c d : ℝ} (h : Quote w j c) (k : Quote w j d) : c = d := Except.ok.inj (h.symm.trans k)

theorem Quote.same {v w : Workshop} (s : Same v w) {j : Job} {c : ℝ} (h : Quote w j c) : Quote v j c := (s.run j).trans h

theorem Quote.run {w : Workshop} {j : Job} {c : ℝ} (h : Quote w j c) : ∃ v, w.run j = (v, .ok c) ∧ Same v w := by
  have hs := run_same w j
  unfold Quote at h
  generalize w.run j = x at h hs
  obtain ⟨v, y⟩ := x
  obtain rfl : y = .ok c := h
  exact ⟨v, rfl, hs⟩

/-! ### C218 -/

/-- Surcharges for the thickness of plates: from, up to (not including), euros per tonne. -/
def thicknessTable : List (ℝ × ℝ × ℝ) :=
  [(5, 6, 140), (6, 7, 82), (7, 8, 35), (8, 10, 23), (10, 12, 12), (12, 20, 0), (20, 50, 12), (50, 60, 47), (60, 80, 58)]

/-- `e` is the surcharge of a thickness: that of its row, or the largest if there is no row. -/
def Surcharge (t e : ℝ) : Prop := (∃ r ∈ thicknessTable, r.1 ≤ t ∧ t < r.2.1 ∧ e = r.2.2) ∨ ((t < 5 ∨ 80 ≤ t) ∧ e = 140)

theorem surcharge (t : ℝ) : Surcharge t (thicknessAddOn t) := by
  unfold Surcharge thicknessAddOn thicknessTable
  rcases lt_or_ge t 5 with k5 | k5
  · right
    refine ⟨.inl k5, ?_⟩
    repeat rw [if_neg (by rintro ⟨_, _⟩; linarith)]
  rcases lt_or_ge t 6 with k6 | k6
  · left
    refine ⟨(5, 6, 140), by simp, by dsimp only; linarith, by dsimp only; linarith, ?_⟩
    rw [if_pos ⟨k5, k6⟩]
  rcases lt_or_ge t 7 with k7 | k7
  · left
    refine ⟨(6, 7, 82), by simp, by dsimp only; linarith, by dsimp only; linarith, ?_⟩
    rw [if_neg (by rintro ⟨_, _⟩; linarith)]
    rw [if_pos ⟨k6, k7⟩]
  rcases lt_or_ge t 8 with k8 | k8
  · left
    refine ⟨(7, 8, 35), by simp, by dsimp only; linarith, by dsimp only; linarith, ?_⟩
    rw [if_neg (by rintro ⟨_, _⟩; linarith)]
    rw [if_neg (by rintro ⟨_, _⟩; linarith)]
    rw [if_pos ⟨k7, k8⟩]
  rcases lt_or_ge t 10 with k10 | k10
  · left
    refine ⟨(8, 10, 23), by simp, by dsimp only; linarith, by dsimp only; linarith, ?_⟩
    rw [if_neg (by rintro ⟨_, _⟩; linarith)]
    rw [if_neg (by rintro ⟨_, _⟩; linarith)]
    rw [if_neg (by rintro ⟨_, _⟩; linarith)]
    rw [if_pos ⟨k8, k10⟩]
  rcases lt_or_ge t 12 with k12 | k12
  · left
    refine ⟨(10, 12, 12), by simp, by dsimp only; linarith, by dsimp only; linarith, ?_⟩
    rw [if_neg (by rintro ⟨_, _⟩; linarith)]
    rw [if_neg (by rintro ⟨_, _⟩; linarith)]
    rw [if_neg (by rintro ⟨_, _⟩; linarith)]
    rw [if_neg (by rintro ⟨_, _⟩; linarith)]
    rw [if_pos ⟨k10, k12⟩]
  rcases lt_or_ge t 15 with k15 | k15
  · left
    refine ⟨(12, 20, 0), by simp, by dsimp only; linarith, by dsimp only; linarith, ?_⟩
    rw [if_neg (by rintro ⟨_, _⟩; linarith)]
    rw [if_neg (by rintro ⟨_, _⟩; linarith)]
    rw [if_neg (by rintro ⟨_, _⟩; linarith)]
    rw [if_neg (by rintro ⟨_, _⟩; linarith)]
    rw [if_neg (by rintro ⟨_, _⟩; linarith)]
    rw [if_pos ⟨k12, k15⟩]
  rcases lt_or_ge t 20 with k20 | k20
  · left
    refine ⟨(12, 20, 0), by simp, by dsimp only; linarith, by dsimp only; linarith, ?_⟩
    rw [if_neg (by rintro ⟨_, _⟩; linarith)]
    rw [if_neg (by rintro ⟨_, _⟩; linarith)]
    rw [if_neg (by rintro ⟨_, _⟩; linarith)]
    rw [if_neg (by rintro ⟨_, _⟩; linarith)]
    rw [if_neg (by rintro ⟨_, _⟩; linarith)]
    rw [if_neg (by rintro ⟨_, _⟩; linarith)]
    rw [if_pos ⟨k15, k20⟩]
  rcases lt_or_ge t 40 with k40 | k40
  · left
    refine ⟨(20, 50, 12), by simp, by dsimp only; linarith, by dsimp only; linarith, ?_⟩
    rw [if_neg (by rintro ⟨_, _⟩; linarith)]
    rw [if_neg (by rintro ⟨_, _⟩; linarith)]
    rw [if_neg (by rintro ⟨_, _⟩; linarith)]
    rw [if_neg (by rintro ⟨_, _⟩; linarith)]
    rw [if_neg (by rintro ⟨_, _⟩; linarith)]
    rw [if_neg (by rintro ⟨_, _⟩; linarith)]
    rw [if_neg (by rintro ⟨_, _⟩; linarith)]
    rw [if_pos ⟨k20, k40⟩]
  rcases lt_or_ge t 50 with k50 | k50
  · left
    refine ⟨(20, 50, 12), by simp, by dsimp only; linarith, by dsimp only; linarith, ?_⟩
    rw [if_neg (by rintro ⟨_, _⟩; linarith)]
    rw [if_neg (by rintro ⟨_, _⟩; linarith)]
    rw [if_neg (by rintro ⟨_, _⟩; linarith)]
    rw [if_neg (by rintro ⟨_, _⟩; linarith)]
    rw [if_neg (by rintro ⟨_, _⟩; linarith)]
    rw [if_neg (by rintro ⟨_, _⟩; linarith)]
    rw [if_neg (by rintro ⟨_, _⟩; linarith)]
    rw [if_neg (by rintro ⟨_, _⟩; linarith)]
    rw [if_pos ⟨k40, k50⟩]
  rcases lt_or_ge t 60 with k60 | k60
  · left
    refine ⟨(50, 60, 47), by simp, by dsimp only; linarith, by dsimp only; linarith, ?_⟩
    rw [if_neg (by rintro ⟨_, _⟩; linarith)]
    rw [if_neg (by rintro ⟨_, _⟩; linarith)]
    rw [if_neg (by rintro ⟨_, _⟩; linarith)]
    rw [if_neg (by rintro ⟨_, _⟩; linarith)]
    rw [if_neg (by rintro ⟨_, _⟩; linarith)]
    rw [if_neg (by rintro ⟨_, _⟩; linarith)]
    rw [if_neg (by rintro ⟨_, _⟩; linarith)]
    rw [if_neg (by rintro ⟨_, _⟩; linarith)]
    rw [if_neg (by rintro ⟨_, _⟩; linarith)]
    rw [if_pos ⟨k50, k60⟩]
  rcases lt_or_ge t 80 with k80 | k80
  · left
    refine ⟨(60, 80, 58), by simp, by dsimp only; linarith, by dsimp only; linarith, ?_⟩
    rw [if_neg (by rintro ⟨_, _⟩; linarith)]
    rw [if_neg (by rintro ⟨_, _⟩; linarith)]
    rw [if_neg (by rintro ⟨_, _⟩; linarith)]
    rw [if_neg (by rintro ⟨_, _⟩; linarith)]
    rw [if_neg (by rintro ⟨_, _⟩; linarith)]
    rw [if_neg (by rintro ⟨_, _⟩; linarith)]
    rw [if_neg (by rintro ⟨_, _⟩; linarith)]
    rw [if_neg (by rintro ⟨_, _⟩; linarith)]
    rw [if_neg (by rintro ⟨_, _⟩; linarith)]
    rw [if_neg (by rintro ⟨_, _⟩; linarith)]
    rw [if_pos ⟨k60, k80⟩]
  right
  refine ⟨.inr k80, ?_⟩
  repeat rw [if_neg (by rintro ⟨_, _⟩; linarith)]

/-- Plates made by the constructor whose sizes, weld and holes have been set (never taken away) and whose cost has been asked any number of times. -/
inductive Reach : Plate → Prop
  | new (b h t : ℝ) (g : PlateGrade) : Reach (.new b h t g)
  | size {p : Plate} (b h t : ℝ) : Reach p → Reach { p with b := b, h := h, t := t }
  | weld {p : Plate} {a : ℝ} : Reach p → 0 < a → Reach { p with weldSize := a }
  | drill {p : Plate} {hs : List ℝ} : Reach p → hs ≠ [] → Reach { p with holes := hs }
  | cost {p q : Plate} {c : ℝ} (w : Workshop) (price : ℝ) : Reach p → (p.cost w price).2 = .ok (q, c) → Reach q

/-- The price of one part of the work on a plate: `c`, or nothing if the part is not needed. -/
def Part (needed : Prop) (w : Workshop) (j : Job) (c : ℝ) : Prop := (needed → Quote w j c) ∧ (¬needed → c = 0)

/-- The parts of the cost of a plate. -/
structure PlatePrice (w : Workshop) (price : ℝ) (p : Plate) (c : ℝ) : Prop where
  parts : ∃ addOn cut paint blast weld holes,
    Surcharge p.t addOn ∧
    Quote w (.cut p.t (2 * p.b + 2 * p.h)) cut ∧
    Quote w (.paint (2 * (p.b * p.h) + 2 * (p.b * p.t) + 2 * (p.h * p.t))) paint ∧
    Quote w (.blast (max p.b p.h)) blast ∧
    Part (0 < p.weldSize) w (.weld p.weldSize (2 * p.b + 2 * p.h) .fillet) weld ∧
    Part (p.holes ≠ []) w (.cut p.t (Real.pi * p.holes.sum)) holes ∧
    c = p.b * p.h * p.t * (7850 / 10 ^ 9) * ((price + (if p.grade matches .S235 then 0 else 35) + addOn) / 1000) + cut + paint + blast + weld + holes

theorem Surcharge.unique {t a b : ℝ} (h : Surcharge t a) (k : Surcharge t b) : a = b := by
  unfold Surcharge thicknessTable at h k
  simp only [List.mem_cons, List.not_mem_nil, or_false, exists_eq_or_imp, exists_eq_left] at h k
  rcases h with (⟨h1, h2, rfl⟩ | ⟨h1, h2, rfl⟩ | ⟨h1, h2, rfl⟩ | ⟨h1, h2, rfl⟩ | ⟨h1, h2, rfl⟩ | ⟨h1, h2, rfl⟩ | ⟨h1, h2, rfl⟩ | ⟨h1, h2, rfl⟩ | ⟨h1, h2, rfl⟩) | ⟨h1 | h1, rfl⟩ <;>
  rcases k with (⟨k1, k2, rfl⟩ | ⟨k1, k2, rfl⟩ | ⟨k1, k2, rfl⟩ | ⟨k1, k2, rfl⟩ | ⟨k1, k2, rfl⟩ | ⟨k1, k2, rfl⟩ | ⟨k1, k2, rfl⟩ | ⟨k1, k2, rfl⟩ | ⟨k1, k2, rfl⟩) | ⟨k1 | k1, rfl⟩ <;>
  first | rfl | (exfalso; linarith)

theorem Part.unique {n : Prop} {w : Workshop} {j : Job} {c d : ℝ} (h : Part n w j c) (k : Part n w j d) : c = d := by
  by_cases hn : n
  · exact (h.1 hn).unique (k.1 hn)
  · rw [h.2 hn, k.2 hn]

/-- A plate has one price. -/
theorem PlatePrice.unique {w : Workshop} {price : ℝ} {p : Plate} {c d : ℝ} (h : PlatePrice w price p c) (k : PlatePrice w price p d) : c = d := by
  obtain ⟨a1, a2, a3, a4, a5, a6, h1, h2, h3, h4, h5, h6, h7⟩ := h
  obtain ⟨b1, b2, b3, b4, b5, b6, k1, k2, k3, k4, k5, k6, k7⟩ := k
  rw [h7, k7, h1.unique k1, h2.unique k2, h3.unique k3, h4.unique k4, h5.unique k5, h6.unique k6]

theorem prices_unique {w : Workshop} {price : ℝ} {ps : List Plate} {cs ds : List ℝ} (h : List.Forall₂ (PlatePrice w price) ps cs) (k : List.Forall₂ (PlatePrice w price) ps ds) : cs = ds := by
  induction h generalizing ds with
  | nil => cases k; rfl
  | cons h1 _ ih =>
    cases k with
    | cons k1 k2 => rw [h1.unique k1, ih k2]

/-- What `cost` does, whatever was evaluated before. -/
theorem plate_run {p : Plate} {w : Workshop} {cut paint blast : ℝ} (price : ℝ) (h1 : Quote w (.cut p.t p.circumference) cut) (h2 : Quote w (.paint p.paintArea) paint)
    (h3 : Quote w (.blast (max p.b p.h)) blast) {weld holes : ℝ}
    (h4 : if 0 < p.weldSize then Quote w (.weld p.weldSize p.circumference .fillet) weld else weld = p.costs.welding)
    (h5 : if 0 < p.holes.length then Quote w (.cut p.t (p.holes.map (fun d => d * Real.pi)).sum) holes else holes = p.costs.holes) :
    ∃ v, Same v w ∧ p.cost w price =
      (v, .ok ({ p with costs := ⟨p.weight * (price + gradeAddOn p.grade + thicknessAddOn p.t) * (1 / 1000), cut, paint, p.costs.drilling, weld, holes, blast⟩ },
        PlateCosts.total ⟨p.weight * (price + gradeAddOn p.grade + thicknessAddOn p.t) * (1 / 1000), cut, paint, p.costs.drilling, weld, holes, blast⟩)) := by
  obtain ⟨w1, e1, s1⟩ := h1.run
  obtain ⟨w2, e2, s2⟩ := (h2.same s1).run
  have s2' := s2.trans s1
  obtain ⟨w3, e3, s3⟩ := (h3.same s2').run
  have s3' := s3.trans s2'
  have : ∃ w4, (if p.weldSize > 0 then w3.run (.weld p.weldSize p.circumference .fillet) else (w3, .ok p.costs.welding)) = (w4, .ok weld) ∧ Same w4 w := by
    by_cases hp : 0 < p.weldSize
    · rw [if_pos hp] at h4 ⊢
      obtain ⟨w4, e4, s4⟩ := (h4.same s3').run
      exact ⟨w4, e4, s4.trans s3'⟩
    · rw [if_neg hp] at h4 ⊢
      exact ⟨w3, by rw [h4], s3'⟩
  obtain ⟨w4, e4, s4⟩ := this
  have : ∃ w5, (if p.holes.length > 0 then w4.run (.cut p.t (p.holes.map (fun d => d * Real.pi)).sum) else (w4, .ok p.costs.holes)) = (w5, .ok holes) ∧ Same w5 w := by
    by_cases hp : 0 < p.holes.length
    · rw [if_pos hp] at h5 ⊢
      obtain ⟨w5, e5, s5⟩ := (h5.same s4).run
      exact ⟨w5, e5, s5.trans s4⟩
    · rw [if_neg hp] at h5 ⊢
      exact ⟨w4, by rw [h5], s4⟩
  obtain ⟨w5, e5, s5⟩ := this
  refine ⟨w5, s5, ?_⟩
  simp only [Plate.cost, e1, e2, e3, e4, e5]

/-- A plate whose cost could be evaluated. -/
theorem plate_inv {p q : Plate} {w : Workshop} {price c : ℝ} (h : (p.cost w price).2 = .ok (q, c)) :
    ∃ cut paint blast weld holes, Quote w (.cut p.t p.circumference) cut ∧ Quote w (.paint p.paintArea) paint ∧ Quote w (.blast (max p.b p.h)) blast ∧
      (if 0 < p.weldSize then Quote w (.weld p.weldSize p.circumference .fillet) weld else weld = p.costs.welding) ∧
      (if 0 < p.holes.length then Quote w (.cut p.t (p.holes.map (fun d => d * Real.pi)).sum) holes else holes = p.costs.holes) ∧
      q = { p with costs := ⟨p.weight * (price + gradeAddOn p.grade + thicknessAddOn p.t) * (1 / 1000), cut, paint, p.costs.drilling, weld, holes, blast⟩ } ∧
      c = q.costs.total := by
  unfold Plate.cost at h
  dsimp only at h
  have key : ∀ (v : Workshop) (_ : Same v w) (j : Job) (x : Workshop) (y : ℝ), v.run j = (x, .ok y) → Quote w j y ∧ Same x w := by
    intro v s j x y e
    refine ⟨?_, ?_⟩
    · have := s.run j
      rw [e] at this
      exact this.symm
    · have := run_same v j
      rw [e] at this
      exact this.trans s
  cases e1 : w.run (.cut p.t p.circumference) with
  | mk w1 r1 =>
    rw [e1] at h
    cases r1 with
    | error e => simp at h
    | ok cut =>
      dsimp only at h
      obtain ⟨q1, s1⟩ := key w (.refl w) _ _ _ e1
      cases e2 : w1.run (.paint p.paintArea) with
      | mk w2 r2 =>
        rw [e2] at h
        cases r2 with
        | error e => simp at h
        | ok paint =>
          dsimp only at h
          obtain ⟨q2, s2⟩ := key w1 s1 _ _ _ e2
          cases e3 : w2.run (.blast (max p.b p.h)) with
          | mk w3 r3 =>
            rw [e3] at h
            cases r3 with
            | error e => simp at h
            | ok blast =>
              dsimp only at h
              obtain ⟨q3, s3⟩ := key w2 s2 _ _ _ e3
              cases e4 : (if p.weldSize > 0 then w3.run (.weld p.weldSize p.circumference .fillet) else (w3, .ok p.costs.welding)) with
              | mk w4 r4 =>
                rw [e4] at h
                cases r4 with
                | error e => simp at h
                | ok weld =>
                  dsimp only at h
                  have h4 : (if 0 < p.weldSize then Quote w (.weld p.weldSize p.circumference .fillet) weld else weld = p.costs.welding) ∧ Same w4 w := by
                    by_cases hp : 0 < p.weldSize
                    · rw [if_pos hp] at e4 ⊢
                      exact key w3 s3 _ _ _ e4
                    · rw [if_neg hp] at e4 ⊢
                      obtain ⟨rfl, e⟩ := Prod.mk.inj e4
                      exact ⟨(Except.ok.inj e).symm, s3⟩
                  obtain ⟨q4, s4⟩ := h4
                  cases e5 : (if p.holes.length > 0 then w4.run (.cut p.t (p.holes.map (fun d => d * Real.pi)).sum) else (w4, .ok p.costs.holes)) with
                  | mk w5 r5 =>
                    rw [e5] at h
                    cases r5 with
                    | error e => simp at h
                    | ok holes =>
                      dsimp only at h
                      have q5 : (if 0 < p.holes.length then Quote w (.cut p.t (p.holes.map (fun d => d * Real.pi)).sum) holes else holes = p.costs.holes) := by
                        by_cases hp : 0 < p.holes.length
                        · rw [if_pos hp] at e5 ⊢
                          exact (key w4 s4 _ _ _ e5).1
                        · rw [if_neg hp] at e5 ⊢
                          obtain ⟨rfl, e⟩ := Prod.mk.inj e5
                          exact (Except.ok.inj e).symm
                      obtain ⟨e6, e7⟩ := Prod.mk.inj (Except.ok.inj h)
                      exact ⟨cut, paint, blast, weld, holes, q1, q2, q3, q4, q5, e6.symm, by rw [← e6, ← e7]⟩

/-- Costs of what is not there are zero in plates that were never stripped. -/
theorem Reach.fresh {p : Plate} (h : Reach p) : p.costs.drilling = 0 ∧ (¬0 < p.weldSize → p.costs.welding = 0) ∧ (p.holes = [] → p.costs.holes = 0) := by
  induction h with
  | new b h t g => exact ⟨rfl, fun _ => rfl, fun _ => rfl⟩
  | size b h t _ ih => exact ih
  | weld _ ha ih => exact ⟨ih.1, fun k => absurd ha k, ih.2.2⟩
  | drill _ hh ih => exact ⟨ih.1, ih.2.1, fun k => absurd k hh⟩
  | cost w price _ e ih =>
    obtain ⟨cut, paint, blast, weld, holes, -, -, -, h4, h5, rfl, -⟩ := plate_inv e
    refine ⟨ih.1, fun k => ?_, fun k => ?_⟩
    · dsimp only at k ⊢
      rw [if_neg k] at h4
      rw [h4]
      exact ih.2.1 k
    · dsimp only at k ⊢
      rw [if_neg (by simp [k])] at h5
      rw [h5]
      exact ih.2.2 k

theorem quote_cut {w : Workshop} (h : Sound w) {t : ℝ} (ht : t ≤ 157) (l : ℝ) : ∃ c, Quote w (.cut t l) c := ⟨_, cut_value h (cutSpeed_pos ht).ne' l⟩

theorem sum_pi (l : List ℝ) : (l.map (fun d => d * Real.pi)).sum = Real.pi * l.sum := by
  induction l with
  | nil => simp
  | cons d l ih =>
    rw [List.map_cons, List.sum_cons, ih, List.sum_cons]
    ring

/-- **C218 (partial).** The cost of a plate of up to 157 mm is the sum of the price of its material (by weight, with the surcharges of the grade and the thickness), cutting along its outline,
    painting all six faces, blasting its longer side and, if it has them, welding around it and cutting its holes; asking again gives the same cost. Missing: plates whose weld or holes were taken away
    (`C218_violation`). -/
theorem C218_partial {w : Workshop} (hw : Sound w) (price : ℝ) {p : Plate} (hp : Reach p) (ht : p.t ≤ 157) :
    ∃ q c, (p.cost w price).2 = .ok (q, c) ∧ PlatePrice w price p c ∧ (q.cost (p.cost w price).1 price).2 = .ok (q, c) := by
  obtain ⟨f1, f2, f3⟩ := hp.fresh
  obtain ⟨cut, h1⟩ := quote_cut hw ht p.circumference
  obtain ⟨paint, h2⟩ : ∃ c, Quote w (.paint p.paintArea) c := ⟨_, paint_value hw _⟩
  obtain ⟨blast, h3⟩ : ∃ c, Quote w (.blast (max p.b p.h)) c := ⟨_, blast_value hw _⟩
  obtain ⟨weld, h4⟩ : ∃ weld, if 0 < p.weldSize then Quote w (.weld p.weldSize p.circumference .fillet) weld else weld = p.costs.welding := by
    split_ifs
    · exact ⟨_, weld_value hw _ _ (by simp)⟩
    · exact ⟨_, rfl⟩
  obtain ⟨holes, h5⟩ : ∃ holes, if 0 < p.holes.length then Quote w (.cut p.t (p.holes.map (fun d => d * Real.pi)).sum) holes else holes = p.costs.holes := by
    split_ifs
    · exact quote_cut hw ht _
    · exact ⟨_, rfl⟩
  obtain ⟨v, hv, e⟩ := plate_run price h1 h2 h3 h4 h5
  refine ⟨_, _, by rw [e], ⟨⟨thicknessAddOn p.t, cut, paint, blast, weld, holes, surcharge _, ?_, ?_, h3, ⟨?_, ?_⟩, ⟨?_, ?_⟩, ?_⟩⟩, ?_⟩
  · have : 2 * p.b + 2 * p.h = p.circumference := by
      unfold Plate.circumference
      ring
    rw [this]
    exact h1
  · have : 2 * (p.b * p.h) + 2 * (p.b * p.t) + 2 * (p.h * p.t) = p.paintArea := by
      unfold Plate.paintArea Plate.circumference
      ring
    rw [this]
    exact h2
  · intro k
    rw [if_pos k] at h4
    have : 2 * p.b + 2 * p.h = p.circumference := by
      unfold Plate.circumference
      ring
    rw [this]
    exact h4
  · intro k
    rw [if_neg k] at h4
    rw [h4, f2 k]
  · intro k
    rw [if_pos (List.length_pos_of_ne_nil k)] at h5
    rw [← sum_pi]
    exact h5
  · intro k
    rw [not_not] at k
    rw [if_neg (by simp [k])] at h5
    rw [h5, f3 k]
  · simp only [PlateCosts.total, Plate.weight, f1]
    cases p.grade <;> simp only [gradeAddOn] <;> norm_num <;> ring
  · rw [e]
    dsimp only
    obtain ⟨v2, -, e2⟩ := plate_run (p := { p with costs := ⟨p.weight * (price + gradeAddOn p.grade + thicknessAddOn p.t) * (1 / 1000), cut, paint, p.costs.drilling, weld, holes, blast⟩ })
      (w := v) (weld := weld) (holes := holes) price (h1.same hv) (h2.same hv) (h3.same hv) (by
        dsimp only
        split_ifs at h4 ⊢
        · exact h4.same hv
        · rfl) (by
        dsimp only
        split_ifs at h5 ⊢
        · exact h5.same hv
        · rfl)
    rw [e2]
    rfl

example : Reach { Plate.new 200 300 20 .other with weldSize := 5, holes := [22, 22] } :=
  .drill (p := { Plate.new 200 300 20 .other with weldSize := 5 }) (.weld (.new 200 300 20 .other) (by norm_num)) (by simp)

/-- **C218 (violation).** If the cost of a welded plate has been asked and the weld is taken away afterwards (weld size zero), the plate still costs what the weld cost: more than the same plate that
    was never welded. -/
theorem C218_violation {w : Workshop} (hw : Sound w) (price : ℝ) {b h t a : ℝ} (g : PlateGrade) (hb : 0 < b) (hh : 0 < h) (ht : t ≤ 157) (ha : 0 < a) :
    ∃ q c c' d, (({ Plate.new b h t g with weldSize := a } : Plate).cost w price).2 = .ok (q, c) ∧ q.weldSize = a ∧
      (({ q with weldSize := 0 } : Plate).cost w price).2 = .ok ({ q with weldSize := 0 }, c) ∧
      ((Plate.new b h t g).cost w price).2 = .ok (d, c') ∧ c' < c := by
  obtain ⟨cut, h1⟩ := quote_cut hw ht (2 * (h + b))
  obtain ⟨paint, h2⟩ : ∃ c, Quote w (.paint (2 * (h * b) + t * (2 * (h + b)))) c := ⟨_, by exact paint_value hw _⟩
  obtain ⟨blast, h3⟩ : ∃ c, Quote w (.blast (max b h)) c := ⟨_, blast_value hw _⟩
  obtain ⟨weld, h4⟩ : ∃ c, Quote w (.weld a (2 * (h + b)) .fillet) c := ⟨_, by exact weld_value hw _ _ (by simp)⟩
  have hpos : 0 < weld := by
    obtain ⟨p, q, hp, hq, e⟩ := usual_value hw (Usual.fillet a)
    have := h4.unique (e _)
    rw [this]
    positivity
  obtain ⟨v1, -, e1⟩ := plate_run (p := { Plate.new b h t g with weldSize := a }) (w := w) (weld := weld) (holes := 0) price h1 h2 h3 (by rw [if_pos (by exact ha)]; exact h4) (by simp [Plate.new])
  obtain ⟨v2, -, e2⟩ := plate_run (p := Plate.new b h t g) (w := w) (weld := 0) (holes := 0) price h1 h2 h3 (by simp [Plate.new]) (by simp [Plate.new])
  refine ⟨_, _, _, _, by rw [e1], rfl, ?_, by rw [e2], ?_⟩
  · obtain ⟨v3, -, e3⟩ := plate_run (p := ⟨b, h, t, g, 0, [], ⟨(Plate.new b h t g).weight * (price + gradeAddOn g + thicknessAddOn t) * (1 / 1000), cut, paint, 0, weld, 0, blast⟩⟩) (w := w) (weld := weld) (holes := 0) price h1 h2 h3 (by
      rw [if_neg (lt_irrefl _)]) (by simp)
    exact congrArg Prod.snd e3
  · simp only [PlateCosts.total, Plate.weight, Plate.new]
    linarith

/-! ### C219 -/

/-- The cost of a plate in a workshop `w`, evaluated after other jobs. -/
theorem plate_total {w : Workshop} (hw : Sound w) (price : ℝ) {p : Plate} (ht : p.t ≤ 157) : ∃ q c,
    (∀ v, Same v w → ∃ v', Same v' w ∧ p.cost v price = (v', .ok (q, c))) ∧ (∀ v, Same v w → ∃ v', Same v' w ∧ q.cost v price = (v', .ok (q, c))) ∧
    (q.b = p.b ∧ q.h = p.h ∧ q.t = p.t ∧ q.holes = p.holes) ∧ (Reach p → PlatePrice w price p c) := by
  obtain ⟨cut, h1⟩ := quote_cut hw ht p.circumference
  obtain ⟨paint, h2⟩ : ∃ c, Quote w (.paint p.paintArea) c := ⟨_, paint_value hw _⟩
  obtain ⟨blast, h3⟩ : ∃ c, Quote w (.blast (max p.b p.h)) c := ⟨_, blast_value hw _⟩
  obtain ⟨weld, h4⟩ : ∃ weld, if 0 < p.weldSize then Quote w (.weld p.weldSize p.circumference .fillet) weld else weld = p.costs.welding := by
    split_ifs
    · exact ⟨_, weld_value hw _ _ (by simp)⟩
    · exact ⟨_, rfl⟩
  obtain ⟨holes, h5⟩ : ∃ holes, if 0 < p.holes.length then Quote w (.cut p.t (p.holes.map (fun d => d * Real.pi)).sum) holes else holes = p.costs.holes := by
    split_ifs
    · exact quote_cut hw ht _
    · exact ⟨_, rfl⟩
  have tr4 : ∀ v, Same v w → if 0 < p.weldSize then Quote v (.weld p.weldSize p.circumference .fillet) weld else weld = p.costs.welding := by
    intro v s
    split_ifs at h4 ⊢
    · exact h4.same s
    · exact h4
  have tr5 : ∀ v, Same v w → if 0 < p.holes.length then Quote v (.cut p.t (p.holes.map (fun d => d * Real.pi)).sum) holes else holes = p.costs.holes := by
    intro v s
    split_ifs at h5 ⊢
    · exact h5.same s
    · exact h5
  refine ⟨{ p with costs := ⟨p.weight * (price + gradeAddOn p.grade + thicknessAddOn p.t) * (1 / 1000), cut, paint, p.costs.drilling, weld, holes, blast⟩ },
    PlateCosts.total ⟨p.weight * (price + gradeAddOn p.grade + thicknessAddOn p.t) * (1 / 1000), cut, paint, p.costs.drilling, weld, holes, blast⟩, fun v s => ?_, fun v s => ?_, ⟨rfl, rfl, rfl, rfl⟩, fun hr => ?_⟩
  · obtain ⟨v', s', e⟩ := plate_run price (h1.same s) (h2.same s) (h3.same s) (tr4 v s) (tr5 v s)
    exact ⟨v', s'.trans s, e⟩
  · obtain ⟨v', s', e⟩ := plate_run (p := { p with costs := ⟨p.weight * (price + gradeAddOn p.grade + thicknessAddOn p.t) * (1 / 1000), cut, paint, p.costs.drilling, weld, holes, blast⟩ })
      (w := v) (weld := weld) (holes := holes) price (h1.same s) (h2.same s) (h3.same s) (by
        have := tr4 v s
        dsimp only
        split_ifs at this ⊢
        · exact this
        · rfl) (by
        have := tr5 v s
        dsimp only
        split_ifs at this ⊢
        · exact this
        · rfl)
    exact ⟨v', s'.trans s, e⟩
  · obtain ⟨q, c, e, hc, -⟩ := C218_partial hw price hr ht
    obtain ⟨v', -, e'⟩ := plate_run price h1 h2 h3 h4 h5
    rw [e'] at e
    obtain ⟨-, rfl⟩ := Prod.mk.inj (Except.ok.inj e)
    exact hc

/-- Sizes of bolts with the prices of a nut and of a washer. -/
def fasteners : List (ℕ × ℝ × ℝ) :=
  [(12, 10 / 100, 30 / 100), (16, 27 / 100, 46 / 100), (20, 54 / 100, 65 / 100), (24, 98 / 100, 82 / 100), (30, 213 / 100, 141 / 100), (36, 445 / 100, 176 / 100)]

/-- The prices of a bolt, its nut and its washer. -/
structure BoltPrice (P : Prices) (r : JBolt) (x : ℝ × ℝ × ℝ) : Prop where
  bolt : P r.thread r.length r.d = .ok x.1
  rest : (r.d, x.2) ∈ fasteners

theorem BoltPrice.get {P : Prices} {r : JBolt} {x : ℝ × ℝ × ℝ} (h : BoltPrice P r x) : nutCost r.d = .ok x.2.1 ∧ washerCost r.d = .ok x.2.2 ∧ 0 < x.2.1 ∧ 0 < x.2.2 := by
  obtain ⟨-, h⟩ := h
  obtain ⟨b, n, u⟩ := x
  simp only [fasteners, List.mem_cons, List.not_mem_nil, or_false, Prod.mk.injEq] at h
  rcases h with ⟨h, rfl, rfl⟩ | ⟨h, rfl, rfl⟩ | ⟨h, rfl, rfl⟩ | ⟨h, rfl, rfl⟩ | ⟨h, rfl, rfl⟩ | ⟨h, rfl, rfl⟩ <;> simp only [h, nutCost, washerCost] <;> norm_num

/-- What the fasteners of the rows cost according to the code. -/
def rowSum (xs : List (ℝ × ℝ × ℝ)) : ℝ := (xs.map fun x => 2 * x.1 + x.2.1 + x.2.2).sum

/-- The circumference of two holes in each row. -/
def holeSum (rs : List JBolt) : ℝ := (rs.map fun r => 2 * (Real.pi * r.d0)).sum

theorem row_value {P : Prices} {rs : List JBolt} {xs : List (ℝ × ℝ × ℝ)} (h : List.Forall₂ (BoltPrice P) rs xs) (c l : ℝ) :
    rowCosts P rs (c, l) = .ok (c + rowSum xs, l + holeSum rs) := by
  induction h generalizing c l with
  | nil => simp [rowCosts, rowSum, holeSum]
  | @cons r x rs xs hx _ ih =>
    obtain ⟨h1, h2, -, -⟩ := hx.get
    simp only [rowCosts, hx.bolt, h1, h2, bind, Except.bind, ih]
    simp only [rowSum, holeSum, List.map_cons, List.sum_cons]
    congr 2 <;> ring

/-- The costs of all stiffeners that are there. -/
theorem stiffener_value {w : Workshop} (hw : Sound w) (price : ℝ) (ps : List (Option Plate)) (hp : ∀ p, some p ∈ ps → Reach p ∧ p.t ≤ 157) : ∃ qs cs,
    (∀ v, Same v w → ∃ v', Same v' w ∧ stiffenerCosts price ps v = .ok (qs, cs.sum, v')) ∧ (∀ v, Same v w → ∃ v', Same v' w ∧ stiffenerCosts price qs v = .ok (qs, cs.sum, v')) ∧
    List.Forall₂ (PlatePrice w price) (ps.filterMap id) cs := by
  induction ps with
  | nil => exact ⟨[], [], fun v s => ⟨v, s, rfl⟩, fun v s => ⟨v, s, rfl⟩, .nil⟩
  | cons o ps ih =>
    obtain ⟨qs, cs, h1, h2, h3⟩ := ih fun p h => hp p (List.mem_cons_of_mem _ h)
    cases o with
    | none =>
      refine ⟨none :: qs, cs, fun v s => ?_, fun v s => ?_, h3⟩
      · obtain ⟨v', s', e⟩ := h1 v s
        exact ⟨v', s', by simp only [stiffenerCosts, e, bind, Except.bind]⟩
      · obtain ⟨v', s', e⟩ := h2 v s
        exact ⟨v', s', by simp only [stiffenerCosts, e, bind, Except.bind]⟩
    | some p =>
      obtain ⟨hr, ht⟩ := hp p List.mem_cons_self
      obtain ⟨q, c, k1, k2, -, k4⟩ := plate_total hw price ht
      refine ⟨some q :: qs, c :: cs, fun v s => ?_, fun v s => ?_, .cons (k4 hr) h3⟩
      · obtain ⟨v1, s1, e1⟩ := k1 v s
        obtain ⟨v2, s2, e2⟩ := h1 v1 s1
        exact ⟨v2, s2, by simp only [stiffenerCosts, e1, e2, bind, Except.bind, List.sum_cons]⟩
      · obtain ⟨v1, s1, e1⟩ := k2 v s
        obtain ⟨v2, s2, e2⟩ := h2 v1 s1
        exact ⟨v2, s2, by simp only [stiffenerCosts, e1, e2, bind, Except.bind, List.sum_cons]⟩

theorem Quote.job {w v : Workshop} {j : Job} {c : ℝ} (h : Quote w j c) (s : Same v w) : ∃ v', Same v' w ∧ runJob v j = .ok (v', c) := by
  obtain ⟨v', e, s'⟩ := (h.same s).run
  exact ⟨v', s'.trans s, by simp only [runJob, e]⟩

/-- The outline of an I-section with root fillets: outer faces and edges of the flanges, inner faces of the flanges outside the fillets, four quarters of a circle and both sides of the web between the
    fillets. -/
def outline (b : JBeam) : ℝ :=
  2 * b.b + 4 * b.tf + 4 * ((b.b - b.tw) / 2 - b.r) + 4 * (2 * Real.pi * b.r / 4) + 2 * (b.h - 2 * b.tf - 2 * b.r)

/-- Parts of the cost of an end plate joint: `cb` is what the fasteners cost. -/
structure EPJPrice (w : Workshop) (j : EPJ) (cb c : ℝ) : Prop where
  parts : ∃ cp ch cf cw cs lf lw,
    PlatePrice w w.platePrice j.plate cp ∧
    Quote w (.cut j.plate.t (holeSum j.rows)) ch ∧
    Quote w (.weld j.weldF lf .fillet) cf ∧ Quote w (.weld j.weldW lw .fillet) cw ∧
    lf + lw = outline j.beam ∧ lw = 2 * (j.beam.h - 2 * j.beam.tf - 2 * j.beam.r) ∧
    List.Forall₂ (PlatePrice w w.platePrice) (j.stiffeners.filterMap id) cs ∧
    c = cp + cb + ch + (cf + cw) + cs.sum

/-- **C219 (partial).** The cost of an end plate joint is the cost of its end plate and its stiffeners as separate plates at the plate price of the workshop, cutting two holes per bolt row in the end plate,
    welding along the whole outline of the beam (flanges with one weld size, the straight part of the web with the other), and per bolt row two bolts, one nut and one washer. Asking again gives the same cost,
    whatever was asked meanwhile. Missing: the other nut and washer and the holes of the column (`C219_violation_row`), a price given by the caller (`C219_violation_price`), stripped plates. -/
theorem C219_partial {P : Prices} {w : Workshop} (hw : Sound w) {j : EPJ} (hp : Reach j.plate) (ht : j.plate.t ≤ 157)
    (hs : ∀ p, some p ∈ j.stiffeners → Reach p ∧ p.t ≤ 157) {xs : List (ℝ × ℝ × ℝ)} (hx : List.Forall₂ (BoltPrice P) j.rows xs) (m : ℝ) :
    ∃ j' c, j.cost P (some w) m = .ok (j', c) ∧ EPJPrice w j (rowSum xs) c ∧
      ∀ js m', ∃ j'', j'.cost P (some (after w js)) m' = .ok (j'', c) := by
  have hpp : ∀ v, Same v w → v.platePrice = w.platePrice := fun v s => s.price
  obtain ⟨q, cp, k1, k2, ⟨-, -, kt, -⟩, k4⟩ := plate_total hw w.platePrice ht
  obtain ⟨ch, hch⟩ := quote_cut hw ht (holeSum j.rows)
  obtain ⟨cf, hcf⟩ : ∃ c, Quote w (.weld j.weldF (2 * j.beam.flangeWeld) .fillet) c := ⟨_, by exact weld_value hw _ _ (by simp)⟩
  obtain ⟨cw, hcw⟩ : ∃ c, Quote w (.weld j.weldW (2 * j.beam.hw) .fillet) c := ⟨_, by exact weld_value hw _ _ (by simp)⟩
  obtain ⟨qs, cs, s1, s2, s3⟩ := stiffener_value hw w.platePrice j.stiffeners hs
  have first : ∀ v, Same v w → ∀ m', ∃ u, j.cost P (some v) m' = .ok ({ j with plate := q, stiffeners := qs, workshop := some u }, cp + (cf + cw) + ch + rowSum xs + cs.sum) := by
    intro v s m'
    obtain ⟨v1, t1, e1⟩ := k1 v s
    obtain ⟨v2, t2, e2⟩ := hch.job t1
    obtain ⟨v3, t3, e3⟩ := hcf.job t2
    obtain ⟨v4, t4, e4⟩ := hcw.job t3
    obtain ⟨v5, t5, e5⟩ := s1 v4 t4
    refine ⟨v5, ?_⟩
    simp only [EPJ.cost, Option.some_or, hpp v s, bind, Except.bind, e1, row_value hx, zero_add, e2, e3, e4, e5]
  have second : ∀ (u v : Workshop), Same v w → ∀ m', ∃ u', ({ j with plate := q, stiffeners := qs, workshop := some u } : EPJ).cost P (some v) m' =
      .ok ({ j with plate := q, stiffeners := qs, workshop := some u' }, cp + (cf + cw) + ch + rowSum xs + cs.sum) := by
    intro u v s m'
    obtain ⟨v1, t1, e1⟩ := k2 v s
    obtain ⟨v2, t2, e2⟩ := hch.job t1
    obtain ⟨v3, t3, e3⟩ := hcf.job t2
    obtain ⟨v4, t4, e4⟩ := hcw.job t3
    obtain ⟨v5, t5, e5⟩ := s2 v4 t4
    refine ⟨v5, ?_⟩
    simp only [EPJ.cost, Option.some_or, hpp v s, bind, Except.bind, e1, row_value hx, zero_add, kt, e2, e3, e4, e5]
  obtain ⟨u, e⟩ := first w (.refl w) m
  refine ⟨_, _, e, ⟨⟨cp, ch, cf, cw, cs, 2 * j.beam.flangeWeld, 2 * j.beam.hw, k4 hp, hch, hcf, hcw, ?_, ?_, s3, ?_⟩⟩, fun js m' => ?_⟩
  · unfold JBeam.flangeWeld JBeam.hw outline
    ring
  · rfl
  · ring
  · obtain ⟨u', e'⟩ := second u _ (after_same w js) m'
    exact ⟨_, e'⟩

/-- **C219 (violation, price).** The price of steel the caller gives has no effect. -/
theorem C219_violation_price (P : Prices) (j : EPJ) (w : Option Workshop) (m m' : ℝ) : j.cost P w m = j.cost P w m' := rfl

/-- **C219 (violation, rows).** Another bolt row costs less than two bolts with a nut and a washer each and the cutting of two holes in the end plate, although the column needs two more holes. -/
theorem C219_violation_row {P : Prices} {w : Workshop} (hw : Sound w) {j : EPJ} (hp : Reach j.plate) (ht : j.plate.t ≤ 157)
    (hs : ∀ p, some p ∈ j.stiffeners → Reach p ∧ p.t ≤ 157) {xs : List (ℝ × ℝ × ℝ)} (hx : List.Forall₂ (BoltPrice P) j.rows xs) (m : ℝ) {r : JBolt} {x : ℝ × ℝ × ℝ} (hr : BoltPrice P r x) :
    ∃ j' j'' c d k l, j.cost P (some w) m = .ok (j', c) ∧ ({ j with rows := r :: j.rows } : EPJ).cost P (some w) m = .ok (j'', d) ∧
      Quote w (.cut j.plate.t (holeSum j.rows)) k ∧ Quote w (.cut j.plate.t (2 * Real.pi * r.d0 + holeSum j.rows)) l ∧
      d - c < 2 * (x.1 + x.2.1 + x.2.2) + (l - k) := by
  obtain ⟨j', c, e, ⟨⟨cp, ch, cf, cw, cs, lf, lw, a1, a2, a3, a4, a5, a6, a7, a8⟩⟩, -⟩ := C219_partial hw hp ht hs hx m
  obtain ⟨j'', d, e', ⟨⟨cp', ch', cf', cw', cs', lf', lw', b1, b2, b3, b4, b5, b6, b7, b8⟩⟩, -⟩ :=
    C219_partial (j := { j with rows := r :: j.rows }) hw hp ht hs (.cons hr hx) m
  have g : holeSum (r :: j.rows) = 2 * Real.pi * r.d0 + holeSum j.rows := by
    simp only [holeSum, List.map_cons, List.sum_cons]
    ring
  refine ⟨j', j'', c, d, ch, ch', e, e', a2, g ▸ b2, ?_⟩
  obtain ⟨-, -, p1, p2⟩ := hr.get
  have hlw : lw' = lw := b6.trans a6.symm
  have hlf : lf' = lf := by
    have h1 : lf' + lw' = lf + lw := b5.trans a5.symm
    linarith
  subst hlw hlf
  have h1 := a3.unique b3
  have h2 := a4.unique b4
  have h3 : cp = cp' := a1.unique b1
  have h4 : cs = cs' := prices_unique a7 b7
  subst h1 h2 h3 h4
  rw [a8, b8]
  simp only [rowSum, List.map_cons, List.sum_cons]
  linarith

/-! ### C220 -/

/-- Parts of the cost of a fin plate joint with the prices `x` of a bolt, a nut and a washer. -/
structure FPJPrice (w : Workshop) (j : FPJ) (x : ℝ × ℝ × ℝ) (c : ℝ) : Prop where
  parts : ∃ cp ch cw,
    PlatePrice w w.platePrice { j.plate.p with holes := List.replicate (j.plate.n1 * j.plate.n2) j.plate.d0 } cp ∧
    Quote w (.cut j.tw (Real.pi * (List.replicate (j.plate.n1 * j.plate.n2) j.bolt.d0).sum)) ch ∧
    Quote w (.weld j.weldSize (j.plate.p.h + j.plate.p.h) .fillet) cw ∧
    c = cp + ch + cw + ((j.plate.n1 * j.plate.n2 : ℕ) : ℝ) * (x.1 + x.2.1 + x.2.2)

/-- **C220 (partial).** The cost of a fin plate joint is the cost of the fin plate with a hole for each bolt, at the plate price of the workshop, cutting a hole for each bolt in the web of the beam, two welds along the
    plate, and for each bolt a bolt, a nut and a washer; asking again gives the same cost, whatever was asked meanwhile. Missing: a price given by the caller (`C220_violation`), stripped plates. -/
theorem C220_partial {P : Prices} {w : Workshop} (hw : Sound w) {j : FPJ} (hp : Reach j.plate.p) (ht : j.plate.p.t ≤ 157) (htw : j.tw ≤ 157) (hn : 0 < j.plate.n1) (hn' : 0 < j.plate.n2)
    {x : ℝ × ℝ × ℝ} (hx : BoltPrice P j.bolt x) (m : ℝ) :
    ∃ j' c, j.cost P (some w) m = .ok (j', c) ∧ FPJPrice w j x c ∧ ∀ js m', ∃ j'', j'.cost P (some (after w js)) m' = .ok (j'', c) := by
  have hpp : ∀ v, Same v w → v.platePrice = w.platePrice := fun v s => s.price
  have hne : List.replicate j.plate.n j.plate.d0 ≠ [] := by
    simp only [ne_eq, List.replicate_eq_nil_iff, HolePlate.n]
    positivity
  obtain ⟨h1, h2, -, -⟩ := hx.get
  obtain ⟨q, cp, k1, k2, ⟨-, kh, kt, kq⟩, k4⟩ := plate_total (p := { j.plate.p with holes := List.replicate j.plate.n j.plate.d0 }) hw w.platePrice ht
  obtain ⟨ch, hch⟩ := quote_cut hw htw ((j.plate.n : ℝ) * j.bolt.d0 * Real.pi)
  obtain ⟨cw, hcw⟩ : ∃ c, Quote w (.weld j.weldSize (2 * j.plate.p.h) .fillet) c := ⟨_, by exact weld_value hw _ _ (by simp)⟩
  have first : ∀ v, Same v w → ∀ m', ∃ u, j.cost P (some v) m' =
      .ok ({ j with plate := { j.plate with p := q }, workshop := some u }, cp + cw + ch + (j.plate.n * x.1 + j.plate.n * x.2.1 + j.plate.n * x.2.2)) := by
    intro v s m'
    obtain ⟨v1, t1, e1⟩ := k1 v s
    obtain ⟨v2, t2, e2⟩ := hch.job t1
    obtain ⟨v3, t3, e3⟩ := hcw.job t2
    refine ⟨v3, ?_⟩
    simp only [FPJ.cost, HolePlate.cost, Option.some_or, hpp v s, bind, Except.bind, e1, hx.bolt, h1, h2, e2, e3]
  have second : ∀ (u v : Workshop), Same v w → ∀ m', ∃ u', ({ j with plate := { j.plate with p := q }, workshop := some u } : FPJ).cost P (some v) m' =
      .ok ({ j with plate := { j.plate with p := q }, workshop := some u' }, cp + cw + ch + (j.plate.n * x.1 + j.plate.n * x.2.1 + j.plate.n * x.2.2)) := by
    intro u v s m'
    obtain ⟨v1, t1, e1⟩ := k2 v s
    obtain ⟨v2, t2, e2⟩ := hch.job t1
    obtain ⟨v3, t3, e3⟩ := hcw.job t2
    have eq : ({ q with holes := List.replicate ({ j.plate with p := q } : HolePlate).n j.plate.d0 } : Plate) = q := by
      have : List.replicate ({ j.plate with p := q } : HolePlate).n j.plate.d0 = q.holes := kq.symm
      rw [this]
    refine ⟨v3, ?_⟩
    have hn2 : (({ j.plate with p := q } : HolePlate).n : ℝ) = (j.plate.n : ℝ) := rfl
    have kh' : q.h = j.plate.p.h := kh
    have ec : ({ j.plate with p := q } : HolePlate).cost v w.platePrice = (v1, .ok ({ j.plate with p := q }, cp)) := by
      unfold HolePlate.cost
      rw [eq, e1]
    simp only [FPJ.cost, Option.some_or, hpp v s, bind, Except.bind, ec, hx.bolt, h1, h2, hn2, e2, kh', e3]
  obtain ⟨u, e⟩ := first w (.refl w) m
  refine ⟨_, _, e, ⟨⟨cp, ch, cw, k4 (.drill hp hne), ?_, ?_, ?_⟩⟩, fun js m' => ?_⟩
  · have : Real.pi * (List.replicate (j.plate.n1 * j.plate.n2) j.bolt.d0).sum = (j.plate.n : ℝ) * j.bolt.d0 * Real.pi := by
      rw [List.sum_replicate, nsmul_eq_mul, HolePlate.n]
      ring
    rw [this]
    exact hch
  · rw [← two_mul]
    exact hcw
  · simp only [HolePlate.n]
    ring
  · obtain ⟨u', e'⟩ := second u _ (after_same w js) m'
    exact ⟨_, e'⟩

/-- **C220 (violation).** The price of steel the caller gives has no effect. -/
theorem C220_violation (P : Prices) (j : FPJ) (w : Option Workshop) (m m' : ℝ) : j.cost P w m = j.cost P w m' := rfl

/-- A joint that meets the hypotheses of `C219_partial`, with any prices of bolts. -/
example : ∃ w : Workshop, Sound w ∧ Reach (Plate.new 200 400 15 .other) ∧ (Plate.new 200 400 15 .other).t ≤ 157 ∧
    ∃ xs, List.Forall₂ (BoltPrice fun _ _ _ => .ok 3) [⟨.full, 80, 20, 22⟩, ⟨.part, 80, 20, 22⟩] xs := by
  obtain ⟨w, -, h⟩ := sound_new
  refine ⟨w, h, .new _ _ _ _, by norm_num [Plate.new], [(3, 54 / 100, 65 / 100), (3, 54 / 100, 65 / 100)], ?_⟩
  exact .cons ⟨rfl, by simp [fasteners]⟩ (.cons ⟨rfl, by simp [fasteners]⟩ .nil)

end

end Metku.Shop
