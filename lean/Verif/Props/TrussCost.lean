import Verif.Model.TrussCost
import Verif.Props.Workshop
import Verif.Props.RhsJoint

/-!
C232-C233: costs, weights and welds of roof trusses.
-/
namespace Metku.Shop

open Metku.Steel Metku.Rhs

noncomputable section

/-! ### C232 -/

/-- What a workshop charges for a job. -/
def price (w : Workshop) (j : Job) : ℝ := match (w.run j).2 with
  | .ok c => c
  | .error _ => 0

/-- What a truss costs, by kinds, at the prices of a workshop: kilograms of all members, their lengths and surfaces, two cuts for each brace, and a weld around each brace at each joint. -/
def bill (w : Workshop) (t : CTruss) (size : TubeMem → ℝ) : Kind → ℝ
  | .material => ((t.braces ++ t.top ++ t.bottom).map fun m => m.price * (m.A * m.Lm * (7850 / 10 ^ 9))).sum
  | .blasting => ((t.braces ++ t.top ++ t.bottom).map fun m => price w (.blast m.L)).sum
  | .painting => ((t.braces ++ t.top ++ t.bottom).map fun m => price w (.paint (m.L * m.Au))).sum
  | .sawing => (t.braces.map fun m => price w (.saw m.L 0 m.grade.saw (List.replicate 2 ⟨m.T, m.B, 2 * (m.H * m.T), m.A⟩))).sum
  | .welding => (t.joints.flatten.map fun p => price w (.weld (size p.1) (2 * (p.1.H / Real.sin (p.2 * Real.pi / 180)) + 2 * p.1.B - 8 * p.1.R + 2 * Real.pi * p.1.R) .fillet)).sum

/-- Braces of a real size. -/
structure RealTube (m : TubeMem) : Prop where
  H : 0 < m.H
  B : 0 < m.B
  T : 0 < m.T
  A : 0 < m.A

/-- Throat of the weld around a brace: the root of 2 times the correlation factor, the ratio of the strengths with their partial factors and the wall thickness. -/
def throat (m : TubeMem) : ℝ := √2 * (match m.grade with
  | .S235 => 8 / 10 * (235 / 360)
  | .S275 => 85 / 100 * (275 / 430)
  | .S355 => 9 / 10 * (355 / 510)
  | .S420 => 420 / 500
  | _ => 0) * (125 / 100) * m.T

theorem runJob_same {v w : Workshop} (h : Same v w) {j : Job} {c : ℝ} (hc : (w.run j).2 = .ok c) : ∃ v', runJob v j = .ok (v', c) ∧ Same v' w := by
  have e := h.run j
  rw [hc] at e
  refine ⟨(v.run j).1, ?_, (run_same v j).trans h⟩
  unfold runJob
  revert e
  rcases v.run j with ⟨v', r⟩
  intro e
  have e : r = .ok c := e
  rw [e]

theorem price_eq {w : Workshop} {j : Job} {c : ℝ} (h : (w.run j).2 = .ok c) : price w j = c := by
  unfold price
  rw [h]

theorem run_price {w : Workshop} {j : Job} (h : ∃ c, (w.run j).2 = .ok c) : (w.run j).2 = .ok (price w j) := by
  obtain ⟨c, h⟩ := h
  rw [h, price_eq h]

theorem blast_ok {w : Workshop} (h : Sound w) (L : ℝ) : ∃ c, (w.run (.blast L)).2 = .ok c := ⟨_, blast_value h L⟩

theorem paint_ok {w : Workshop} (h : Sound w) (A : ℝ) : ∃ c, (w.run (.paint A)).2 = .ok c := ⟨_, paint_value h A⟩

theorem saw_ok {w : Workshop} (h : Sound w) {m : TubeMem} (r : RealTube m) (hg : m.grade.saw ≠ .other) : ∃ c, (w.run m.sawJob).2 = .ok c := by
  refine ⟨_, saw_value h _ _ hg fun e he => ?_⟩
  have : e = ⟨m.T, m.B, 2 * m.H * m.T, m.A⟩ := by simpa using he
  subst this
  have h1 := r.H
  have h2 := r.T
  refine RealEnd.time ⟨r.B.le, ?_, .inl r.B, r.A.le⟩
  show 0 ≤ 2 * m.H * m.T
  positivity

theorem weld_ok {w : Workshop} (h : Sound w) (a l : ℝ) : ∃ c, (w.run (.weld a l .fillet)).2 = .ok c := ⟨_, weld_value h a l (by simp)⟩

/-- The items of a member and the sums of its kinds. -/
def items (brace : Bool) (w : Workshop) (m : TubeMem) : List (Kind × ℝ) :=
  [(.material, m.material), (.blasting, price w (.blast m.L)), (.painting, price w (.paint (m.L * m.Au)))] ++ if brace then [(.sawing, price w m.sawJob)] else []

theorem chord_items {v w : Workshop} (hs : Sound w) (h : Same v w) (m : TubeMem) : ∃ v', m.chordCost v = .ok (v', items false w m) ∧ Same v' w := by
  obtain ⟨v1, e1, s1⟩ := runJob_same h (run_price (blast_ok hs m.L))
  obtain ⟨v2, e2, s2⟩ := runJob_same s1 (run_price (paint_ok hs (m.L * m.Au)))
  refine ⟨v2, ?_, s2⟩
  simp only [TubeMem.chordCost, bind, Except.bind, e1, e2]
  rfl

theorem brace_items {v w : Workshop} (hs : Sound w) (h : Same v w) {m : TubeMem} (r : RealTube m) (hg : m.grade.saw ≠ .other) : ∃ v', m.braceCost v = .ok (v', items true w m) ∧ Same v' w := by
  obtain ⟨v1, e1, s1⟩ := runJob_same h (run_price (blast_ok hs m.L))
  obtain ⟨v2, e2, s2⟩ := runJob_same s1 (run_price (paint_ok hs (m.L * m.Au)))
  obtain ⟨v3, e3, s3⟩ := runJob_same s2 (run_price (saw_ok hs r hg))
  refine ⟨v3, ?_, s3⟩
  simp only [TubeMem.braceCost, bind, Except.bind, e1, e2, e3]
  rfl

theorem addItems_apply (l : List (Kind × ℝ)) (f : Kind → ℝ) (k : Kind) : addItems f l k = f k + (l.map fun p => if k = p.1 then p.2 else 0).sum := by
  unfold addItems
  induction l generalizing f with
  | nil => simp
  | cons p l ih =>
    rw [List.foldl_cons, ih]
    simp only [List.map_cons, List.sum_cons]
    split_ifs <;> ring

theorem loop_items {cost : TubeMem → Workshop → Except PyErr (Workshop × List (Kind × ℝ))} {it : TubeMem → List (Kind × ℝ)} {w : Workshop} {ms : List TubeMem}
    (hc : ∀ m ∈ ms, ∀ v, Same v w → ∃ v', cost m v = .ok (v', it m) ∧ Same v' w) {v : Workshop} (h : Same v w) (c : ℝ) (f : Kind → ℝ) :
    ∃ v', memLoop cost ms (v, c, f) = .ok (v', c + (ms.map fun m => ((it m).map Prod.snd).sum).sum, fun k => f k + (ms.map fun m => ((it m).map fun p => if k = p.1 then p.2 else 0).sum).sum) ∧ Same v' w := by
  induction ms generalizing v c f with
  | nil => exact ⟨v, by simp [memLoop], h⟩
  | cons m ms ih =>
    obtain ⟨v1, e1, s1⟩ := hc m (by simp) v h
    obtain ⟨v2, e2, s2⟩ := ih (fun m hm => hc m (by simp [hm])) s1 (c + ((it m).map Prod.snd).sum) (addItems f (it m))
    refine ⟨v2, ?_, s2⟩
    simp only [memLoop, bind, Except.bind, e1, e2]
    congr 3
    · simp only [List.map_cons, List.sum_cons]
      ring
    · funext k
      rw [addItems_apply]
      simp only [List.map_cons, List.sum_cons]
      ring

theorem size_eq {m : TubeMem} (h : ∃ b, m.grade.corr = .ok b) : m.weldSize = .ok (throat m) := by
  have hs : √(2:ℝ) ^ 2 = 2 := Real.sq_sqrt (by norm_num)
  have hp : 0 < √(2:ℝ) := by positivity
  have key : ∀ x : ℝ, 2 * x / √2 = √2 * x := by
    intro x
    field_simp
    rw [hs]
    ring
  obtain ⟨b, hb⟩ := h
  unfold TubeMem.weldSize throat
  cases hg : m.grade <;> rw [hg] at hb <;> simp only [TubeGrade.corr, bind, Except.bind, key, TubeGrade.fy, TubeGrade.fu] at hb ⊢ <;> first | (congr 1; ring; done) | cases hb

/-- The weld around a brace at a joint. -/
def weldPrice (w : Workshop) (p : TubeMem × ℝ) : ℝ := price w (.weld (throat p.1) (p.1.weldLength p.2) .fillet)

theorem weld_items {w : Workshop} (hs : Sound w) {j : List (TubeMem × ℝ)} (hg : ∀ p ∈ j, ∃ b, p.1.grade.corr = .ok b) {v : Workshop} (h : Same v w) (c : ℝ) :
    ∃ v', weldCosts j (v, c) = .ok (v', c + (j.map (weldPrice w)).sum) ∧ Same v' w := by
  induction j generalizing v c with
  | nil => exact ⟨v, by simp [weldCosts], h⟩
  | cons p r ih =>
    obtain ⟨m, a⟩ := p
    obtain ⟨v1, e1, s1⟩ := runJob_same h (run_price (weld_ok hs (throat m) (m.weldLength a)))
    obtain ⟨v2, e2, s2⟩ := ih (fun p hp => hg p (by simp [hp])) s1 (c + price w (.weld (throat m) (m.weldLength a) .fillet))
    refine ⟨v2, ?_, s2⟩
    simp only [weldCosts, size_eq (hg (m, a) (by simp)), bind, Except.bind, e1, e2]
    congr 2
    simp only [List.map_cons, List.sum_cons, weldPrice]
    ring

theorem joint_items {w : Workshop} (hs : Sound w) {js : List (List (TubeMem × ℝ))} (hg : ∀ j ∈ js, ∀ p ∈ j, ∃ b, p.1.grade.corr = .ok b) {v : Workshop} (h : Same v w) (c : ℝ) (f : Kind → ℝ) :
    ∃ v', jointLoop js (v, c, f) = .ok (v', c + (js.flatten.map (weldPrice w)).sum, fun k => f k + if k = .welding then (js.flatten.map (weldPrice w)).sum else 0) ∧ Same v' w := by
  induction js generalizing v c f with
  | nil => exact ⟨v, by simp [jointLoop], h⟩
  | cons j r ih =>
    obtain ⟨v1, e1, s1⟩ := weld_items hs (hg j (by simp)) h 0
    obtain ⟨v2, e2, s2⟩ := ih (fun j hj => hg j (by simp [hj])) s1 (c + (0 + (j.map (weldPrice w)).sum)) (addItems f [(.welding, 0 + (j.map (weldPrice w)).sum)])
    refine ⟨v2, ?_, s2⟩
    simp only [jointLoop, bind, Except.bind, e1, e2]
    congr 3
    · simp only [List.flatten_cons, List.map_append, List.sum_append]
      ring
    · funext k
      rw [addItems_apply]
      simp only [List.flatten_cons, List.map_append, List.sum_append, List.map_cons, List.map_nil, List.sum_cons, List.sum_nil]
      split_ifs <;> ring

theorem items_sum (b : Bool) (w : Workshop) (m : TubeMem) (k : Kind) : ((items b w m).map fun p => if k = p.1 then p.2 else 0).sum = match k with
    | .material => m.material
    | .blasting => price w (.blast m.L)
    | .painting => price w (.paint (m.L * m.Au))
    | .sawing => if b then price w m.sawJob else 0
    | .welding => 0 := by
  cases b <;> cases k <;> simp [items]

theorem items_total (b : Bool) (w : Workshop) (m : TubeMem) : ((items b w m).map Prod.snd).sum = m.material + price w (.blast m.L) + price w (.paint (m.L * m.Au)) + if b then price w m.sawJob else 0 := by
  cases b <;> simp [items] <;> ring

/-- The bill in the order in which the code adds it up. -/
theorem bill_eq (w : Workshop) (t : CTruss) (k : Kind) : bill w t throat k =
    0 + (t.braces.map fun m => ((items true w m).map fun p => if k = p.1 then p.2 else 0).sum).sum + (t.top.map fun m => ((items false w m).map fun p => if k = p.1 then p.2 else 0).sum).sum +
      (t.bottom.map fun m => ((items false w m).map fun p => if k = p.1 then p.2 else 0).sum).sum + if k = .welding then (t.joints.flatten.map (weldPrice w)).sum else 0 := by
  have hm : (fun m : TubeMem => m.price * (m.A * m.Lm * (7850 / 10 ^ 9))) = TubeMem.material := by
    funext m
    unfold TubeMem.material
    ring
  have hw : (fun p : TubeMem × ℝ => price w (.weld (throat p.1) (2 * (p.1.H / Real.sin (p.2 * Real.pi / 180)) + 2 * p.1.B - 8 * p.1.R + 2 * Real.pi * p.1.R) .fillet)) = weldPrice w := by
    funext p
    unfold weldPrice TubeMem.weldLength rad
    congr 2
    ring
  have hsaw : (fun m : TubeMem => price w (.saw m.L 0 m.grade.saw (List.replicate 2 ⟨m.T, m.B, 2 * (m.H * m.T), m.A⟩))) = fun m => price w m.sawJob := by
    funext m
    unfold TubeMem.sawJob
    rw [mul_assoc]
    rfl
  simp only [items_sum]
  cases k
  · simp only [bill, hm, List.map_append, List.sum_append]
    simp
  · simp only [bill, List.map_append, List.sum_append]
    simp
  · simp only [bill, List.map_append, List.sum_append]
    simp
  · simp only [bill, hw]
    simp
  · simp only [bill, hsaw]
    simp

/-- C232 (part): the cost of a truss whose braces are of S235, S355 or S420 steel, in a workshop that may have done other work before. The returned total is the sum of the attribute `costs` over the five kinds, and each kind is the sum
over all members or welds at the prices of the workshop. The calculation leaves the prices as they were, so that repeating it gives the same result. -/
theorem C232_partial {w v : Workshop} (hs : Sound w) (hv : Same v w) (t : CTruss) (hb : ∀ m ∈ t.braces, RealTube m ∧ (m.grade = .S235 ∨ m.grade = .S355 ∨ m.grade = .S420))
    (hj : ∀ p ∈ t.joints.flatten, p.1.grade = .S235 ∨ p.1.grade = .S355 ∨ p.1.grade = .S420) :
    ∃ v' c f, t.cost v = .ok (v', c, f) ∧ Same v' w ∧ f = bill w t throat ∧ c = f .material + f .blasting + f .painting + f .welding + f .sawing ∧ ∃ v'', t.cost v' = .ok (v'', c, f) := by
  have hg : ∀ j ∈ t.joints, ∀ p ∈ j, ∃ b, p.1.grade.corr = .ok b := by
    intro j h p hp
    rcases hj p (List.mem_flatten.2 ⟨j, h, hp⟩) with e | e | e <;> exact ⟨_, by rw [e]; rfl⟩
  have hg2 : ∀ m ∈ t.braces, m.grade.saw ≠ .other := by
    intro m hm
    rcases (hb m hm).2 with e | e | e <;> rw [e] <;> simp [TubeGrade.saw]
  have main : ∀ v, Same v w → ∃ v', t.cost v = .ok (v', bill w t throat .material + bill w t throat .blasting + bill w t throat .painting + bill w t throat .welding + bill w t throat .sawing, bill w t throat) ∧ Same v' w := by
    intro v hv
    obtain ⟨v1, e1, s1⟩ := loop_items (cost := TubeMem.braceCost) (it := items true w) (ms := t.braces) (fun m hm v h => brace_items hs h (hb m hm).1 (hg2 m hm)) hv 0 (fun _ => 0)
    obtain ⟨v2, e2, s2⟩ := loop_items (cost := TubeMem.chordCost) (it := items false w) (ms := t.top) (fun m _ v h => chord_items hs h m) s1 0
      (fun k => 0 + (t.braces.map fun m => ((items true w m).map fun p => if k = p.1 then p.2 else 0).sum).sum)
    obtain ⟨v3, e3, s3⟩ := loop_items (cost := TubeMem.chordCost) (it := items false w) (ms := t.bottom) (fun m _ v h => chord_items hs h m) s2 0
      (fun k => 0 + (t.braces.map fun m => ((items true w m).map fun p => if k = p.1 then p.2 else 0).sum).sum + (t.top.map fun m => ((items false w m).map fun p => if k = p.1 then p.2 else 0).sum).sum)
    obtain ⟨v4, e4, s4⟩ := joint_items hs hg s3 0
      (fun k => 0 + (t.braces.map fun m => ((items true w m).map fun p => if k = p.1 then p.2 else 0).sum).sum + (t.top.map fun m => ((items false w m).map fun p => if k = p.1 then p.2 else 0).sum).sum +
        (t.bottom.map fun m => ((items false w m).map fun p => if k = p.1 then p.2 else 0).sum).sum)
    refine ⟨v4, ?_, s4⟩
    simp only [CTruss.cost, bind, Except.bind, e1, e2, e3, e4]
    have hf : (fun k => 0 + (t.braces.map fun m => ((items true w m).map fun p => if k = p.1 then p.2 else 0).sum).sum + (t.top.map fun m => ((items false w m).map fun p => if k = p.1 then p.2 else 0).sum).sum +
        (t.bottom.map fun m => ((items false w m).map fun p => if k = p.1 then p.2 else 0).sum).sum + if k = .welding then (t.joints.flatten.map (weldPrice w)).sum else 0) = bill w t throat := by
      funext k
      rw [bill_eq]
    rw [hf]
    congr 3
    simp only [bill_eq, items_sum, items_total, List.sum_map_add]
    simp
    ring
  obtain ⟨v', e, s⟩ := main v hv
  obtain ⟨v'', e', -⟩ := main v' s
  exact ⟨v', _, _, e, s, rfl, rfl, v'', e'⟩

/-- The code disagrees about other steels: braces of S275, S460M or S460Q have no sawing parameters, and joints of S460M, S460Q, S500 or S700 no weld size: KeyError. -/
theorem C232_violation {w : Workshop} (hs : Sound w) (t : CTruss) :
    (∀ m r, t.braces = m :: r → m.grade ∈ [TubeGrade.S275, .S460M, .S460Q] → t.cost w = .error .keyError) ∧
    (∀ m a r rest, t.joints = ((m, a) :: r) :: rest → m.grade ∈ [TubeGrade.S500, .S700] → (∀ m ∈ t.braces, RealTube m ∧ m.grade = .S500 ∨ RealTube m ∧ m.grade = .S700) → t.cost w = .error .keyError) := by
  constructor
  · intro m r hb hm
    obtain ⟨v1, e1, s1⟩ := runJob_same (Same.refl w) (run_price (blast_ok hs m.L))
    obtain ⟨v2, e2, s2⟩ := runJob_same s1 (run_price (paint_ok hs (m.L * m.Au)))
    have e3 : runJob v2 m.sawJob = .error .keyError := by
      have h := s2.run m.sawJob
      have h2 : (w.run m.sawJob).2 = .error .keyError := by
        unfold TubeMem.sawJob
        have : m.grade.saw = .other := by
          simp only [List.mem_cons, List.not_mem_nil, or_false] at hm
          rcases hm with e | e | e <;> rw [e] <;> rfl
        rw [this]
        exact C216_violation_grade hs _ _ _ _
      rw [h2] at h
      unfold runJob
      revert h
      rcases v2.run m.sawJob with ⟨v', q⟩
      intro h
      have h : q = .error .keyError := h
      rw [h]
    simp only [CTruss.cost, hb, memLoop, TubeMem.braceCost, bind, Except.bind, e1, e2, e3]
  · intro m a r rest hj hm hb
    have hg2 : ∀ m ∈ t.braces, m.grade.saw ≠ .other := by
      intro m hm
      rcases hb m hm with e | e <;> rw [e.2] <;> simp [TubeGrade.saw]
    obtain ⟨v1, e1, s1⟩ := loop_items (cost := TubeMem.braceCost) (it := items true w) (ms := t.braces)
      (fun m hm v h => brace_items hs h (by rcases hb m hm with e | e <;> exact e.1) (hg2 m hm)) (Same.refl w) 0 (fun _ => 0)
    obtain ⟨v2, e2, s2⟩ := loop_items (cost := TubeMem.chordCost) (it := items false w) (ms := t.top) (fun m _ v h => chord_items hs h m) s1 0
      (fun k => 0 + (t.braces.map fun m => ((items true w m).map fun p => if k = p.1 then p.2 else 0).sum).sum)
    obtain ⟨v3, e3, s3⟩ := loop_items (cost := TubeMem.chordCost) (it := items false w) (ms := t.bottom) (fun m _ v h => chord_items hs h m) s2 0
      (fun k => 0 + (t.braces.map fun m => ((items true w m).map fun p => if k = p.1 then p.2 else 0).sum).sum + (t.top.map fun m => ((items false w m).map fun p => if k = p.1 then p.2 else 0).sum).sum)
    have e4 : m.weldSize = .error .keyError := by
      unfold TubeMem.weldSize
      simp only [List.mem_cons, List.not_mem_nil, or_false] at hm
      rcases hm with e | e <;> rw [e] <;> rfl
    simp only [CTruss.cost, bind, Except.bind, e1, e2, e3, hj, jointLoop, weldCosts, e4]

/-- A brace 90 x 90 x 5 of S355 and a chord. -/
example : let m : TubeMem := ⟨90, 90, 5, 10, 1636, 342, .S355, 1, 2000, 2000⟩
    ∃ w, Workshop.new = .ok w ∧ Sound w ∧ RealTube m ∧ ∃ v c f, (⟨[m, m], [m], [m], [[(m, 45), (m, 60)]]⟩ : CTruss).cost w = .ok (v, c, f) := by
  intro m
  obtain ⟨w, hw, h⟩ := sound_new
  have r : RealTube m := ⟨by norm_num [m], by norm_num [m], by norm_num [m], by norm_num [m]⟩
  obtain ⟨v, c, f, e, -⟩ := C232_partial h (Same.refl w) ⟨[m, m], [m], [m], [[(m, 45), (m, 60)]]⟩ (by simp [r, m]) (by simp [m])
  exact ⟨w, hw, h, r, v, c, f, e⟩

/-! ### C233 -/

/-- C233 (part): the fillet weld around a brace has full strength: when the wall of the brace carries its design resistance across the weld, the stresses on the throat reach the limit of the directional method, and no smaller throat would do.
It is as long as the surface of the tube per unit length at a right angle, and longer the flatter the brace. -/
theorem C233_partial (m : TubeMem) (hT : 0 < m.T) (hH : 0 < m.H) (hg : m.grade = .S235 ∨ m.grade = .S275 ∨ m.grade = .S355 ∨ m.grade = .S420) :
    (∃ a β, m.weldSize = .ok a ∧ m.grade.corr = .ok β ∧ 0 < a ∧
      ∀ a', 0 < a' → (√((m.grade.fy * m.T / 1 / (√2 * a')) ^ 2 + 3 * (m.grade.fy * m.T / 1 / (√2 * a')) ^ 2) ≤ m.grade.fu / (β * (125 / 100)) ↔ a ≤ a')) ∧
    m.weldLength 90 = rhsPaintArea m.H m.B m.R ∧ ∀ x y, 0 < x → x < y → y ≤ 90 → m.weldLength y < m.weldLength x := by
  have s2 : √(2:ℝ) ^ 2 = 2 := Real.sq_sqrt (by norm_num)
  have p2 : 0 < √(2:ℝ) := by positivity
  refine ⟨?_, ?_, ?_⟩
  · obtain ⟨β, hβ, hp, hfy, hfu⟩ : ∃ β, m.grade.corr = .ok β ∧ 0 < β ∧ 0 < m.grade.fy ∧ 0 < m.grade.fu := by
      rcases hg with e | e | e | e <;> rw [e] <;> exact ⟨_, rfl, by norm_num, by norm_num [TubeGrade.fy], by norm_num [TubeGrade.fu]⟩
    refine ⟨_, β, by unfold TubeMem.weldSize; rw [hβ]; rfl, hβ, by positivity, fun a' ha => ?_⟩
    have e : (m.grade.fy * m.T / 1 / (√2 * a')) ^ 2 + 3 * (m.grade.fy * m.T / 1 / (√2 * a')) ^ 2 = (√2 * (m.grade.fy * m.T) / a') ^ 2 := by
      field_simp
      rw [show √(2:ℝ) ^ 4 = (√2 ^ 2) ^ 2 by ring, s2]
      norm_num
    rw [e, Real.sqrt_sq (by positivity), div_le_div_iff₀ ha (by positivity)]
    have e2 : 2 * β / √2 * (125 / 100) / 1 * m.grade.fy / m.grade.fu * m.T = √2 * (m.grade.fy * m.T) * (β * (125 / 100)) / m.grade.fu := by
      field_simp
      rw [s2]
    rw [e2, div_le_iff₀ hfu, mul_comm a']
  · unfold TubeMem.weldLength rhsPaintArea
    rw [rad_90, Real.sin_pi_div_two]
    ring
  · intro x y hx hxy hy
    have s1 : 0 < Real.sin (rad x) := sin_rad_pos hx (by linarith)
    have hlt : Real.sin (rad x) < Real.sin (rad y) := by
      have := Real.pi_pos
      apply Real.sin_lt_sin_of_lt_of_le_pi_div_two
      · unfold rad
        have : 0 < x * Real.pi / 180 := by positivity
        linarith
      · rw [← rad_90]
        unfold rad
        gcongr
      · unfold rad
        gcongr
    unfold TubeMem.weldLength
    have := div_lt_div_of_pos_left hH s1 hlt
    linarith

/-- The weld sizes of other steels raise KeyError. -/
theorem C233_violation (m : TubeMem) (hg : m.grade = .S460M ∨ m.grade = .S460Q ∨ m.grade = .S500 ∨ m.grade = .S700) : m.weldSize = .error .keyError := by
  unfold TubeMem.weldSize
  rcases hg with e | e | e | e <;> rw [e] <;> rfl

example : let m : TubeMem := ⟨90, 90, 5, 10, 1636, 342, .S355, 1, 2000, 2000⟩
    0 < m.T ∧ 0 < m.H ∧ m.weldSize = .ok (throat m) ∧ throat m = √2 * (9 / 10 * (355 / 510)) * (125 / 100) * 5 := by
  refine ⟨by norm_num, by norm_num, size_eq ⟨_, rfl⟩, rfl⟩

/-! ### C234: weights -/

/-- C234: the weights of top chord, bottom chord and braces add up to the weight of all members, each is the weight of its members in whatever order they were added, and the material of a truss of one price whose members know their lengths
costs this weight times the price. -/
theorem C234 (l : List (TrussPart × TubeMem)) :
    weightDetailed l = (((l.filter (·.1 = .top)).map fun p => p.2.A * p.2.L * (7850 / 10 ^ 9)).sum, ((l.filter (·.1 = .bottom)).map fun p => p.2.A * p.2.L * (7850 / 10 ^ 9)).sum,
      ((l.filter (·.1 = .brace)).map fun p => p.2.A * p.2.L * (7850 / 10 ^ 9)).sum) ∧
    (weightDetailed l).1 + (weightDetailed l).2.1 + (weightDetailed l).2.2 = (l.map fun p => p.2.A * p.2.L * (7850 / 10 ^ 9)).sum ∧
    ∀ (w : Workshop) (c : ℝ) (js : List (List (TubeMem × ℝ))), (∀ p ∈ l, p.2.price = c ∧ p.2.Lm = p.2.L) →
      bill w ⟨(l.filter (·.1 = .brace)).map Prod.snd, (l.filter (·.1 = .top)).map Prod.snd, (l.filter (·.1 = .bottom)).map Prod.snd, js⟩ throat .material =
        c * ((weightDetailed l).1 + (weightDetailed l).2.1 + (weightDetailed l).2.2) := by
  have key : ∀ (l : List (TrussPart × TubeMem)) (a b c : ℝ), l.foldl addWeight (a, b, c) =
      (a + ((l.filter (·.1 = .top)).map fun p => p.2.weight).sum, b + ((l.filter (·.1 = .bottom)).map fun p => p.2.weight).sum, c + ((l.filter (·.1 = .brace)).map fun p => p.2.weight).sum) := by
    intro l
    induction l with
    | nil => intro a b c; simp
    | cons p l ih =>
      intro a b c
      obtain ⟨k, m⟩ := p
      rw [List.foldl_cons]
      cases k <;> simp only [addWeight, ih] <;> simp [add_assoc]
  have h1 : weightDetailed l = (((l.filter (·.1 = .top)).map fun p => p.2.weight).sum, ((l.filter (·.1 = .bottom)).map fun p => p.2.weight).sum, ((l.filter (·.1 = .brace)).map fun p => p.2.weight).sum) := by
    unfold weightDetailed
    rw [key]
    simp
  have h2 : ∀ l : List (TrussPart × TubeMem), ((l.filter (·.1 = .top)).map fun p => p.2.weight).sum + ((l.filter (·.1 = .bottom)).map fun p => p.2.weight).sum + ((l.filter (·.1 = .brace)).map fun p => p.2.weight).sum =
      (l.map fun p => p.2.weight).sum := by
    intro l
    induction l with
    | nil => simp
    | cons p l ih =>
      obtain ⟨k, m⟩ := p
      cases k <;> simp <;> linarith
  refine ⟨h1, ?_, ?_⟩
  · rw [h1]
    exact h2 l
  · intro w c js hp
    rw [h1]
    have e : ∀ k, ((l.filter (·.1 = k)).map fun p => p.2.price * (p.2.A * p.2.Lm * (7850 / 10 ^ 9))).sum = c * ((l.filter (·.1 = k)).map fun p => p.2.weight).sum := by
      intro k
      rw [← List.sum_map_mul_left]
      congr 1
      refine List.map_congr_left fun p hp' => ?_
      obtain ⟨q1, q2⟩ := hp p (List.mem_filter.1 hp').1
      rw [q1, q2]
      rfl
    simp only [bill, List.map_append, List.sum_append, List.map_map, Function.comp_def, e]
    ring

example : let m : TubeMem := ⟨90, 90, 5, 10, 1636, 342, .S355, 1, 2000, 2000⟩
    (weightDetailed [(.top, m), (.brace, m), (.brace, m)]).2.2 = 2 * (1636 * 2000 * (7850 / 10 ^ 9)) := by
  intro m
  norm_num [weightDetailed, addWeight, TubeMem.weight, m]

end

end Metku.Shop
