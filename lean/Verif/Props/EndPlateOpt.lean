import Verif.Model.EndPlateOpt
import Mathlib.Tactic.Linarith
import Mathlib.Tactic.Positivity
import Mathlib.Tactic.NormNum
import Mathlib.Tactic.FieldSimp
import Mathlib.Tactic.Ring
import Mathlib.Order.Interval.Set.Infinite
import Mathlib.Algebra.Order.Ring.Unbundled.Rat

/-!
Properties C353-C357: optimization of end-plate joints.
-/
set_option linter.unusedSimpArgs false
set_option linter.unusedVariables false

namespace Metku.EPOpt

open Metku

/-! ## Specification -/

/-- Value that a point gives to the variable of a name (sum over the variables of that name). -/
noncomputable def valueOf (n : Name) (vars : List Var) (xs : List ℝ) : ℝ :=
  (List.zipWith (fun v x => if v.name = n then clip v x else 0) vars xs).sum

/-- Ordinary joint with an extended end plate: the first row, and only it, lies outside the tension flange. -/
def Extended (D : Data) : Prop := (∃ r, D.rows[0]? = some r ∧ r.outside = true) ∧ ∀ i r, D.rows[i + 1]? = some r → r.outside = false

/-! ## Helper lemmas -/

theorem clip_lb (v : Var) (x : ℝ) : v.lb ≤ clip v x := le_max_left _ _

theorem clip_le (v : Var) (x : ℝ) : clip v x ≤ max v.lb v.ub := max_le_max le_rfl (min_le_right _ _)

theorem clip_ub (v : Var) (x : ℝ) (h : v.lb ≤ v.ub) : clip v x ≤ v.ub := max_le h (min_le_right _ _)

theorem clip_self (v : Var) (x : ℝ) (h1 : v.lb ≤ x) (h2 : x ≤ v.ub) : clip v x = x := by
  unfold clip
  rw [min_eq_left h2, max_eq_right h1]

theorem valueOf_cons (n : Name) (v : Var) (vs : List Var) (x : ℝ) (xs : List ℝ) :
    valueOf n (v :: vs) (x :: xs) = (if v.name = n then clip v x else 0) + valueOf n vs xs := by
  simp [valueOf]

theorem dot_eq (m n : Name) (hmn : m ≠ n) (c d : ℝ) : ∀ (vs : List Var) (xs : List ℝ),
    (List.zipWith (· * ·) (vs.map (fun v => if v.name = m then c else if v.name = n then d else 0)) (vals vs xs)).sum =
      c * valueOf m vs xs + d * valueOf n vs xs
  | [], xs => by simp [valueOf, vals]
  | v :: vs, [] => by simp [valueOf, vals]
  | v :: vs, x :: xs => by
    have ih := dot_eq m n hmn c d vs xs
    rw [valueOf_cons, valueOf_cons]
    simp only [vals, List.zipWith_cons_cons, List.map_cons, List.sum_cons] at ih ⊢
    rw [ih]
    by_cases h1 : v.name = m
    · have h2 : v.name ≠ n := fun h => hmn (h1 ▸ h)
      have h3 : m ≠ n := hmn
      simp [h1, h3]; ring
    · by_cases h2 : v.name = n
      · have h4 : n ≠ m := fun h => hmn h.symm
        simp [h2, h4]; ring
      · simp [h1, h2]

/-- Effect of a substitution on the heights of the rows. -/
noncomputable def zAfter : List Var → List ℝ → (ℕ → ℝ) → (ℕ → ℝ)
  | v :: vs, x :: xs, z => zAfter vs xs (match v.target with
    | .z i => Function.update z i (clip v x)
    | _ => z)
  | _, _, z => z

theorem substJ_z (D : Data) : ∀ (vs : List Var) (xs : List ℝ) (j : Joint), (substJ D vs xs j).z = zAfter vs xs j.z
  | [], xs, j => by simp [substJ, zAfter]
  | v :: vs, [], j => by simp [substJ, zAfter]
  | v :: vs, x :: xs, j => by
    rw [substJ, substJ_z D vs xs, zAfter]
    cases h : v.target <;> simp [setT]

/-- Variables that only move rows. -/
def RowVar (v : Var) : Prop := ∃ k, v.name = .z (k + 1) ∧ v.target = .z k

theorem substJ_rows (D : Data) : ∀ (vs : List Var) (xs : List ℝ) (j : Joint), (∀ v ∈ vs, RowVar v) →
    substJ D vs xs j = { j with z := zAfter vs xs j.z }
  | [], xs, j, _ => by simp [substJ, zAfter]
  | v :: vs, [], j, _ => by simp [substJ, zAfter]
  | v :: vs, x :: xs, j, h => by
    obtain ⟨k, -, hk⟩ := h v (by simp)
    rw [substJ, substJ_rows D vs xs _ (fun w hw => h w (by simp [hw])), zAfter]
    simp [hk, setT]

theorem inner_rowVar (D : Data) (j : Joint) : ∀ (rs : List RowInfo) (i : ℕ) (ub : ℝ), ∀ v ∈ innerVars D j rs i ub,
    ∃ k, i ≤ k ∧ v.name = .z (k + 1) ∧ v.target = .z k ∧ v.lb = -zUb D ∧ v.value = j.z k ∧
      ∃ r, rs[k - i]? = some r ∧ r.shear = false ∧ r.outside = false
  | [], _, _, v, hv => by simp [innerVars] at hv
  | r :: rs, i, ub, v, hv => by
    rw [innerVars] at hv
    by_cases hr : (r.shear || r.outside) = true
    · rw [if_pos hr] at hv
      obtain ⟨k, h1, h2, h3, h4, h5, q, h6, h7⟩ := inner_rowVar D j rs (i + 1) ub v hv
      refine ⟨k, by omega, h2, h3, h4, h5, q, ?_, h7⟩
      rw [show k - i = (k - (i + 1)) + 1 by omega]
      simpa using h6
    · rw [if_neg hr] at hv
      rcases List.mem_cons.1 hv with rfl | hv
      · have : r.shear = false ∧ r.outside = false := by
          revert hr
          cases r.shear <;> cases r.outside <;> simp
        exact ⟨i, le_rfl, rfl, rfl, rfl, rfl, r, by simp, this⟩
      · obtain ⟨k, h1, h2, h3, h4, h5, q, h6, h7⟩ := inner_rowVar D j rs (i + 1) _ v hv
        refine ⟨k, by omega, h2, h3, h4, h5, q, ?_, h7⟩
        rw [show k - i = (k - (i + 1)) + 1 by omega]
        simpa using h6

theorem inner_ub (D : Data) (j : Joint) (hd : 0 ≤ D.d0) : ∀ (rs : List RowInfo) (i : ℕ) (ub : ℝ), ∀ v ∈ innerVars D j rs i ub, v.ub ≤ ub
  | [], _, _, v, hv => by simp [innerVars] at hv
  | r :: rs, i, ub, v, hv => by
    rw [innerVars] at hv
    by_cases hr : (r.shear || r.outside) = true
    · rw [if_pos hr] at hv
      exact inner_ub D j hd rs (i + 1) ub v hv
    · rw [if_neg hr] at hv
      rcases List.mem_cons.1 hv with rfl | hv
      · exact le_rfl
      · have := inner_ub D j hd rs (i + 1) _ v hv
        linarith

/-- The variables of the rows. -/
noncomputable def tailVars (D : Data) (j : Joint) (o : Opts) : List Var := z1Var D j o :: innerVars D j D.rows 0 (zUb D)

theorem tail_rowVar (D : Data) (j : Joint) (o : Opts) : ∀ v ∈ tailVars D j o, RowVar v := by
  intro v hv
  rcases List.mem_cons.1 hv with rfl | hv
  · exact ⟨0, rfl, rfl⟩
  · obtain ⟨k, -, h1, h2, -⟩ := inner_rowVar D j _ _ _ v hv
    exact ⟨k, h1, h2⟩

theorem createVars_eq {D : Data} {j : Joint} {o : Opts} {ts : List ℝ} {vars : List Var} (h : createVars D j o ts = .ok vars) :
    vars = tpVar j :: xVar D j :: ((if o.etop then [etopVar D j] else []) ++ ((if o.bp then [bpVar D] else []) ++ tailVars D j o)) := by
  unfold createVars at h
  split at h
  · cases h
  · rw [← Except.ok.inj h]
    simp [tailVars]

theorem valueOf_rows (n : Name) (hn : ∀ k, n ≠ .z k) : ∀ (vs : List Var) (xs : List ℝ), (∀ v ∈ vs, RowVar v) → valueOf n vs xs = 0
  | [], xs, _ => by simp [valueOf]
  | v :: vs, [], _ => by simp [valueOf]
  | v :: vs, x :: xs, h => by
    obtain ⟨k, hk, -⟩ := h v (by simp)
    rw [valueOf_cons, valueOf_rows n hn vs xs (fun w hw => h w (by simp [hw])), if_neg (by rw [hk]; exact (hn _).symm)]
    simp

/-- The joint after a substitution. -/
theorem subst_eq {D : Data} {j : Joint} {o : Opts} {ts : List ℝ} {vars : List Var} (h : createVars D j o ts = .ok vars)
    {xs : List ℝ} (hl : xs.length = vars.length) (j' : Joint) :
    substJ D vars xs j' =
      { tp := valueOf .tp vars xs
        xbolts := valueOf .x vars xs
        ebolts := 1 / 2 * j'.bp - valueOf .x vars xs
        etop := if o.etop then valueOf .eTop vars xs else j'.etop
        plateH := if o.etop then valueOf .eTop vars xs + D.ebottom + D.hb else j'.plateH
        bp := if o.bp then valueOf .bp vars xs else j'.bp
        z := zAfter vars xs j'.z } := by
  have hv := createVars_eq h
  have hT := tail_rowVar D j o
  have hz := substJ_z D vars xs j'
  rw [← hz]
  subst hv
  obtain ⟨ob, oe⟩ := o
  have e1 : ∀ ys, valueOf .tp (tailVars D j ⟨ob, oe⟩) ys = 0 := fun ys => valueOf_rows _ (by simp) _ _ hT
  have e2 : ∀ ys, valueOf .x (tailVars D j ⟨ob, oe⟩) ys = 0 := fun ys => valueOf_rows _ (by simp) _ _ hT
  have e3 : ∀ ys, valueOf .eTop (tailVars D j ⟨ob, oe⟩) ys = 0 := fun ys => valueOf_rows _ (by simp) _ _ hT
  have e4 : ∀ ys, valueOf .bp (tailVars D j ⟨ob, oe⟩) ys = 0 := fun ys => valueOf_rows _ (by simp) _ _ hT
  rcases xs with _ | ⟨a, _ | ⟨b, xs⟩⟩
  · simp at hl
  · simp at hl
  · cases ob <;> cases oe
    · simp [valueOf_cons, tpVar, xVar, e1, e2, e3, e4, substJ, setT, substJ_rows D _ _ _ hT]
    · rcases xs with _ | ⟨c, xs⟩
      · simp [tailVars] at hl
      · simp [valueOf_cons, tpVar, xVar, etopVar, e1, e2, e3, e4, substJ, setT, substJ_rows D _ _ _ hT]
    · rcases xs with _ | ⟨c, xs⟩
      · simp [tailVars] at hl
      · simp [valueOf_cons, tpVar, xVar, bpVar, e1, e2, e3, e4, substJ, setT, substJ_rows D _ _ _ hT]
    · rcases xs with _ | ⟨c, _ | ⟨d, xs⟩⟩
      · simp [tailVars] at hl
      · simp [tailVars] at hl
      · simp [valueOf_cons, tpVar, xVar, bpVar, etopVar, e1, e2, e3, e4, substJ, setT, substJ_rows D _ _ _ hT]

/-! ### Heights of the rows -/

theorem zAfter_none (k : ℕ) : ∀ (vs : List Var) (xs : List ℝ) (z : ℕ → ℝ), (∀ v ∈ vs, v.target ≠ .z k) → zAfter vs xs z k = z k
  | [], xs, z, _ => by simp [zAfter]
  | v :: vs, [], z, _ => by simp [zAfter]
  | v :: vs, x :: xs, z, h => by
    rw [zAfter, zAfter_none k vs xs _ (fun w hw => h w (by simp [hw]))]
    have := h v (by simp)
    cases ht : v.target with
    | z i =>
      rw [ht] at this
      have hik : k ≠ i := fun e => this (by rw [e])
      simp [Function.update_of_ne hik]
    | _ => rfl

theorem zAfter_some (k : ℕ) : ∀ (vs : List Var) (xs : List ℝ), xs.length = vs.length → (∃ v ∈ vs, v.target = .z k) →
    ∃ v ∈ vs, v.target = .z k ∧ ∃ x, ∀ z, zAfter vs xs z k = clip v x
  | [], xs, _, h => by simp at h
  | v :: vs, [], hl, _ => by simp at hl
  | v :: vs, x :: xs, hl, h => by
    by_cases hr : ∃ w ∈ vs, w.target = .z k
    · obtain ⟨w, hw, h1, y, h2⟩ := zAfter_some k vs xs (by simpa using hl) hr
      exact ⟨w, by simp [hw], h1, y, fun z => by rw [zAfter, h2]⟩
    · have hr' : ∀ w ∈ vs, w.target ≠ .z k := fun w hw e => hr ⟨w, hw, e⟩
      obtain ⟨w, hw, h1⟩ := h
      rcases List.mem_cons.1 hw with rfl | hw
      · refine ⟨w, by simp, h1, x, fun z => ?_⟩
        rw [zAfter, zAfter_none k vs xs _ hr', h1]
        simp
      · exact absurd h1 (hr' w hw)

/-- Every variable named after a row moves that row. -/
def Linked (v : Var) : Prop := ∀ k, v.name = .z (k + 1) ↔ v.target = .z k

theorem valueOf_zero (n : Name) : ∀ (vs : List Var) (xs : List ℝ), (∀ v ∈ vs, v.name ≠ n) → valueOf n vs xs = 0
  | [], xs, _ => by simp [valueOf]
  | v :: vs, [], _ => by simp [valueOf]
  | v :: vs, x :: xs, h => by
    rw [valueOf_cons, valueOf_zero n vs xs (fun w hw => h w (by simp [hw])), if_neg (h v (by simp))]
    simp

theorem zAfter_one (k : ℕ) : ∀ (vs : List Var) (xs : List ℝ) (z : ℕ → ℝ), xs.length = vs.length → (∀ v ∈ vs, Linked v) →
    (vs.map (·.name)).count (.z (k + 1)) = 1 → zAfter vs xs z k = valueOf (.z (k + 1)) vs xs
  | [], xs, z, _, _, h => by simp at h
  | v :: vs, [], z, hl, _, _ => by simp at hl
  | v :: vs, x :: xs, z, hl, hk, h => by
    rw [valueOf_cons, zAfter]
    by_cases hv : v.name = .z (k + 1)
    · rw [List.map_cons, hv, List.count_cons_self] at h
      have h0 : (vs.map (·.name)).count (.z (k + 1)) = 0 := by omega
      have hno : ∀ w ∈ vs, w.name ≠ .z (k + 1) := by
        intro w hw e
        exact List.count_eq_zero.1 h0 (List.mem_map.2 ⟨w, hw, e⟩)
      rw [zAfter_none k vs xs _ (fun w hw e => hno w hw ((hk w (by simp [hw]) k).2 e)), valueOf_zero _ _ _ hno, if_pos hv,
        (hk v (by simp) k).1 hv]
      simp
    · rw [List.map_cons, List.count_cons_of_ne (by simpa using hv)] at h
      rw [if_neg hv, zero_add]
      exact zAfter_one k vs xs _ (by simpa using hl) (fun w hw => hk w (by simp [hw])) h

theorem inner_count (D : Data) (j : Joint) (k : ℕ) : ∀ (rs : List RowInfo) (i : ℕ) (ub : ℝ),
    ((innerVars D j rs i ub).map (·.name)).count (.z (k + 1)) =
      if i ≤ k ∧ ∃ r, rs[k - i]? = some r ∧ r.shear = false ∧ r.outside = false then 1 else 0
  | [], i, ub => by simp [innerVars]
  | r :: rs, i, ub => by
    rw [innerVars]
    have step : ∀ u, ((innerVars D j rs (i + 1) u).map (·.name)).count (.z (k + 1)) =
        if i + 1 ≤ k ∧ ∃ r, rs[k - (i + 1)]? = some r ∧ r.shear = false ∧ r.outside = false then 1 else 0 := fun u => inner_count D j k rs (i + 1) u
    by_cases hik : i + 1 ≤ k
    · have e : k - i = (k - (i + 1)) + 1 := by omega
      have hne : (Name.z (i + 1)) ≠ .z (k + 1) := by simp; omega
      have hik' : i ≤ k := by omega
      by_cases hr : (r.shear || r.outside) = true
      · rw [if_pos hr, step]
        simp [hik, hik', e]
      · rw [if_neg hr, List.map_cons, List.count_cons_of_ne hne, step]
        simp [hik, hik', e]
    · by_cases hk : k = i
      · subst hk
        by_cases hr : (r.shear || r.outside) = true
        · rw [if_pos hr, step, if_neg (by omega)]
          rw [if_neg]
          rintro ⟨-, q, h1, h2, h3⟩
          simp at h1
          subst h1
          simp [h2, h3] at hr
        · rw [if_neg hr, List.map_cons, List.count_cons_self, step, if_neg (by omega)]
          rw [if_pos]
          refine ⟨le_rfl, r, by simp, ?_⟩
          revert hr
          cases r.shear <;> cases r.outside <;> simp
      · have hne : (Name.z (i + 1)) ≠ .z (k + 1) := by simp; omega
        have hlt : ¬ i ≤ k := by omega
        by_cases hr : (r.shear || r.outside) = true
        · rw [if_pos hr, step]
          simp [hik, hlt]
        · rw [if_neg hr, List.map_cons, List.count_cons_of_ne hne, step]
          simp [hik, hlt]

theorem vars_linked {D : Data} {j : Joint} {o : Opts} {ts : List ℝ} {vars : List Var} (h : createVars D j o ts = .ok vars) :
    ∀ v ∈ vars, Linked v := by
  intro v hv
  rw [createVars_eq h] at hv
  have hT : ∀ v ∈ tailVars D j o, Linked v := by
    intro v hv k
    obtain ⟨m, h1, h2⟩ := tail_rowVar D j o v hv
    rw [h1, h2]
    simp
  simp only [List.mem_cons, List.mem_append] at hv
  rcases hv with rfl | rfl | hv | hv | hv
  · intro k; simp [tpVar]
  · intro k; simp [xVar]
  · split at hv
    · obtain rfl := List.mem_singleton.1 hv
      intro k; simp [etopVar]
    · simp at hv
  · split at hv
    · obtain rfl := List.mem_singleton.1 hv
      intro k; simp [bpVar]
    · simp at hv
  · exact hT v hv

theorem vars_count {D : Data} {j : Joint} {o : Opts} {ts : List ℝ} {vars : List Var} (h : createVars D j o ts = .ok vars) (k : ℕ) :
    (vars.map (·.name)).count (.z (k + 1)) =
      (if k = 0 then 1 else 0) + (if ∃ r, D.rows[k]? = some r ∧ r.shear = false ∧ r.outside = false then 1 else 0) := by
  have e := inner_count D j k D.rows 0 (zUb D)
  simp only [Nat.zero_le, true_and, Nat.sub_zero] at e
  have e1 : ((tailVars D j o).map (·.name)).count (.z (k + 1)) = (if k = 0 then 1 else 0) +
      ((innerVars D j D.rows 0 (zUb D)).map (·.name)).count (.z (k + 1)) := by
    by_cases hk : k = 0
    · subst hk
      simp [tailVars, z1Var, Nat.add_comm]
    · have : (Name.z 1) ≠ .z (k + 1) := by simp; omega
      simp [tailVars, z1Var, List.count_cons_of_ne this, hk]
  rw [createVars_eq h, ← e, ← e1]
  obtain ⟨ob, oe⟩ := o
  have n1 : (Name.tp) ≠ .z (k + 1) := by simp
  have n2 : (Name.x) ≠ .z (k + 1) := by simp
  have n3 : (Name.eTop) ≠ .z (k + 1) := by simp
  have n4 : (Name.bp) ≠ .z (k + 1) := by simp
  cases ob <;> cases oe <;>
    simp [tpVar, xVar, etopVar, bpVar, List.count_cons_of_ne n1, List.count_cons_of_ne n2, List.count_cons_of_ne n3, List.count_cons_of_ne n4]

theorem one_first {D : Data} {j : Joint} {o : Opts} {ts : List ℝ} {vars : List Var} (h : createVars D j o ts = .ok vars) (hD : Extended D) :
    (vars.map (·.name)).count (.z (0 + 1)) = 1 := by
  rw [vars_count h]
  obtain ⟨⟨r, hr, ho⟩, -⟩ := hD
  rw [if_pos rfl, if_neg]
  rintro ⟨q, h1, -, h3⟩
  rw [hr] at h1
  obtain rfl := Option.some.inj h1
  rw [ho] at h3
  cases h3

theorem one_later {D : Data} {j : Joint} {o : Opts} {ts : List ℝ} {vars : List Var} (h : createVars D j o ts = .ok vars) (hD : Extended D)
    {k : ℕ} {r : RowInfo} (hr : D.rows[k + 1]? = some r) (hs : r.shear = false) : (vars.map (·.name)).count (.z (k + 1 + 1)) = 1 := by
  rw [vars_count h, if_neg (by omega), if_pos ⟨r, hr, hs, hD.2 k r hr⟩]

theorem rowCon_mem {D : Data} {o : Opts} {vars : List Var} {i : ℕ} {r : RowInfo} (hr : D.rows[i + 1]? = some r) (hs : r.shear = false) :
    rowCon D vars (i + 1) ∈ geomCons D o vars := by
  have hi : i + 1 < D.rows.length := by
    by_contra hc
    rw [List.getElem?_eq_none (by omega)] at hr
    cases hr
  unfold geomCons
  refine List.mem_append_left _ (List.mem_append_left _ (List.mem_map.2 ⟨i + 1, List.mem_filter.2 ⟨?_, ?_⟩, rfl⟩))
  · rw [List.mem_range'_1]
    omega
  · simp [isTension, hr, hs]

theorem rowCon_val (D : Data) (vars : List Var) (i : ℕ) (xs : List ℝ) :
    (rowCon D vars i).val (vals vars xs) = valueOf (.z i) vars xs - valueOf (.z (i + 1)) vars xs - 22 / 10 * D.d0 := by
  unfold Lin.val rowCon
  rw [dot_eq _ _ (by simp)]
  ring

theorem extCon_val (D : Data) (vars : List Var) (xs : List ℝ) :
    (extCon D vars).val (vals vars xs) = valueOf .eTop vars xs - valueOf (.z 1) vars xs - (12 / 10 * D.d0 - 1 / 2 * D.hb) := by
  unfold Lin.val extCon
  rw [dot_eq _ _ (by simp)]
  ring

theorem edgeCon_val (D : Data) (vars : List Var) (xs : List ℝ) :
    (edgeCon D vars).val (vals vars xs) = 1 / 2 * valueOf .bp vars xs - valueOf .x vars xs - max (12 / 10 * D.d0) (1 / 2 * D.dw) := by
  unfold Lin.val edgeCon
  rw [dot_eq _ _ (by simp)]
  ring

/-! ## C353: vertical distances of the bolt rows -/

section
variable {D : Data} {j : Joint} {o : Opts} {ts : List ℝ} {vars : List Var} {xs : List ℝ}

/-- In a geometrically feasible design of an extended end plate, adjacent tension rows are at least 2.2 hole diameters apart (up to the constraint tolerance); the first row may be
    of any type. Partial: rows below a shear row and flush end plates, see `after_shear_viol` and `flush_viol`. -/
theorem rows_apart_partial (h : createVars D j o ts = .ok vars) (hD : Extended D) (hl : xs.length = vars.length) (hf : geomFeasible D o vars xs)
    (j' : Joint) {i : ℕ} {r : RowInfo} (hr : D.rows[i + 1]? = some r) (hs : r.shear = false)
    (hp : i = 0 ∨ ∃ q, D.rows[i]? = some q ∧ q.shear = false) :
    22 / 10 * D.d0 - 1 / 10000 ≤ (substJ D vars xs j').z i - (substJ D vars xs j').z (i + 1) := by
  have hc := hf _ (rowCon_mem (o := o) (vars := vars) hr hs)
  rw [rowCon_val] at hc
  rw [substJ_z, zAfter_one (i + 1) vars xs _ hl (vars_linked h) (one_later h hD hr hs)]
  have : zAfter vars xs j'.z i = valueOf (.z (i + 1)) vars xs := by
    refine zAfter_one i vars xs _ hl (vars_linked h) ?_
    rcases hp with rfl | ⟨q, hq, hqs⟩
    · exact one_first h hD
    · cases i with
      | zero => exact one_first h hD
      | succ i => exact one_later h hD hq hqs
  rw [this]
  linarith

/-- The top row stays clear of the tension flange: washer and weld fit between them. The rows between the flanges stay clear of both flanges. -/
theorem rows_clear (h : createVars D j o ts = .ok vars) (hD : Extended D) (hl : xs.length = vars.length) (j' : Joint) :
    1 / 2 * D.hb + √2 * D.weldF + 1 / 2 * D.dw ≤ (substJ D vars xs j').z 0 ∧
    (0 ≤ D.d0 → 0 ≤ 1 / 2 * D.hb - D.tfb - √2 * D.weldF - 1 / 2 * D.dw → ∀ i r, D.rows[i + 1]? = some r → r.shear = false →
      |(substJ D vars xs j').z (i + 1)| ≤ 1 / 2 * D.hb - D.tfb - √2 * D.weldF - 1 / 2 * D.dw) := by
  have hv := createVars_eq h
  have hmem : ∀ v ∈ vars, ∀ k, v.target = .z k → v = z1Var D j o ∧ k = 0 ∨ v ∈ innerVars D j D.rows 0 (zUb D) := by
    intro v hm k hk
    rw [hv] at hm
    simp only [List.mem_cons, List.mem_append, tailVars] at hm
    rcases hm with rfl | rfl | hm | hm | rfl | hm
    · simp [tpVar] at hk
    · simp [xVar] at hk
    · split at hm
      · obtain rfl := List.mem_singleton.1 hm
        simp [etopVar] at hk
      · simp at hm
    · split at hm
      · obtain rfl := List.mem_singleton.1 hm
        simp [bpVar] at hk
      · simp at hm
    · left
      simp [z1Var] at hk
      exact ⟨rfl, hk.symm⟩
    · exact Or.inr hm
  constructor
  · rw [substJ_z]
    obtain ⟨v, hm, ht, x, hx⟩ := zAfter_some 0 vars xs hl ⟨z1Var D j o, by rw [hv]; simp [tailVars], rfl⟩
    rw [hx]
    rcases hmem v hm 0 ht with ⟨rfl, -⟩ | hi
    · refine le_trans ?_ (clip_lb _ _)
      exact Int.le_ceil _
    · exfalso
      obtain ⟨k, -, -, h2, -, -, r, hr, -, ho⟩ := inner_rowVar D j _ _ _ v hi
      rw [ht] at h2
      obtain rfl : k = 0 := by simpa using h2.symm
      obtain ⟨⟨q, hq, hqo⟩, -⟩ := hD
      simp only [Nat.sub_zero] at hr
      rw [hq] at hr
      obtain rfl := Option.some.inj hr
      rw [hqo] at ho
      cases ho
  · intro hd hpos i r hr hs
    rw [substJ_z]
    have hcount := one_later h hD hr hs
    obtain ⟨w, hw, hwn⟩ : ∃ w ∈ vars, w.name = .z (i + 1 + 1) := by
      have : Name.z (i + 1 + 1) ∈ vars.map (·.name) := List.count_pos_iff.1 (by omega)
      simpa using this
    obtain ⟨v, hm, ht, x, hx⟩ := zAfter_some (i + 1) vars xs hl ⟨w, hw, (vars_linked h w hw _).1 hwn⟩
    rw [hx]
    rcases hmem v hm _ ht with ⟨-, h0⟩ | hi
    · omega
    · obtain ⟨k, -, -, -, h4, -⟩ := inner_rowVar D j _ _ _ v hi
      have h5 := inner_ub D j hd _ _ _ v hi
      have h6 : zUb D ≤ 1 / 2 * D.hb - D.tfb - √2 * D.weldF - 1 / 2 * D.dw := Int.floor_le _
      have h7 : 0 ≤ zUb D := by
        have : 0 ≤ ⌊1 / 2 * D.hb - D.tfb - √2 * D.weldF - 1 / 2 * D.dw⌋ := Int.floor_nonneg.2 hpos
        unfold zUb
        exact_mod_cast this
      have h8 := clip_lb v x
      have h9 := clip_le v x
      rw [h4] at h8 h9
      have h10 : clip v x ≤ zUb D := le_trans h9 (max_le (by linarith) h5)
      rw [abs_le]
      constructor <;> linarith

/-- Below a shear row the distance is not measured from it: the constraint asks for the row to be 2.2 hole diameters below the axis of the beam. -/
theorem after_shear_viol (h : createVars D j o ts = .ok vars) (hD : Extended D) (hl : xs.length = vars.length) (hf : geomFeasible D o vars xs)
    (j' : Joint) {i : ℕ} {r q : RowInfo} (hr : D.rows[i + 2]? = some r) (hs : r.shear = false) (hq : D.rows[i + 1]? = some q) (hqs : q.shear = true) :
    (substJ D vars xs j').z (i + 2) ≤ -(22 / 10 * D.d0) + 1 / 10000 ∧ (substJ D vars xs j').z (i + 1) = j'.z (i + 1) := by
  have hc := hf _ (rowCon_mem (o := o) (vars := vars) hr hs)
  rw [rowCon_val] at hc
  have h0 : (vars.map (·.name)).count (.z (i + 1 + 1)) = 0 := by
    rw [vars_count h, if_neg (by omega), if_neg]
    rintro ⟨q', h1, h2, -⟩
    rw [hq] at h1
    obtain rfl := Option.some.inj h1
    rw [hqs] at h2
    cases h2
  have hno : ∀ v ∈ vars, v.name ≠ .z (i + 1 + 1) := fun v hv e => List.count_eq_zero.1 h0 (List.mem_map.2 ⟨v, hv, e⟩)
  rw [valueOf_zero _ _ _ hno] at hc
  rw [substJ_z, zAfter_one (i + 2) vars xs _ hl (vars_linked h) (one_later h hD hr hs),
    zAfter_none (i + 1) vars xs _ (fun v hv e => hno v hv ((vars_linked h v hv _).2 e))]
  exact ⟨by linarith, rfl⟩

end

/-- Extended end plate: a row above the flange, two tension rows below it, one shear row (HEA 300 beam, M16 bolts). -/
noncomputable def Dex : Data :=
  { hb := 290, bb := 300, twb := 8, tfb := 14, bc := 300, twc := 11, rc := 27, d0 := 18, dw := 30, weldF := 5, weldW := 5, ebottom := 10
    rows := [⟨false, true⟩, ⟨false, false⟩, ⟨false, false⟩, ⟨true, false⟩] }

/-- The joint of the example. -/
noncomputable def jex : Joint := mkJoint Dex 15 240 85 50 (fun i => match i with
  | 0 => 185
  | 1 => 90
  | 2 => 0
  | _ => -90)

theorem Dex_ext : Extended Dex := by
  refine ⟨⟨⟨false, true⟩, rfl, rfl⟩, ?_⟩
  intro i r h
  rcases i with _ | _ | _ | i <;> simp [Dex] at h <;> subst h <;> rfl

theorem sqrt2_lb : (141 / 100 : ℝ) < √2 := by
  rw [Real.lt_sqrt (by norm_num)]
  norm_num

theorem sqrt2_ub : √2 < (1415 / 1000 : ℝ) := by
  rw [Real.sqrt_lt (by norm_num) (by norm_num)]
  norm_num

/-- The variables of the example. -/
noncomputable def vex (o : Opts) : List Var :=
  [tpVar jex, xVar Dex jex] ++ (if o.etop then [etopVar Dex jex] else []) ++ (if o.bp then [bpVar Dex] else []) ++
      [z1Var Dex jex o] ++ innerVars Dex jex Dex.rows 0 (zUb Dex)

theorem vex_ok (o : Opts) : createVars Dex jex o [] = .ok (vex o) := rfl

theorem zUb_ex : zUb Dex = 108 := by
  have h1 := sqrt2_lb
  have h2 := sqrt2_ub
  unfold zUb Dex
  have : ⌊(1 / 2 * 290 - 14 - √2 * 5 - 1 / 2 * 30 : ℝ)⌋ = 108 := by
    rw [Int.floor_eq_iff]
    constructor <;> push_cast <;> linarith
  rw [this]
  norm_num

theorem z1Lb_ex : z1Lb Dex = 168 := by
  have h1 := sqrt2_lb
  have h2 := sqrt2_ub
  unfold z1Lb Dex
  have : ⌈(1 / 2 * 290 + √2 * 5 + 1 / 2 * 30 : ℝ)⌉ = 168 := by
    rw [Int.ceil_eq_iff]
    constructor <;> push_cast <;> linarith
  rw [this]
  norm_num

theorem inner_ex : innerVars Dex jex Dex.rows 0 (zUb Dex) =
    [⟨.z 2, -108, 108, .z 1, 90⟩, ⟨.z 3, -108, 108 - 22 / 10 * 18, .z 2, 0⟩] := by
  rw [zUb_ex]
  show innerVars Dex jex [⟨false, true⟩, ⟨false, false⟩, ⟨false, false⟩, ⟨true, false⟩] 0 108 = _
  have hd : Dex.d0 = 18 := rfl
  have h1 : jex.z 1 = 90 := rfl
  have h2 : jex.z 2 = 0 := rfl
  simp [innerVars, zUb_ex, hd, h1, h2]

/-- The example is feasible. -/
theorem feas_ex : geomFeasible Dex ⟨false, false⟩ (vex ⟨false, false⟩) [15, 70, 185, 90, 0] := by
  intro c hc
  have hmem : c = rowCon Dex (vex ⟨false, false⟩) 1 ∨ c = rowCon Dex (vex ⟨false, false⟩) 2 := by
    have : (List.range' 1 (Dex.rows.length - 1)).filter (isTension Dex) = [1, 2] := by
      show (List.range' 1 3).filter _ = _
      simp [List.range', List.filter, isTension, Dex]
    unfold geomCons at hc
    rw [this] at hc
    simpa using hc
  have e : vex ⟨false, false⟩ = [tpVar jex, xVar Dex jex, z1Var Dex jex ⟨false, false⟩, ⟨.z 2, -108, 108, .z 1, 90⟩, ⟨.z 3, -108, 108 - 22 / 10 * 18, .z 2, 0⟩] := by
    unfold vex
    rw [inner_ex]
    rfl
  have e0 : clip (z1Var Dex jex ⟨false, false⟩) 185 = 185 := by
    refine clip_self _ _ ?_ ?_
    · show z1Lb Dex ≤ 185
      rw [z1Lb_ex]
      norm_num
    · show (185 : ℝ) ≤ 1 / 2 * 290 + 85
      norm_num
  have e1 : clip ⟨.z 2, -108, 108, .z 1, 90⟩ 90 = 90 := clip_self _ _ (by norm_num) (by norm_num)
  have e2 : clip ⟨.z 3, -108, 108 - 22 / 10 * 18, .z 2, 0⟩ 0 = 0 := clip_self _ _ (by norm_num) (by norm_num)
  have hd : Dex.d0 = 18 := rfl
  rcases hmem with rfl | rfl
  · rw [rowCon_val, e]
    simp only [valueOf_cons, e0, e1, e2]
    simp [tpVar, xVar, z1Var, valueOf, hd]
    norm_num
  · rw [rowCon_val, e]
    simp only [valueOf_cons, e0, e1, e2]
    simp [tpVar, xVar, z1Var, valueOf, hd]
    norm_num

example : 22 / 10 * Dex.d0 - 1 / 10000 ≤ (substJ Dex (vex ⟨false, false⟩) [15, 70, 185, 90, 0] jex).z 1 - (substJ Dex (vex ⟨false, false⟩) [15, 70, 185, 90, 0] jex).z (1 + 1) :=
  rows_apart_partial (vex_ok _) Dex_ext (by unfold vex; rw [inner_ex]; rfl) feas_ex jex (r := ⟨false, false⟩) rfl rfl (Or.inr ⟨⟨false, false⟩, rfl, rfl⟩)

example : |(substJ Dex (vex ⟨false, false⟩) [15, 70, 185, 90, 500] jex).z 2| ≤ 1 / 2 * Dex.hb - Dex.tfb - √2 * Dex.weldF - 1 / 2 * Dex.dw := by
  have h2 := sqrt2_ub
  refine (rows_clear (vex_ok _) Dex_ext (by unfold vex; rw [inner_ex]; rfl) jex).2 (by norm_num [Dex]) ?_ 1 ⟨false, false⟩ rfl rfl
  simp only [Dex]
  linarith

/-- Flush end plate with two tension rows between the flanges. -/
noncomputable def Dfl : Data := { Dex with rows := [⟨false, false⟩, ⟨false, false⟩] }

/-- For a flush end plate the first row has two variables of the name `z1`, and the distance constraint adds both: both rows at the same height are feasible. -/
theorem flush_viol : ∃ vars xs, createVars Dfl jex ⟨false, false⟩ [] = .ok vars ∧ xs.length = vars.length ∧ geomFeasible Dfl ⟨false, false⟩ vars xs ∧
    ∀ j', (substJ Dfl vars xs j').z 0 = (substJ Dfl vars xs j').z 1 := by
  have hz : zUb Dfl = 108 := zUb_ex
  have hi : innerVars Dfl jex Dfl.rows 0 (zUb Dfl) = [⟨.z 1, -108, 108, .z 0, 185⟩, ⟨.z 2, -108, 108 - 22 / 10 * 18, .z 1, 90⟩] := by
    rw [hz]
    show innerVars Dfl jex [⟨false, false⟩, ⟨false, false⟩] 0 108 = _
    have hd : Dfl.d0 = 18 := rfl
    have h1 : jex.z 1 = 90 := rfl
    have h2 : jex.z 0 = 185 := rfl
    simp [innerVars, hz, hd, h1, h2]
  have e1 : clip ⟨.z 1, -108, 108, .z 0, 185⟩ 0 = 0 := clip_self _ _ (by norm_num) (by norm_num)
  have e2 : clip ⟨.z 2, -108, 108 - 22 / 10 * 18, .z 1, 90⟩ 0 = 0 := clip_self _ _ (by norm_num) (by norm_num)
  have e0 : clip (z1Var Dfl jex ⟨false, false⟩) 185 = 185 := by
    refine clip_self _ _ ?_ ?_
    · show z1Lb Dex ≤ 185
      rw [z1Lb_ex]
      norm_num
    · show (185 : ℝ) ≤ 1 / 2 * 290 + 85
      norm_num
  refine ⟨[tpVar jex, xVar Dfl jex, z1Var Dfl jex ⟨false, false⟩, ⟨.z 1, -108, 108, .z 0, 185⟩, ⟨.z 2, -108, 108 - 22 / 10 * 18, .z 1, 90⟩], [15, 70, 185, 0, 0], ?_, rfl, ?_, ?_⟩
  · unfold createVars
    rw [hi]
    rfl
  · intro c hc
    have : (List.range' 1 (Dfl.rows.length - 1)).filter (isTension Dfl) = [1] := by
      show (List.range' 1 1).filter _ = _
      simp [List.range', List.filter, isTension, Dfl]
    unfold geomCons at hc
    rw [this] at hc
    have hc' : c = rowCon Dfl [tpVar jex, xVar Dfl jex, z1Var Dfl jex ⟨false, false⟩, ⟨.z 1, -108, 108, .z 0, 185⟩, ⟨.z 2, -108, 108 - 22 / 10 * 18, .z 1, 90⟩] 1 := by simpa using hc
    rw [hc', rowCon_val]
    simp only [valueOf_cons, e0, e1, e2]
    simp [tpVar, xVar, z1Var, valueOf, show Dfl.d0 = 18 from rfl]
    norm_num
  · intro j'
    simp only [substJ, setT, tpVar, xVar, z1Var, e1, e2]
    simp [Function.update]

/-! ## C354: distance of the top row from the edge of the plate -/

section
variable {D : Data} {j : Joint} {o : Opts} {ts : List ℝ} {vars : List Var} {xs : List ℝ}

/-- If the top extension is a variable, a geometrically feasible design leaves 1.2 hole diameters between the top row and the top edge of the plate, and the plate reaches from the bottom extension
    to the top extension. Partial: with a fixed extension nothing limits the distance, see `edge_fixed_viol`. -/
theorem top_edge_partial (h : createVars D j o ts = .ok vars) (hD : Extended D) (hl : xs.length = vars.length) (hf : geomFeasible D o vars xs)
    (ho : o.etop = true) (j' : Joint) :
    12 / 10 * D.d0 - 1 / 10000 ≤ (substJ D vars xs j').ex D 0 ∧
    (substJ D vars xs j').plateH = (substJ D vars xs j').etop + D.ebottom + D.hb := by
  have hc := hf (extCon D vars) (by
    unfold geomCons
    rw [if_pos ho]
    simp)
  rw [extCon_val] at hc
  have hz := zAfter_one 0 vars xs j'.z hl (vars_linked h) (one_first h hD)
  rw [subst_eq h hl]
  constructor
  · simp only [Joint.ex, ho, if_true]
    rw [hz]
    linarith
  · simp [ho]

/-- With a fixed top extension every feasible design stays feasible when the top row is moved onto the edge of the plate. -/
theorem edge_fixed_viol (h : createVars D j ⟨false, false⟩ ts = .ok vars) (hD : Extended D) {a b c : ℝ} {rest : List ℝ} (hl : (a :: b :: c :: rest).length = vars.length)
    (hb : z1Lb D ≤ 1 / 2 * D.hb + j.etop) (hf : geomFeasible D ⟨false, false⟩ vars (a :: b :: c :: rest)) :
    geomFeasible D ⟨false, false⟩ vars (a :: b :: (1 / 2 * D.hb + j.etop) :: rest) ∧
    ∀ j', j'.etop = j.etop → (substJ D vars (a :: b :: (1 / 2 * D.hb + j.etop) :: rest) j').ex D 0 = 0 := by
  have hv := createVars_eq h
  simp only [Bool.false_eq_true, if_false, List.nil_append, tailVars] at hv
  have hub : clip (z1Var D j ⟨false, false⟩) (1 / 2 * D.hb + j.etop) = 1 / 2 * D.hb + j.etop :=
    clip_self _ _ hb (by simp [z1Var, etopUb])
  have hle : clip (z1Var D j ⟨false, false⟩) c ≤ 1 / 2 * D.hb + j.etop := by
    have := clip_ub (z1Var D j ⟨false, false⟩) c (by simpa [z1Var, etopUb] using hb)
    simpa [z1Var, etopUb] using this
  constructor
  · intro con hcon
    have hc := hf con hcon
    unfold geomCons at hcon
    simp only [Bool.false_eq_true, if_false, List.append_nil, List.mem_map, List.mem_filter, List.mem_range'_1] at hcon
    obtain ⟨i, ⟨⟨hi, -⟩, -⟩, rfl⟩ := hcon
    rw [rowCon_val] at hc ⊢
    rw [hv] at hc ⊢
    simp only [valueOf_cons, hub] at hc ⊢
    have n1 : (z1Var D j ⟨false, false⟩).name = .z 1 := rfl
    have hne : (Name.z 1) ≠ .z (i + 1) := by simp; omega
    rw [n1, if_neg hne] at hc ⊢
    by_cases h1 : i = 1
    · subst h1
      simp only [if_true] at hc ⊢
      linarith
    · have hne2 : (Name.z 1) ≠ .z i := by
        intro e
        injection e with e
        omega
      rw [if_neg hne2] at hc ⊢
      exact hc
  · intro j' he
    have hz := zAfter_one 0 vars (a :: b :: (1 / 2 * D.hb + j.etop) :: rest) j'.z hl (vars_linked h) (one_first h hD)
    have h0 : valueOf (.z (0 + 1)) vars (a :: b :: (1 / 2 * D.hb + j.etop) :: rest) = 1 / 2 * D.hb + j.etop := by
      have hcnt := one_first h hD
      rw [hv] at hcnt ⊢
      simp only [valueOf_cons, hub]
      have hno : ∀ v ∈ innerVars D j D.rows 0 (zUb D), v.name ≠ .z (0 + 1) := by
        intro v hvm e
        have : 0 < ((innerVars D j D.rows 0 (zUb D)).map (·.name)).count (.z (0 + 1)) :=
          List.count_pos_iff.2 (List.mem_map.2 ⟨v, hvm, e⟩)
        have n1 : (Name.tp) ≠ .z (0 + 1) := by simp
        have n2 : (Name.x) ≠ .z (0 + 1) := by simp
        simp only [List.map_cons, tpVar, xVar, z1Var, List.count_cons_of_ne n1, List.count_cons_of_ne n2] at hcnt
        rw [show (Name.z 1) = .z (0 + 1) from rfl, List.count_cons_self] at hcnt
        omega
      rw [valueOf_zero _ _ _ hno]
      simp [tpVar, xVar, z1Var]
    rw [subst_eq h (xs := a :: b :: (1 / 2 * D.hb + j.etop) :: rest) hl]
    simp only [Joint.ex, Bool.false_eq_true, if_false]
    rw [hz, h0, he]
    ring

end

example : ∀ j', j'.etop = jex.etop → (substJ Dex (vex ⟨false, false⟩) [15, 70, 1 / 2 * Dex.hb + jex.etop, 90, 0] j').ex Dex 0 = 0 :=
  (edge_fixed_viol (vex_ok _) Dex_ext (c := 185) (by unfold vex; rw [inner_ex]; rfl) (by rw [z1Lb_ex]; norm_num [Dex, jex, mkJoint]) feas_ex).2

/-! ## C355: horizontal position of the bolts -/

section
variable {D : Data} {j : Joint} {o : Opts} {ts : List ℝ} {vars : List Var} {xs : List ℝ}

/-- Whenever the objective is evaluated, the bolts of a row are twice the value of the variable `x` apart and symmetric about the axis of the beam. If the plate width is a variable, a feasible
    design has the required edge distance. Partial: with a fixed width the edge distance is not limited (`plate_fixed_viol`), and a single substitution misplaces the bolts (`stale_viol`). -/
theorem bolts_partial (h : createVars D j o ts = .ok vars) (hl : xs.length = vars.length) (j' : Joint) :
    (evalJoint D vars xs j').p = 2 * valueOf .x vars xs ∧
    (evalJoint D vars xs j').ebolts + (evalJoint D vars xs j').xbolts = 1 / 2 * (evalJoint D vars xs j').bp ∧
    (o.bp = true → geomFeasible D o vars xs →
      max (12 / 10 * D.d0) (1 / 2 * D.dw) - 1 / 10000 ≤ (evalJoint D vars xs j').ebolts) := by
  unfold evalJoint
  rw [subst_eq h hl, subst_eq h hl]
  refine ⟨?_, ?_, ?_⟩
  · simp only [Joint.p]
    split_ifs <;> ring
  · dsimp only
    split_ifs <;> ring
  · intro ho hf
    have hc := hf (edgeCon D vars) (by
      unfold geomCons
      rw [if_pos ho]
      simp)
    rw [edgeCon_val] at hc
    dsimp only
    rw [if_pos ho]
    linarith

/-- The distance of the bolts from the axis keeps them clear of the web of the beam, of the fillet of the column, and of the axis. -/
theorem bolts_clear (h : createVars D j o ts = .ok vars) (hl : xs.length = vars.length) :
    1 / 2 * D.twb + √2 * D.weldW + 1 / 2 * D.dw ≤ valueOf .x vars xs ∧ 1 / 2 * D.twc + D.rc + 1 / 2 * D.dw ≤ valueOf .x vars xs ∧
    12 / 10 * D.d0 ≤ valueOf .x vars xs ∧
    (xMin D ≤ xMax D → valueOf .x vars xs + 12 / 10 * D.d0 ≤ 1 / 2 * D.bc ∧ valueOf .x vars xs + 1 / 2 * D.dw ≤ 1 / 2 * D.bc) := by
  have hv := createVars_eq h
  rcases xs with _ | ⟨a, _ | ⟨b, xs⟩⟩
  · rw [hv] at hl
    simp at hl
  · rw [hv] at hl
    simp at hl
  · have hX : valueOf .x vars (a :: b :: xs) = clip (xVar D j) b := by
      rw [hv]
      simp only [valueOf_cons]
      rw [valueOf_zero .x]
      · simp [tpVar, xVar]
      · intro v hm
        simp only [List.mem_append] at hm
        rcases hm with hm | hm | hm
        · split at hm
          · obtain rfl := List.mem_singleton.1 hm
            simp [etopVar]
          · simp at hm
        · split at hm
          · obtain rfl := List.mem_singleton.1 hm
            simp [bpVar]
          · simp at hm
        · obtain ⟨k, hk, -⟩ := tail_rowVar D j o v hm
          rw [hk]
          simp
    rw [hX]
    have h1 : xMin D ≤ clip (xVar D j) b := clip_lb (xVar D j) b
    have h2 : max (1 / 2 * D.twb + √2 * D.weldW + 1 / 2 * D.dw) (1 / 2 * D.twc + D.rc + 1 / 2 * D.dw) ≤ xMin D := le_max_left _ _
    refine ⟨le_trans (le_trans (le_max_left _ _) h2) h1, le_trans (le_trans (le_max_right _ _) h2) h1, le_trans (le_max_right _ _) h1, ?_⟩
    intro hm
    have h3 : clip (xVar D j) b ≤ xMax D := clip_ub (xVar D j) b hm
    have h4 : xMax D ≤ 1 / 2 * D.bc - 12 / 10 * D.d0 := min_le_left _ _
    have h5 : xMax D ≤ 1 / 2 * D.bc - 1 / 2 * D.dw := min_le_right _ _
    constructor <;> linarith

/-- A single substitution places the bolts with the old plate width: their distance is off by the change of the width. -/
theorem stale_viol (h : createVars D j o ts = .ok vars) (hl : xs.length = vars.length) (ho : o.bp = true) (j' : Joint) :
    (substJ D vars xs j').p = 2 * valueOf .x vars xs + ((substJ D vars xs j').bp - j'.bp) ∧
    ((substJ D vars xs j').p = 2 * valueOf .x vars xs ↔ (substJ D vars xs j').bp = j'.bp) := by
  rw [subst_eq h hl]
  simp only [Joint.p, ho, if_true]
  constructor
  · ring
  · constructor <;> intro e <;> linarith

/-- With a fixed plate width the bolts of every feasible design can be moved towards the edge of the column flange: feasible as before, with an edge distance that is negative for a plate much narrower than
    the column flange. -/
theorem plate_fixed_viol (h : createVars D j ⟨false, o.etop⟩ ts = .ok vars) {a b : ℝ} {rest : List ℝ} (hl : (a :: b :: rest).length = vars.length)
    (hm : xMin D ≤ xMax D) (hf : geomFeasible D ⟨false, o.etop⟩ vars (a :: b :: rest)) :
    geomFeasible D ⟨false, o.etop⟩ vars (a :: xMax D :: rest) ∧
    ∀ j', (evalJoint D vars (a :: xMax D :: rest) j').ebolts = max (12 / 10 * D.d0) (1 / 2 * D.dw) - 1 / 2 * (D.bc - j'.bp) := by
  have hv := createVars_eq h
  simp only [Bool.false_eq_true, if_false, List.nil_append] at hv
  have hX : clip (xVar D j) (xMax D) = xMax D := clip_self _ _ hm le_rfl
  constructor
  · intro con hcon
    have hc := hf con hcon
    have key : ∀ n, n ≠ .x → valueOf n vars (a :: xMax D :: rest) = valueOf n vars (a :: b :: rest) := by
      intro n hn
      rw [hv]
      simp only [valueOf_cons]
      rw [if_neg (show (xVar D j).name ≠ n from fun e => hn e.symm)]
      rw [if_neg (show (xVar D j).name ≠ n from fun e => hn e.symm)]
    unfold geomCons at hcon
    simp only [Bool.false_eq_true, if_false, List.append_nil, List.mem_append, List.mem_map] at hcon
    rcases hcon with ⟨i, -, rfl⟩ | hcon
    · rw [rowCon_val] at hc ⊢
      rw [key _ (by simp), key _ (by simp)]
      exact hc
    · split at hcon
      · obtain rfl := List.mem_singleton.1 hcon
        rw [extCon_val] at hc ⊢
        rw [key _ (by simp), key _ (by simp)]
        exact hc
      · simp at hcon
  · intro j'
    have hval : valueOf .x vars (a :: xMax D :: rest) = xMax D := by
      rw [hv]
      simp only [valueOf_cons, hX]
      rw [valueOf_zero .x]
      · simp [tpVar, xVar]
      · intro v hm
        simp only [List.mem_append] at hm
        rcases hm with hm | hm
        · split at hm
          · obtain rfl := List.mem_singleton.1 hm
            simp [etopVar]
          · simp at hm
        · obtain ⟨k, hk, -⟩ := tail_rowVar D j _ v hm
          rw [hk]
          simp
    unfold evalJoint
    rw [subst_eq h (xs := a :: xMax D :: rest) hl, subst_eq h (xs := a :: xMax D :: rest) hl]
    simp only [Bool.false_eq_true, if_false, hval]
    have : xMax D = 1 / 2 * D.bc - max (12 / 10 * D.d0) (1 / 2 * D.dw) := by
      unfold xMax
      exact min_sub_sub_left _ _ _
    rw [this]
    ring

/-! ## C356: substitution and starting point -/

/-- The joint that the objective sees depends on the point only, not on what was evaluated before. -/
theorem eval_history (h : createVars D j o ts = .ok vars) (hl : xs.length = vars.length) {ys : List ℝ} (hy : ys.length = vars.length) (j' : Joint) :
    evalJoint D vars xs (substJ D vars ys j') = evalJoint D vars xs j' := by
  have hz : ∀ z zs, zs.length = vars.length → zAfter vars xs (zAfter vars zs z) = zAfter vars xs z := by
    intro z zs hzs
    funext k
    by_cases hk : ∃ v ∈ vars, v.target = .z k
    · obtain ⟨v, -, -, x, hx⟩ := zAfter_some k vars xs hl hk
      rw [hx, hx]
    · have hno : ∀ v ∈ vars, v.target ≠ .z k := fun v hv e => hk ⟨v, hv, e⟩
      rw [zAfter_none k vars xs _ hno, zAfter_none k vars zs _ hno, zAfter_none k vars xs _ hno]
  unfold evalJoint
  rw [subst_eq h hl, subst_eq h hl, subst_eq h hy, subst_eq h hl, subst_eq h hl]
  simp only [hz _ _ hl, hz _ _ hy]
  cases o.bp <;> cases o.etop <;> simp

/-- The values of the variables are read from the joint: substituting the starting point of a problem with fixed plate width returns the given joint, if its dimensions lie within the bounds.
    Partial: with variable plate width the start changes the joint, see `start_width_viol`. -/
theorem start_partial (ho : o.bp = false) (h : createVars D j o ts = .ok vars) (hx : j.xbolts = 1 / 2 * j.bp - j.ebolts)
    (hp : j.plateH = j.etop + D.ebottom + D.hb) (hb : ∀ v ∈ vars, v.lb ≤ v.value ∧ v.value ≤ v.ub) :
    substJ D vars (start vars) j = j := by
  have key : ∀ vs : List Var, (∀ v ∈ vs, v.lb ≤ v.value ∧ v.value ≤ v.ub ∧ setT D j v.target v.value = j) → substJ D vs (start vs) j = j := by
    intro vs
    induction vs with
    | nil => intro _; rfl
    | cons v vs ih =>
      intro hvs
      obtain ⟨h1, h2, h3⟩ := hvs v (by simp)
      show substJ D vs (start vs) (setT D j v.target (clip v v.value)) = j
      rw [clip_self _ _ h1 h2, h3]
      exact ih (fun w hw => hvs w (by simp [hw]))
  apply key
  intro v hm
  refine ⟨(hb v hm).1, (hb v hm).2, ?_⟩
  rw [createVars_eq h] at hm
  simp only [List.mem_cons, List.mem_append, tailVars, ho, Bool.false_eq_true, if_false, List.not_mem_nil, false_or] at hm
  rcases hm with rfl | rfl | hm | rfl | hm
  · rfl
  · simp only [xVar, setT]
    rw [← hx]
    have : 1 / 2 * j.bp - j.xbolts = j.ebolts := by rw [hx]; ring
    rw [this]
  · split at hm
    · obtain rfl := List.mem_singleton.1 hm
      simp only [etopVar, setT]
      rw [← hp]
    · simp at hm
  · simp [z1Var, setT]
  · obtain ⟨k, -, -, h2, -, h5, -⟩ := inner_rowVar D j _ _ _ v hm
    rw [h2, h5]
    simp [setT]

/-- A new joint, after any changes of its dimensions other than the width of the plate, has bolts as far from the middle as its width and edge distance say
    and a plate as high as the beam and its extensions. -/
theorem made_consistent (D : Data) (tp bp etop ebolts : ℝ) (z : ℕ → ℝ) (sets : List (Target × ℝ)) (hs : ∀ s ∈ sets, s.1 ≠ .bp) :
    (sets.foldl (fun j s => setT D j s.1 s.2) (mkJoint D tp bp etop ebolts z)).xbolts = 1 / 2 * bp -
      (sets.foldl (fun j s => setT D j s.1 s.2) (mkJoint D tp bp etop ebolts z)).ebolts ∧
    (sets.foldl (fun j s => setT D j s.1 s.2) (mkJoint D tp bp etop ebolts z)).bp = bp ∧
    (sets.foldl (fun j s => setT D j s.1 s.2) (mkJoint D tp bp etop ebolts z)).plateH =
      (sets.foldl (fun j s => setT D j s.1 s.2) (mkJoint D tp bp etop ebolts z)).etop + D.ebottom + D.hb := by
  have key : ∀ j : Joint, (j.xbolts = 1 / 2 * bp - j.ebolts ∧ j.bp = bp ∧ j.plateH = j.etop + D.ebottom + D.hb) →
      ((sets.foldl (fun j s => setT D j s.1 s.2) j).xbolts = 1 / 2 * bp - (sets.foldl (fun j s => setT D j s.1 s.2) j).ebolts ∧
      (sets.foldl (fun j s => setT D j s.1 s.2) j).bp = bp ∧
      (sets.foldl (fun j s => setT D j s.1 s.2) j).plateH = (sets.foldl (fun j s => setT D j s.1 s.2) j).etop + D.ebottom + D.hb) := by
    induction sets with
    | nil => exact fun j h => h
    | cons s sets ih =>
      intro j h
      rw [List.foldl_cons]
      refine ih (fun t ht => hs t (by simp [ht])) _ ?_
      obtain ⟨t, v⟩ := s
      have := hs (t, v) (by simp)
      obtain ⟨h1, h2, h3⟩ := h
      cases t with
      | bp => exact absurd rfl this
      | tp => exact ⟨h1, h2, h3⟩
      | x => exact ⟨by simp only [setT, h2]; ring, h2, h3⟩
      | etop => exact ⟨h1, h2, rfl⟩
      | z i => exact ⟨h1, h2, h3⟩
  exact key _ ⟨rfl, rfl, rfl⟩

/-- Substituting the starting point returns the joint, for any joint made by the constructor and then changed, except for the width of its plate. -/
theorem start_made_partial (tp bp etop ebolts : ℝ) (z : ℕ → ℝ) (sets : List (Target × ℝ)) (hs : ∀ s ∈ sets, s.1 ≠ .bp) (ho : o.bp = false)
    (hj : j = sets.foldl (fun j s => setT D j s.1 s.2) (mkJoint D tp bp etop ebolts z))
    (h : createVars D j o ts = .ok vars) (hb : ∀ v ∈ vars, v.lb ≤ v.value ∧ v.value ≤ v.ub) : substJ D vars (start vars) j = j := by
  obtain ⟨h1, h2, h3⟩ := made_consistent D tp bp etop ebolts z sets hs
  rw [← hj] at h1 h2 h3
  exact start_partial ho h (by rw [h2]; exact h1) h3 hb

/-- With variable plate width the starting point gives the plate the width of the beam, whatever its width was. -/
theorem start_width_viol (ho : o.bp = true) (h : createVars D j o ts = .ok vars) (hb : D.bb ≤ D.bc + 100) (j' : Joint) :
    (substJ D vars (start vars) j').bp = D.bb := by
  have hv := createVars_eq h
  rw [subst_eq h (by simp [start])]
  simp only [ho, if_true]
  have hc : clip (bpVar D) D.bb = D.bb := clip_self _ _ le_rfl hb
  have hT := tail_rowVar D j o
  have h0 : ∀ ys, valueOf .bp (tailVars D j o) ys = 0 := fun ys => valueOf_rows _ (by simp) _ _ hT
  rw [hv]
  obtain ⟨ob, oe⟩ := o
  simp only at ho
  subst ho
  have hbv : (bpVar D).value = D.bb := rfl
  cases oe <;> simp [start, valueOf_cons, h0, hbv, hc, tpVar, xVar, etopVar] <;> simp [bpVar]

/-- The plate thickness is a continuous variable between 4 and 30 mm, whatever list of available thicknesses is given: some admissible point gives a thickness outside the list. -/
theorem thickness_viol (h : createVars D j o ts = .ok vars) (hl : xs.length = vars.length) :
    (∀ j', 4 ≤ (substJ D vars xs j').tp ∧ (substJ D vars xs j').tp ≤ 30) ∧
    ∃ t, 4 ≤ t ∧ t ≤ 30 ∧ t ∉ ts ∧ ∀ j', (substJ D vars (t :: xs.tail) j').tp = t := by
  have hv := createVars_eq h
  have hval : ∀ a ys, valueOf .tp vars (a :: ys) = clip (tpVar j) a := by
    intro a ys
    rw [hv]
    rw [valueOf_cons, valueOf_zero .tp]
    · simp [tpVar]
    · intro v hm
      simp only [List.mem_cons, List.mem_append] at hm
      rcases hm with rfl | hm | hm | hm
      · simp [xVar]
      · split at hm
        · obtain rfl := List.mem_singleton.1 hm
          simp [etopVar]
        · simp at hm
      · split at hm
        · obtain rfl := List.mem_singleton.1 hm
          simp [bpVar]
        · simp at hm
      · obtain ⟨k, hk, -⟩ := tail_rowVar D j o v hm
        rw [hk]
        simp
  rcases xs with _ | ⟨a, xs⟩
  · rw [hv] at hl
    simp at hl
  constructor
  · intro j'
    rw [subst_eq h hl]
    simp only [hval]
    exact ⟨clip_lb (tpVar j) a, clip_ub (tpVar j) a (by norm_num [tpVar])⟩
  · have hinf : (Set.Icc (4 : ℝ) 30).Infinite := Set.Icc_infinite (by norm_num)
    obtain ⟨t, ht, hn⟩ := hinf.exists_notMem_finite (List.finite_toSet ts)
    refine ⟨t, ht.1, ht.2, by simpa using hn, fun j' => ?_⟩
    rw [subst_eq h (by simpa using hl)]
    simp only [List.tail_cons, hval]
    exact clip_self _ _ ht.1 ht.2

end

example : (evalJoint Dex (vex ⟨true, true⟩) [15, 70, 90, 250, 185, 90, 0] jex).p = 2 * valueOf .x (vex ⟨true, true⟩) [15, 70, 90, 250, 185, 90, 0] :=
  (bolts_partial (vex_ok _) (by unfold vex; rw [inner_ex]; rfl) jex).1

example : xMin Dex ≤ xMax Dex := by
  have h2 := sqrt2_ub
  unfold xMin xMax Dex
  refine le_min (max_le (max_le ?_ ?_) ?_) (max_le (max_le ?_ ?_) ?_) <;> linarith

example : jex.xbolts = 1 / 2 * jex.bp - jex.ebolts ∧ jex.plateH = jex.etop + Dex.ebottom + Dex.hb ∧
    ∀ v ∈ vex ⟨false, false⟩, v.lb ≤ v.value ∧ v.value ≤ v.ub := by
  have h2 := sqrt2_ub
  refine ⟨rfl, rfl, ?_⟩
  unfold vex
  rw [inner_ex]
  intro v hv
  simp only [Bool.false_eq_true, if_false, List.append_nil, List.cons_append, List.nil_append, List.mem_cons, List.not_mem_nil, or_false] at hv
  rcases hv with rfl | rfl | rfl | rfl | rfl
  · norm_num [tpVar, jex, mkJoint]
  · simp only [xVar, xMin, xMax, jex, mkJoint, Dex]
    refine ⟨max_le (max_le ?_ ?_) ?_, le_min ?_ ?_⟩ <;> linarith
  · simp only [z1Var, z1Lb_ex]
    norm_num [jex, mkJoint, etopUb, Dex]
  · norm_num
  · norm_num

/-! ## C357: resistance and stiffness constraints -/

/-- All constraint values pass the feasibility test. -/
def forcesFeasible (f : Flags) (r : Resp) (target : Option ℝ) (dev Srigid : ℝ) : Prop :=
  ∃ l, forceCons f r target dev Srigid = .ok l ∧ ∀ c ∈ l, c.ok

/-- Meaning of the constraints for a joint with positive moment resistance: the requested conditions hold up to the tolerance; a stiffness band is required only when a target is given, on the initial
    stiffness if asked for. Partial: a negative moment is always accepted (`negative_moment_viol`) and a pinned joint cannot be asked for (`pinned_viol`). -/
theorem forces_partial (f : Flags) (r : Resp) (target : Option ℝ) (dev Srigid : ℝ) (hM : 0 < r.MRd) :
    forcesFeasible f r target dev Srigid ↔
      (f.bending = true → r.M * 1000000 ≤ (1 + 1 / 10000) * r.MRd) ∧
      (f.shear = true → r.V * 1000 ≤ r.VRd + 1 / 10) ∧
      (f.target = true → ∀ t, target = some t →
        ((1 - dev / 100) * t - 1 / 100) * 1000000 ≤ (if f.initial then r.Sini else r.Sj) ∧
        (if f.initial then r.Sini else r.Sj) ≤ ((1 + dev / 100) * t + 1 / 100) * 1000000) ∧
      (f.rigid = true → (Srigid - 1 / 10000) * 1000000 ≤ r.Sini) := by
  obtain ⟨fb, fs, ft, fr, fp, fi⟩ := f
  have hm : r.M / (r.MRd / 1000000) - 1 ≤ 1 / 10000 ↔ r.M * 1000000 ≤ (1 + 1 / 10000) * r.MRd := by
    have h1 : r.M / (r.MRd / 1000000) - 1 ≤ 1 / 10000 ↔ r.M / (r.MRd / 1000000) ≤ 1 + 1 / 10000 := by
      constructor <;> intro h <;> linarith
    rw [h1, div_le_iff₀ (by positivity)]
    constructor <;> intro h <;> linarith
  have hmc : mcon r = .ok { gt := false, g := r.M / (r.MRd / 1000000) - 1 } := by
    unfold mcon
    rw [if_neg (ne_of_gt hM)]
  have hv : r.V - r.VRd / 1000 ≤ 1 / 10000 ↔ r.V * 1000 ≤ r.VRd + 1 / 10 := by
    constructor <;> intro h <;> linarith
  have hs : ∀ t S : ℝ, (1 / 100 * (S / 1000000 - (1 + dev / 100) * t) ≤ 1 / 10000 ↔ S ≤ ((1 + dev / 100) * t + 1 / 100) * 1000000) ∧
      (-(1 / 10000) ≤ 1 / 100 * (S / 1000000 - (1 - dev / 100) * t) ↔ ((1 - dev / 100) * t - 1 / 100) * 1000000 ≤ S) := by
    intro t S
    refine ⟨⟨fun h => ?_, fun h => ?_⟩, ⟨fun h => ?_, fun h => ?_⟩⟩ <;> linarith
  have hr : -(1 / 10000) ≤ r.Sini / 1000000 - Srigid ↔ (Srigid - 1 / 10000) * 1000000 ≤ r.Sini := by
    constructor <;> intro h <;> linarith
  have hform : forceCons ⟨fb, fs, ft, fr, fp, fi⟩ r target dev Srigid = .ok ((if fb then [{ gt := false, g := r.M / (r.MRd / 1000000) - 1 }] else []) ++
      (if fs then [vcon r] else []) ++ (match ft, target with | true, some t => scons r fi t dev | _, _ => []) ++ (if fr then [rcon r Srigid] else [])) := by
    unfold forceCons
    rw [hmc]
    cases fb <;> rfl
  unfold forcesFeasible
  constructor
  · rintro ⟨l, hl, hall⟩
    rw [hform] at hl
    obtain rfl := Except.ok.inj hl
    refine ⟨fun e => ?_, fun e => ?_, fun e t et => ?_, fun e => ?_⟩
    · simp only at e
      subst e
      have := hall { gt := false, g := r.M / (r.MRd / 1000000) - 1 } (by simp)
      exact hm.1 this
    · simp only at e
      subst e
      have := hall (vcon r) (by simp)
      exact hv.1 this
    · simp only at e
      subst e
      subst et
      have h1 := hall { gt := false, g := 1 / 100 * (r.stiff fi / 1000000 - (1 + dev / 100) * t) } (by simp [scons])
      have h2 := hall { gt := true, g := 1 / 100 * (r.stiff fi / 1000000 - (1 - dev / 100) * t) } (by simp [scons])
      exact ⟨(hs t (r.stiff fi)).2.1 h2, (hs t (r.stiff fi)).1.1 h1⟩
    · simp only at e
      subst e
      have := hall (rcon r Srigid) (by simp)
      exact hr.1 this
  · rintro ⟨h1, h2, h3, h4⟩
    refine ⟨_, hform, ?_⟩
    intro c hc
    simp only [List.mem_append] at hc
    rcases hc with ((hc | hc) | hc) | hc
    · split at hc
      · obtain rfl := List.mem_singleton.1 hc
        exact hm.2 (h1 ‹_›)
      · simp at hc
    · split at hc
      · obtain rfl := List.mem_singleton.1 hc
        exact hv.2 (h2 ‹_›)
      · simp at hc
    · split at hc
      · rename_i t
        obtain ⟨a, b⟩ := h3 rfl t rfl
        rcases List.mem_cons.1 hc with rfl | hc
        · exact (hs t (r.stiff fi)).1.2 b
        · obtain rfl := List.mem_singleton.1 hc
          exact (hs t (r.stiff fi)).2.2 a
      · simp at hc
    · split at hc
      · obtain rfl := List.mem_singleton.1 hc
        exact hr.2 (h4 ‹_›)
      · simp at hc

/-- The sign of the moment: however large, a negative moment satisfies the bending constraint. -/
theorem negative_moment_viol (r : Resp) (hM : 0 < r.MRd) (h : r.M ≤ 0) (target : Option ℝ) (dev Srigid : ℝ) :
    forcesFeasible ⟨true, false, false, false, false, false⟩ r target dev Srigid := by
  rw [forces_partial _ _ _ _ _ hM]
  refine ⟨fun _ => ?_, by simp, by simp, by simp⟩
  nlinarith

/-- Asking for a pinned joint adds no constraint. -/
theorem pinned_viol (f : Flags) (r : Resp) (target : Option ℝ) (dev Srigid : ℝ) (b : Bool) :
    forceCons { f with pinned := b } r target dev Srigid = forceCons f r target dev Srigid := rfl

example : forcesFeasible ⟨true, true, true, false, false, true⟩ ⟨40, 32, 60000000, 100000, 9000000000, 16000000000⟩ (some 16000) 1 0 := by
  rw [forces_partial _ _ _ _ _ (by norm_num)]
  norm_num

example : ¬ forcesFeasible ⟨true, true, true, false, false, false⟩ ⟨40, 32, 60000000, 100000, 9000000000, 16000000000⟩ (some 16000) 1 0 := by
  rw [forces_partial _ _ _ _ _ (by norm_num)]
  norm_num

end Metku.EPOpt
