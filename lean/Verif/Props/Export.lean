import Verif.Model.Export
import Mathlib.Tactic.Linarith
import Mathlib.Tactic.NormNum

/-!
Properties C368-C371: export of frames to Robot and Abaqus.
-/
set_option linter.unusedSimpArgs false
set_option linter.unusedVariables false

namespace Metku.Export

open Metku

/-! ## Specification -/

/-- The row of a table with a given number. -/
def look {β : Type} (t : List (ℕ × β)) (k : ℕ) : Option β := (t.find? (fun r => r.1 = k)).map (fun r => r.2)

/-- Nodes added, in order. -/
def added (ops : List Add) : List ℕ := ops.filterMap (fun o => match o with | .node r => some r | _ => none)

/-- Members added, in order. -/
def addedMembers (ops : List Add) : List Mem := ops.filterMap (fun o => match o with | .member m => some m | _ => none)

/-- Supports added, in order. -/
def addedSupports (ops : List Add) : List (ℕ × Supp) := ops.filterMap (fun o => match o with | .support r s => some (r, s) | _ => none)

/-- Degree of freedom of a plane frame (x, y, rotation) as a direction of Robot. -/
def dirOf : ℕ → Dof
  | 0 => .UX
  | 1 => .UZ
  | _ => .RY

/-- Degrees of freedom that an Abaqus code holds (1-3 displacements, 4-6 rotations). -/
def Code.holds : Code → List ℕ
  | .pinned => [1, 2, 3]
  | .encastre => [1, 2, 3, 4, 5, 6]
  | .three => [3]
  | .xsymm => [1, 5, 6]

/-- Degree of freedom of a plane frame as one of Abaqus: x, z, rotation about y. -/
def abDof : ℕ → ℕ
  | 0 => 1
  | 1 => 3
  | _ => 5

/-! ## Helper lemmas -/

theorem rows_ok {α β : Type} (f : α → Except PyErr β) (g : α → β) (l : List α) (h : ∀ a ∈ l, f a = .ok (g a)) : rows f l = .ok (l.map g) := by
  induction l with
  | nil => rfl
  | cons a l ih =>
    unfold rows
    rw [h a (by simp), ih (fun b hb => h b (by simp [hb]))]
    rfl

theorem rows_mem {α β : Type} (f : α → Except PyErr β) (l : List α) (r : List β) (h : rows f l = .ok r) :
    r.length = l.length ∧ (∀ (i : ℕ) (a : α), l[i]? = some a → ∃ b, f a = .ok b ∧ r[i]? = some b) := by
  induction l generalizing r with
  | nil => obtain rfl := Except.ok.inj h; exact ⟨rfl, by simp⟩
  | cons a l ih =>
    unfold rows at h
    cases ha : f a with
    | error e => rw [ha] at h; simp at h
    | ok b =>
      cases hl : rows f l with
      | error e => rw [ha, hl] at h; simp at h
      | ok r' =>
        rw [ha, hl] at h
        obtain rfl := Except.ok.inj h
        obtain ⟨h1, h2⟩ := ih r' hl
        refine ⟨by simp [h1], ?_⟩
        intro i c hc
        cases i with
        | zero =>
          simp only [List.getElem?_cons_zero, Option.some.injEq] at hc
          subst hc
          exact ⟨b, ha, rfl⟩
        | succ i => simpa using h2 i c (by simpa using hc)

theorem rows_err {α β : Type} (f : α → Except PyErr β) (l : List α) (e : PyErr) (a : α) (ha : a ∈ l) (h : f a = .error e)
    (hl : ∀ b ∈ l, ∀ e', f b = .error e' → e' = e) : rows f l = .error e := by
  induction l with
  | nil => simp at ha
  | cons b l ih =>
    unfold rows
    cases hb : f b with
    | error e' => simp only; rw [hl b (by simp) e' hb]
    | ok c =>
      rcases List.mem_cons.1 ha with rfl | ha
      · rw [h] at hb; cases hb
      · rw [ih ha (fun b hb => hl b (by simp [hb]))]

/-- State of a frame made by adding: numbers are positions, coordinates are those given. -/
structure Built (objs : List (ℝ × ℝ × ℝ)) (F : Fr) : Prop where
  len : F.store.length = objs.length
  coord : ∀ (r : ℕ) (o : NodeO), F.store[r]? = some o → objs[r]? = some (o.x, o.y, o.z)
  ids : ∀ (k r : ℕ), F.nodes[k]? = some r → ∃ o, F.store[r]? = some o ∧ o.id = some k
  mems : ∀ (k : ℕ) (p : ℕ × Mem), F.members[k]? = some p → p.1 = k

theorem built_empty (objs : List (ℝ × ℝ × ℝ)) (space : Bool) : Built objs (Fr.empty objs space) where
  len := by simp [Fr.empty]
  coord := by
    intro r o h
    simp only [Fr.empty, List.getElem?_map] at h
    cases hr : objs[r]? with
    | none => rw [hr] at h; simp at h
    | some c => rw [hr] at h; simp at h; rw [← h]
  ids := by simp [Fr.empty]
  mems := by simp [Fr.empty]

theorem built_add (objs : List (ℝ × ℝ × ℝ)) (F : Fr) (h : Built objs F) (o : Add) (hn : ∀ r, o = .node r → r ∉ F.nodes ∧ r < objs.length) : Built objs (F.add o) := by
  cases o with
  | node r =>
    obtain ⟨hr, hlt⟩ := hn r rfl
    have hget : ∀ i : ℕ, (F.add (.node r)).store[i]? = (F.store[i]?).map (fun o => if r = i then { o with id := some F.nodes.length } else o) := by
      intro i
      show (F.store.modify r _)[i]? = _
      rw [List.getElem?_modify]
      cases F.store[i]? with
      | none => split_ifs <;> rfl
      | some o => simp only [Option.map_some]; split_ifs <;> rfl
    refine ⟨by simp [Fr.add, h.len], ?_, ?_, h.mems⟩
    · intro i o ho
      rw [hget] at ho
      cases hi : F.store[i]? with
      | none => rw [hi] at ho; simp at ho
      | some o' =>
        rw [hi] at ho
        simp only [Option.map_some, Option.some.injEq] at ho
        rw [h.coord i o' hi, ← ho]
        split_ifs <;> rfl
    · intro k i hk
      have hk' : (F.nodes ++ [r])[k]? = some i := hk
      by_cases hkl : k < F.nodes.length
      · rw [List.getElem?_append_left hkl] at hk'
        obtain ⟨o, h1, h2⟩ := h.ids k i hk'
        refine ⟨o, ?_, h2⟩
        rw [hget, h1, Option.map_some, if_neg]
        rintro rfl
        exact hr (List.mem_of_getElem? hk')
      · rw [List.getElem?_append_right (by omega), List.getElem?_singleton] at hk'
        split_ifs at hk' with hz
        obtain rfl := Option.some.inj hk'
        have hkk : k = F.nodes.length := by omega
        have hsl : r < F.store.length := by rw [h.len]; exact hlt
        refine ⟨{ F.store[r] with id := some F.nodes.length }, ?_, by rw [hkk]⟩
        rw [hget, List.getElem?_eq_getElem hsl]
        simp
  | member m =>
    refine ⟨h.len, h.coord, h.ids, ?_⟩
    intro k p hk
    have hk' : (F.members ++ [(F.members.length, m)])[k]? = some p := hk
    by_cases hkl : k < F.members.length
    · rw [List.getElem?_append_left hkl] at hk'
      exact h.mems k p hk'
    · rw [List.getElem?_append_right (by omega), List.getElem?_singleton] at hk'
      split_ifs at hk' with hz
      obtain rfl := Option.some.inj hk'
      show F.members.length = k
      omega
  | support r s => exact ⟨h.len, h.coord, h.ids, h.mems⟩

theorem fold_lists (F : Fr) (ops : List Add) :
    (ops.foldl Fr.add F).nodes = F.nodes ++ added ops ∧ (ops.foldl Fr.add F).members.map (fun p => p.2) = F.members.map (fun p => p.2) ++ addedMembers ops ∧
    (ops.foldl Fr.add F).supports = F.supports ++ addedSupports ops ∧ (ops.foldl Fr.add F).space = F.space := by
  induction ops generalizing F with
  | nil => simp [added, addedMembers, addedSupports]
  | cons o ops ih =>
    obtain ⟨h1, h2, h3, h4⟩ := ih (F.add o)
    rw [List.foldl_cons, h1, h2, h3, h4]
    cases o <;> simp [Fr.add, added, addedMembers, addedSupports]

theorem built_fold (objs : List (ℝ × ℝ × ℝ)) (F : Fr) (h : Built objs F) (ops : List Add) (hn : (F.nodes ++ added ops).Nodup) (hl : ∀ r ∈ added ops, r < objs.length) :
    Built objs (ops.foldl Fr.add F) := by
  induction ops generalizing F with
  | nil => exact h
  | cons o ops ih =>
    rw [List.foldl_cons]
    have hstep : (F.add o).nodes ++ added ops = F.nodes ++ added (o :: ops) := by
      cases o <;> simp [Fr.add, added]
    apply ih
    · apply built_add objs F h
      rintro r rfl
      constructor
      · intro hr
        have : added (.node r :: ops) = r :: added ops := rfl
        rw [this, List.nodup_append] at hn
        exact hn.2.2 r hr r (by simp) rfl
      · exact hl r (by simp [added])
    · rw [hstep]; exact hn
    · intro r hr
      apply hl r
      cases o <;> simp [added] at hr ⊢ <;> tauto

theorem number_ok {objs : List (ℝ × ℝ × ℝ)} {F : Fr} (h : Built objs F) {k r : ℕ} (hk : F.nodes[k]? = some r) : number F r = .ok (k + 1) := by
  obtain ⟨o, h1, h2⟩ := h.ids k r hk
  simp [number, h1, h2]

theorem look_rows {β : Type} (t : List (ℕ × β)) (h : ∀ (k : ℕ) (p : ℕ × β), t[k]? = some p → p.1 = k + 1) (k : ℕ) (p : ℕ × β) (hk : t[k]? = some p) : look t (k + 1) = some p.2 := by
  unfold look
  cases hf : t.find? (fun r => r.1 = k + 1) with
  | none =>
    rw [List.find?_eq_none] at hf
    exact absurd (h k p hk) (by simpa using hf p (List.mem_of_getElem? hk))
  | some q =>
    have hq := List.find?_some hf
    obtain ⟨j, hj⟩ := List.mem_iff_getElem?.1 (List.mem_of_find?_eq_some hf)
    have := h j q hj
    simp only [decide_eq_true_eq] at hq
    have hjk : j = k := by omega
    rw [hjk, hk] at hj
    obtain rfl := Option.some.inj hj
    rfl

/-! ## C368: geometry in the file for Robot -/

/-- **C368** (partial). For a plane or space frame whose nodes are added once each: the file lists every node under its own number with its first two
coordinates, every member under its own number, and the two numbers of a member are those of its end nodes. -/
theorem robot_geometry_partial (objs : List (ℝ × ℝ × ℝ)) (space : Bool) (ops : List Add) (hnd : (added ops).Nodup) (hl : ∀ r ∈ added ops, r < objs.length)
    (file : RobotFile) (hf : toRobot (ops.foldl Fr.add (Fr.empty objs space)) = .ok file) :
    file.counts = ((added ops).length, (addedMembers ops).length) ∧ file.nodes.length = (added ops).length ∧ file.elems.length = (addedMembers ops).length ∧
    (∀ (k r : ℕ), (added ops)[k]? = some r → ∃ c, objs[r]? = some c ∧ look file.nodes (k + 1) = some (c.1, c.2.1)) ∧
    (∀ (k : ℕ) (m : Mem), (addedMembers ops)[k]? = some m → ∃ a b c d, look file.elems (k + 1) = some (a, b) ∧ objs[m.n1]? = some c ∧ objs[m.n2]? = some d ∧
      (m.n1 ∈ added ops → look file.nodes a = some (c.1, c.2.1)) ∧ (m.n2 ∈ added ops → look file.nodes b = some (d.1, d.2.1))) := by
  have hB := built_fold objs _ (built_empty objs space) ops (by simpa [Fr.empty] using hnd) hl
  obtain ⟨e1, e2, e3, e4⟩ := fold_lists (Fr.empty objs space) ops
  have e1' : (ops.foldl Fr.add (Fr.empty objs space)).nodes = added ops := by simpa [Fr.empty] using e1
  have e2' : (ops.foldl Fr.add (Fr.empty objs space)).members.map (fun p => p.2) = addedMembers ops := by simpa [Fr.empty] using e2
  generalize ops.foldl Fr.add (Fr.empty objs space) = F at *
  unfold toRobot at hf
  cases h1 : rows (nodeRow F) F.nodes with
  | error e => rw [h1] at hf; simp at hf
  | ok ns =>
  cases h2 : rows (elemRow F) F.members with
  | error e => rw [h1, h2] at hf; simp at hf
  | ok es =>
  cases h3 : rows propRow F.members with
  | error e => rw [h1, h2, h3] at hf; simp at hf
  | ok ps =>
  cases h4 : rows (suppRow F) F.supports with
  | error e => rw [h1, h2, h3, h4] at hf; simp at hf
  | ok ss =>
  rw [h1, h2, h3, h4] at hf
  obtain rfl := Except.ok.inj hf
  obtain ⟨l1, g1⟩ := rows_mem _ _ _ h1
  obtain ⟨l2, g2⟩ := rows_mem _ _ _ h2
  have hml : F.members.length = (addedMembers ops).length := by rw [← e2', List.length_map]
  have row1 : ∀ (k r : ℕ), F.nodes[k]? = some r → ∃ c, objs[r]? = some c ∧ ns[k]? = some (k + 1, c.1, c.2.1) := by
    intro k r hk
    obtain ⟨b, hb, hn⟩ := g1 k r hk
    obtain ⟨o, ho, hid⟩ := hB.ids k r hk
    refine ⟨_, hB.coord r o ho, ?_⟩
    have : nodeRow F r = .ok (k + 1, o.x, o.y) := by simp [nodeRow, number, ho, hid]
    rw [this] at hb
    rw [hn, ← Except.ok.inj hb]
  have num1 : ∀ (k : ℕ) (p : ℕ × ℝ × ℝ), ns[k]? = some p → p.1 = k + 1 := by
    intro k p hk
    have hkl : k < F.nodes.length := by
      rw [← l1]; exact (List.getElem?_eq_some_iff.1 hk).1
    obtain ⟨c, -, hc⟩ := row1 k _ (List.getElem?_eq_getElem hkl)
    rw [hk] at hc
    rw [Option.some.inj hc]
  have lk : ∀ (k r : ℕ), F.nodes[k]? = some r → ∃ c, objs[r]? = some c ∧ look ns (k + 1) = some (c.1, c.2.1) := by
    intro k r hk
    obtain ⟨c, hc, hn⟩ := row1 k r hk
    exact ⟨c, hc, look_rows ns num1 k _ hn⟩
  have row2 : ∀ (k : ℕ) (p : ℕ × Mem), F.members[k]? = some p → ∃ a b, es[k]? = some (k + 1, a, b) ∧ number F p.2.n1 = .ok a ∧ number F p.2.n2 = .ok b := by
    intro k p hk
    obtain ⟨b, hb, hn⟩ := g2 k p hk
    unfold elemRow at hb
    cases c1 : number F p.2.n1 with
    | error e => rw [c1] at hb; simp at hb
    | ok a =>
      cases c2 : number F p.2.n2 with
      | error e => rw [c1, c2] at hb; simp at hb
      | ok d =>
        rw [c1, c2] at hb
        rw [hn, ← Except.ok.inj hb, hB.mems k p hk]
        exact ⟨a, d, rfl, rfl, rfl⟩
  have num2 : ∀ (k : ℕ) (p : ℕ × ℕ × ℕ), es[k]? = some p → p.1 = k + 1 := by
    intro k p hk
    have hkl : k < F.members.length := by
      rw [← l2]; exact (List.getElem?_eq_some_iff.1 hk).1
    obtain ⟨a, b, hc, -⟩ := row2 k _ (List.getElem?_eq_getElem hkl)
    rw [hk] at hc
    rw [Option.some.inj hc]
  refine ⟨by rw [← e1', ← hml], by rw [← e1', l1], by rw [← hml, l2], ?_, ?_⟩
  · intro k r hk
    rw [← e1'] at hk
    exact lk k r hk
  · intro k m hk
    rw [← e2', List.getElem?_map] at hk
    cases hp : F.members[k]? with
    | none => rw [hp] at hk; simp at hk
    | some p =>
      rw [hp] at hk
      simp only [Option.map_some, Option.some.injEq] at hk
      subst hk
      obtain ⟨a, b, hes, hn1, hn2⟩ := row2 k p hp
      have coordOf : ∀ (r v : ℕ), number F r = .ok v → ∃ c, objs[r]? = some c := by
        intro r v hv
        unfold number at hv
        cases ho : F.store[r]? with
        | none => rw [ho] at hv; simp at hv
        | some o => exact ⟨_, hB.coord r o ho⟩
      have endOf : ∀ (r v : ℕ) (c : ℝ × ℝ × ℝ), number F r = .ok v → objs[r]? = some c → r ∈ added ops → look ns v = some (c.1, c.2.1) := by
        intro r v c hv hc hr
        rw [← e1'] at hr
        obtain ⟨j, hj⟩ := List.mem_iff_getElem?.1 hr
        rw [number_ok hB hj] at hv
        obtain ⟨c', hc', hlk⟩ := lk j r hj
        rw [hc] at hc'
        rw [← Except.ok.inj hv, Option.some.inj hc']
        exact hlk
      obtain ⟨c, hc⟩ := coordOf _ _ hn1
      obtain ⟨d, hd⟩ := coordOf _ _ hn2
      exact ⟨a, b, c, d, look_rows es num2 k _ hes, hc, hd, endOf _ _ _ hn1 hc, endOf _ _ _ hn2 hd⟩

/-- **C368** (partial). The file is written if all nodes used have been added, no support is of the general class, and names of HE sections are not empty. -/
theorem robot_written_partial (objs : List (ℝ × ℝ × ℝ)) (space : Bool) (ops : List Add) (hnd : (added ops).Nodup) (hl : ∀ r ∈ added ops, r < objs.length)
    (hm : ∀ m ∈ addedMembers ops, m.n1 ∈ added ops ∧ m.n2 ∈ added ops ∧ m.sec ≠ .heab []) (hs : ∀ p ∈ addedSupports ops, p.1 ∈ added ops ∧ ∀ d, p.2 ≠ .other d) :
    ∃ file, toRobot (ops.foldl Fr.add (Fr.empty objs space)) = .ok file := by
  have hB := built_fold objs _ (built_empty objs space) ops (by simpa [Fr.empty] using hnd) hl
  obtain ⟨e1, e2, e3, e4⟩ := fold_lists (Fr.empty objs space) ops
  have e1' : (ops.foldl Fr.add (Fr.empty objs space)).nodes = added ops := by simpa [Fr.empty] using e1
  have e2' : (ops.foldl Fr.add (Fr.empty objs space)).members.map (fun p => p.2) = addedMembers ops := by simpa [Fr.empty] using e2
  have e3' : (ops.foldl Fr.add (Fr.empty objs space)).supports = addedSupports ops := by simpa [Fr.empty] using e3
  generalize ops.foldl Fr.add (Fr.empty objs space) = F at *
  have num : ∀ r ∈ added ops, ∃ v, number F r = .ok v := by
    intro r hr
    rw [← e1'] at hr
    obtain ⟨j, hj⟩ := List.mem_iff_getElem?.1 hr
    exact ⟨_, number_ok hB hj⟩
  have all : ∀ {α β : Type} (f : α → Except PyErr β) (l : List α), (∀ a ∈ l, ∃ b, f a = .ok b) → ∃ r, rows f l = .ok r := by
    intro α β f l
    induction l with
    | nil => intro _; exact ⟨[], rfl⟩
    | cons a l ih =>
      intro h
      obtain ⟨b, hb⟩ := h a (by simp)
      obtain ⟨r, hr⟩ := ih (fun c hc => h c (by simp [hc]))
      exact ⟨b :: r, by unfold rows; rw [hb, hr]⟩
  have memOf : ∀ p ∈ F.members, p.2 ∈ addedMembers ops := by
    intro p hp; rw [← e2']; exact List.mem_map_of_mem hp
  obtain ⟨ns, h1⟩ := all (nodeRow F) F.nodes (by
    intro r hr
    obtain ⟨j, hj⟩ := List.mem_iff_getElem?.1 hr
    obtain ⟨o, ho, hid⟩ := hB.ids j r hj
    exact ⟨_, by unfold nodeRow; rw [number_ok hB hj, ho]⟩)
  obtain ⟨es, h2⟩ := all (elemRow F) F.members (by
    intro p hp
    obtain ⟨a1, a2, -⟩ := hm p.2 (memOf p hp)
    obtain ⟨v, hv⟩ := num _ a1
    obtain ⟨w, hw⟩ := num _ a2
    exact ⟨_, by unfold elemRow; rw [hv, hw]⟩)
  obtain ⟨ps, h3⟩ := all propRow F.members (by
    intro p hp
    obtain ⟨-, -, a3⟩ := hm p.2 (memOf p hp)
    unfold propRow
    cases hsec : p.2.sec with
    | isec r => exact ⟨_, rfl⟩
    | rhs t => exact ⟨_, rfl⟩
    | other => exact ⟨_, rfl⟩
    | heab n =>
      rw [hsec] at a3
      cases hn : n.getLast? with
      | none => rw [List.getLast?_eq_none_iff] at hn; rw [hn] at a3; simp at a3
      | some c => simp only [Sec.robot, heName, hn]; exact ⟨_, rfl⟩)
  obtain ⟨ss, h4⟩ := all (suppRow F) F.supports (by
    intro p hp
    rw [e3'] at hp
    obtain ⟨a1, a2⟩ := hs p hp
    obtain ⟨v, hv⟩ := num _ a1
    unfold suppRow
    rw [hv]
    cases hk : p.2 with
    | other d => exact absurd hk (a2 d)
    | fixed => exact ⟨_, rfl⟩
    | xy => exact ⟨_, rfl⟩
    | x => exact ⟨_, rfl⟩
    | y => exact ⟨_, rfl⟩)
  exact ⟨_, by unfold toRobot; rw [h1, h2, h3, h4]⟩

/-- A frame of two nodes and a member. -/
def demoOps : List Add := [.node 1, .node 0, .member ⟨1, 0, (true, false), "S355", .rhs []⟩, .support 1 .fixed]

example : (added demoOps).Nodup ∧ (∀ r ∈ added demoOps, r < [((0 : ℝ), (0 : ℝ), (0 : ℝ)), (0, 3000, 0)].length) ∧
    (∀ m ∈ addedMembers demoOps, m.n1 ∈ added demoOps ∧ m.n2 ∈ added demoOps ∧ m.sec ≠ .heab []) ∧
    (∀ p ∈ addedSupports demoOps, p.1 ∈ added demoOps ∧ ∀ d, p.2 ≠ .other d) := by
  simp [demoOps, added, addedMembers, addedSupports]

/-- **C368** (negation): nodes of a space frame that differ in the third coordinate only cannot be told apart in the file. -/
theorem robot_space_viol (x y z1 z2 : ℝ) (hz : z1 ≠ z2) : ∃ file, toRobot ([Add.node 0, .node 1].foldl Fr.add (Fr.empty [(x, y, z1), (x, y, z2)] true)) = .ok file ∧
    file.space = true ∧ look file.nodes 1 = look file.nodes 2 :=
  ⟨{ counts := (2, 0), space := true, nodes := [(1, x, y), (2, x, y)], elems := [], props := [], supports := [], releases := [] }, rfl, rfl, by
    simp [look]⟩

/-- **C368** (negation): a node added twice is listed twice under its second number, and no node has the first one. -/
theorem robot_twice_viol (c : ℝ × ℝ × ℝ) : ∃ file, toRobot ([Add.node 0, .node 0].foldl Fr.add (Fr.empty [c] false)) = .ok file ∧
    file.nodes = [(2, c.1, c.2.1), (2, c.1, c.2.1)] ∧ look file.nodes 1 = none :=
  ⟨{ counts := (2, 0), space := false, nodes := [(2, c.1, c.2.1), (2, c.1, c.2.1)], elems := [], props := [], supports := [], releases := [] }, rfl, rfl, by
    simp [look]⟩

/-- **C368** (negation): a member with a node that was not added to the frame stops the export. -/
theorem robot_missing_viol (a b : ℝ × ℝ × ℝ) (mat : String) (t : List Char) :
    toRobot ([Add.node 0, .member ⟨0, 1, (false, false), mat, .rhs t⟩].foldl Fr.add (Fr.empty [a, b] false)) = .error .typeError := rfl

/-! ## C369: supports, releases, sections and names in the file for Robot -/

/-- **C369** (partial). In a plane frame the directions written for a support are exactly those it does not hold. -/
theorem robot_supports_partial (s : Supp) (hs : ∀ d, s ≠ .other d) : ∃ l, freeDofs false s = .ok l ∧ ∀ d < 3, dirOf d ∈ l ↔ d ∉ s.dofs := by
  cases s with
  | fixed => exact ⟨[], rfl, by intro d hd; have : d = 0 ∨ d = 1 ∨ d = 2 := by omega
                                rcases this with rfl | rfl | rfl <;> simp [Supp.dofs]⟩
  | xy => exact ⟨[.RY], rfl, by intro d hd; have : d = 0 ∨ d = 1 ∨ d = 2 := by omega
                                rcases this with rfl | rfl | rfl <;> simp [Supp.dofs, dirOf]⟩
  | x => exact ⟨[.UZ, .RY], rfl, by intro d hd; have : d = 0 ∨ d = 1 ∨ d = 2 := by omega
                                    rcases this with rfl | rfl | rfl <;> simp [Supp.dofs, dirOf]⟩
  | y => exact ⟨[.UX, .RY], rfl, by intro d hd; have : d = 0 ∨ d = 1 ∨ d = 2 := by omega
                                    rcases this with rfl | rfl | rfl <;> simp [Supp.dofs, dirOf]⟩
  | other d => exact absurd rfl (hs d)

example : ∀ d, Supp.y ≠ .other d := by simp

/-- **C369** (negation): in a space frame a support that holds x is written as free in x. -/
theorem robot_space_support_viol : 0 ∈ Supp.x.dofs ∧ ∃ l, freeDofs true .x = .ok l ∧ Dof.UX ∈ l := ⟨by simp [Supp.dofs], _, rfl, by simp⟩

/-- **C369** (negation): a support with its own list of directions stops the export, whatever is held. -/
theorem robot_general_support_viol (space : Bool) (d : List ℕ) : freeDofs space (.other d) = .error .valueError := rfl

/-- **C369** (partial). A member is listed among the releases, with its number, exactly for the ends with hinges. -/
theorem robot_releases_partial (ms : List (ℕ × Mem)) (k : ℕ) (a b : Bool) :
    (k, a, b) ∈ ms.filterMap relRow ↔ ∃ p ∈ ms, p.1 + 1 = k ∧ p.2.hinges = (a, b) ∧ (a = true ∨ b = true) := by
  rw [List.mem_filterMap]
  constructor
  · rintro ⟨p, hp, h⟩
    refine ⟨p, hp, ?_⟩
    unfold relRow at h
    rcases hh : p.2.hinges with ⟨x, y⟩
    rw [hh] at h
    cases x <;> cases y <;> simp at h <;> obtain ⟨rfl, rfl, rfl⟩ := h <;> simp
  · rintro ⟨p, hp, rfl, hh, hab⟩
    refine ⟨p, hp, ?_⟩
    unfold relRow
    rw [hh]
    cases a <;> cases b <;> simp at hab ⊢

/-- What a written file contains. -/
theorem robot_parts {F : Fr} {file : RobotFile} (h : toRobot F = .ok file) : rows (nodeRow F) F.nodes = .ok file.nodes ∧ rows (elemRow F) F.members = .ok file.elems ∧
    rows propRow F.members = .ok file.props ∧ rows (suppRow F) F.supports = .ok file.supports ∧ file.releases = F.members.filterMap relRow ∧ file.space = F.space := by
  unfold toRobot at h
  cases h1 : rows (nodeRow F) F.nodes with
  | error e => rw [h1] at h; simp at h
  | ok ns =>
  cases h2 : rows (elemRow F) F.members with
  | error e => rw [h1, h2] at h; simp at h
  | ok es =>
  cases h3 : rows propRow F.members with
  | error e => rw [h1, h2, h3] at h; simp at h
  | ok ps =>
  cases h4 : rows (suppRow F) F.supports with
  | error e => rw [h1, h2, h3, h4] at h; simp at h
  | ok ss =>
  rw [h1, h2, h3, h4] at h
  obtain rfl := Except.ok.inj h
  exact ⟨rfl, rfl, rfl, rfl, rfl, rfl⟩

/-- **C369** (partial). The file of a plane frame has one row for each support, in order, with the number of its node and the directions it does not hold. -/
theorem robot_support_rows_partial (objs : List (ℝ × ℝ × ℝ)) (ops : List Add) (hnd : (added ops).Nodup) (hl : ∀ r ∈ added ops, r < objs.length)
    (file : RobotFile) (hf : toRobot (ops.foldl Fr.add (Fr.empty objs false)) = .ok file) :
    file.space = false ∧ file.supports.length = (addedSupports ops).length ∧
    ∀ (k r : ℕ) (s : Supp), (addedSupports ops)[k]? = some (r, s) → ∃ n l, file.supports[k]? = some (n, l) ∧ (∀ j : ℕ, (added ops)[j]? = some r → n = j + 1) ∧
      ∀ d < 3, dirOf d ∈ l ↔ d ∉ s.dofs := by
  have hB := built_fold objs _ (built_empty objs false) ops (by simpa [Fr.empty] using hnd) hl
  obtain ⟨e1, e2, e3, e4⟩ := fold_lists (Fr.empty objs false) ops
  have e1' : (ops.foldl Fr.add (Fr.empty objs false)).nodes = added ops := by simpa [Fr.empty] using e1
  have e3' : (ops.foldl Fr.add (Fr.empty objs false)).supports = addedSupports ops := by simpa [Fr.empty] using e3
  have e4' : (ops.foldl Fr.add (Fr.empty objs false)).space = false := by simpa [Fr.empty] using e4
  generalize ops.foldl Fr.add (Fr.empty objs false) = F at *
  obtain ⟨-, -, -, h4, -, h6⟩ := robot_parts hf
  obtain ⟨l4, g4⟩ := rows_mem _ _ _ h4
  refine ⟨by rw [h6, e4'], by rw [l4, e3'], ?_⟩
  intro k r s hk
  rw [← e3'] at hk
  obtain ⟨b, hb, hn⟩ := g4 k _ hk
  unfold suppRow at hb
  cases c1 : number F r with
  | error e => simp only [c1] at hb; cases hb
  | ok n =>
    cases c2 : freeDofs F.space s with
    | error e => simp only [c1, c2] at hb; cases hb
    | ok l =>
      simp only [c1, c2] at hb
      obtain rfl := Except.ok.inj hb
      refine ⟨n, l, hn, ?_, ?_⟩
      · intro j hj
        rw [← e1'] at hj
        rw [number_ok hB hj] at c1
        exact (Except.ok.inj c1).symm
      · rw [e4'] at c2
        have hs : ∀ d, s ≠ .other d := by
          rintro d rfl
          simp [freeDofs] at c2
        obtain ⟨l', hl', hd⟩ := robot_supports_partial s hs
        rw [c2] at hl'
        rw [Except.ok.inj hl']
        exact hd

/-- **C369** (partial). In a written file every member has its material and the name of its section under its number, and the releases are exactly the hinged ends
of the members, under their numbers. -/
theorem robot_member_rows_partial (objs : List (ℝ × ℝ × ℝ)) (space : Bool) (ops : List Add) (hnd : (added ops).Nodup) (hl : ∀ r ∈ added ops, r < objs.length)
    (file : RobotFile) (hf : toRobot (ops.foldl Fr.add (Fr.empty objs space)) = .ok file) :
    (∀ (k : ℕ) (m : Mem), (addedMembers ops)[k]? = some m → ∃ t, m.sec.robot = .ok t ∧ look file.props (k + 1) = some (m.mat, t)) ∧
    (∀ (k : ℕ) (a b : Bool), (k + 1, a, b) ∈ file.releases ↔ ∃ m, (addedMembers ops)[k]? = some m ∧ m.hinges = (a, b) ∧ (a = true ∨ b = true)) := by
  have hB := built_fold objs _ (built_empty objs space) ops (by simpa [Fr.empty] using hnd) hl
  obtain ⟨e1, e2, e3, e4⟩ := fold_lists (Fr.empty objs space) ops
  have e2' : (ops.foldl Fr.add (Fr.empty objs space)).members.map (fun p => p.2) = addedMembers ops := by simpa [Fr.empty] using e2
  generalize ops.foldl Fr.add (Fr.empty objs space) = F at *
  obtain ⟨-, -, h3, -, h5, -⟩ := robot_parts hf
  obtain ⟨l3, g3⟩ := rows_mem _ _ _ h3
  have row : ∀ (k : ℕ) (p : ℕ × Mem), F.members[k]? = some p → ∃ t, p.2.sec.robot = .ok t ∧ file.props[k]? = some (k + 1, p.2.mat, t) := by
    intro k p hk
    obtain ⟨b, hb, hn⟩ := g3 k p hk
    unfold propRow at hb
    cases c : p.2.sec.robot with
    | error e => rw [c] at hb; cases hb
    | ok t =>
      rw [c] at hb
      rw [hn, ← Except.ok.inj hb, hB.mems k p hk]
      exact ⟨t, rfl, rfl⟩
  have num : ∀ (k : ℕ) (p : ℕ × String × Option (List Char)), file.props[k]? = some p → p.1 = k + 1 := by
    intro k p hk
    have hkl : k < F.members.length := by
      rw [← l3]; exact (List.getElem?_eq_some_iff.1 hk).1
    obtain ⟨t, -, hc⟩ := row k _ (List.getElem?_eq_getElem hkl)
    rw [hk] at hc
    rw [Option.some.inj hc]
  constructor
  · intro k m hk
    rw [← e2', List.getElem?_map] at hk
    obtain ⟨p, hp, rfl⟩ := Option.map_eq_some_iff.1 hk
    obtain ⟨t, ht, hr⟩ := row k p hp
    exact ⟨t, ht, look_rows _ num k _ hr⟩
  · intro k a b
    rw [h5, robot_releases_partial]
    constructor
    · rintro ⟨p, hp, hk, hh⟩
      obtain ⟨j, hj⟩ := List.mem_iff_getElem?.1 hp
      have := hB.mems j p hj
      have hjk : j = k := by omega
      subst hjk
      exact ⟨p.2, by rw [← e2', List.getElem?_map, hj]; rfl, hh⟩
    · rintro ⟨m, hm, hh⟩
      rw [← e2', List.getElem?_map] at hm
      obtain ⟨p, hp, rfl⟩ := Option.map_eq_some_iff.1 hm
      exact ⟨p, List.mem_of_getElem? hp, by rw [hB.mems k p hp], hh⟩

example : ∃ file, toRobot (demoOps.foldl Fr.add (Fr.empty [(0, 0, 0), (0, 3000, 0)] false)) = .ok file := ⟨_, rfl⟩

/-- **C369** (partial). The names of HE A and HE B sections are written in the order of Robot. -/
theorem robot_he_partial (n : List Char) (c : Char) : heName (['H', 'E', ' '] ++ n ++ [' ', c]) = .ok (['H', 'E', c, ' '] ++ n) := by
  have h : (['H', 'E', ' '] ++ n ++ [' ', c]).getLast? = some c := by
    rw [show ['H', 'E', ' '] ++ n ++ [' ', c] = (['H', 'E', ' '] ++ n ++ [' ']) ++ [c] by simp, List.getLast?_concat]
  unfold heName
  rw [h]
  simp only
  congr 1
  have hlen : (['H', 'E', ' '] ++ n ++ [' ', c]).length - 2 = (['H', 'E', ' '] ++ n).length := by simp
  rw [hlen, List.take_left]
  simp

/-- **C369** (negation): a circular section has no name in the file. -/
theorem robot_chs_viol : Sec.robot .other = .ok none := rfl

/-- **C369** (partial). The name of the file has the extension when the second character of the name is not a point. -/
theorem robot_name_partial (name : List Char) (c : Char) (h : name[1]? = some c) (hc : c ≠ '.') : robotName name = .ok (name ++ ['.', 's', 't', 'r']) := by
  simp [robotName, h, hc]

example : ("Raami".toList)[1]? = some 'a' ∧ 'a' ≠ '.' := by decide

/-- **C369** (negation): the extension is missing for names with a point as second character, and a name of one character is refused. -/
theorem robot_name_viol (a : Char) (r : List Char) : robotName (a :: '.' :: r) = .ok (a :: '.' :: r ++ ['s', 't', 'r']) ∧ robotName [a] = .error .indexError := by
  constructor <;> simp [robotName]

/-! ## C370: nodes, elements, sets and sections in the file for Abaqus -/

/-- **C370**. The lines of a set have one to sixteen numbers and together they are the set, in order. -/
theorem lines_of_set {α : Type} (l : List α) : (chunks l).flatten = l ∧ ∀ c ∈ chunks l, 1 ≤ c.length ∧ c.length ≤ 16 := by
  induction hn : l.length using Nat.strong_induction_on generalizing l with
  | _ n ih =>
    rw [chunks]
    split_ifs with h
    · simp [h]
    · have hp := List.length_pos_iff.2 h
      obtain ⟨h1, h2⟩ := ih (l.drop 16).length (by rw [List.length_drop]; omega) (l.drop 16) rfl
      refine ⟨by rw [List.flatten_cons, h1, List.take_append_drop], ?_⟩
      intro c hc
      rcases List.mem_cons.1 hc with rfl | hc
      · rw [List.length_take]; omega
      · exact h2 c hc

/-- What a written file contains. -/
theorem abaqus_parts {M : Model} {o : Opts} {f : AbFile} (h : toAbaqus M o = .ok f) :
    ∃ sm ss sy, rows secMember (M.members.filter o.has) = .ok sm ∧ rows (secSet M.els) o.elsets = .ok ss ∧ rows memberSet (M.members.filter o.has) = .ok f.memberSets ∧
      symmNodes o.mpc ((List.range M.nodes.length).map (· + 1)) = .ok sy ∧ f.nodes = nodeRows M ∧ f.els = elRows M o ∧ f.sections = sm ++ ss ∧ f.symm = chunks sy ∧
      f.otherSets = o.elsets.map (fun s => (s.1, chunks (s.2.map (· + 1)))) ∧
      f.s1 = chunks ((M.members.filter o.has).foldl (relSets M.els) ([], [])).1 ∧ f.s2 = chunks ((M.members.filter o.has).foldl (relSets M.els) ([], [])).2 ∧
      f.monitored = monitored M o ∧ f.suppSets = (kinds M).map (fun k => (k, suppNodes M k)) ∧ f.boundary = (kinds M).map (fun k => (k, code k)) := by
  unfold toAbaqus at h
  simp only at h
  cases h1 : rows secMember (M.members.filter o.has) with
  | error e => rw [h1] at h; simp at h
  | ok sm =>
  cases h2 : rows (secSet M.els) o.elsets with
  | error e => rw [h1, h2] at h; simp at h
  | ok ss =>
  cases h3 : rows memberSet (M.members.filter o.has) with
  | error e => rw [h1, h2, h3] at h; simp at h
  | ok ms =>
  cases h4 : symmNodes o.mpc ((List.range M.nodes.length).map (· + 1)) with
  | error e => rw [h1, h2, h3, h4] at h; simp at h
  | ok sy =>
  rw [h1, h2, h3, h4] at h
  obtain rfl := Except.ok.inj h
  exact ⟨sm, ss, sy, rfl, rfl, rfl, rfl, rfl, rfl, rfl, rfl, rfl, rfl, rfl, rfl, rfl, rfl⟩

/-- **C370** (partial). In a written file node `k + 1` is the node at position `k` in metres, and element `k + 1` is the element at position `k` between its nodes;
eccentricity elements are left out. -/
theorem abaqus_geometry_partial (M : Model) (o : Opts) (f : AbFile) (h : toAbaqus M o = .ok f) :
    f.nodes.length = M.nodes.length ∧ (∀ (k : ℕ) (p : ℝ × ℝ), M.nodes[k]? = some p → f.nodes[k]? = some (k + 1, p.1 / 1000, 0, p.2 / 1000)) ∧
    (∀ k a b : ℕ, (k + 1, a, b) ∈ f.els ↔ k ∉ o.ecc ∧ ∃ e, M.els[k]? = some e ∧ a = e.n1 + 1 ∧ b = e.n2 + 1) := by
  obtain ⟨sm, ss, sy, -, -, -, -, h1, h2, -⟩ := abaqus_parts h
  rw [h1, h2]
  refine ⟨by simp [nodeRows], ?_, ?_⟩
  · intro k p hk
    simp [nodeRows, List.getElem?_zipIdx, hk]
  · intro k a b
    unfold elRows
    simp only [List.mem_map, List.mem_filter, decide_eq_true_eq, Prod.mk.injEq]
    constructor
    · rintro ⟨⟨e, i⟩, ⟨hm, hi⟩, hk, rfl, rfl⟩
      have : i = k := by simpa using hk
      subst this
      rw [List.mem_zipIdx_iff_getElem?] at hm
      exact ⟨hi, e, hm, rfl, rfl⟩
    · rintro ⟨hk, e, he, rfl, rfl⟩
      exact ⟨(e, k), ⟨List.mem_zipIdx_iff_getElem?.2 he, hk⟩, rfl, rfl, rfl⟩

/-- **C370** (partial). Every listed member and every set gets one set with the numbers of its elements, and one section. -/
theorem abaqus_sets_partial (M : Model) (o : Opts) (f : AbFile) (h : toAbaqus M o = .ok f) :
    (∀ m ∈ M.members, m.key ∈ o.included → (∃ l, (m.key, l) ∈ f.memberSets ∧ l.flatten = m.elems.map (· + 1)) ∧ .inl m.key ∈ f.sections) ∧
    (∀ s ∈ o.elsets, (∃ l, (s.1, l) ∈ f.otherSets ∧ l.flatten = s.2.map (· + 1) ∧ ∀ c ∈ l, c.length ≤ 16) ∧ .inr s.1 ∈ f.sections) := by
  obtain ⟨sm, ss, sy, h1, h2, h3, h4, -, -, h5, -, h6, -⟩ := abaqus_parts h
  constructor
  · intro m hm hk
    have hmem : m ∈ M.members.filter o.has := by
      rw [List.mem_filter]
      refine ⟨hm, ?_⟩
      unfold Opts.has
      simp [hk, List.length_pos_of_mem hk]
    obtain ⟨i, hi⟩ := List.mem_iff_getElem?.1 hmem
    obtain ⟨b, hb, hf⟩ := (rows_mem _ _ _ h3).2 i m hi
    obtain ⟨c, hc, hg⟩ := (rows_mem _ _ _ h1).2 i m hi
    constructor
    · unfold memberSet at hb
      split_ifs at hb with hlen
      · obtain rfl := Except.ok.inj hb
        exact ⟨_, List.mem_of_getElem? hf, by simp⟩
      · cases he : m.elems with
        | nil => rw [he] at hb; simp at hb
        | cons a r =>
          have hr : r = [] := by
            rw [he] at hlen
            simp at hlen
            exact hlen
          subst hr
          rw [he] at hb
          obtain rfl := Except.ok.inj hb
          exact ⟨_, List.mem_of_getElem? hf, by simp⟩
    · rw [h5, List.mem_append]
      left
      unfold secMember at hc
      cases hkey : m.key with
      | num n => rw [hkey] at hc; simp at hc
      | text t =>
        rw [hkey] at hc
        simp only at hc
        split_ifs at hc
        obtain rfl := Except.ok.inj hc
        exact List.mem_of_getElem? hg
  · intro s hs
    refine ⟨⟨_, by rw [h6]; exact List.mem_map_of_mem hs, (lines_of_set _).1, fun c hc => ((lines_of_set _).2 c hc).2⟩, ?_⟩
    obtain ⟨i, hi⟩ := List.mem_iff_getElem?.1 hs
    obtain ⟨c, hc, hg⟩ := (rows_mem _ _ _ h2).2 i s hi
    rw [h5, List.mem_append]
    right
    unfold secSet at hc
    cases hh : s.2.head? with
    | none => rw [hh] at hc; simp at hc
    | some j =>
      rw [hh] at hc
      simp only at hc
      cases he : M.els[j]? with
      | none => rw [he] at hc; simp at hc
      | some e =>
        rw [he] at hc
        simp only at hc
        split_ifs at hc
        obtain rfl := Except.ok.inj hc
        exact List.mem_of_getElem? hg

/-- A model of two elements. -/
noncomputable def demoM : Model := ⟨[(0, 0), (0, 1500), (0, 3000)], [⟨0, 1, [2], true⟩, ⟨1, 2, [], true⟩], [⟨.text "B0", true, [0, 1]⟩], [(0, .fixed)]⟩

/-- Options for it. -/
noncomputable def demoO : Opts := ⟨0, 1, [], [], [], [.text "B0"]⟩

example : ∃ f, toAbaqus demoM demoO = .ok f ∧ f.memberSets = [(.text "B0", [[1, 2]])] := by
  refine ⟨_, rfl, rfl⟩

/-- **C370** (negation): without listed members and sets no element of the file has a section. -/
theorem abaqus_no_section_viol (M : Model) (o : Opts) (hi : o.included = []) (he : o.elsets = []) (hm : o.mpc = []) : ∃ f, toAbaqus M o = .ok f ∧ f.sections = [] := by
  have hf : M.members.filter o.has = [] := by
    rw [List.filter_eq_nil_iff]
    intro m _
    simp [Opts.has, hi]
  unfold toAbaqus
  simp only [hf, he, hm, rows, symmNodes]
  exact ⟨_, rfl, rfl⟩

/-- **C370** (negation): a frame (not a truss) cannot be exported with listed members: the number of a member is not a text. -/
theorem abaqus_frame_viol (M : Model) (o : Opts) (hk : ∀ m ∈ M.members, ∃ n, m.key = .num n) (m : AMem) (hm : m ∈ M.members) (hi : m.key ∈ o.included) :
    toAbaqus M o = .error .typeError := by
  have hmem : m ∈ M.members.filter o.has := by
    rw [List.mem_filter]
    refine ⟨hm, ?_⟩
    unfold Opts.has
    simp [hi, List.length_pos_of_mem hi]
  have herr : ∀ b ∈ M.members.filter o.has, secMember b = .error .typeError := by
    intro b hb
    obtain ⟨n, hn⟩ := hk b (List.mem_filter.1 hb).1
    simp [secMember, hn]
  have := rows_err secMember _ .typeError m hmem (herr m hmem) (fun b hb e' h => by rw [herr b hb] at h; exact (Except.error.inj h).symm)
  unfold toAbaqus
  simp only [this]

example : ∃ (M : Model) (o : Opts) (m : AMem), (∀ m ∈ M.members, ∃ n, m.key = .num n) ∧ m ∈ M.members ∧ m.key ∈ o.included :=
  ⟨⟨[], [], [⟨.num 0, true, []⟩], []⟩, ⟨0, 1, [], [], [], [.num 0]⟩, ⟨.num 0, true, []⟩, by simp, by simp, by simp⟩

/-- **C370** (negation): only rectangular hollow sections can be written. -/
theorem abaqus_section_viol (k : Key) (l : List ℕ) : secMember ⟨k, false, l⟩ = .error .typeError := by
  cases k <;> rfl

/-- **C370** (negation): the set of a member of more than sixteen elements is one line of more than sixteen numbers. -/
theorem abaqus_long_line_viol (m : AMem) (h : 16 < m.elems.length) : ∃ c, memberSet m = .ok (m.key, [c]) ∧ 16 < c.length :=
  ⟨_, by unfold memberSet; rw [if_pos (by omega)], by simpa using h⟩

theorem symm_dup (p : ℕ × ℕ) (r : List (ℕ × ℕ)) (l : List ℕ) (hl : l.Nodup) (hp : p.1 ∉ l) (hr : p ∈ r) : symmNodes r l = .error .valueError := by
  induction r generalizing l with
  | nil => simp at hr
  | cons q r ih =>
    unfold symmNodes
    split_ifs with hq
    · rcases List.mem_cons.1 hr with rfl | hr
      · exact absurd hq hp
      · exact ih _ (hl.erase _) (fun h => hp (List.mem_of_mem_erase h)) hr
    · rfl

theorem symm_append (a b : List (ℕ × ℕ)) (l l' : List ℕ) (h : symmNodes a l = .ok l') : symmNodes (a ++ b) l = symmNodes b l' := by
  induction a generalizing l with
  | nil => obtain rfl := Except.ok.inj h; rfl
  | cons p a ih =>
    unfold symmNodes at h
    split_ifs at h with hp
    rw [← ih _ h, List.cons_append, symmNodes.eq_2, if_pos hp]

theorem symm_gone (a : List (ℕ × ℕ)) (l l' : List ℕ) (hl : l.Nodup) (h : symmNodes a l = .ok l') : l'.Nodup ∧ (∀ x ∈ l', x ∈ l) ∧ ∀ p ∈ a, p.1 ∉ l' := by
  induction a generalizing l with
  | nil => obtain rfl := Except.ok.inj h; exact ⟨hl, fun _ h => h, by simp⟩
  | cons p a ih =>
    unfold symmNodes at h
    split_ifs at h with hp
    obtain ⟨h1, h2, h3⟩ := ih _ (hl.erase _) h
    refine ⟨h1, fun x hx => List.mem_of_mem_erase (h2 x hx), ?_⟩
    intro q hq
    rcases List.mem_cons.1 hq with rfl | hq
    · intro hx
      have := h2 _ hx
      rw [hl.mem_erase_iff] at this
      exact this.1 rfl
    · exact h3 q hq

/-- **C370** (partial). The nodes held out of the plane are all nodes that are not dependent nodes of a constraint. -/
theorem abaqus_symm_partial (M : Model) (o : Opts) (f : AbFile) (h : toAbaqus M o = .ok f) :
    ∀ k, k ∈ f.symm.flatten ↔ (1 ≤ k ∧ k ≤ M.nodes.length) ∧ ∀ p ∈ o.mpc, p.1 ≠ k := by
  obtain ⟨sm, ss, sy, -, -, -, h4, -, -, -, h5, -⟩ := abaqus_parts h
  rw [h5, (lines_of_set sy).1]
  have hbase : ∀ k, k ∈ (List.range M.nodes.length).map (· + 1) ↔ 1 ≤ k ∧ k ≤ M.nodes.length := by
    intro k
    simp only [List.mem_map, List.mem_range]
    constructor
    · rintro ⟨a, ha, rfl⟩; omega
    · rintro ⟨h1, h2⟩; exact ⟨k - 1, by omega, by omega⟩
  have hnd : ((List.range M.nodes.length).map (· + 1)).Nodup := List.nodup_range.map (fun a b h => by simpa using h)
  have keep : ∀ (a : List (ℕ × ℕ)) (l l' : List ℕ), symmNodes a l = .ok l' → ∀ k, k ∈ l → (∀ p ∈ a, p.1 ≠ k) → k ∈ l' := by
    intro a
    induction a with
    | nil => intro l l' h k hk _; obtain rfl := Except.ok.inj h; exact hk
    | cons p a ih =>
      intro l l' h k hk hne
      unfold symmNodes at h
      split_ifs at h with hp
      exact ih _ _ h k ((List.mem_erase_of_ne (fun h => hne p (by simp) h.symm)).2 hk) (fun q hq => hne q (by simp [hq]))
  obtain ⟨-, g2, g3⟩ := symm_gone o.mpc _ sy hnd h4
  intro k
  constructor
  · intro hk
    exact ⟨(hbase k).1 (g2 k hk), fun p hp he => g3 p hp (he ▸ hk)⟩
  · rintro ⟨h1, h2⟩
    exact keep _ _ _ h4 k ((hbase k).2 h1) h2

/-- **C370** (negation): a truss with eccentricity constraints cannot be exported twice with the default options. -/
theorem abaqus_twice_viol (M : Model) (sets : List (String × List ℕ)) (braces : List Key) (mpcs : List (ℕ × ℕ)) (ecc : List ℕ) (o : Opts) (f : AbFile)
    (hne : mpcs ≠ []) (h : (trussAbaqus M sets braces mpcs ecc o).2 = .ok f) :
    ∀ f', (trussAbaqus M sets braces mpcs ecc (trussAbaqus M sets braces mpcs ecc o).1).2 ≠ .ok f' := by
  intro f' h'
  obtain ⟨sm, ss, sy, -, -, -, h4, -⟩ := abaqus_parts (show toAbaqus M _ = .ok f from h)
  obtain ⟨sm', ss', sy', -, -, -, h4', -⟩ := abaqus_parts (show toAbaqus M _ = .ok f' from h')
  have hnd : ((List.range M.nodes.length).map (· + 1)).Nodup := List.nodup_range.map (fun a b h => by simpa using h)
  obtain ⟨n1, -, n3⟩ := symm_gone _ _ sy hnd h4
  simp only [trussAbaqus] at h4 h4' n3
  rw [symm_append _ _ _ _ h4] at h4'
  obtain ⟨p, hp⟩ := List.exists_mem_of_ne_nil _ hne
  rw [symm_dup p mpcs sy n1 (n3 p (by simp [hp])) hp] at h4'
  cases h4'

example : ∃ f, (trussAbaqus ⟨[(0, 0), (0, 10)], [], [], []⟩ [] [] [(1, 2)] [] ⟨0, 1, [], [], [], []⟩).2 = .ok f := ⟨_, rfl⟩

/-! ## C371: releases, supports and monitored nodes in the file for Abaqus -/

theorem relSets_mem (els : List El) (st : List ℕ × List ℕ) (m : AMem) (k : ℕ) :
    (k ∈ (relSets els st m).1 ↔ k ∈ st.1 ∨ (1 < m.elems.length ∧ ∃ i ∈ m.elems, k = i + 1 ∧ ∃ e, els[i]? = some e ∧ 2 ∈ e.releases)) ∧
    (k ∈ (relSets els st m).2 ↔ k ∈ st.2 ∨ (1 < m.elems.length ∧ ∃ i ∈ m.elems, k = i + 1 ∧ ∃ e, els[i]? = some e ∧ 2 ∉ e.releases ∧ 5 ∈ e.releases)) := by
  unfold relSets
  split_ifs with hl
  · simp only [hl, true_and]
    generalize m.elems = l
    induction l generalizing st with
    | nil => simp
    | cons a l ih =>
      rw [List.foldl_cons]
      rw [(ih _).1, (ih _).2]
      cases ha : els[a]? with
      | none => simp [ha]
      | some e =>
        by_cases c2 : 2 ∈ e.releases
        · simp [ha, c2]; tauto
        · by_cases c5 : 5 ∈ e.releases
          · simp [ha, c2, c5]; tauto
          · simp [ha, c2, c5]
  · simp [show ¬ 1 < m.elems.length by omega]

theorem relFold_mem (els : List El) (ms : List AMem) (st : List ℕ × List ℕ) (k : ℕ) :
    (k ∈ (ms.foldl (relSets els) st).1 ↔ k ∈ st.1 ∨ ∃ m ∈ ms, 1 < m.elems.length ∧ ∃ i ∈ m.elems, k = i + 1 ∧ ∃ e, els[i]? = some e ∧ 2 ∈ e.releases) ∧
    (k ∈ (ms.foldl (relSets els) st).2 ↔ k ∈ st.2 ∨ ∃ m ∈ ms, 1 < m.elems.length ∧ ∃ i ∈ m.elems, k = i + 1 ∧ ∃ e, els[i]? = some e ∧ 2 ∉ e.releases ∧ 5 ∈ e.releases) := by
  induction ms generalizing st with
  | nil => simp
  | cons m ms ih =>
    rw [List.foldl_cons]
    obtain ⟨h1, h2⟩ := ih (relSets els st m)
    rw [h1, h2, (relSets_mem els st m k).1, (relSets_mem els st m k).2]
    constructor <;> rw [List.exists_mem_cons_iff, or_assoc]

/-- **C371** (partial). If all listed members have two or more elements and no element is released at both ends, the sets of releases have exactly the elements of
listed members that are released at their first or second end. -/
theorem abaqus_releases_partial (M : Model) (o : Opts) (f : AbFile) (h : toAbaqus M o = .ok f) (h2 : ∀ m ∈ M.members, m.key ∈ o.included → 1 < m.elems.length)
    (hb : ∀ e ∈ M.els, ¬ (2 ∈ e.releases ∧ 5 ∈ e.releases)) (k : ℕ) :
    (k ∈ f.s1.flatten ↔ ∃ m ∈ M.members, m.key ∈ o.included ∧ ∃ i ∈ m.elems, k = i + 1 ∧ ∃ e, M.els[i]? = some e ∧ 2 ∈ e.releases) ∧
    (k ∈ f.s2.flatten ↔ ∃ m ∈ M.members, m.key ∈ o.included ∧ ∃ i ∈ m.elems, k = i + 1 ∧ ∃ e, M.els[i]? = some e ∧ 5 ∈ e.releases) := by
  obtain ⟨sm, ss, sy, -, -, -, -, -, -, -, -, -, e1, e2, -⟩ := abaqus_parts h
  rw [e1, e2, (lines_of_set _).1, (lines_of_set _).1, (relFold_mem _ _ _ k).1, (relFold_mem _ _ _ k).2]
  have hhas : ∀ m, m ∈ M.members.filter o.has ↔ m ∈ M.members ∧ m.key ∈ o.included := by
    intro m
    rw [List.mem_filter]
    unfold Opts.has
    constructor
    · rintro ⟨a, b⟩; exact ⟨a, by simp at b; exact b.2⟩
    · rintro ⟨a, b⟩; exact ⟨a, by simp [b, List.length_pos_of_mem b]⟩
  constructor
  · constructor
    · rintro (h | ⟨m, hm, -, r⟩)
      · simp at h
      · exact ⟨m, ((hhas m).1 hm).1, ((hhas m).1 hm).2, r⟩
    · rintro ⟨m, hm, hk, r⟩
      exact Or.inr ⟨m, (hhas m).2 ⟨hm, hk⟩, h2 m hm hk, r⟩
  · constructor
    · rintro (h | ⟨m, hm, -, i, hi, hk, e, he, -, h5⟩)
      · simp at h
      · exact ⟨m, ((hhas m).1 hm).1, ((hhas m).1 hm).2, i, hi, hk, e, he, h5⟩
    · rintro ⟨m, hm, hk, i, hi, hki, e, he, h5⟩
      exact Or.inr ⟨m, (hhas m).2 ⟨hm, hk⟩, h2 m hm hk, i, hi, hki, e, he, fun c => hb e (List.mem_of_getElem? he) ⟨c, h5⟩, h5⟩

example : (∃ f, toAbaqus demoM demoO = .ok f) ∧ (∀ m ∈ demoM.members, m.key ∈ demoO.included → 1 < m.elems.length) ∧
    ∀ e ∈ demoM.els, ¬ (2 ∈ e.releases ∧ 5 ∈ e.releases) := by
  refine ⟨⟨_, rfl⟩, by simp [demoM], by simp [demoM]⟩

/-- **C371** (negation): releases of a member of one element are not written. -/
theorem abaqus_single_viol (els : List El) (st : List ℕ × List ℕ) (k : Key) (rhs : Bool) (i : ℕ) : relSets els st ⟨k, rhs, [i]⟩ = st := rfl

/-- **C371** (partial). The sets of supports have the numbers of the nodes of all supports of their kind. -/
theorem abaqus_supports_partial (M : Model) (o : Opts) (f : AbFile) (h : toAbaqus M o = .ok f) (n : ℕ) (s : Supp) (k : SetName) (hk : suppSet s = some k)
    (hm : (n, s) ∈ M.supports) : ∃ l, (k, l) ∈ f.suppSets ∧ n + 1 ∈ l ∧ (k, code k) ∈ f.boundary ∧ (∀ c, (k, c) ∈ f.boundary → c = code k) ∧
      ∀ x ∈ l, ∃ q ∈ M.supports, suppSet q.2 = some k ∧ x = q.1 + 1 := by
  obtain ⟨sm, ss, sy, -, -, -, -, -, -, -, -, -, -, -, -, e1, e2⟩ := abaqus_parts h
  have hin : n + 1 ∈ suppNodes M k := List.mem_map.2 ⟨(n, s), List.mem_filter.2 ⟨hm, by simp [hk]⟩, rfl⟩
  have hkinds : k ∈ kinds M := by
    unfold kinds
    rw [List.mem_filter]
    exact ⟨by cases k <;> simp, by simpa using List.ne_nil_of_mem hin |> List.length_pos_iff.2⟩
  refine ⟨suppNodes M k, by rw [e1]; exact List.mem_map.2 ⟨k, hkinds, rfl⟩, hin, by rw [e2]; exact List.mem_map.2 ⟨k, hkinds, rfl⟩, ?_, ?_⟩
  · intro c hc
    rw [e2] at hc
    obtain ⟨k', -, hk'⟩ := List.mem_map.1 hc
    simp only [Prod.mk.injEq] at hk'
    rw [← hk'.2, hk'.1]
  · intro x hx
    obtain ⟨q, hq, rfl⟩ := List.mem_map.1 hx
    rw [List.mem_filter] at hq
    exact ⟨q, hq.1, by simpa using hq.2, rfl⟩

/-- **C371** (partial). Fixed, hinged and vertical supports hold in the plane what they hold in the frame. -/
theorem abaqus_codes_partial (s : Supp) (hs : s = .fixed ∨ s = .xy ∨ s = .y) : ∃ k, suppSet s = some k ∧ ∀ d < 3, abDof d ∈ (code k).holds ↔ d ∈ s.dofs := by
  have three : ∀ d < 3, d = 0 ∨ d = 1 ∨ d = 2 := fun d hd => by omega
  rcases hs with rfl | rfl | rfl
  · refine ⟨_, rfl, fun d hd => ?_⟩
    rcases three d hd with rfl | rfl | rfl <;> simp [abDof, code, Code.holds, Supp.dofs]
  · refine ⟨_, rfl, fun d hd => ?_⟩
    rcases three d hd with rfl | rfl | rfl <;> simp [abDof, code, Code.holds, Supp.dofs]
  · refine ⟨_, rfl, fun d hd => ?_⟩
    rcases three d hd with rfl | rfl | rfl <;> simp [abDof, code, Code.holds, Supp.dofs]

/-- **C371** (negation): a support that holds x only is written as one that also holds the rotation in the plane. -/
theorem abaqus_xsymm_viol : suppSet .x = some .xSupp ∧ 2 ∉ Supp.x.dofs ∧ abDof 2 ∈ (code .xSupp).holds := ⟨rfl, by simp [Supp.dofs], by simp [abDof, code, Code.holds]⟩

/-- **C371** (negation): a support with its own list of directions is left out without an error: a model with only such supports is not supported. -/
theorem abaqus_general_viol (M : Model) (o : Opts) (f : AbFile) (h : toAbaqus M o = .ok f) (hs : ∀ p ∈ M.supports, ∃ d, p.2 = .other d) : f.boundary = [] := by
  obtain ⟨sm, ss, sy, -, -, -, -, -, -, -, -, -, -, -, -, e1, e2⟩ := abaqus_parts h
  rw [e2, List.map_eq_nil_iff]
  unfold kinds
  rw [List.filter_eq_nil_iff]
  intro k _
  have : suppNodes M k = [] := by
    unfold suppNodes
    rw [List.map_eq_nil_iff, List.filter_eq_nil_iff]
    intro p hp
    obtain ⟨d, hd⟩ := hs p hp
    simp [hd, suppSet]
  simp [this]

theorem insDist_perm (d : ℕ → ℝ) (a : ℕ) (l : List ℕ) : (insDist d a l).Perm (a :: l) := by
  induction l with
  | nil => exact List.Perm.refl _
  | cons b l ih =>
    unfold insDist
    split_ifs
    · exact List.Perm.refl _
    · exact (ih.cons b).trans (List.Perm.swap a b l)

theorem insDist_sorted (d : ℕ → ℝ) (a : ℕ) (l : List ℕ) (h : l.Pairwise (fun x y => d x ≤ d y)) : (insDist d a l).Pairwise (fun x y => d x ≤ d y) := by
  induction l with
  | nil => simp [insDist]
  | cons b l ih =>
    rw [List.pairwise_cons] at h
    unfold insDist
    split_ifs with hab
    · rw [List.pairwise_cons]
      refine ⟨?_, List.pairwise_cons.2 h⟩
      intro x hx
      rcases List.mem_cons.1 hx with rfl | hx
      · exact hab
      · exact le_trans hab (h.1 x hx)
    · rw [List.pairwise_cons]
      refine ⟨?_, ih h.2⟩
      intro x hx
      have := (insDist_perm d a l).mem_iff.1 hx
      rcases List.mem_cons.1 this with rfl | hx
      · exact le_of_lt (not_le.1 hab)
      · exact h.1 x hx

theorem argsort_spec (d : ℕ → ℝ) (n : ℕ) : (argsort d n).Perm (List.range n) ∧ (argsort d n).Pairwise (fun x y => d x ≤ d y) := by
  unfold argsort
  induction List.range n with
  | nil => simp
  | cons a l ih =>
    rw [List.foldr_cons]
    exact ⟨(insDist_perm d a _).trans (ih.1.cons a), insDist_sorted d a _ ih.2⟩

/-- **C371** (partial). The positions written as monitored are those of the nodes closest to the given place, as many as asked. -/
theorem abaqus_monitored_partial (M : Model) (o : Opts) (f : AbFile) (h : toAbaqus M o = .ok f) :
    f.monitored.length = min o.nMonitored M.nodes.length ∧ (∀ i ∈ f.monitored, i < M.nodes.length) ∧ f.monitored.Nodup ∧
    ∀ (i j : ℕ) (p q : ℝ × ℝ), i ∈ f.monitored → j ∉ f.monitored → M.nodes[i]? = some p → M.nodes[j]? = some q → |p.1 - o.xMonitor| ≤ |q.1 - o.xMonitor| := by
  obtain ⟨sm, ss, sy, -, -, -, -, -, -, -, -, -, -, -, e1, -⟩ := abaqus_parts h
  obtain ⟨hp, hs⟩ := argsort_spec (monDist M o.xMonitor) M.nodes.length
  rw [e1]
  unfold monitored
  refine ⟨by rw [List.length_take, hp.length_eq, List.length_range], ?_, ?_, ?_⟩
  · intro i hi
    exact List.mem_range.1 (hp.mem_iff.1 (List.mem_of_mem_take hi))
  · exact (hp.nodup_iff.2 List.nodup_range).sublist (List.take_sublist _ _)
  · intro i j p q hi hjn hpi hqj
    have hj : j < M.nodes.length := (List.getElem?_eq_some_iff.1 hqj).1
    have hjm : j ∈ argsort (monDist M o.xMonitor) M.nodes.length := hp.mem_iff.2 (List.mem_range.2 hj)
    rw [← List.take_append_drop o.nMonitored (argsort (monDist M o.xMonitor) M.nodes.length)] at hjm hs
    rw [List.pairwise_append] at hs
    rcases List.mem_append.1 hjm with hj' | hj'
    · exact absurd hj' hjn
    · have := hs.2.2 i hi j hj'
      simpa only [monDist, hpi, hqj] using this

/-- **C371** (negation): the position of a monitored node is written as its number, but numbers are one higher than positions: the node at the first position is
written as number 0, which no node of the file has, and all others as the node before them. -/
theorem abaqus_monitored_viol (M : Model) (o : Opts) (f : AbFile) (h : toAbaqus M o = .ok f) :
    ∀ i ∈ f.monitored, ∃ p, M.nodes[i]? = some p ∧ look f.nodes (i + 1) = some (p.1 / 1000, 0, p.2 / 1000) ∧
      (i = 0 → look f.nodes i = none) ∧ (∀ j q, i = j + 1 → M.nodes[j]? = some q → look f.nodes i = some (q.1 / 1000, 0, q.2 / 1000)) := by
  intro i hi
  have hlt := (abaqus_monitored_partial M o f h).2.1 i hi
  obtain ⟨hl, hn, -⟩ := abaqus_geometry_partial M o f h
  have hrow : ∀ (k : ℕ) (p : ℕ × ℝ × ℝ × ℝ), f.nodes[k]? = some p → p.1 = k + 1 := by
    intro k p hk
    have hkl : k < M.nodes.length := by rw [← hl]; exact (List.getElem?_eq_some_iff.1 hk).1
    have := hn k _ (List.getElem?_eq_getElem hkl)
    rw [hk] at this
    rw [Option.some.inj this]
  refine ⟨M.nodes[i], List.getElem?_eq_getElem hlt, ?_, ?_, ?_⟩
  · exact look_rows f.nodes hrow i _ (hn i _ (List.getElem?_eq_getElem hlt))
  · rintro rfl
    unfold look
    rw [Option.map_eq_none_iff, List.find?_eq_none]
    intro p hp
    obtain ⟨k, hk⟩ := List.mem_iff_getElem?.1 hp
    have := hrow k p hk
    simp [this]
  · rintro j q rfl hq
    exact look_rows f.nodes hrow j _ (hn j q hq)

end Metku.Export
