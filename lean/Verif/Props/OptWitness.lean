import Verif.Props.OptEval

/-!
Concrete problems: they show that the hypotheses of the optimisation theorems can be met, and how the code breaks the
properties in the cases the partial theorems leave out.
-/
namespace Metku.Opt

open Metku

section
variable {K : Type} [Field K] [LinearOrder K] [IsStrictOrderedRing K] [FloorRing K]

theorem mapM_getVal_map_some (x : List K) : (x.map some).mapM getVal = .ok x := by
  induction x with
  | nil => rfl
  | cons a x ih =>
    rw [List.map_cons, List.mapM_cons, ih]
    rfl

/-- A constraint is asked at the present values: nothing is substituted. -/
theorem conPrepare_same {p : Prob K} {c : Con K} {x : List K} (h : p.free.map (·.value) = x.map some) :
    conPrepare p c x = .ok (if c.feaRequired then feaAll p c.loadIds else p) := by
  have hz : (List.zipWith (fun a b => (a - b) ^ 2) x x).sum = 0 := by
    induction x generalizing p with
    | nil => rfl
    | cons a x ih =>
      have : (List.zipWith (fun a b => (a - b) ^ 2) x x).sum = 0 := by
        clear h ih
        induction x with
        | nil => rfl
        | cons b x ih => simp [ih]
      simp [this]
  have hn : ¬ (0 : K) > (1 / 10 ^ 8) ^ 2 := not_lt.2 (by positivity)
  unfold conPrepare
  rw [mapM_map_getVal, h, mapM_getVal_map_some]
  simp only [bind, Except.bind, ne_eq, not_true_eq_false, if_false, hz, if_neg hn]
  rfl

/-- A constraint is asked at other values: they are substituted. -/
theorem conPrepare_far {p q : Prob K} {c : Con K} {x vals : List K} (h : p.free.map (·.value) = vals.map some)
    (hl : vals.length = x.length)
    (hs : (List.zipWith (fun a b => (a - b) ^ 2) vals x).sum > (1 / 10 ^ 8 : K) ^ 2)
    (hq : substituteVariables p x = .ok q) :
    conPrepare p c x = .ok (if c.feaRequired then feaAll q c.loadIds else q) := by
  unfold conPrepare
  rw [mapM_map_getVal, h, mapM_getVal_map_some]
  simp only [bind, Except.bind, hl, ne_eq, not_true_eq_false, if_false, if_pos hs, hq]
  rfl

theorem evalCon_nonlinear {p q : Prob K} {c : Con K} {x : List K} {f : View K → K} {args : List (Option K)}
    (h1 : conPrepare p c x = .ok q) (hf : c.fn = .nonlinear f) (h2 : mergeFixed q.fixedVals x = .ok args) :
    evalCon p c x = .ok (f ⟨args, q.struct, q.results⟩, q,
      { c with potential := potentialAfter c (f ⟨args, q.struct, q.results⟩) }) := by
  unfold evalCon
  simp only [h1, bind, Except.bind, hf, h2]
  rfl

theorem evalObj_of {p q p' : Prob K} {o : Objective K} {x xs : List K} {args : List (Option K)}
    (hq : (if (o.feaRequired && p.feaDone.isEmpty) = true then fea p "ALL" else p) = q)
    (h1 : mergeFixed q.fixedVals x = .ok args) (h2 : (args.take q.free.length).mapM getVal = .ok xs)
    (h3 : substituteVariables q xs = .ok p') :
    evalObj p o x = .ok (if o.maximise then -(o.fn ⟨args, p'.struct, p'.results⟩) else o.fn ⟨args, p'.struct, p'.results⟩, p') := by
  unfold evalObj
  simp only [hq, h1, h2, h3, bind, Except.bind]
  rfl

end

/-- A free continuous variable on attribute "A" of object 0 with bounds 0 and 10. -/
def vA (y : ℚ) : Var ℚ := newVar .cont 0 10 (some y) (some ⟨.one "A", [0]⟩)

/-- A structure whose attributes all have value `a`. -/
def flat (a : ℚ) : Struct ℚ := fun _ _ => a

/-- A new problem with one variable (value `y`) on a structure with attributes `a`. -/
def prob1 (y a : ℚ) : Prob ℚ := ⟨[vA y], [], flat a, fun _ => none, [], none, none, 0⟩

/-- Constraint that reads attribute "A" of object 0 from the analysis of load case "LC". -/
def conFea : Con ℚ :=
  ⟨.nonlinear fun v => match v.results "LC" with
    | some s => s 0 "A"
    | none => -1, .lt, true, ["LC"], 1, true, 1 / 4⟩

/-- Constraint that reads attribute "A" of object 0 from the structure. -/
def conStruct : Con ℚ := ⟨.nonlinear fun v => v.struct 0 "A", .lt, false, [], 1, true, 1 / 4⟩

/-- Substitution into a problem with the single variable `vA`. -/
theorem subst1 (p : Prob ℚ) (y x : ℚ) (hp : p.vars = [vA y]) (h0 : 0 ≤ x) (h10 : x ≤ 10) :
    substituteVariables p [x] = .ok { p with
      vars := [vA x]
      struct := setAttr p.struct 0 "A" x
      X := some [x]
      x0 := if (p.X.getD []).any (· ≠ 0) then p.x0 else some [x]
      feaDone := p.feaDone.allFalse } := by
  have hf : p.free = [vA y] := by simp [Prob.free, hp, vA, newVar]
  have hc : clip (vA y) x = x := by
    unfold clip
    have e1 : (vA y).lb = 0 := rfl
    have e2 : (vA y).ub = 10 := rfl
    rw [e1, e2, min_eq_left h10, max_eq_right h0]
  have hs : ∀ s, substFree [vA y] [x] s = .ok ([vA x], setAttr s 0 "A" x) := by
    intro s
    have : substVar (vA y) x s = .ok (vA x, setAttr s 0 "A" x) := by
      simp [substVar, substBase, vA, newVar, writeObj]
    have hl : (vA y).locked = false := rfl
    simp [substFree, this, hl, bind, Except.bind, pure, Except.pure]
  unfold substituteVariables
  simp only [hf, List.zipWith_cons_cons, List.zipWith_nil_left, hc, hp, hs, bind, Except.bind]
  rfl

/-- The analysis flagged as done is the one made before the variable was locked to another value: C41 fails when a variable
    is locked (or substituted) with a value directly. -/
theorem C41_violation : ∃ (p1 p2 p3 : Prob ℚ) (c1 c3 : Con ℚ), Fresh p1 ∧
    evalCon (prob1 1 1) conFea [1] = .ok (1, p1, c1) ∧
    lockAt p1 0 (some 5) = .ok p2 ∧ p2.struct 0 "A" = 5 ∧
    evalCon p2 conFea [] = .ok (1, p3, c3) ∧ p3.struct 0 "A" = 5 := by
  let p1 : Prob ℚ := ⟨[vA 1], [], flat 1, Function.update (fun _ => none) "LC" (some (flat 1)), [("LC", true)], none, none, 1⟩
  let s2 : Struct ℚ := setAttr (flat 1) 0 "A" 5
  let p2 : Prob ℚ := { p1 with vars := [{ vA 5 with locked := true }], struct := s2 }
  have h1 : evalCon (prob1 1 1) conFea [1] = .ok (1, p1, { conFea with potential := potentialAfter conFea 1 }) :=
    evalCon_nonlinear (c := conFea) (conPrepare_same (p := prob1 1 1) (x := [(1 : ℚ)]) rfl) rfl rfl
  refine ⟨p1, p2, p2, _, { conFea with potential := potentialAfter conFea 1 }, ?_, h1, ?_, ?_, ?_, ?_⟩
  · intro id hid
    by_cases e : id = "LC"
    · subst e; rfl
    · have : (id == "LC") = false := by simp [e]
      simp [p1, List.lookup_cons, this] at hid
  · simp [lockAt, p1, p2, lockVar, substVar, substBase, vA, newVar, writeObj, s2]
  · simp [p2, s2, setAttr]
  · exact evalCon_nonlinear (c := conFea) (conPrepare_same (p := p2) (x := ([] : List ℚ)) rfl) rfl rfl
  · simp [p2, s2, setAttr]

/-- A new problem does not write the initial values into the structure: evaluating a constraint at the initial values sees
    the old structure, evaluating it there after a detour sees another value.  So C42 needs one substitution. -/
theorem C42_violation : ∃ (p1 p2 p3 : Prob ℚ) (c1 c2 c3 : Con ℚ),
    evalCon (prob1 2 1) conStruct [2] = .ok (1, p1, c1) ∧
    evalCon p1 conStruct [3] = .ok (3, p2, c2) ∧ evalCon p2 conStruct [2] = .ok (2, p3, c3) := by
  have h1 := evalCon_nonlinear (c := conStruct) (conPrepare_same (p := prob1 2 1) (x := [(2 : ℚ)]) rfl) rfl rfl
  have s1 := subst1 (prob1 2 1) 2 3 rfl (by norm_num) (by norm_num)
  have h2 := evalCon_nonlinear (c := conStruct)
    (conPrepare_far (c := conStruct) (p := prob1 2 1) (x := [(3 : ℚ)]) (vals := [2]) rfl rfl (by norm_num) s1) rfl rfl
  exact ⟨_, _, _, _, _, _, h1, h2, evalCon_nonlinear (c := conStruct)
    (conPrepare_far (c := conStruct) (x := [(2 : ℚ)]) (vals := [3]) rfl rfl (by norm_num)
      (subst1 _ 3 2 rfl (by norm_num) (by norm_num))) rfl rfl⟩

/-- Objective returning its second argument. -/
def objSecond : Objective ℚ := ⟨fun v => match v.args with
  | [_, some b] => b
  | _ => 0, false, false⟩

/-- The second variable of `prob2`. -/
def vB (y : ℚ) : Var ℚ := newVar .cont 0 10 (some y) (some ⟨.one "B", [0]⟩)

/-- Two variables, the first locked at 5, the second free with value 1. -/
def prob2 : Prob ℚ :=
  ⟨[{ vA 5 with locked := true }, vB 1], [], flat 0, fun _ => none, [], none, none, 0⟩

/-- C24 fails when a locked variable precedes a free one: evaluating the objective at `x = (3)` sets the free variable
    (and the structure) to 5, the locked variable's value, while the objective function is told 3. -/
theorem C24_violation : ∃ p' : Prob ℚ, evalObj prob2 objSecond [3] = .ok (3, p') ∧
    p'.vars.map (·.value) = [some 5, some 5] ∧ p'.struct 0 "B" = 5 := by
  have hc : clip (vB 1) 5 = 5 := by norm_num [clip, vB, newVar]
  have hs : substituteVariables prob2 [5] = .ok { prob2 with
      vars := [{ vA 5 with locked := true }, vB 5]
      struct := setAttr prob2.struct 0 "B" 5
      X := some [5]
      x0 := some [5] } := by
    have hf : prob2.free = [vB 1] := rfl
    have h1 : ∀ s, substFree prob2.vars [5] s = .ok ([{ vA 5 with locked := true }, vB 5], setAttr s 0 "B" 5) := by
      intro s
      have : substVar (vB 1) 5 s = .ok (vB 5, setAttr s 0 "B" 5) := by
        simp [substVar, substBase, vB, newVar, writeObj]
      have hl : (vB 1).locked = false := rfl
      simp [prob2, substFree, this, hl, bind, Except.bind, pure, Except.pure]
    unfold substituteVariables
    simp only [hf, List.zipWith_cons_cons, List.zipWith_nil_left, hc, h1, bind, Except.bind]
    rfl
  exact ⟨_, evalObj_of (o := objSecond) (x := [3]) (p := prob2) (q := prob2) (args := [some 5, some 3]) rfl rfl rfl hs, rfl, by simp [setAttr]⟩

/-- Objective that needs an analysis and returns attribute "A" as analysed. -/
def objFea : Objective ℚ := ⟨fun v => match v.results "ALL" with
  | some s => s 0 "A"
  | none => -1, false, true⟩

/-- C44 fails: the objective is asked at `x = (3)`, but the analysis it sees was made for the structure before the substitution. -/
theorem C44_violation : ∃ p' : Prob ℚ, evalObj (prob1 1 1) objFea [3] = .ok (1, p') ∧ p'.struct 0 "A" = 3 := by
  have hs := subst1 (fea (prob1 1 1) "ALL") 1 3 rfl (by norm_num) (by norm_num)
  exact ⟨_, evalObj_of (o := objFea) (x := [3]) (p := prob1 1 1) (q := fea (prob1 1 1) "ALL") (args := [some 3]) rfl rfl rfl hs, by simp [setAttr]⟩

/-- C45 fails after a zero vector: the recorded starting point is overwritten by the second substitution. -/
theorem C45_violation : ∃ p1 p2 : Prob ℚ, substituteVariables (prob1 1 1) [0] = .ok p1 ∧ p1.x0 = some [0] ∧
    substituteVariables p1 [4] = .ok p2 ∧ p2.x0 = some [4] := by
  refine ⟨_, _, subst1 (prob1 1 1) 1 0 rfl (by norm_num) (by norm_num), ?_,
    subst1 _ 0 4 rfl (by norm_num) (by norm_num), ?_⟩
  · simp [prob1]
  · simp

/-! ### The hypotheses of the theorems can be met -/

/-- C15: one locked and one free variable, a vector outside the bounds: the free variable is clipped to 10. -/
example : ∃ p', substituteVariables prob2 [25] = .ok p' ∧ p'.vars[0]? = prob2.vars[0]? ∧
    (p'.vars[1]?).bind (·.value) = some 10 := by
  have hw : ∀ v ∈ prob2.vars, WellFormed v := by
    intro v hv
    simp only [prob2, List.mem_cons, List.not_mem_nil, or_false] at hv
    rcases hv with rfl | rfl <;> simp [WellFormed, vA, vB, newVar]
  obtain ⟨p', h⟩ := C15_total prob2 [25] hw
  obtain ⟨_, h1, _, h3, _⟩ := C15 h (fun v hv => (hw v hv).1)
  refine ⟨p', h, h1 0 _ rfl rfl, ?_⟩
  obtain ⟨y, z, hc, hz, hk⟩ := h3 1 (vB 1) 25 rfl rfl rfl
  rw [hz]
  have hz' : z = y := hk
  have : y = 10 := hc.2.2.2.2 (by norm_num [vB, newVar])
  simp [hz', this]

/-- Constraint `x0 + x1 - 7 <= 0` (a function of the full design vector). -/
def sumCon : Con ℚ :=
  ⟨.nonlinear fun v => (v.args.map (·.getD 0)).sum - 7, .lt, false, [], 1, true, 1 / 4⟩

/-- C16: with the first variable locked at 5 the point `(2)` is feasible and `(3)` is not. -/
example : (∃ p', feasible [2] prob2 [sumCon] = .ok (true, p')) ∧ (∃ p', feasible [3] prob2 [sumCon] = .ok (false, p')) := by
  have hw : ∀ v ∈ prob2.vars, WellFormed v := by
    intro v hv
    simp only [prob2, List.mem_cons, List.not_mem_nil, or_false] at hv
    rcases hv with rfl | rfl <;> simp [WellFormed, vA, vB, newVar]
  have hv : HasValues prob2 := by
    intro v hv
    simp only [prob2, List.mem_cons, List.not_mem_nil, or_false] at hv
    rcases hv with rfl | rfl <;> simp [vA, vB, newVar]
  have hfull : ∀ x : ℚ, FullVector prob2 [x] [some 5, some x] := by
    intro x
    refine ⟨rfl, fun i v hi => ?_⟩
    match i, hi with
    | 0, hi => cases hi; exact ⟨fun _ => rfl, fun h => absurd h (by simp)⟩
    | 1, hi => cases hi; exact ⟨fun h => absurd h (by simp [vB, newVar]), fun _ => rfl⟩
  have key := fun x : ℚ => C16_closed [x] (fun _ l => (l.map (·.getD 0)).sum - 7) _ [sumCon] prob2
    (by simp [sumCon]) hw hv rfl (hfull x)
  constructor
  · obtain ⟨b, p', h, hb⟩ := key 2
    have : b = true := hb.2 (by norm_num [sumCon, Respects])
    exact ⟨p', this ▸ h⟩
  · obtain ⟨b, p', h, hb⟩ := key 3
    have : b = false := by
      rw [← Bool.not_eq_true, hb]; norm_num [sumCon, Respects]
    exact ⟨p', this ▸ h⟩

/-- C41: a history with a substitution after an analysis; the next evaluation uses a new analysis. -/
example : ∃ p' q c', runOps objSecond (prob1 1 1) [.fea "LC", .subst [3]] = .ok p' ∧
    evalCon p' conFea [3] = .ok (3, q, c') := by
  have s := subst1 (fea (prob1 1 1) "LC") 1 3 rfl (by norm_num) (by norm_num)
  have hr : runOps objSecond (prob1 1 1) [.fea "LC", .subst [3]] = substituteVariables (fea (prob1 1 1) "LC") [3] := by
    simp only [runOps, step, bind, Except.bind]
    cases substituteVariables (fea (prob1 1 1) "LC") [3] <;> rfl
  rw [hr, s]
  exact ⟨_, _, _, rfl, evalCon_nonlinear (c := conFea) (conPrepare_same (x := [(3 : ℚ)]) rfl) rfl rfl⟩

/-- C42: two variables with different targets, values written: the hypothesis `Linked` holds. -/
example : ∃ p', substituteVariables (prob1 2 1) [4] = .ok p' ∧ Linked p' := by
  have hd : DisjointTargets (prob1 2 1) := by
    intro i j v w o a hv hw hij
    match i, j, hv, hw with
    | 0, 0, _, _ => exact absurd rfl hij
    | 0, _ + 1, _, hw => cases hw
    | _ + 1, _, hv, _ => cases hv
  have s := subst1 (prob1 2 1) 2 4 rfl (by norm_num) (by norm_num)
  refine ⟨_, s, disjoint_sameVars (sameVars_substitute s) hd, synced_substitute s hd ?_⟩
  intro i v hv hor
  match i, hv with
  | 0, hv =>
    cases hv
    rcases hor with h | h <;> cases h

end Metku.Opt
