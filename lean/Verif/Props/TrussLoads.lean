import Verif.Model.TrussParts
import Verif.Props.PlaneTruss

/-!
Supports (C225) and loads (C226) of roof trusses.

The specification of loads is the load per length at a point of the roof: `Act.at` for one load, and the sum over all loads of a member.
-/
namespace Metku.Truss

open Metku.Steel Metku.Rhs

noncomputable section

/-! ### C225: supports -/

/-- A generated roof truss with equal halves is supported at both ends of its span, at the same level: at the eaves if the bottom chord is shorter than the top chord, otherwise at the ends of the bottom chord.
Both supports carry vertical forces, the left one horizontal forces too. -/
theorem C225_partial {L dx h1 h2 s : ℝ} {T : Sloped} (h : Sloped.new L L dx dx h1 h2 s = .ok T) (hL : 0 < L) (h0 : 0 ≤ dx) (hd : dx < L) (hl : 0 < T.left)
    {top : Topology} (ht : top ≠ .other) {n : ℕ} (hn : 2 ≤ n) (up edge : Bool) :
    ∃ g l r, T.generate top n up edge = .ok g ∧ T.supports g = .ok [l, r] ∧ g.IsNode l.node ∧ g.IsNode r.node ∧
      g.pos l.node = (0, if 0 < dx then 0 else -T.left) ∧ g.pos r.node = (2 * L, if 0 < dx then 0 else -T.left) ∧
      (l.x, l.y) = (true, true) ∧ (r.x, r.y) = (false, true) := by
  have hT := sym_new h hL h0 hd hl
  obtain ⟨a, -, c, -⟩ := C221_partial h
  obtain ⟨Nt, Nb, r, xt, xb, W, hg, hN, hW, -, -⟩ := gen_all hT ht hn up edge
  have hNt := hN.ht
  have hNb := hN.hb
  have pt : ∀ i < Nt, (mk T Nt Nb xt xb W).pos (.top i) = (xt i, roof T (xt i)) := fun i hi => by
    show List.getD (tab Nt _) i (0, 0) = _
    rw [List.getD_eq_getElem?_getD, tab_getElem? _ _ hi]
    rfl
  have pb : ∀ i < Nb, (mk T Nt Nb xt xb W).pos (.bot i) = (xb i, -T.left) := fun i hi => by
    show List.getD (tab Nb _) i (0, 0) = _
    rw [List.getD_eq_getElem?_getD, tab_getElem? _ _ hi]
    rfl
  have lt : (mk T Nt Nb xt xb W).top.length = Nt := tab_length _ _
  have lb : (mk T Nt Nb xt xb W).bot.length = Nb := tab_length _ _
  rcases lt_or_eq_of_le h0 with hp | hp
  · refine ⟨_, _, _, hg, supports_left hT (c ▸ hp) (by omega) xt xb W, ?_, ?_, ?_, ?_, rfl, rfl⟩
    · show 0 < (mk T Nt Nb xt xb W).top.length
      omega
    · show Nt - 1 < (mk T Nt Nb xt xb W).top.length
      omega
    · rw [if_pos hp, pt 0 (by omega), hN.t0, roof_zero hT]
    · rw [if_pos hp, pt (Nt - 1) (by omega), hN.tl, roof_end hT, a]
  · have hdx : T.dx1 = 0 := c.trans hp.symm
    refine ⟨_, _, _, hg, supports_right hT hdx (by omega) xt xb W, ?_, ?_, ?_, ?_, rfl, rfl⟩
    · show 0 < (mk T Nt Nb xt xb W).bot.length
      omega
    · show Nb - 1 < (mk T Nt Nb xt xb W).bot.length
      omega
    · rw [if_neg (by rw [← hp]; exact lt_irrefl 0), pb 0 (by omega), hN.b0, hdx]
    · have hbl : xb (Nb - 1) = 2 * T.L1 - xb 0 := hN.bs 0 (by omega)
      rw [if_neg (by rw [← hp]; exact lt_irrefl 0), pb (Nb - 1) (by omega), hbl, hN.b0, hdx, a, sub_zero]

/-- The truss of 20 m with ends of the bottom chord 0.5 m from the eaves stands on its eaves. -/
example : ∃ T, Sloped.new 10 10 0.5 0.5 1 2 0 = .ok T ∧ ∃ g l r, T.generate .K 4 true true = .ok g ∧ T.supports g = .ok [l, r] ∧ g.pos l.node = (0, 0) ∧ g.pos r.node = (2 * 10, 0) := by
  refine ⟨⟨10, 10, Real.arctan ((2 - 1) / 10) * 180 / Real.pi, 0.5, 0.5, 1, 2, 1⟩, ?_, ?_⟩
  · unfold Sloped.new pyDiv
    rw [if_neg (by norm_num), if_neg (by norm_num), if_neg (by norm_num)]
    simp only [bind, Except.bind]
    unfold Sloped.check
    rw [if_neg (by norm_num), if_neg (by norm_num)]
  · have h : Sloped.new 10 10 0.5 0.5 1 2 0 = .ok ⟨10, 10, Real.arctan ((2 - 1) / 10) * 180 / Real.pi, 0.5, 0.5, 1, 2, 1⟩ := by
      unfold Sloped.new pyDiv
      rw [if_neg (by norm_num), if_neg (by norm_num), if_neg (by norm_num)]
      simp only [bind, Except.bind]
      unfold Sloped.check
      rw [if_neg (by norm_num), if_neg (by norm_num)]
    obtain ⟨g, l, r, k1, k2, -, -, k3, k4, -⟩ := C225_partial h (by norm_num) (by norm_num) (by norm_num) (by norm_num) (top := .K) (by simp) (n := 4) (by norm_num) true true
    rw [if_pos (by norm_num)] at k3 k4
    exact ⟨g, l, r, k1, k2, k3, k4⟩

/-! ### C226: loads -/

/-- The ends of a member. -/
def Gen.ends (g : Gen) : Mem → Option (Ref × Ref)
  | .tc i => g.topChord[i]?
  | .bc i => g.botChord[i]?
  | .br i => g.braces[i]?

/-- The length of a member. -/
def Gen.memLength (g : Gen) (m : Mem) : ℝ := match g.ends m with
  | some (a, b) => √(((g.pos b).1 - (g.pos a).1) ^ 2 + ((g.pos b).2 - (g.pos a).2) ^ 2)
  | none => 0

/-- Load per length of a load at the local coordinate `t` of its member. -/
def Act.at : Act → ℝ → ℝ
  | .line q, _ => q
  | .step q0 q1 d, t => if t < d then q0 else q1

/-- Load per length on a member at its local coordinate `t`. -/
def onMember (ls : List MLoad) (m : Mem) (t : ℝ) : ℝ := ((ls.filter fun l => decide (l.mem = m)).map fun l => l.act.at t).sum

/-- The resultant of loads that are constant along their members. -/
def resultant (g : Gen) (ls : List MLoad) : ℝ := (ls.map fun l => l.act.at 0 * g.memLength l.mem).sum

theorem sum_telescope (x : ℕ → ℝ) (c : ℝ) (n : ℕ) (f : ℕ → ℝ) (h : ∀ i < n, f i = c * (x (i + 1) - x i)) : ((List.range n).map f).sum = c * (x n - x 0) := by
  induction n with
  | zero => simp
  | succ n ih =>
    rw [List.range_succ, List.map_append, List.sum_append, ih fun i hi => h i (by omega), List.map_singleton, List.sum_singleton, h n (by omega)]
    ring

theorem filter_range_eq {n i : ℕ} (h : i < n) : (List.range n).filter (fun k => decide (k = i)) = [i] := by
  induction n with
  | zero => omega
  | succ n ih =>
    rw [List.range_succ, List.filter_append]
    rcases Nat.lt_succ_iff_lt_or_eq.1 h with k | rfl
    · rw [ih k, List.filter_singleton, show decide (n = i) = false from decide_eq_false (by omega), cond_false, List.append_nil]
    · rw [List.filter_eq_nil_iff.2 (by simp; omega), List.filter_singleton, show decide (i = i) = true from decide_eq_true rfl, cond_true, List.nil_append]

theorem onMember_uniform {n : ℕ} {f : ℕ → Mem} (hf : Function.Injective f) (q : ℝ) {i : ℕ} (h : i < n) (t : ℝ) :
    onMember ((List.range n).map fun k => ⟨f k, .line q⟩) (f i) t = q := by
  unfold onMember
  rw [List.filter_map]
  have : ((fun l : MLoad => decide (l.mem = f i)) ∘ fun k => (⟨f k, .line q⟩ : MLoad)) = fun k => decide (k = i) := by
    funext k
    simp [hf.eq_iff]
  rw [this, filter_range_eq h]
  simp [Act.at]

theorem onMember_other {ls : List MLoad} {m : Mem} (h : ∀ l ∈ ls, l.mem ≠ m) (t : ℝ) : onMember ls m t = 0 := by
  unfold onMember
  rw [List.filter_eq_nil_iff.2 fun l hl => by simp [h l hl]]
  rfl

/-- A uniform load acts on each member of the chosen chord along its whole length and on no other member; its resultant is the load times the length of the roof, or of the bottom chord. -/
theorem C226_uniform {L dx h1 h2 s : ℝ} {T : Sloped} (h : Sloped.new L L dx dx h1 h2 s = .ok T) (hL : 0 < L) (h0 : 0 ≤ dx) (hd : dx < L) (hl : 0 < T.left)
    {top : Topology} (ht : top ≠ .other) {n : ℕ} (hn : 2 ≤ n) (up edge : Bool) (q : ℝ) :
    ∃ g, T.generate top n up edge = .ok g ∧
      (∀ i t, onMember (g.uniformLoad q .top) (.tc i) t = if i < g.topChord.length then q else 0) ∧
      (∀ i t, onMember (g.uniformLoad q .top) (.bc i) t = 0 ∧ onMember (g.uniformLoad q .top) (.br i) t = 0) ∧
      (∀ i t, onMember (g.uniformLoad q .bottom) (.bc i) t = if i < g.botChord.length then q else 0) ∧
      (∀ i t, onMember (g.uniformLoad q .bottom) (.tc i) t = 0 ∧ onMember (g.uniformLoad q .bottom) (.br i) t = 0) ∧
      resultant g (g.uniformLoad q .top) = q * (2 * √(L ^ 2 + (T.mid - T.left) ^ 2)) ∧
      resultant g (g.uniformLoad q .bottom) = q * (2 * (L - dx)) := by
  have hT := sym_new h hL h0 hd hl
  obtain ⟨a, -, c, -⟩ := C221_partial h
  obtain ⟨Nt, Nb, r, xt, xb, W, hg, hN, hW, -, -⟩ := gen_all hT ht hn up edge
  have hNt := hN.ht
  have hNb := hN.hb
  have pt : ∀ i < Nt, (mk T Nt Nb xt xb W).pos (.top i) = (xt i, roof T (xt i)) := fun i hi => by
    show List.getD (tab Nt _) i (0, 0) = _
    rw [List.getD_eq_getElem?_getD, tab_getElem? _ _ hi]
    rfl
  have pb : ∀ i < Nb, (mk T Nt Nb xt xb W).pos (.bot i) = (xb i, -T.left) := fun i hi => by
    show List.getD (tab Nb _) i (0, 0) = _
    rw [List.getD_eq_getElem?_getD, tab_getElem? _ _ hi]
    rfl
  have lt : (mk T Nt Nb xt xb W).topChord.length = Nt - 1 := tab_length _ _
  have lb : (mk T Nt Nb xt xb W).botChord.length = Nb - 1 := tab_length _ _
  refine ⟨_, hg, ?_, ?_, ?_, ?_, ?_, ?_⟩
  · intro i t
    split_ifs with k
    · exact onMember_uniform (fun _ _ e => Mem.tc.inj e) q k t
    · refine onMember_other (fun l hl e => ?_) t
      obtain ⟨j, hj, rfl⟩ := List.mem_map.1 hl
      obtain rfl := Mem.tc.inj e
      exact k (List.mem_range.1 hj)
  · intro i t
    constructor <;>
    · refine onMember_other (fun l hl e => ?_) t
      obtain ⟨j, hj, rfl⟩ := List.mem_map.1 hl
      cases e
  · intro i t
    split_ifs with k
    · exact onMember_uniform (fun _ _ e => Mem.bc.inj e) q k t
    · refine onMember_other (fun l hl e => ?_) t
      obtain ⟨j, hj, rfl⟩ := List.mem_map.1 hl
      obtain rfl := Mem.bc.inj e
      exact k (List.mem_range.1 hj)
  · intro i t
    constructor <;>
    · refine onMember_other (fun l hl e => ?_) t
      obtain ⟨j, hj, rfl⟩ := List.mem_map.1 hl
      cases e
  · have hp := hT.pos
    have key : ∀ i < Nt - 1, (mk T Nt Nb xt xb W).memLength (.tc i) = √(L ^ 2 + (T.mid - T.left) ^ 2) / L * (xt (i + 1) - xt i) := by
      intro i hi
      have e : (mk T Nt Nb xt xb W).ends (.tc i) = some (.top i, .top (i + 1)) := tab_getElem? _ _ hi
      unfold Gen.memLength
      rw [e]
      dsimp only
      rw [pt i (by omega), pt (i + 1) (by omega)]
      have hx := hN.tm i (by omega)
      have hdif : (roof T (xt (i + 1)) - roof T (xt i)) ^ 2 = ((T.mid - T.left) / L * (xt (i + 1) - xt i)) ^ 2 := by
        rcases Nat.lt_or_ge i r with k | k
        · have e1 : xt (i + 1) ≤ T.L1 := hN.tr ▸ le_of_step hN.tm k hN.hr
          rw [roof_left e1, roof_left (by linarith), a]
          ring
        · have e1 : T.L1 ≤ xt i := hN.tr ▸ le_of_step hN.tm k (by omega)
          rw [roof_right hT e1, roof_right hT (by linarith), a]
          ring
      dsimp only
      rw [hdif, show (xt (i + 1) - xt i) ^ 2 + ((T.mid - T.left) / L * (xt (i + 1) - xt i)) ^ 2 = (L ^ 2 + (T.mid - T.left) ^ 2) * ((xt (i + 1) - xt i) / L) ^ 2 by
        field_simp, Real.sqrt_mul (by positivity), Real.sqrt_sq (div_nonneg (by linarith) hL.le)]
      ring
    unfold resultant Gen.uniformLoad
    rw [List.map_map, lt, sum_telescope xt (q * (√(L ^ 2 + (T.mid - T.left) ^ 2) / L)) (Nt - 1) _ (fun i hi => by
      show q * _ = _
      rw [key i hi]
      ring), hN.tl, hN.t0, a]
    field_simp
    ring
  · have key : ∀ i < Nb - 1, (mk T Nt Nb xt xb W).memLength (.bc i) = xb (i + 1) - xb i := by
      intro i hi
      have e : (mk T Nt Nb xt xb W).ends (.bc i) = some (.bot i, .bot (i + 1)) := tab_getElem? _ _ hi
      unfold Gen.memLength
      rw [e]
      dsimp only
      rw [pb i (by omega), pb (i + 1) (by omega)]
      have hx := hN.bm i (by omega)
      dsimp only
      rw [sub_self, show (xb (i + 1) - xb i) ^ 2 + (0 : ℝ) ^ 2 = (xb (i + 1) - xb i) ^ 2 by ring, Real.sqrt_sq (by linarith)]
    unfold resultant Gen.uniformLoad
    have hbl : xb (Nb - 1) = 2 * T.L1 - xb 0 := hN.bs 0 (by omega)
    rw [List.map_map, lb, sum_telescope xb q (Nb - 1) _ (fun i hi => by
      show q * _ = _
      rw [key i hi]), hbl, hN.b0, a, c]
    ring

/-- The load of a zone: `q0` before `x1`, `q1` before `x2`, `q2` after it. -/
def zone (q0 q1 q2 x1 x2 x : ℝ) : ℝ := if x < x1 then q0 else if x < x2 then q1 else q2

theorem act_step {q0 q1 a b y x : ℝ} (hab : a < b) : (Act.step q0 q1 ((y - a) / (b - a))).at ((x - a) / (b - a)) = if x < y then q0 else q1 := by
  unfold Act.at
  have : (x - a) / (b - a) < (y - a) / (b - a) ↔ x < y := by
    rw [div_lt_div_iff_of_pos_right (by linarith)]
    exact sub_lt_sub_iff_right a
  simp only [this]

theorem member_two {q0 q1 q2 x1 x2 a b : ℝ} (hx : x1 < x2) (hab : a < b) (hw : x1 ≤ a ∨ b ≤ x2) :
    ∃ acts, memberActs [q0, q1, q2] [x1, x2] a b = .ok acts ∧ ∀ x, a < x → x < b → (acts.map fun c => c.at ((x - a) / (b - a))).sum = zone q0 q1 q2 x1 x2 x := by
  have hne : b - a ≠ 0 := by linarith
  unfold memberActs
  simp only [val, valLast, List.getElem?_cons_zero, bind, Except.bind, List.getLast?_cons_cons, List.getLast?_singleton, List.tail_cons, List.zip_cons_cons, List.zip_nil_right]
  by_cases c1 : b ≤ x1
  · rw [if_pos c1]
    refine ⟨_, rfl, fun x _ h2 => ?_⟩
    simp [Act.at, zone, if_pos (show x < x1 by linarith)]
  rw [if_neg c1]
  by_cases c2 : x2 < a
  · rw [if_pos c2]
    refine ⟨_, rfl, fun x h1 _ => ?_⟩
    simp [Act.at, zone, if_neg (show ¬ x < x1 by linarith), if_neg (show ¬ x < x2 by linarith)]
  rw [if_neg c2]
  unfold zoneActs
  simp only [val, List.getElem?_cons_zero, List.getElem?_cons_succ, bind, Except.bind, pyDiv, if_neg hne, zero_add]
  by_cases c3 : a < x1 ∧ x1 < b
  · rw [if_pos c3]
    refine ⟨_, rfl, fun x h1 h2 => ?_⟩
    have : b ≤ x2 := hw.resolve_left (by linarith [c3.1])
    simp only [List.append_nil, List.map_cons, List.map_nil, List.sum_cons, List.sum_nil, add_zero, act_step hab, zone]
    split_ifs <;> first | rfl | linarith
  rw [if_neg c3]
  have c4 : x1 ≤ a := by
    by_contra k
    exact c3 ⟨not_le.1 k, not_le.1 c1⟩
  by_cases c5 : x2 < b
  · rw [if_pos ⟨c4, c5⟩]
    refine ⟨_, rfl, fun x h1 h2 => ?_⟩
    simp only [List.append_nil, List.map_cons, List.map_nil, List.sum_cons, List.sum_nil, add_zero, act_step hab, zone]
    split_ifs <;> first | rfl | linarith
  · rw [if_neg (fun k => c5 k.2), if_pos ⟨c4, not_lt.1 c5⟩]
    refine ⟨_, rfl, fun x h1 h2 => ?_⟩
    simp only [List.append_nil, List.map_cons, List.map_nil, List.sum_cons, List.sum_nil, add_zero, Act.at, zone]
    split_ifs <;> first | rfl | linarith

theorem chord_two {q xz : List ℝ} : ∀ (ms : List (Pt × Pt)) (k : ℕ), (∀ m ∈ ms, ∃ acts, memberActs q xz m.1.1 m.2.1 = .ok acts) →
    ∃ ls, chordActs q xz k ms = .ok ls ∧ (∀ l ∈ ls, ∃ i, k ≤ i ∧ i < k + ms.length ∧ l.mem = .tc i) ∧
      ∀ i A B, ms[i]? = some (A, B) → ∃ acts, memberActs q xz A.1 B.1 = .ok acts ∧ ∀ t, onMember ls (.tc (k + i)) t = (acts.map fun c => c.at t).sum
  | [], k, _ => ⟨[], rfl, by simp, by simp⟩
  | (A, B) :: ms, k, h => by
    obtain ⟨acts, ha⟩ := h (A, B) (by simp)
    obtain ⟨ls, h1, h2, h3⟩ := chord_two ms (k + 1) fun m hm => h m (by simp [hm])
    dsimp only at ha
    refine ⟨acts.map (fun a => ⟨.tc k, a⟩) ++ ls, ?_, ?_, ?_⟩
    · unfold chordActs
      simp only [bind, Except.bind, ha, h1]
    · intro l hl
      rcases List.mem_append.1 hl with hl | hl
      · obtain ⟨c, -, rfl⟩ := List.mem_map.1 hl
        exact ⟨k, le_rfl, by simp, rfl⟩
      · obtain ⟨i, e1, e2, e3⟩ := h2 l hl
        exact ⟨i, by omega, by simp only [List.length_cons]; omega, e3⟩
    · intro i A' B' hi
      have split : ∀ m t, onMember (acts.map (fun a => (⟨.tc k, a⟩ : MLoad)) ++ ls) m t = onMember (acts.map (fun a => (⟨.tc k, a⟩ : MLoad))) m t + onMember ls m t := by
        intro m t
        unfold onMember
        rw [List.filter_append, List.map_append, List.sum_append]
      cases i with
      | zero =>
        rw [List.getElem?_cons_zero] at hi
        obtain ⟨rfl, rfl⟩ := Prod.mk.inj (Option.some.inj hi)
        refine ⟨acts, ha, fun t => ?_⟩
        rw [split, onMember_other (ls := ls) (fun l hl e => ?_), add_zero]
        · unfold onMember
          rw [List.filter_eq_self.2 (by simp), List.map_map]
          rfl
        · obtain ⟨j, e1, -, e3⟩ := h2 l hl
          rw [e3] at e
          have := Mem.tc.inj e
          omega
      | succ i =>
        rw [List.getElem?_cons_succ] at hi
        obtain ⟨acts', e1, e2⟩ := h3 i A' B' hi
        refine ⟨acts', e1, fun t => ?_⟩
        rw [split, onMember_other (fun l hl e => ?_), zero_add, show k + (i + 1) = k + 1 + i by omega, e2]
        obtain ⟨c, -, rfl⟩ := List.mem_map.1 hl
        have := Mem.tc.inj e
        omega

/-- With two boundaries between three zones, and no member of the top chord that reaches over both, each point of the roof gets the load of its zone, and no other member is loaded. -/
theorem C226_partial {L dx h1 h2 s : ℝ} {T : Sloped} (h : Sloped.new L L dx dx h1 h2 s = .ok T) (hL : 0 < L) (h0 : 0 ≤ dx) (hd : dx < L) (hl : 0 < T.left)
    {top : Topology} (ht : top ≠ .other) {n : ℕ} (hn : 2 ≤ n) (up edge : Bool) {q0 q1 q2 x1 x2 : ℝ} (hx : x1 < x2) :
    ∃ g, T.generate top n up edge = .ok g ∧
      ((∀ i A B, g.top[i]? = some A → g.top[i + 1]? = some B → x1 ≤ A.1 ∨ B.1 ≤ x2) →
        ∃ ls, g.piecewiseLoad [q0, q1, q2] [x1, x2] = .ok ls ∧
          (∀ i A B x, g.top[i]? = some A → g.top[i + 1]? = some B → A.1 < x → x < B.1 → onMember ls (.tc i) ((x - A.1) / (B.1 - A.1)) = zone q0 q1 q2 x1 x2 x) ∧
          ∀ i t, onMember ls (.bc i) t = 0 ∧ onMember ls (.br i) t = 0) := by
  obtain ⟨g, hg, hs⟩ := C222_partial h hL h0 hd hl ht hn up edge
  refine ⟨g, hg, fun hw => ?_⟩
  have mem : ∀ i A B, g.top[i]? = some A → g.top[i + 1]? = some B → (g.top.zip g.top.tail)[i]? = some (A, B) := by
    intro i A B e1 e2
    rw [List.getElem?_zip_eq_some]
    exact ⟨e1, by rw [List.getElem?_tail]; exact e2⟩
  have inv : ∀ i m, (g.top.zip g.top.tail)[i]? = some m → g.top[i]? = some m.1 ∧ g.top[i + 1]? = some m.2 := by
    intro i m e
    rw [List.getElem?_zip_eq_some, List.getElem?_tail] at e
    exact e
  have ord : ∀ i A B, g.top[i]? = some A → g.top[i + 1]? = some B → A.1 < B.1 := by
    intro i A B e1 e2
    obtain ⟨k1, rfl⟩ := List.getElem?_eq_some_iff.1 e1
    obtain ⟨k2, rfl⟩ := List.getElem?_eq_some_iff.1 e2
    exact List.pairwise_iff_getElem.1 hs.topOrder i (i + 1) k1 k2 (by omega)
  obtain ⟨ls, e1, e2, e3⟩ := chord_two (q := [q0, q1, q2]) (xz := [x1, x2]) (g.top.zip g.top.tail) 0 (fun m hm => by
    obtain ⟨i, hi, e⟩ := List.getElem_of_mem hm
    obtain ⟨k1, k2⟩ := inv i m (by rw [List.getElem?_eq_getElem hi, e])
    obtain ⟨acts, ha, -⟩ := member_two (q0 := q0) (q1 := q1) (q2 := q2) hx (ord i _ _ k1 k2) (hw i _ _ k1 k2)
    exact ⟨acts, ha⟩)
  refine ⟨ls, e1, ?_, ?_⟩
  · intro i A B x k1 k2 k3 k4
    obtain ⟨acts, ha, hsum⟩ := e3 i A B (mem i A B k1 k2)
    obtain ⟨acts', ha', hz⟩ := member_two (q0 := q0) (q1 := q1) (q2 := q2) hx (ord i _ _ k1 k2) (hw i _ _ k1 k2)
    rw [ha] at ha'
    obtain rfl := Except.ok.inj ha'
    rw [zero_add] at hsum
    rw [hsum, hz x k3 k4]
  · intro i t
    constructor <;>
    · refine onMember_other (fun l hl e => ?_) t
      obtain ⟨j, -, -, k⟩ := e2 l hl
      rw [k] at e
      cases e

/-- A boundary at the ridge meets the hypothesis, as no member crosses the ridge. -/
example : ∃ T, Sloped.new 10 10 0.5 0.5 1 2 0 = .ok T ∧ ∃ g ls, T.generate .K 4 true true = .ok g ∧ g.piecewiseLoad [1, 2, 3] [10, 15] = .ok ls := by
  have h : Sloped.new 10 10 0.5 0.5 1 2 0 = .ok ⟨10, 10, Real.arctan ((2 - 1) / 10) * 180 / Real.pi, 0.5, 0.5, 1, 2, 1⟩ := by
    unfold Sloped.new pyDiv
    rw [if_neg (by norm_num), if_neg (by norm_num), if_neg (by norm_num)]
    simp only [bind, Except.bind]
    unfold Sloped.check
    rw [if_neg (by norm_num), if_neg (by norm_num)]
  obtain ⟨g, hg, hp⟩ := C226_partial h (by norm_num) (by norm_num) (by norm_num) (by norm_num) (top := .K) (by simp) (n := 4) (by norm_num) true true (q0 := 1) (q1 := 2) (q2 := 3)
    (x1 := 10) (x2 := 15) (by norm_num)
  obtain ⟨g', hg', hs⟩ := C222_partial h (by norm_num) (by norm_num) (by norm_num) (by norm_num) (top := .K) (by simp) (n := 4) (by norm_num) true true
  rw [hg] at hg'
  obtain rfl := Except.ok.inj hg'
  obtain ⟨ls, hl, -⟩ := hp fun i A B e1 e2 => by
    obtain ⟨r, hr, er⟩ := List.getElem_of_mem hs.ridge
    obtain ⟨k1, rfl⟩ := List.getElem?_eq_some_iff.1 e1
    obtain ⟨k2, rfl⟩ := List.getElem?_eq_some_iff.1 e2
    have ord := List.pairwise_iff_getElem.1 hs.topOrder
    have er' : (g.top[r]).1 = 10 := by rw [er]
    rcases lt_trichotomy (i + 1) r with k | rfl | k
    · right
      have := ord (i + 1) r k2 hr k
      linarith
    · right
      linarith
    · left
      rcases Nat.lt_or_ge r i with k' | k'
      · have := ord r i hr k1 k'
        linarith
      · obtain rfl : r = i := by omega
        exact er'.ge
  exact ⟨_, h, g, ls, hg, hl⟩

/-- The code disagrees with a single boundary: the member in which it lies, or that starts at it, gets no load at all. -/
theorem C226_violation_single {q : List ℝ} {x1 a b : ℝ} (h1 : a ≤ x1) (h2 : x1 < b) : memberActs q [x1] a b = .ok [] := by
  unfold memberActs
  simp only [val, valLast, List.getElem?_cons_zero, List.getLast?_singleton, bind, Except.bind]
  rw [if_neg (not_le.2 h2), if_neg (not_lt.2 h1)]
  rfl

/-- The code disagrees with three boundaries: a member inside the third zone gets the load of that zone twice. -/
theorem C226_violation_double {q0 q1 q2 q3 x1 x2 x3 a b : ℝ} (h12 : x1 < x2) (ha : x2 ≤ a) (hab : a < b) (hb : b ≤ x3) :
    ∃ acts, memberActs [q0, q1, q2, q3] [x1, x2, x3] a b = .ok acts ∧ ∀ x, a < x → x < b → (acts.map fun c => c.at ((x - a) / (b - a))).sum = q2 + q2 := by
  have hne : b - a ≠ 0 := by linarith
  refine ⟨[.step q1 q2 ((x2 - a) / (b - a)), .line q2], ?_, ?_⟩
  · unfold memberActs
    simp only [val, valLast, List.getElem?_cons_zero, bind, Except.bind, List.getLast?_cons_cons, List.getLast?_singleton, List.tail_cons, List.zip_cons_cons, List.zip_nil_right]
    rw [if_neg (by linarith), if_neg (by linarith)]
    simp only [zoneActs, val, List.getElem?_cons_zero, List.getElem?_cons_succ, bind, Except.bind, pyDiv, if_neg hne, zero_add]
    rw [if_neg (fun k => by linarith [k.1]), if_pos ⟨by linarith, by linarith⟩, if_neg (fun k => by linarith [k.1]), if_neg (fun k => by linarith [k.2]), if_pos ⟨ha, hb⟩]
    rfl
  · intro x k1 k2
    simp only [List.map_cons, List.map_nil, List.sum_cons, List.sum_nil, add_zero, act_step hab]
    rw [if_neg (by linarith)]
    rfl

/-- The code disagrees when a member reaches over both boundaries of the middle zone: behind the second one it gets the load of the middle zone. -/
theorem C226_violation_long {q0 q1 q2 x1 x2 a b : ℝ} (hx : x1 < x2) (ha : a < x1) (hb : x2 < b) :
    ∃ acts, memberActs [q0, q1, q2] [x1, x2] a b = .ok acts ∧ ∀ x, x2 < x → x < b → (acts.map fun c => c.at ((x - a) / (b - a))).sum = q1 := by
  have hne : b - a ≠ 0 := by linarith
  refine ⟨[.step q0 q1 ((x1 - a) / (b - a))], ?_, ?_⟩
  · unfold memberActs
    simp only [val, valLast, List.getElem?_cons_zero, bind, Except.bind, List.getLast?_cons_cons, List.getLast?_singleton, List.tail_cons, List.zip_cons_cons, List.zip_nil_right]
    rw [if_neg (by linarith), if_neg (by linarith)]
    simp only [zoneActs, val, List.getElem?_cons_zero, List.getElem?_cons_succ, bind, Except.bind, pyDiv, if_neg hne, zero_add]
    rw [if_pos ⟨ha, by linarith⟩]
    rfl
  · intro x k1 k2
    simp only [List.map_cons, List.map_nil, List.sum_cons, List.sum_nil, add_zero, act_step (show a < b by linarith)]
    rw [if_neg (by linarith)]

end

end Metku.Truss
