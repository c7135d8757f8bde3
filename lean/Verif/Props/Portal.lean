import Verif.Model.Portal
import Verif.Props.PlaneTruss
import Mathlib.Tactic.Linarith
import Mathlib.Tactic.Ring
import Mathlib.Tactic.SplitIfs

/-!
Properties of portal trusses (model: `Verif.Model.Portal`).
-/
namespace Metku.Portal

open Metku Metku.Steel Metku.Rhs Metku.Truss

noncomputable section

/-! ### C346: geometry -/

/-- A column standing on the ground at `x` and straight up to the height `h`. -/
structure Upright (x h : ℝ) (c : List Pt) : Prop where
  base : c.head? = some (x, 0)
  head : c.getLast? = some (x, h)
  vertical : ∀ P ∈ c, P.1 = x

/-- A truss on a fresh portal frame, and then columns: two upright columns up to the ends of the top chord, a ridge in the middle at the reported height, and intermediate column nodes at the ends of the bottom chord
exactly if the bottom chord reaches the columns. -/
theorem portal_geometry {L H h1 h2 s : ℝ} {top : Topology} {n : ℕ} {simple up : Bool} {dx : Option ℝ} {T : Sloped}
    (hL : 0 < L) (ht : top ≠ .other) (hn : 2 ≤ n) (h0 : 0 ≤ offset simple dx) (hd : offset simple dx < 1 / 2 * L)
    (hT : Sloped.new (1 / 2 * L) (1 / 2 * L) (offset simple dx) (offset simple dx) h1 h2 s = .ok T) (hl : 0 < T.left) :
    ∃ p q g c d, createTruss (Frame.new L H) top n simple dx h1 h2 s up = .ok p ∧ createColumns p = .ok q ∧ q.truss = some (T, g) ∧ q.columns = [c, d] ∧
      Upright 0 H c ∧ Upright L H d ∧
      (∃ P ∈ g.top, (shift q P).1 = 1 / 2 * L ∧ ridgeHeight q = .ok (shift q P).2) ∧
      (if offset simple dx = 0 then c = [(0, 0), (0, H - T.left), (0, H)] ∧ d = [(L, 0), (L, H - T.left), (L, H)] else c.length = 2 ∧ d.length = 2) := by
  obtain ⟨g, hg, R⟩ := C222_partial hT (by linarith) h0 hd hl ht hn up false
  obtain ⟨a, -, -⟩ := C221_partial hT
  have hp : createTruss (Frame.new L H) top n simple dx h1 h2 s up = .ok ⟨L, H, decide (offset simple dx = 0), some (T, g), []⟩ := by
    unfold createTruss
    simp only [Frame.new, hT, bind, Except.bind, hg, Bool.false_or]
  have h2L : 2 * (1 / 2 * L) = L := by ring
  have htop := R.topHead
  have hlast := R.topLast
  have hb0 := R.botHead
  have hb1 := R.botLast
  rw [h2L] at hlast hb1
  have hr : ∀ (c : Bool) (cs : List (List Pt)), ∃ P ∈ g.top, (shift (⟨L, H, c, some (T, g), cs⟩ : Frame) P).1 = 1 / 2 * L ∧
      ridgeHeight (⟨L, H, c, some (T, g), cs⟩ : Frame) = .ok (shift (⟨L, H, c, some (T, g), cs⟩ : Frame) P).2 := by
    intro c cs
    refine ⟨_, R.ridge, rfl, ?_⟩
    simp only [ridgeHeight, shift, slopeHeight, a]
  have up2 : ∀ x : ℝ, Upright x H [(x, 0), (x, H)] := fun x => ⟨rfl, rfl, by simp⟩
  have up3 : ∀ x y : ℝ, Upright x H [(x, 0), (x, y), (x, H)] := fun x y => ⟨rfl, rfl, by simp⟩
  by_cases c : offset simple dx = 0
  · rw [c] at hb0 hb1 hp
    rw [sub_zero] at hb1
    refine ⟨_, ⟨L, H, true, some (T, g), [[(0, 0), (0, H - T.left), (0, H)], [(L, 0), (L, H - T.left), (L, H)]]⟩, g, _, _, hp, ?_, rfl, rfl,
      up3 _ _, up3 _ _, hr _ _, ?_⟩
    · simp only [createColumns, columnsOf, decide_true, if_true, first, last, htop, hlast, hb0, hb1, bind, Except.bind, shift, List.nil_append, add_zero, sub_eq_add_neg]
    · rw [if_pos c]
      exact ⟨rfl, rfl⟩
  · refine ⟨_, ⟨L, H, false, some (T, g), [[(0, 0), (0, H)], [(L, 0), (L, H)]]⟩, g, _, _, hp, ?_, rfl, rfl,
      up2 _, up2 _, hr _ _, ?_⟩
    · simp only [createColumns, columnsOf, c, decide_false, first, last, htop, hlast, bind, Except.bind, shift, List.nil_append, add_zero]
      rfl
    · rw [if_neg c]
      exact ⟨rfl, rfl⟩

/-- The code disagrees when a truss is replaced: once a truss has been connected to the columns with its bottom chord, the columns of a later simple truss pass through the end of its bottom chord and are not straight. -/
theorem portal_replace_viol {L H h1 h2 s : ℝ} {top : Topology} {n : ℕ} {up : Bool} {dx : ℝ} {T T' : Sloped}
    (ht : top ≠ .other) (hn : 2 ≤ n) (h0 : 0 < dx) (hd : dx < 1 / 2 * L)
    (hT : Sloped.new (1 / 2 * L) (1 / 2 * L) 0 0 h1 h2 s = .ok T) (hl : 0 < T.left)
    (hT' : Sloped.new (1 / 2 * L) (1 / 2 * L) dx dx h1 h2 s = .ok T') (hl' : 0 < T'.left) :
    ∃ p p' q c d, createTruss (Frame.new L H) top n false none h1 h2 s up = .ok p ∧ createTruss p top n true (some dx) h1 h2 s up = .ok p' ∧
      createColumns p' = .ok q ∧ q.columns = [c, d] ∧ (∀ x h, ¬ Upright x h c) ∧ (∀ x h, ¬ Upright x h d) := by
  obtain ⟨g, hg, -⟩ := C222_partial hT (by linarith) le_rfl (by linarith) hl ht hn up false
  obtain ⟨g', hg', R⟩ := C222_partial hT' (by linarith) h0.le hd hl' ht hn up false
  have h2L : 2 * (1 / 2 * L) = L := by ring
  have htop := R.topHead
  have hlast := R.topLast
  have hb0 := R.botHead
  have hb1 := R.botLast
  rw [h2L] at hlast hb1
  have hp : createTruss (Frame.new L H) top n false none h1 h2 s up = .ok ⟨L, H, true, some (T, g), []⟩ := by
    unfold createTruss offset
    simp only [Frame.new, Bool.false_eq_true, if_false, hT, bind, Except.bind, hg, Bool.false_or, decide_true]
  have hp' : createTruss ⟨L, H, true, some (T, g), []⟩ top n true (some dx) h1 h2 s up = .ok ⟨L, H, true, some (T', g'), []⟩ := by
    unfold createTruss offset
    simp only [if_true, Option.getD_some, hT', bind, Except.bind, hg', Bool.true_or]
  refine ⟨_, _, ⟨L, H, true, some (T', g'), [[(0, 0), (dx, H - T'.left), (0, H)], [(L, 0), (L - dx, H - T'.left), (L, H)]]⟩, _, _, hp, hp', ?_, rfl, ?_, ?_⟩
  · simp only [createColumns, columnsOf, if_true, first, last, htop, hlast, hb0, hb1, bind, Except.bind, shift, List.nil_append, add_zero, sub_eq_add_neg]
  · intro x h U
    have e1 := U.vertical (0, 0) (by simp)
    have e2 := U.vertical (dx, H - T'.left) (by simp)
    simp only at e1 e2
    linarith
  · intro x h U
    have e1 := U.vertical (L, 0) (by simp)
    have e2 := U.vertical (L - dx, H - T'.left) (by simp)
    simp only at e1 e2
    linarith

theorem new_twenty (dx : ℝ) : Sloped.new (1 / 2 * 20) (1 / 2 * 20) dx dx 1 2 0 = .ok ⟨1 / 2 * 20, 1 / 2 * 20, Real.arctan ((2 - 1) / (1 / 2 * 20)) * 180 / Real.pi, dx, dx, 1, 2, 1⟩ := by
  unfold Sloped.new pyDiv
  rw [if_neg (by norm_num), if_neg (by norm_num), if_neg (by norm_num)]
  simp only [bind, Except.bind]
  unfold Sloped.check
  rw [if_neg (by norm_num), if_neg (by norm_num)]

/-- A frame of 20 m by 6 m under a truss 1 m deep whose bottom chord ends at the columns. -/
example : ∃ p q, createTruss (Frame.new 20 6) .K 4 false none 1 2 0 true = .ok p ∧ createColumns p = .ok q ∧
    q.columns = [[(0, 0), (0, 6 - 1), (0, 6)], [(20, 0), (20, 6 - 1), (20, 6)]] := by
  obtain ⟨p, q, g, c, d, hp, hq, -, hc, -, -, -, h⟩ := portal_geometry (L := 20) (H := 6) (h1 := 1) (h2 := 2) (s := 0) (top := .K) (n := 4) (simple := false) (up := true) (dx := none)
    (by norm_num) (by simp) (by omega) (by simp [offset]) (by simp [offset]) (new_twenty _) (by norm_num)
  rw [if_pos (by simp [offset])] at h
  exact ⟨p, q, hp, hq, by rw [hc, h.1, h.2]⟩

/-- The same truss, replaced by a simple one whose bottom chord ends 1.5 m from the columns. -/
example : ∃ p p' q c d, createTruss (Frame.new 20 6) .K 4 false none 1 2 0 true = .ok p ∧ createTruss p .K 4 true (some 1.5) 1 2 0 true = .ok p' ∧
    createColumns p' = .ok q ∧ q.columns = [c, d] ∧ ∀ x h, ¬ Upright x h c := by
  obtain ⟨p, p', q, c, d, h1, h2, h3, h4, h5, -⟩ := portal_replace_viol (H := 6) (top := .K) (n := 4) (up := true) (by simp) (by omega) (show (0 : ℝ) < 1.5 by norm_num) (by norm_num)
    (new_twenty 0) (by norm_num) (new_twenty 1.5) (by norm_num)
  exact ⟨p, p', q, c, d, h1, h2, h3, h4, h5⟩

/-- The code disagrees on the order of the calls: columns asked for before there is a truss are not created, and nothing is reported. -/
theorem portal_order_viol (L H : ℝ) : createColumns (Frame.new L H) = .ok (Frame.new L H) ∧ (Frame.new L H).columns = [] := ⟨rfl, rfl⟩

/-- The code disagrees on the depth of the truss: a truss deeper than the frame is high is accepted, and the columns of a connected truss pass a point under the ground. -/
theorem portal_depth_viol {L H h1 : ℝ} {top : Topology} {n : ℕ} {up : Bool} (hL : 0 < L) (ht : top ≠ .other) (hn : 2 ≤ n) (hH : 0 < H) (hh : H < h1) :
    ∃ p q c d, createTruss (Frame.new L H) top n false none h1 0 0 up = .ok p ∧ createColumns p = .ok q ∧ q.columns = [c, d] ∧
      (∃ P ∈ c, P.2 < 0) ∧ ∃ P ∈ d, P.2 < 0 := by
  have hT : Sloped.new (1 / 2 * L) (1 / 2 * L) 0 0 h1 0 0 = .ok ⟨1 / 2 * L, 1 / 2 * L, 0, 0, 0, h1, h1 + slopeHeight (1 / 2 * L) 0, h1⟩ := by
    unfold Sloped.new
    rw [if_neg (by linarith), if_pos rfl]
    unfold Sloped.check slopeHeight
    simp
  obtain ⟨p, q, g, c, d, hp, hq, -, hc, -, -, -, hif⟩ := portal_geometry (L := L) (H := H) (h1 := h1) (h2 := 0) (s := 0) (top := top) (n := n) (simple := false) (up := up) (dx := none)
    hL ht hn (by simp [offset]) (by simp [offset]; linarith) (by simpa [offset] using hT) (by show 0 < h1; linarith)
  rw [if_pos (by simp [offset])] at hif
  refine ⟨p, q, c, d, hp, hq, hc, ⟨(0, H - h1), ?_, ?_⟩, (L, H - h1), ?_, ?_⟩
  · rw [hif.1]
    simp
  · show H - h1 < 0
    linarith
  · rw [hif.2]
    simp
  · show H - h1 < 0
    linarith

/-! ### C347: weight -/

/-- The code disagrees on the weights: the columns, whose weight is computed, are in none of the three reported parts. -/
theorem portal_weight_viol {wt wb wd c : ℝ} (hc : 0 < c) (cs : List ℝ) (hcs : ∀ x ∈ cs, 0 ≤ x) :
    ∃ a b d, weightDetailed wt wb wd (c :: cs) = .ok (a, b, d) ∧ a + b + d < wt + wb + wd + (c :: cs).sum := by
  refine ⟨wt, wb, wd, rfl, ?_⟩
  have := List.sum_nonneg hcs
  rw [List.sum_cons]
  linarith

/-! ### C348: loads -/

/-- The load on a member in a load case. -/
def amount (l : List Ld) (t : Target) (id : ℕ) : ℝ := ((l.filter fun e => e.target = t ∧ e.id = id).map Ld.q).sum

/-- The load that one request asks for on a member in a load case, in a frame with the given numbers of chord members. -/
def wanted (top bot : ℕ) (t : Target) (id : ℕ) : Req → ℝ
  | .truss q c i => if i = id ∧ ((c = .top ∧ ∃ k < top, t = .top k) ∨ (c = .bottom ∧ ∃ k < bot, t = .bottom k)) then q else 0
  | .column q l i => if i = id ∧ t = (if l then .left else .right) then q else 0

/-- A request for the truss with this load id. -/
def isTruss (id : ℕ) : Req → Bool
  | .truss _ _ i => decide (i = id)
  | .column _ _ _ => false

/-- What the first request for the truss with this load id asks for. -/
def firstWanted (top bot : ℕ) (t : Target) (id : ℕ) (rs : List Req) : ℝ := ((rs.find? (isTruss id)).map (wanted top bot t id)).getD 0

theorem amount_append (a b : List Ld) (t : Target) (id : ℕ) : amount (a ++ b) t id = amount a t id + amount b t id := by
  simp [amount]

theorem amount_range (f : ℕ → Target) (hf : Function.Injective f) (q : ℝ) (i id : ℕ) (t : Target) (m : ℕ) :
    amount ((List.range m).map fun k => ⟨f k, q, i⟩) t id = if i = id ∧ ∃ k < m, t = f k then q else 0 := by
  induction m with
  | zero => simp [amount]
  | succ m ih =>
    rw [List.range_succ, List.map_append, amount_append, ih]
    have : amount [(⟨f m, q, i⟩ : Ld)] t id = if f m = t ∧ i = id then q else 0 := by
      simp only [amount, List.filter_cons, List.filter_nil]
      by_cases h : f m = t ∧ i = id
      · simp [h]
      · rw [if_neg (by simpa using h), if_neg h]
        rfl
    simp only [List.map_cons, List.map_nil]
    rw [this]
    by_cases hi : i = id
    · by_cases hk : ∃ k < m, t = f k
      · obtain ⟨k, hk1, rfl⟩ := hk
        rw [if_pos ⟨hi, k, hk1, rfl⟩, if_neg (fun h => by have := hf h.1; omega), if_pos ⟨hi, k, by omega, rfl⟩, add_zero]
      · rw [if_neg (fun h => hk h.2), zero_add]
        by_cases hm : f m = t
        · rw [if_pos ⟨hm, hi⟩, if_pos ⟨hi, m, by omega, hm.symm⟩]
        · rw [if_neg (fun h => hm h.1), if_neg]
          rintro ⟨-, k, hk1, hk2⟩
          rcases Nat.lt_succ_iff_lt_or_eq.1 hk1 with h | rfl
          · exact hk ⟨k, h, hk2⟩
          · exact hm hk2.symm
    · rw [if_neg (fun h => hi h.1), if_neg (fun h => hi h.2), if_neg (fun h => hi h.1), add_zero]

theorem amount_chord (s : St) (q : ℝ) (c : Chord) (i id : ℕ) (t : Target) :
    amount (chordLoads s q c i) t id = wanted s.top s.bot t id (.truss q c i) := by
  cases c with
  | top =>
    rw [chordLoads, amount_range _ (fun a b h => by simpa using h)]
    simp [wanted]
  | bottom =>
    rw [chordLoads, amount_range _ (fun a b h => by simpa using h)]
    simp [wanted]
  | other => simp [chordLoads, wanted, amount]

/-- What holds after requests that all succeeded. -/
structure Inv (top bot : ℕ) (rs : List Req) (s : St) : Prop where
  hTop : s.top = top
  hBot : s.bot = bot
  same : s.cases = s.ids
  known : ∀ l ∈ s.truss, l.id ∈ s.ids
  used : ∀ id, id ∈ s.ids ↔ ∃ r ∈ rs, isTruss id r = true
  onTruss : ∀ t id, amount s.truss t id = ((rs.filter (isTruss id)).map (wanted top bot t id)).sum
  onFrame : ∀ t id, amount s.frame t id = firstWanted top bot t id rs + ((rs.filter fun r => !isTruss id r).map (wanted top bot t id)).sum

theorem chord_ids (s : St) (q : ℝ) (c : Chord) (id : ℕ) : ∀ l ∈ chordLoads s q c id, l.id = id := by
  cases c <;> simp [chordLoads]

theorem wanted_other {top bot i id : ℕ} {t : Target} {q : ℝ} {c : Chord} (h : i ≠ id) : wanted top bot t id (.truss q c i) = 0 := by
  simp [wanted, h]

theorem inv_truss {top bot : ℕ} {rs : List Req} {s s' : St} (I : Inv top bot rs s) {q : ℝ} {c : Chord} {i : ℕ}
    (h : trussReq s q c i = .ok s') : Inv top bot (rs ++ [.truss q c i]) s' := by
  have hT : ∀ t id, amount (s.truss ++ chordLoads s q c i) t id = (((rs ++ [Req.truss q c i]).filter (isTruss id)).map (wanted top bot t id)).sum := by
    intro t id
    rw [amount_append, I.onTruss, amount_chord, I.hTop, I.hBot, List.filter_append, List.map_append, List.sum_append]
    by_cases hi : i = id
    · simp [isTruss, hi]
    · simp [isTruss, hi, wanted_other hi]
  have hC : ∀ t id, (((rs ++ [Req.truss q c i]).filter fun r => !isTruss id r).map (wanted top bot t id)).sum = ((rs.filter fun r => !isTruss id r).map (wanted top bot t id)).sum := by
    intro t id
    rw [List.filter_append, List.map_append, List.sum_append]
    by_cases hi : i = id
    · simp [isTruss, hi]
    · simp [isTruss, hi, wanted_other hi]
  unfold trussReq at h
  split_ifs at h with h1 h2
  · obtain rfl := Except.ok.inj h
    refine ⟨I.hTop, I.hBot, I.same, ?_, ?_, hT, ?_⟩
    · intro l hl
      rcases List.mem_append.1 hl with hl | hl
      · exact I.known l hl
      · rw [chord_ids _ _ _ _ l hl]
        exact h1
    · intro id
      rw [I.used]
      constructor
      · rintro ⟨r, hr, e⟩
        exact ⟨r, List.mem_append_left _ hr, e⟩
      · rintro ⟨r, hr, e⟩
        rcases List.mem_append.1 hr with hr | hr
        · exact ⟨r, hr, e⟩
        · rw [List.mem_singleton] at hr
          subst hr
          have : i = id := by simpa [isTruss] using e
          exact this ▸ (I.used i).1 h1
    · intro t id
      rw [hC, I.onFrame]
      congr 1
      unfold firstWanted
      rw [List.find?_append]
      by_cases hi : i = id
      · obtain ⟨r, hr, e⟩ := (I.used i).1 h1
        rw [hi] at e
        cases hf : rs.find? (isTruss id) with
        | none => exact absurd e (by simpa using List.find?_eq_none.1 hf r hr)
        | some x => simp
      · have : List.find? (isTruss id) [Req.truss q c i] = none := by simp [isTruss, hi]
        rw [this, Option.or_none]
  · obtain rfl := Except.ok.inj h
    have hnew : rs.find? (isTruss i) = none := by
      rw [List.find?_eq_none]
      intro r hr e
      exact h1 ((I.used i).2 ⟨r, hr, e⟩)
    have hfil : (s.truss ++ chordLoads s q c i).filter (fun l => l.id = i) = chordLoads s q c i := by
      rw [List.filter_append, List.filter_eq_nil_iff.2, List.nil_append, List.filter_eq_self.2]
      · intro l hl
        simpa using chord_ids _ _ _ _ l hl
      · intro l hl
        simp only [decide_eq_true_eq]
        intro e
        exact h1 (e ▸ I.known l hl)
    refine ⟨I.hTop, I.hBot, by simp [I.same], ?_, ?_, hT, ?_⟩
    · intro l hl
      rcases List.mem_append.1 hl with hl | hl
      · exact List.mem_append_left _ (I.known l hl)
      · rw [chord_ids _ _ _ _ l hl]
        simp
    · intro id
      simp only [List.mem_append, List.mem_singleton, I.used]
      constructor
      · rintro (⟨r, hr, e⟩ | rfl)
        · exact ⟨r, .inl hr, e⟩
        · exact ⟨_, .inr rfl, by simp [isTruss]⟩
      · rintro ⟨r, hr | rfl, e⟩
        · exact .inl ⟨r, hr, e⟩
        · exact .inr (by simpa [isTruss, eq_comm] using e)
    · intro t id
      rw [hfil, amount_append, amount_chord, hC, I.onFrame, I.hTop, I.hBot, add_right_comm]
      congr 1
      unfold firstWanted
      rw [List.find?_append]
      by_cases hi : i = id
      · subst hi
        rw [hnew]
        simp [isTruss]
      · have : List.find? (isTruss id) [Req.truss q c i] = none := by simp [isTruss, hi]
        rw [this, Option.or_none, wanted_other hi, add_zero]

theorem inv_column {top bot : ℕ} {rs : List Req} {s s' : St} (I : Inv top bot rs s) {q : ℝ} {l : Bool} {i : ℕ}
    (h : columnReq s q l i = .ok s') : Inv top bot (rs ++ [.column q l i]) s' := by
  have hF : ∀ id, isTruss id (.column q l i) = false := fun _ => rfl
  unfold columnReq at h
  by_cases h1 : s.cols ≤ (if l then 0 else 1)
  · rw [if_pos h1] at h
    cases h
  · rw [if_neg h1] at h
    by_cases h2 : i ∈ s.cases
    swap
    · rw [if_neg h2] at h
      cases h
    rw [if_pos h2] at h
    obtain rfl := Except.ok.inj h
    rw [I.same] at h2
    refine ⟨I.hTop, I.hBot, ?_, ?_, ?_, ?_, ?_⟩
    · simp [h2, I.same]
    · intro e he
      simp only [h2, if_true]
      exact I.known e he
    · intro id
      simp only [h2, if_true, I.used]
      simp [hF]
    · intro t id
      rw [I.onTruss, List.filter_append, List.map_append, List.sum_append]
      simp [hF]
    · intro t id
      rw [amount_append, I.onFrame, List.filter_append, List.map_append, List.sum_append, add_assoc]
      congr 1
      · unfold firstWanted
        rw [List.find?_append]
        simp [hF]
      · congr 1
        simp only [amount, List.filter_cons, List.filter_nil, hF, Bool.not_false, if_true, List.map_cons, List.map_nil, List.sum_cons, List.sum_nil, add_zero, wanted]
        by_cases hh : i = id ∧ t = (if l then .left else .right)
        · rw [if_pos hh, if_pos (by simpa using ⟨hh.2.symm, hh.1⟩)]
          simp
        · rw [if_neg hh, if_neg (by
            intro hc
            simp only [decide_eq_true_eq] at hc
            exact hh ⟨hc.2, hc.1.symm⟩)]
          rfl

theorem inv_run {top bot : ℕ} : ∀ (rs : List Req) {h : List Req} {s s' : St}, Inv top bot h s → run s rs = .ok s' → Inv top bot (h ++ rs) s'
  | [], h, s, s', I, e => by
    obtain rfl := Except.ok.inj e
    simpa using I
  | r :: rs, h, s, s', I, e => by
    cases hr : step s r with
    | error x => simp [run, hr, bind, Except.bind] at e
    | ok s1 =>
      have e' : run s1 rs = .ok s' := by simpa [run, hr, bind, Except.bind] using e
      have I1 : Inv top bot (h ++ [r]) s1 := by
        cases r with
        | truss q c i => exact inv_truss I hr
        | column q l i => exact inv_column I hr
      have := inv_run rs I1 e'
      simpa using this

theorem inv_fresh (top bot cols : ℕ) : Inv top bot [] (St.fresh top bot cols) := by
  refine ⟨rfl, rfl, rfl, ?_, ?_, ?_, ?_⟩ <;> simp [St.fresh, amount, firstWanted]

theorem sum_split (p : Req → Bool) (f : Req → ℝ) : ∀ rs : List Req, ((rs.filter p).map f).sum + ((rs.filter fun r => !p r).map f).sum = (rs.map f).sum
  | [] => by simp
  | r :: rs => by
    have := sum_split p f rs
    cases h : p r
    · simp only [List.filter_cons, h, Bool.not_false, if_true, List.map_cons, List.sum_cons, ← this]
      simp only [Bool.false_eq_true, if_false]
      ring
    · simp only [List.filter_cons, h, Bool.not_true, if_true, List.map_cons, List.sum_cons, ← this]
      simp only [Bool.false_eq_true, if_false]
      ring

/-- The load on each member in each load case of the analysed model: everything that was asked for, and once more the first request for the truss with this load id. -/
theorem portal_total {top bot cols : ℕ} {rs : List Req} {s : St} (h : run (St.fresh top bot cols) rs = .ok s) (t : Target) (id : ℕ) :
    amount (femLoads s) t id = (rs.map (wanted top bot t id)).sum + firstWanted top bot t id rs := by
  have I := inv_run rs (inv_fresh top bot cols) h
  rw [List.nil_append] at I
  rw [femLoads, amount_append, I.onTruss, I.onFrame, ← sum_split (isTruss id) (wanted top bot t id) rs]
  ring

/-- The code disagrees with the requested loads: the first uniform load on a chord with a load id acts twice. -/
theorem portal_double_viol {top bot cols : ℕ} (ht : 0 < top) (q : ℝ) (id : ℕ) (hq : q ≠ 0) :
    ∃ s, run (St.fresh top bot cols) [.truss q .top id] = .ok s ∧ ∀ k < top, amount (femLoads s) (.top k) id = 2 * q ∧ amount (femLoads s) (.top k) id ≠ q := by
  have hex : ∃ l ∈ (St.fresh top bot cols).truss ++ chordLoads (St.fresh top bot cols) q .top id, l.id = id := by
    refine ⟨⟨.top 0, q, id⟩, ?_, rfl⟩
    simp only [St.fresh, chordLoads, List.nil_append, List.mem_map, List.mem_range]
    exact ⟨0, ht, rfl⟩
  have hrun : ∃ s, run (St.fresh top bot cols) [.truss q .top id] = .ok s := by
    simp only [run, step, trussReq]
    rw [if_neg (by simp [St.fresh]), if_pos hex]
    exact ⟨_, rfl⟩
  obtain ⟨s, hs⟩ := hrun
  refine ⟨s, hs, fun k hk => ?_⟩
  have h2 : amount (femLoads s) (.top k) id = 2 * q := by
    rw [portal_total hs]
    have : wanted top bot (.top k) id (.truss q .top id) = q := by simp [wanted, hk]
    simp [firstWanted, isTruss, this]
    ring
  refine ⟨h2, ?_⟩
  rw [h2]
  intro e
  exact hq (by linarith)

/-- Columns carry in every load case exactly the loads that were asked for them. -/
theorem portal_column_partial {top bot cols : ℕ} {rs : List Req} {s : St} (h : run (St.fresh top bot cols) rs = .ok s) {t : Target} (ht : t = .left ∨ t = .right) (id : ℕ) :
    amount (femLoads s) t id = (rs.map (wanted top bot t id)).sum := by
  rw [portal_total h]
  have hw : ∀ q c i, wanted top bot t id (.truss q c i) = 0 := by
    intro q c i
    rcases ht with rfl | rfl <;> simp [wanted]
  have : firstWanted top bot t id rs = 0 := by
    unfold firstWanted
    cases hf : rs.find? (isTruss id) with
    | none => rfl
    | some r =>
      cases r with
      | truss q c i => exact hw q c i
      | column q l i =>
        have := List.find?_some hf
        simp [isTruss] at this
  rw [this, add_zero]

/-- A member that the first request with a load id leaves alone gets exactly what the later requests ask for. -/
theorem portal_later_partial {top bot cols : ℕ} {rs : List Req} {s : St} (h : run (St.fresh top bot cols) rs = .ok s) {t : Target} {id : ℕ}
    (ht : ∀ r, rs.find? (isTruss id) = some r → wanted top bot t id r = 0) : amount (femLoads s) t id = (rs.map (wanted top bot t id)).sum := by
  rw [portal_total h]
  unfold firstWanted
  cases hf : rs.find? (isTruss id) with
  | none => simp
  | some r => simp [ht r hf]

theorem run_cols : ∀ (rs : List Req) {s s' : St}, run s rs = .ok s' → s'.cols = s.cols
  | [], s, s', e => by
    obtain rfl := Except.ok.inj e
    rfl
  | r :: rs, s, s', e => by
    cases hr : step s r with
    | error x => simp [run, hr, bind, Except.bind] at e
    | ok s1 =>
      have e' : run s1 rs = .ok s' := by simpa [run, hr, bind, Except.bind] using e
      rw [run_cols rs e']
      cases r with
      | truss q c i =>
        simp only [step, trussReq] at hr
        split_ifs at hr <;> (obtain rfl := Except.ok.inj hr; rfl)
      | column q l i =>
        simp only [step, columnReq] at hr
        split_ifs at hr <;> (obtain rfl := Except.ok.inj hr; rfl)

/-- The code disagrees on the order of requests: a column load with a load id that no chord load has used yet raises KeyError. -/
theorem portal_first_viol {top bot cols : ℕ} {rs : List Req} {s : St} (h : run (St.fresh top bot cols) rs = .ok s) (hc : 2 ≤ cols) {q : ℝ} {l : Bool} {id : ℕ}
    (hid : ∀ r ∈ rs, isTruss id r = false) : step s (.column q l id) = .error .keyError := by
  have I := inv_run rs (inv_fresh top bot cols) h
  rw [List.nil_append] at I
  have : id ∉ s.cases := by
    rw [I.same, I.used]
    rintro ⟨r, hr, e⟩
    rw [hid r hr] at e
    exact Bool.false_ne_true e
  have hs : s.cols = cols := run_cols rs h
  show columnReq s q l id = _
  unfold columnReq
  rw [if_neg (by split_ifs <;> omega), if_neg this]

/-- A chord load, a load on the left column and a second chord load in one load case: the chord carries 2 · 3 + 4, the column 5. -/
example : ∃ s, run (St.fresh 2 1 2) [.truss 3 .top 7, .column 5 true 7, .truss 4 .top 7] = .ok s ∧
    amount (femLoads s) (.top 1) 7 = 10 ∧ amount (femLoads s) .left 7 = 5 := by
  have hrun : ∃ s, run (St.fresh 2 1 2) [.truss 3 .top 7, .column 5 true 7, .truss 4 .top 7] = .ok s := by
    simp [run, step, trussReq, columnReq, St.fresh, chordLoads, List.range_succ, bind, Except.bind]
  obtain ⟨s, hs⟩ := hrun
  refine ⟨s, hs, ?_, ?_⟩
  · rw [portal_total hs]
    simp [wanted, firstWanted, isTruss]
    norm_num
  · rw [portal_column_partial hs (.inl rfl)]
    simp [wanted]

end

end Metku.Portal
