import Verif.Model.RowStiff
import Verif.Props.EndPlate
import Mathlib.Tactic.Positivity
import Mathlib.Tactic.Linarith
import Mathlib.Tactic.FieldSimp
import Mathlib.Tactic.NormNum

/-!
C372: stiffness of a bolt row from its parts, EN 1993-1-8 Table 6.11 and (6.30).
-/
namespace Metku.Bolts

/-! ### Specification -/

/-- `l` is the smallest of the effective lengths alone, of those in the groups and of 100 m. -/
def LeastLength (cp nc : ℝ) (gs : List ℝ) (l : ℝ) : Prop :=
  (l = cp ∨ l = nc ∨ l ∈ gs ∨ l = 100000) ∧ l ≤ cp ∧ l ≤ nc ∧ (∀ g ∈ gs, l ≤ g) ∧ l ≤ 100000

/-- Dimensions are positive. -/
structure RowParts.Pos (r : RowParts) : Prop where
  tf : 0 < r.col.tf
  tw : 0 < r.col.tw
  hw : 0 < r.col.hw
  tp : 0 < r.tp
  As : 0 < r.As
  washer : 0 ≤ r.washer
  head : 0 ≤ r.head
  nut : 0 ≤ r.nut
  mF : 0 < r.mF
  mP : 0 < r.mP
  cpF : 0 < r.cpF
  ncF : 0 < r.ncF
  cpP : 0 < r.cpP
  ncP : 0 < r.ncP
  gF : ∀ g ∈ r.groupsF.reduceOption, 0 < g
  gP : ∀ g ∈ r.groupsP.reduceOption, 0 < g

/-! ### Lemmas -/

theorem reduce_none (gs : List (Option ℝ)) : (none :: gs).reduceOption = gs.reduceOption := rfl

theorem reduce_some (g : ℝ) (gs : List (Option ℝ)) : (some g :: gs).reduceOption = g :: gs.reduceOption := rfl

theorem groupLeff_fold : ∀ (gs : List (Option ℝ)) (a : ℝ), 0 < a → (∀ g ∈ gs.reduceOption, 0 < g) →
    let l := gs.foldl (fun leff g => let lg := g.getD leff; if 0 < lg then min leff lg else leff) a
    0 < l ∧ (l = a ∨ l ∈ gs.reduceOption) ∧ l ≤ a ∧ ∀ g ∈ gs.reduceOption, l ≤ g := by
  intro gs
  induction gs with
  | nil => intro a ha _; simp [List.reduceOption, ha]
  | cons o gs ih =>
    intro a ha hg
    cases o with
    | none =>
      rw [reduce_none] at hg ⊢
      have := ih a ha hg
      simpa [List.foldl_cons, ha] using this
    | some g =>
      have hg0 : 0 < g := hg g (by simp [List.reduceOption])
      have hm : 0 < min a g := lt_min ha hg0
      have := ih (min a g) hm (fun x hx => hg x (by simp only [reduce_some, List.mem_cons]; exact Or.inr hx))
      simp only [List.foldl_cons, Option.getD_some, if_pos hg0, reduce_some, List.mem_cons, forall_eq_or_imp] at this ⊢
      obtain ⟨h1, h2, h3, h4⟩ := this
      refine ⟨h1, ?_, h3.trans (min_le_left _ _), h3.trans (min_le_right _ _), h4⟩
      rcases h2 with h2 | h2
      · rcases min_choice a g with e | e
        · exact Or.inl (h2.trans e)
        · exact Or.inr (Or.inl (h2.trans e))
      · exact Or.inr (Or.inr h2)

theorem leff_spec {cp nc : ℝ} {gs : List (Option ℝ)} (h1 : 0 < cp) (h2 : 0 < nc) (hg : ∀ g ∈ gs.reduceOption, 0 < g) :
    0 < min (min cp nc) (groupLeff gs) ∧ LeastLength cp nc gs.reduceOption (min (min cp nc) (groupLeff gs)) := by
  obtain ⟨a1, a2, a3, a4⟩ := groupLeff_fold gs (10 ^ 5) (by norm_num) hg
  have e : groupLeff gs = gs.foldl (fun leff g => let lg := g.getD leff; if 0 < lg then min leff lg else leff) (10 ^ 5) := rfl
  rw [← e] at a1 a2 a3 a4
  refine ⟨lt_min (lt_min h1 h2) a1, ?_, (min_le_left _ _).trans (min_le_left _ _), (min_le_left _ _).trans (min_le_right _ _),
    fun g hgm => (min_le_right _ _).trans (a4 g hgm), (min_le_right _ _).trans (a3.trans (by norm_num))⟩
  rcases min_choice (min cp nc) (groupLeff gs) with e | e <;> rw [e]
  · rcases min_choice cp nc with e | e
    · exact Or.inl e
    · exact Or.inr (Or.inl e)
  · rcases a2 with h | h
    · exact Or.inr (Or.inr (Or.inr (h.trans (by norm_num))))
    · exact Or.inr (Or.inr (Or.inl h))

/-! ### C372 -/

/-- **C372 (a).** The extension of a row under any force is the sum of those of the column web in tension, the column flange and the end plate in bending
    and the two bolts, with the stiffness coefficients of Table 6.11, the smallest effective length of the row alone and in its groups, and the bolt length between
    the middles of head and nut. -/
theorem C372_components (r : RowParts) (h : r.Pos) :
    ∃ lF lP, LeastLength r.cpF r.ncF r.groupsF.reduceOption lF ∧ LeastLength r.cpP r.ncP r.groupsP.reduceOption lP ∧ 0 < lF ∧ 0 < lP ∧
      0 < r.stiffness ∧
      ∀ F E : ℝ, 0 < E → F / (E * r.stiffness) =
        F / E * (r.col.hw / (0.7 * lF * r.col.tw) + r.mF ^ 3 / (0.9 * lF * r.col.tf ^ 3) + r.mP ^ 3 / (0.9 * lP * r.tp ^ 3) +
          (r.tp + r.col.tf + 2 * r.washer + (r.head + r.nut) / 2) / (1.6 * r.As)) := by
  obtain ⟨p1, s1⟩ := leff_spec (gs := r.groupsF) h.cpF h.ncF h.gF
  obtain ⟨p2, s2⟩ := leff_spec (gs := r.groupsP) h.cpP h.ncP h.gP
  have hLb : 0 < r.tp + r.col.tf + 2 * r.washer + 1 / 2 * (r.head + r.nut) := by
    have := h.tp; have := h.tf; have := h.washer; have := h.head; have := h.nut
    positivity
  obtain ⟨tf, tw, hw, tp, As, -, -, -, mF, mP, -, -, -, -, -, -⟩ := h
  refine ⟨_, _, s1, s2, p1, p2, ?_, fun F E hE => ?_⟩
  · unfold RowParts.stiffness keff RowParts.k3 RowParts.k4 RowParts.k5 RowParts.k10 colWebTensionK bendingK boltRowK RowParts.leffF RowParts.leffP RowParts.Lb
    generalize min (min r.cpF r.ncF) (groupLeff r.groupsF) = lF at *
    generalize min (min r.cpP r.ncP) (groupLeff r.groupsP) = lP at *
    positivity
  · unfold RowParts.stiffness keff RowParts.k3 RowParts.k4 RowParts.k5 RowParts.k10 colWebTensionK bendingK boltRowK RowParts.leffF RowParts.leffP RowParts.Lb
    generalize min (min r.cpF r.ncF) (groupLeff r.groupsF) = lF at *
    generalize min (min r.cpP r.ncP) (groupLeff r.groupsP) = lP at *
    have e : r.tp + r.col.tf + 2 * r.washer + (r.head + r.nut) / 2 = r.tp + r.col.tf + 2 * r.washer + 1 / 2 * (r.head + r.nut) := by ring
    rw [e]
    generalize r.tp + r.col.tf + 2 * r.washer + 1 / 2 * (r.head + r.nut) = Lb at *
    rw [mul_one_div, div_div_eq_mul_div, div_mul_eq_mul_div]
    simp only [one_div, inv_div]
    norm_num only
    rw [mul_div_right_comm, show 7 * lF / 10 = 7 / 10 * lF by ring]

/-- **C372 (b).** A further group that has the row, in the column or in the plate, never makes the row stiffer. -/
theorem C372_group (r : RowParts) (h : r.Pos) (gF gP : Option ℝ) (hF : ∀ g, gF = some g → 0 < g) (hP : ∀ g, gP = some g → 0 < g) :
    RowParts.stiffness { r with groupsF := r.groupsF ++ [gF], groupsP := r.groupsP ++ [gP] } ≤ r.stiffness := by
  have hle : ∀ (gs : List (Option ℝ)) (g : Option ℝ), (∀ x ∈ gs.reduceOption, 0 < x) → (∀ x, g = some x → 0 < x) →
      0 < groupLeff (gs ++ [g]) ∧ groupLeff (gs ++ [g]) ≤ groupLeff gs := by
    intro gs g hgs hg
    obtain ⟨a1, -, -, -⟩ := groupLeff_fold gs (10 ^ 5) (by norm_num) hgs
    have e : groupLeff gs = gs.foldl (fun leff g => let lg := g.getD leff; if 0 < lg then min leff lg else leff) (10 ^ 5) := rfl
    rw [← e] at a1
    have e2 : groupLeff (gs ++ [g]) = if 0 < g.getD (groupLeff gs) then min (groupLeff gs) (g.getD (groupLeff gs)) else groupLeff gs := by
      unfold groupLeff; rw [List.foldl_append]; rfl
    rw [e2]
    split
    · rename_i h0; exact ⟨lt_min a1 h0, min_le_left _ _⟩
    · exact ⟨a1, le_refl _⟩
  obtain ⟨f1, f2⟩ := hle r.groupsF gF h.gF hF
  obtain ⟨q1, q2⟩ := hle r.groupsP gP h.gP hP
  have l1 : 0 < min (min r.cpF r.ncF) (groupLeff (r.groupsF ++ [gF])) := lt_min (lt_min h.cpF h.ncF) f1
  have l2 : min (min r.cpF r.ncF) (groupLeff (r.groupsF ++ [gF])) ≤ min (min r.cpF r.ncF) (groupLeff r.groupsF) := min_le_min_left _ f2
  have l3 : 0 < min (min r.cpP r.ncP) (groupLeff (r.groupsP ++ [gP])) := lt_min (lt_min h.cpP h.ncP) q1
  have l4 : min (min r.cpP r.ncP) (groupLeff (r.groupsP ++ [gP])) ≤ min (min r.cpP r.ncP) (groupLeff r.groupsP) := min_le_min_left _ q2
  have hLb : 0 < r.tp + r.col.tf + 2 * r.washer + 1 / 2 * (r.head + r.nut) := by
    have := h.tp; have := h.tf; have := h.washer; have := h.head; have := h.nut
    positivity
  obtain ⟨tf, tw, hw, tp, As, -, -, -, mF, mP, -, -, -, -, -, -⟩ := h
  unfold RowParts.stiffness keff RowParts.k3 RowParts.k4 RowParts.k5 RowParts.k10 colWebTensionK bendingK boltRowK RowParts.leffF RowParts.leffP RowParts.Lb
  simp only
  generalize min (min r.cpF r.ncF) (groupLeff (r.groupsF ++ [gF])) = a at *
  generalize min (min r.cpF r.ncF) (groupLeff r.groupsF) = b at *
  generalize min (min r.cpP r.ncP) (groupLeff (r.groupsP ++ [gP])) = c at *
  generalize min (min r.cpP r.ncP) (groupLeff r.groupsP) = d at *
  have hb : 0 < b := l1.trans_le l2
  have hd : 0 < d := l3.trans_le l4
  apply one_div_le_one_div_of_le
  · positivity
  · gcongr

/-- **C372 (c).** A row is softer than each of its components and has at least a quarter of the stiffness of the softest. -/
theorem C372_weakest (r : RowParts) (h : r.Pos) :
    r.stiffness < r.k3 ∧ r.stiffness < r.k4 ∧ r.stiffness < r.k5 ∧ r.stiffness < r.k10 ∧
      min (min r.k3 r.k4) (min r.k5 r.k10) / 4 ≤ r.stiffness := by
  obtain ⟨p1, -⟩ := leff_spec (gs := r.groupsF) h.cpF h.ncF h.gF
  obtain ⟨p2, -⟩ := leff_spec (gs := r.groupsP) h.cpP h.ncP h.gP
  have hLb : 0 < r.Lb := by
    have := h.tp; have := h.tf; have := h.washer; have := h.head; have := h.nut
    unfold RowParts.Lb; positivity
  have k3 : 0 < r.k3 := by
    have := h.tw; have := h.hw; have : 0 < r.leffF := p1
    unfold RowParts.k3 colWebTensionK; positivity
  have k4 : 0 < r.k4 := by
    have := h.tf; have := h.mF; have : 0 < r.leffF := p1
    unfold RowParts.k4 bendingK; positivity
  have k5 : 0 < r.k5 := by
    have := h.tp; have := h.mP; have : 0 < r.leffP := p2
    unfold RowParts.k5 bendingK; positivity
  have k10 : 0 < r.k10 := by
    have := h.As
    unfold RowParts.k10 boltRowK; positivity
  unfold RowParts.stiffness keff
  generalize r.k3 = a at *
  generalize r.k4 = b at *
  generalize r.k5 = c at *
  generalize r.k10 = d at *
  have ia : 0 < 1 / a := by positivity
  have ib : 0 < 1 / b := by positivity
  have ic : 0 < 1 / c := by positivity
  have id : 0 < 1 / d := by positivity
  have hs : 0 < 1 / a + 1 / b + 1 / c + 1 / d := by positivity
  have key : ∀ x : ℝ, 0 < x → 1 / x < 1 / a + 1 / b + 1 / c + 1 / d → 1 / (1 / a + 1 / b + 1 / c + 1 / d) < x := by
    intro x hx hlt
    have := one_div_lt_one_div_of_lt (by positivity : (0 : ℝ) < 1 / x) hlt
    rwa [one_div_one_div] at this
  refine ⟨key a k3 (by linarith), key b k4 (by linarith), key c k5 (by linarith), key d k10 (by linarith), ?_⟩
  set m := min (min a b) (min c d) with hm
  have hm0 : 0 < m := lt_min (lt_min k3 k4) (lt_min k5 k10)
  have ja := one_div_le_one_div_of_le hm0 ((min_le_left _ _).trans (min_le_left _ _) : m ≤ a)
  have jb := one_div_le_one_div_of_le hm0 ((min_le_left _ _).trans (min_le_right _ _) : m ≤ b)
  have jc := one_div_le_one_div_of_le hm0 ((min_le_right _ _).trans (min_le_left _ _) : m ≤ c)
  have jd := one_div_le_one_div_of_le hm0 ((min_le_right _ _).trans (min_le_right _ _) : m ≤ d)
  rw [le_div_iff₀ hs]
  have e : m / 4 * (4 * (1 / m)) = 1 := by field_simp
  calc m / 4 * (1 / a + 1 / b + 1 / c + 1 / d) ≤ m / 4 * (4 * (1 / m)) := by
        apply mul_le_mul_of_nonneg_left _ (by positivity)
        linarith
    _ = 1 := e

/-- **C372 (d).** The stiffness coefficient of an unstiffened column web in compression is that of Table 6.11 with the width of (6.11), and a stiffener at the
    bottom flange makes every joint strictly stiffer. -/
theorem C372_stiffener {E β tp ebottom ap S S' : ℝ} {c b : Sec} {l : List Spring} (hE : 0 < E) (hβ : 0 < β) (hA : 0 < c.Av) (ht : 0 < c.tw) (hw : 0 < c.hw)
    (hb : 0 < b.tf + 2 * √2 * ap + 5 * (c.tf + c.r) + min (2 * tp) (tp + ebottom - √2 * ap))
    (hp : ∀ s ∈ l, s.shear = false → 0 < s.k ∧ 0 < s.h) (h : sjIni E c β (webCompK false c b tp ebottom ap) l = .ok S)
    (h' : sjIni E c β (webCompK true c b tp ebottom ap) l = .ok S') :
    webCompK false c b tp ebottom ap =
      some (0.7 * (b.tf + 2 * √2 * ap + 5 * (c.tf + c.r) + min (2 * tp) (tp + ebottom - √2 * ap)) * c.tw / c.hw) ∧ S < S' := by
  have e : webCompK false c b tp ebottom ap =
      some (0.7 * (b.tf + 2 * √2 * ap + 5 * (c.tf + c.r) + min (2 * tp) (tp + ebottom - √2 * ap)) * c.tw / c.hw) := by
    simp only [webCompK, colWebCompK, beffComp, Bool.false_eq_true, if_false]
    norm_num
  refine ⟨e, ?_⟩
  have hk : 0 < 0.7 * (b.tf + 2 * √2 * ap + 5 * (c.tf + c.r) + min (2 * tp) (tp + ebottom - √2 * ap)) * c.tw / c.hw := by positivity
  rw [e] at h
  generalize 0.7 * (b.tf + 2 * √2 * ap + 5 * (c.tf + c.r) + min (2 * tp) (tp + ebottom - √2 * ap)) * c.tw / c.hw = k at *
  have e' : webCompK true c b tp ebottom ap = none := rfl
  rw [e'] at h'
  set t := l.filter (fun s => !s.shear) with htd
  have hpt : ∀ s ∈ t, 0 < s.k ∧ 0 < s.h := by
    intro s hs
    rw [htd, List.mem_filter] at hs
    exact hp s hs.1 (by simpa using hs.2)
  have hne : t ≠ [] := by
    intro h0
    simp [sjIni, ← htd, h0] at h
  have h1 : 0 < (t.map (fun s => s.k * s.h)).sum := sum_pos_of hne fun s hs => mul_pos (hpt s hs).1 (hpt s hs).2
  have h2 : 0 < (t.map (fun s => s.k * s.h ^ 2)).sum := sum_pos_of hne fun s hs => mul_pos (hpt s hs).1 (pow_pos (hpt s hs).2 2)
  have hz : 0 < zeq l := div_pos h2 h1
  have hkq : 0 < keq l := div_pos h1 hz
  have hk1 : 0 < colWebShearK c β (zeq l) := by unfold colWebShearK; positivity
  unfold sjIni at h h'
  split at h
  · cases h
  · cases h
  · rename_i n0 n1
    split at h'
    · cases h'
    · cases h'
    · simp only [Except.ok.injEq, flexibility, one_div_one_div] at h h'
      rw [← h, ← h']
      have hi : 0 < 1 / k := by positivity
      apply div_lt_div_of_pos_left
      · positivity
      · positivity
      · linarith

example : ∃ S S', sjIni 210000 secX 1 (webCompK false secX secX 20 10 5) [⟨3, 400, false⟩, ⟨2, 300, false⟩] = .ok S ∧
    sjIni 210000 secX 1 (webCompK true secX secX 20 10 5) [⟨3, 400, false⟩, ⟨2, 300, false⟩] = .ok S' := ⟨_, _, rfl, rfl⟩

/-- a row of two M20 bolts in a group of the column flange only -/
noncomputable def rowPartsX : RowParts :=
  ⟨⟨200, 200, 15, 9, 18, 134, 2480, 355, 510, 210000⟩, 20, 245, 3, 13, 18, 180, 200, 25, [some 150, some 170], 190, 170, 35, [none, some 160]⟩

example : rowPartsX.Pos ∧ rowPartsX.leffF = 150 ∧ rowPartsX.leffP = 160 := by
  refine ⟨?_, ?_, ?_⟩
  · constructor <;> norm_num [rowPartsX, List.reduceOption]
  · norm_num [rowPartsX, RowParts.leffF, groupLeff]
  · norm_num [rowPartsX, RowParts.leffP, groupLeff]

end Metku.Bolts
