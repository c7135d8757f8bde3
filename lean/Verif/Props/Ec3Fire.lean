import Mathlib.Tactic.Linarith
import Mathlib.Tactic.NormNum
import Mathlib.Tactic.FieldSimp
import Mathlib.Tactic.Ring
import Mathlib.Tactic.Positivity
import Mathlib.Tactic.FinCases
import Mathlib.Tactic.IntervalCases
import Verif.Model.Ec3Fire

/-!
Property C34: reduction factors of EN 1993-1-2.
-/
namespace Metku.Fire

set_option linter.unusedSectionVars false
set_option linter.unusedSimpArgs false

section Field
variable {K : Type} [Field K] [LinearOrder K] [IsStrictOrderedRing K]

/-! ### Specification -/

/-- `v` is the value at `t` of the polygon through the points `pts` (given from left to right). -/
def OnCurve (pts : List (ℚ × ℚ)) (t v : K) : Prop :=
  ∃ (i : ℕ) (p q : ℚ × ℚ), pts[i]? = some p ∧ pts[i + 1]? = some q ∧ (p.1 : K) ≤ t ∧ t ≤ (q.1 : K) ∧
    v = p.2 + (q.2 - p.2) * (t - p.1) / (q.1 - p.1)

/-- EN 1993-1-2, Table 3.1: effective yield strength. -/
def ecKy : List (ℚ × ℚ) :=
  [(20, 1), (100, 1), (200, 1), (300, 1), (400, 1), (500, 0.78), (600, 0.47), (700, 0.23), (800, 0.11), (900, 0.06), (1000, 0.04),
   (1100, 0.02), (1200, 0)]
/-- EN 1993-1-2, Table 3.1: proportional limit. -/
def ecKp : List (ℚ × ℚ) :=
  [(20, 1), (100, 1), (200, 0.807), (300, 0.613), (400, 0.42), (500, 0.36), (600, 0.18), (700, 0.075), (800, 0.05), (900, 0.0375),
   (1000, 0.025), (1100, 0.0125), (1200, 0)]
/-- EN 1993-1-2, Table 3.1: slope of the linear elastic range. -/
def ecKE : List (ℚ × ℚ) :=
  [(20, 1), (100, 1), (200, 0.9), (300, 0.8), (400, 0.7), (500, 0.6), (600, 0.31), (700, 0.13), (800, 0.09), (900, 0.0675),
   (1000, 0.045), (1100, 0.0225), (1200, 0)]
/-- EN 1993-1-2, Annex E, Table E.1: 0.2 % proof strength for class 4 sections. -/
def ecKp02 : List (ℚ × ℚ) :=
  [(20, 1), (100, 1), (200, 0.89), (300, 0.78), (400, 0.65), (500, 0.53), (600, 0.30), (700, 0.13), (800, 0.07), (900, 0.05),
   (1000, 0.03), (1100, 0.02), (1200, 0)]
/-- EN 1993-1-2, Table D.1: bolts. -/
def ecKb : List (ℚ × ℚ) :=
  [(20, 1), (100, 0.968), (150, 0.952), (200, 0.935), (300, 0.903), (400, 0.775), (500, 0.55), (600, 0.22), (700, 0.1), (800, 0.067),
   (900, 0.033), (1000, 0)]

/-- The properties of carbon steel and their tables. -/
def carbonProps : List (String × List (ℚ × ℚ)) := [("ky", ecKy), ("kp", ecKp), ("kE", ecKE), ("kp02", ecKp02)]

/-- Abscissae strictly increase, ordinates do not increase. -/
def Falling (pts : List (ℚ × ℚ)) : Prop := pts.Pairwise fun p q => p.1 < q.1 ∧ q.2 ≤ p.2

/-! ### Polygons -/

theorem segment_le {x y x1 y1 t v : K} (hx : x < x1) (h1 : x ≤ t) (h2 : t ≤ x1) (hy : y1 ≤ y)
    (hv : v = y + (y1 - y) * (t - x) / (x1 - x)) : y1 ≤ v ∧ v ≤ y := by
  have hp : 0 < x1 - x := sub_pos.2 hx
  have e : v = y - (y - y1) * ((t - x) / (x1 - x)) := by rw [hv]; ring
  have hl : 0 ≤ (t - x) / (x1 - x) := div_nonneg (by linarith) hp.le
  have hu : (t - x) / (x1 - x) ≤ 1 := (div_le_one hp).2 (by linarith)
  constructor
  · nlinarith
  · nlinarith

theorem OnCurve.bounds {pts : List (ℚ × ℚ)} (hf : Falling pts) {t v : K} (h : OnCurve pts t v) {lo hi : ℚ}
    (hb : ∀ p ∈ pts, lo ≤ p.2 ∧ p.2 ≤ hi) : (lo : K) ≤ v ∧ v ≤ (hi : K) := by
  obtain ⟨i, p, q, hp, hq, h1, h2, hv⟩ := h
  obtain ⟨ip, rfl⟩ := List.getElem?_eq_some_iff.1 hp
  obtain ⟨iq, rfl⟩ := List.getElem?_eq_some_iff.1 hq
  have hpq := (List.pairwise_iff_getElem.1 hf) i (i + 1) ip iq (by omega)
  have := segment_le (K := K) (by exact_mod_cast hpq.1) h1 h2 (by exact_mod_cast hpq.2) hv
  have b1 := (hb _ (List.getElem_mem ip)).2
  have b2 := (hb _ (List.getElem_mem iq)).1
  exact ⟨le_trans (by exact_mod_cast b2) this.1, this.2.trans (by exact_mod_cast b1)⟩

theorem OnCurve.anti {pts : List (ℚ × ℚ)} (hf : Falling pts) {t v t' v' : K} (h : OnCurve pts t v) (h' : OnCurve pts t' v')
    (ht : t ≤ t') : v' ≤ v := by
  obtain ⟨i, p, q, hp, hq, h1, h2, hv⟩ := h
  obtain ⟨j, p', q', hp', hq', h1', h2', hv'⟩ := h'
  obtain ⟨ip, rfl⟩ := List.getElem?_eq_some_iff.1 hp
  obtain ⟨iq, rfl⟩ := List.getElem?_eq_some_iff.1 hq
  obtain ⟨jp, rfl⟩ := List.getElem?_eq_some_iff.1 hp'
  obtain ⟨jq, rfl⟩ := List.getElem?_eq_some_iff.1 hq'
  have mono := List.pairwise_iff_getElem.1 hf
  have hpq := mono i (i + 1) ip iq (by omega)
  have hpq' := mono j (j + 1) jp jq (by omega)
  have s := segment_le (K := K) (by exact_mod_cast hpq.1) h1 h2 (by exact_mod_cast hpq.2) hv
  have s' := segment_le (K := K) (by exact_mod_cast hpq'.1) h1' h2' (by exact_mod_cast hpq'.2) hv'
  have weak : ∀ a b (ha : a < pts.length) (hb : b < pts.length), a ≤ b → (pts[b].2 : K) ≤ pts[a].2 := by
    intro a b ha hb hab
    rcases Nat.lt_or_eq_of_le hab with h | h
    · exact_mod_cast (mono a b ha hb h).2
    · subst h; exact le_refl _
  have strict : ∀ a b (ha : a < pts.length) (hb : b < pts.length), a < b → (pts[a].1 : K) < pts[b].1 := by
    intro a b ha hb hab
    exact_mod_cast (mono a b ha hb hab).1
  rcases Nat.lt_trichotomy i j with hij | hij | hij
  · exact (s'.2.trans (weak (i + 1) j iq jp (by omega))).trans s.1
  · subst hij
    have hd : (0 : K) < pts[i + 1].1 - pts[i].1 := sub_pos.2 (strict i (i + 1) ip iq (by omega))
    have hy := weak i (i + 1) ip iq (by omega)
    rw [hv, hv']
    have : (pts[i].2 - pts[i + 1].2 : K) * (t - pts[i].1) / (pts[i + 1].1 - pts[i].1) ≤
        (pts[i].2 - pts[i + 1].2 : K) * (t' - pts[i].1) / (pts[i + 1].1 - pts[i].1) := by
      apply div_le_div_of_nonneg_right _ hd.le
      exact mul_le_mul_of_nonneg_left (by linarith) (by linarith)
    have e1 : ((pts[i + 1].2 : K) - pts[i].2) * (t - pts[i].1) / (pts[i + 1].1 - pts[i].1) =
      - ((pts[i].2 - pts[i + 1].2 : K) * (t - pts[i].1) / (pts[i + 1].1 - pts[i].1)) := by ring
    have e2 : ((pts[i + 1].2 : K) - pts[i].2) * (t' - pts[i].1) / (pts[i + 1].1 - pts[i].1) =
      - ((pts[i].2 - pts[i + 1].2 : K) * (t' - pts[i].1) / (pts[i + 1].1 - pts[i].1)) := by ring
    rw [e1, e2]
    linarith
  · rcases Nat.lt_or_eq_of_le (show j + 1 ≤ i from hij) with h | h
    · have := strict (j + 1) i jq ip h
      linarith
    · subst h
      have ht' : t' = pts[j + 1].1 := le_antisymm h2' (h1.trans ht)
      have hte : t = pts[j + 1].1 := le_antisymm (ht.trans h2') h1
      have hd : (pts[j + 1].1 : K) - pts[j].1 ≠ 0 := (sub_pos.2 (strict j (j + 1) jp jq (by omega))).ne'
      rw [hv, hv', ht', hte]
      rw [mul_div_assoc, div_self hd]
      simp

/-! ### The interpolation of the code -/

theorem find_node {n : ℕ} (h : n ∈ specialTemps) :
    (specialTemps.find? fun m : ℕ => decide ((m : K) = (n : K))) = some n := by
  have e : (fun m : ℕ => decide ((m : K) = (n : K))) = fun m : ℕ => decide (m = n) := by
    funext m
    simp
  rw [e]
  exact (by decide : ∀ n ∈ specialTemps, (specialTemps.find? fun m : ℕ => decide (m = n)) = some n) n h

theorem find_none {a b : ℕ} {t : K} (hab : ∀ n ∈ specialTemps, n ≤ a ∨ b ≤ n) (h1 : (a : K) < t) (h2 : t < b) :
    (specialTemps.find? fun m : ℕ => decide ((m : K) = t)) = none := by
  rw [List.find?_eq_none]
  intro n hn
  simp only [decide_eq_true_eq]
  rintro rfl
  have h1' : a < n := by exact_mod_cast h1
  have h2' : n < b := by exact_mod_cast h2
  rcases hab n hn with h | h <;> omega

theorem reduce_node {n : ℕ} (h : n ∈ specialTemps) {tb : Table} {steel prop : String} (hs : tableOf steel = some tb) :
    reduceProperty (n : K) prop steel = (look tb n prop).map (fun q : ℚ => (q : K)) := by
  unfold reduceProperty
  rw [find_node h]
  simp only [hs]
  cases look tb n prop <;> rfl

theorem reduce_between {a b : ℕ} (ha : a ∈ specialTemps) (hb : b ∈ specialTemps) {t : K}
    (hab : ∀ n ∈ specialTemps, n ≤ a ∨ b ≤ n) (h1 : (a : K) < t) (h2 : t < b)
    {tb : Table} {steel prop : String} (hs : tableOf steel = some tb) :
    reduceProperty t prop steel =
      (look tb a prop).bind fun ya => (look tb b prop).bind fun yb => .ok (linInterp (a : K) (ya : K) (b : K) (yb : K) t) := by
  have m1 : (specialTemps.filter fun n : ℕ => decide ((n : K) < t)).max? = some a := by
    rw [List.max?_eq_some_iff]
    refine ⟨by simp [ha, h1], fun n hn => ?_⟩
    rw [List.mem_filter] at hn
    rcases hab n hn.1 with h | h
    · exact h
    · have : (n : K) < t := by simpa using hn.2
      have : (b : K) ≤ n := by exact_mod_cast h
      linarith
  have m2 : (specialTemps.filter fun n : ℕ => decide (t < (n : K))).min? = some b := by
    rw [List.min?_eq_some_iff]
    refine ⟨by simp [hb, h2], fun n hn => ?_⟩
    rw [List.mem_filter] at hn
    rcases hab n hn.1 with h | h
    · have : t < (n : K) := by simpa using hn.2
      have : (n : K) ≤ a := by exact_mod_cast h
      linarith
    · exact h
  unfold reduceProperty
  rw [find_none hab h1 h2]
  simp only [m1, m2, hs]
  cases look tb a prop with
  | error e => rfl
  | ok ya =>
    cases look tb b prop with
    | error e => rfl
    | ok yb => rfl

/-- Between two neighbouring special temperatures, both ends included, the code interpolates when both are in the table. -/
theorem reduce_segment {a b : ℕ} (ha : a ∈ specialTemps) (hb : b ∈ specialTemps) (hlt : a < b) {t : K}
    (hab : ∀ n ∈ specialTemps, n ≤ a ∨ b ≤ n) (h1 : (a : K) ≤ t) (h2 : t ≤ b)
    {tb : Table} {steel prop : String} (hs : tableOf steel = some tb) {ya yb : ℚ}
    (hya : look tb a prop = .ok ya) (hyb : look tb b prop = .ok yb) :
    reduceProperty t prop steel = .ok ((ya : K) + ((yb : K) - ya) * (t - (a : ℕ)) / ((b : K) - (a : ℕ))) := by
  have hd : ((b : K) - (a : K)) ≠ 0 := by
    have : (a : K) < b := by exact_mod_cast hlt
    exact (sub_pos.2 this).ne'
  rcases h1.eq_or_lt with h | h
  · subst h
    rw [reduce_node ha hs, hya]
    simp [Except.map]
  · rcases h2.eq_or_lt with h' | h'
    · subst h'
      rw [reduce_node hb hs, hyb]
      rw [mul_div_assoc, div_self hd]
      simp [Except.map]
    · rw [reduce_between ha hb hab h h' hs, hya, hyb]
      simp only [Except.bind, linInterp]
      congr 1
      field_simp
      ring

theorem find_segment {t : K} : ∀ (l : List ℕ) (x : ℕ), (x : K) ≤ t → t ≤ ((x :: l).getLast (by simp) : ℕ) → l ≠ [] →
    ∃ p ∈ (x :: l).zip l, ((p.1 : ℕ) : K) ≤ t ∧ t ≤ ((p.2 : ℕ) : K) := by
  intro l
  induction l with
  | nil => intro x _ _ h; exact absurd rfl h
  | cons y l ih =>
    intro x h1 h2 _
    by_cases h : t ≤ (y : K)
    · exact ⟨(x, y), by simp, h1, h⟩
    · push Not at h
      rcases l with _ | ⟨z, l⟩
      · simp only [List.getLast_cons_cons, List.getLast_singleton] at h2
        exact absurd h2 (not_le.2 h)
      · obtain ⟨p, hp, hp'⟩ := ih y h.le (by simpa [List.getLast_cons_cons] using h2) (by simp)
        exact ⟨p, by simp only [List.zip_cons_cons, List.mem_cons] at hp ⊢; exact .inr hp, hp'⟩

theorem special_gap : ∀ p ∈ specialTemps.zip specialTemps.tail,
    p.1 ∈ specialTemps ∧ p.2 ∈ specialTemps ∧ p.1 < p.2 ∧ ∀ n ∈ specialTemps, n ≤ p.1 ∨ p.2 ≤ n := by
  decide

theorem special_segment {t : K} (h1 : 20 ≤ t) (h2 : t ≤ 1200) :
    ∃ p ∈ specialTemps.zip specialTemps.tail, ((p.1 : ℕ) : K) ≤ t ∧ t ≤ ((p.2 : ℕ) : K) :=
  find_segment specialTemps.tail 20 (by exact_mod_cast h1) (by simpa [specialTemps] using h2) (by decide)

theorem carbon_falling : ∀ c ∈ carbonProps, Falling c.2 := by
  intro c hc
  simp only [carbonProps, List.mem_cons, List.not_mem_nil, or_false] at hc
  rcases hc with rfl | rfl | rfl | rfl <;>
    simp only [Falling, ecKy, ecKp, ecKE, ecKp02, List.pairwise_cons, List.mem_cons, List.not_mem_nil, or_false, forall_eq_or_imp,
      forall_eq] <;> norm_num

theorem carbon_range : ∀ c ∈ carbonProps, ∀ p ∈ c.2, (0 : ℚ) ≤ p.2 ∧ p.2 ≤ 1 := by
  intro c hc
  simp only [carbonProps, List.mem_cons, List.not_mem_nil, or_false] at hc
  rcases hc with rfl | rfl | rfl | rfl <;>
    simp only [ecKy, ecKp, ecKE, ecKp02, List.mem_cons, List.not_mem_nil, or_false, forall_eq_or_imp, forall_eq] <;> norm_num

/-- Each table of the code holds the tabulated values at neighbouring special temperatures outside the gap from 100 to 200 degrees. -/
theorem carbon_rows : ∀ c ∈ carbonProps, ∀ p ∈ specialTemps.zip specialTemps.tail, p ≠ (100, 150) → p ≠ (150, 200) →
    ∃ (i : ℕ) (ya yb : ℚ), look tableCS p.1 c.1 = .ok ya ∧ look tableCS p.2 c.1 = .ok yb ∧
      c.2[i]? = some ((p.1 : ℚ), ya) ∧ c.2[i + 1]? = some ((p.2 : ℚ), yb) := by
  intro c hc p hp h1 h2
  simp only [specialTemps, List.tail_cons, List.zip_cons_cons, List.zip_nil_right, List.mem_cons, List.not_mem_nil, or_false] at hp
  simp only [carbonProps, List.mem_cons, List.not_mem_nil, or_false] at hc
  rcases hp with rfl | rfl | rfl | rfl | rfl | rfl | rfl | rfl | rfl | rfl | rfl | rfl | rfl
  · refine ⟨0, ?_⟩; rcases hc with rfl | rfl | rfl | rfl <;> exact ⟨_, _, rfl, rfl, by norm_num [ecKy, ecKp, ecKE, ecKp02], by norm_num [ecKy, ecKp, ecKE, ecKp02]⟩
  · exact absurd rfl h1
  · exact absurd rfl h2
  · refine ⟨2, ?_⟩; rcases hc with rfl | rfl | rfl | rfl <;> exact ⟨_, _, rfl, rfl, by norm_num [ecKy, ecKp, ecKE, ecKp02], by norm_num [ecKy, ecKp, ecKE, ecKp02]⟩
  · refine ⟨3, ?_⟩; rcases hc with rfl | rfl | rfl | rfl <;> exact ⟨_, _, rfl, rfl, by norm_num [ecKy, ecKp, ecKE, ecKp02], by norm_num [ecKy, ecKp, ecKE, ecKp02]⟩
  · refine ⟨4, ?_⟩; rcases hc with rfl | rfl | rfl | rfl <;> exact ⟨_, _, rfl, rfl, by norm_num [ecKy, ecKp, ecKE, ecKp02], by norm_num [ecKy, ecKp, ecKE, ecKp02]⟩
  · refine ⟨5, ?_⟩; rcases hc with rfl | rfl | rfl | rfl <;> exact ⟨_, _, rfl, rfl, by norm_num [ecKy, ecKp, ecKE, ecKp02], by norm_num [ecKy, ecKp, ecKE, ecKp02]⟩
  · refine ⟨6, ?_⟩; rcases hc with rfl | rfl | rfl | rfl <;> exact ⟨_, _, rfl, rfl, by norm_num [ecKy, ecKp, ecKE, ecKp02], by norm_num [ecKy, ecKp, ecKE, ecKp02]⟩
  · refine ⟨7, ?_⟩; rcases hc with rfl | rfl | rfl | rfl <;> exact ⟨_, _, rfl, rfl, by norm_num [ecKy, ecKp, ecKE, ecKp02], by norm_num [ecKy, ecKp, ecKE, ecKp02]⟩
  · refine ⟨8, ?_⟩; rcases hc with rfl | rfl | rfl | rfl <;> exact ⟨_, _, rfl, rfl, by norm_num [ecKy, ecKp, ecKE, ecKp02], by norm_num [ecKy, ecKp, ecKE, ecKp02]⟩
  · refine ⟨9, ?_⟩; rcases hc with rfl | rfl | rfl | rfl <;> exact ⟨_, _, rfl, rfl, by norm_num [ecKy, ecKp, ecKE, ecKp02], by norm_num [ecKy, ecKp, ecKE, ecKp02]⟩
  · refine ⟨10, ?_⟩; rcases hc with rfl | rfl | rfl | rfl <;> exact ⟨_, _, rfl, rfl, by norm_num [ecKy, ecKp, ecKE, ecKp02], by norm_num [ecKy, ecKp, ecKE, ecKp02]⟩
  · refine ⟨11, ?_⟩; rcases hc with rfl | rfl | rfl | rfl <;> exact ⟨_, _, rfl, rfl, by norm_num [ecKy, ecKp, ecKE, ecKp02], by norm_num [ecKy, ecKp, ecKE, ecKp02]⟩

/-- **C34 (part).** For every temperature from 20 to 1200 degrees except those strictly between 100 and 200, and every property of carbon steel, the
    factor exists, is the value of the polygon through the points of the table of EN 1993-1-2 and lies in `[0, 1]`.
    Missing: the temperatures between 100 and 200 degrees, see `C34_violation`. -/
theorem C34_partial {c : String × List (ℚ × ℚ)} (hc : c ∈ carbonProps) {t : K} (h1 : 20 ≤ t) (h2 : t ≤ 1200) (hg : t ≤ 100 ∨ 200 ≤ t) :
    ∃ v : K, reduceProperty t c.1 "carbon" = .ok v ∧ OnCurve c.2 t v ∧ 0 ≤ v ∧ v ≤ 1 := by
  have key : ∀ p ∈ specialTemps.zip specialTemps.tail, p ≠ (100, 150) → p ≠ (150, 200) → ((p.1 : ℕ) : K) ≤ t → t ≤ ((p.2 : ℕ) : K) →
      ∃ v : K, reduceProperty t c.1 "carbon" = .ok v ∧ OnCurve c.2 t v ∧ 0 ≤ v ∧ v ≤ 1 := by
    intro p hp n1 n2 hp1 hp2
    obtain ⟨m1, m2, hlt, hgap⟩ := special_gap p hp
    obtain ⟨i, ya, yb, la, lb, ca, cb⟩ := carbon_rows c hc p hp n1 n2
    have hv := reduce_segment (K := K) m1 m2 hlt hgap hp1 hp2 (tb := tableCS) (steel := "carbon") rfl la lb
    have hon : OnCurve c.2 t ((ya : K) + ((yb : K) - ya) * (t - (p.1 : ℕ)) / (((p.2 : ℕ) : K) - (p.1 : ℕ))) :=
      ⟨i, _, _, ca, cb, by simpa using hp1, by simpa using hp2, by simp⟩
    have hb := hon.bounds (carbon_falling c hc) (carbon_range c hc)
    exact ⟨_, hv, hon, by simpa using hb.1, by simpa using hb.2⟩
  obtain ⟨p, hp, hp1, hp2⟩ := special_segment h1 h2
  by_cases n1 : p = (100, 150)
  · subst n1
    have : t = 100 := by
      rcases hg with h | h
      · exact le_antisymm h (by simpa using hp1)
      · have : t ≤ 150 := by simpa using hp2
        linarith
    exact key (20, 100) (by decide) (by decide) (by decide) (by simpa using h1) (by simp [this])
  · by_cases n2 : p = (150, 200)
    · subst n2
      have : t = 200 := by
        rcases hg with h | h
        · have : (150 : K) ≤ t := by simpa using hp1
          linarith
        · exact le_antisymm (by simpa using hp2) h
      exact key (200, 300) (by decide) (by decide) (by decide) (by simp [this]) (by simp [this]; norm_num)
    · exact key p hp n1 n2 hp1 hp2

/-- **C34 (part).** Outside the gap the factor does not increase with the temperature. -/
theorem C34_mono_partial {c : String × List (ℚ × ℚ)} (hc : c ∈ carbonProps) {t t' v v' : K} (h1 : 20 ≤ t) (h : t ≤ t') (h2 : t' ≤ 1200)
    (hg : t ≤ 100 ∨ 200 ≤ t) (hg' : t' ≤ 100 ∨ 200 ≤ t')
    (hv : reduceProperty t c.1 "carbon" = .ok v) (hv' : reduceProperty t' c.1 "carbon" = .ok v') : v' ≤ v := by
  obtain ⟨w, e, on, _⟩ := C34_partial hc h1 (h.trans h2) hg
  obtain ⟨w', e', on', _⟩ := C34_partial hc (h1.trans h) h2 hg'
  rw [hv] at e
  rw [hv'] at e'
  cases e
  cases e'
  exact on.anti (carbon_falling c hc) on' h

theorem look_error {tb : Table} {n : ℕ} {prop : String} {e : PyErr} (h : look tb n prop = .error e) : e = .keyError := by
  unfold look at h
  split at h
  · cases h; rfl
  · split at h
    · cases h; rfl
    · cases h

/-- **C34 is violated**: strictly between 100 and 200 degrees every query about carbon steel (or stainless steel 1.4301) raises `KeyError`, because
    the list of special temperatures holds 150 degrees, which only the table for bolts has. -/
theorem C34_violation {t : K} (h1 : 100 < t) (h2 : t < 200) (prop : String) :
    reduceProperty t prop "carbon" = .error .keyError ∧ reduceProperty t prop "1.4301" = .error .keyError := by
  have h150 : ∀ tb, tb = tableCS ∨ tb = table14301 → look tb 150 prop = .error .keyError := by
    rintro tb (rfl | rfl) <;> rfl
  have main : ∀ steel tb, tableOf steel = some tb → (tb = tableCS ∨ tb = table14301) →
      reduceProperty t prop steel = .error .keyError := by
    intro steel tb hs htb
    rcases lt_trichotomy t 150 with h | h | h
    · rw [reduce_between (a := 100) (b := 150) (by decide) (by decide) (by decide) (by simpa using h1) (by simpa using h) hs,
        h150 tb htb]
      cases hh : look tb 100 prop with
      | error e => rw [look_error hh]; rfl
      | ok y => rfl
    · have e : t = ((150 : ℕ) : K) := by simp [h]
      rw [e, reduce_node (by decide) hs, h150 tb htb]
      rfl
    · rw [reduce_between (a := 150) (b := 200) (by decide) (by decide) (by decide) (by simpa using h) (by simpa using h2) hs,
        h150 tb htb]
      rfl
  exact ⟨main "carbon" _ rfl (.inl rfl), main "1.4301" _ rfl (.inr rfl)⟩

/-- The gap is not empty, and the property is violated at every tabulated property. -/
example : reduceProperty (120 : ℚ) "ky" "carbon" = .error .keyError ∧ reduceProperty (150 : ℚ) "kE" "carbon" = .error .keyError :=
  ⟨(C34_violation (by norm_num) (by norm_num) _).1, (C34_violation (by norm_num) (by norm_num) _).1⟩

/-- A temperature between two rows and one on a row. -/
example : ∃ v v' : ℚ, reduceProperty 550 "ky" "carbon" = .ok v ∧ reduceProperty 600 "ky" "carbon" = .ok v' ∧ v' ≤ v := by
  obtain ⟨v, h, _⟩ := C34_partial (K := ℚ) (c := ("ky", ecKy)) (by simp [carbonProps]) (t := 550) (by norm_num) (by norm_num) (by norm_num)
  obtain ⟨v', h', _⟩ := C34_partial (K := ℚ) (c := ("ky", ecKy)) (by simp [carbonProps]) (t := 600) (by norm_num) (by norm_num) (by norm_num)
  exact ⟨v, v', h, h', C34_mono_partial (c := ("ky", ecKy)) (by simp [carbonProps]) (by norm_num) (by norm_num) (by norm_num)
    (by norm_num) (by norm_num) h h'⟩

/-! ### Bolts -/

theorem bolt_falling : Falling ecKb := by
  simp only [Falling, ecKb, List.pairwise_cons, List.mem_cons, List.not_mem_nil, or_false, forall_eq_or_imp, forall_eq]
  norm_num

theorem bolt_range : ∀ p ∈ ecKb, (0 : ℚ) ≤ p.2 ∧ p.2 ≤ 1 := by
  simp only [ecKb, List.mem_cons, List.not_mem_nil, or_false, forall_eq_or_imp, forall_eq]
  norm_num

theorem bolt_rows : ∀ p ∈ specialTemps.zip specialTemps.tail, p ≠ (1000, 1100) → p ≠ (1100, 1200) →
    ∃ (i : ℕ) (ya yb : ℚ), look tableBolts p.1 "kb" = .ok ya ∧ look tableBolts p.2 "kb" = .ok yb ∧
      ecKb[i]? = some ((p.1 : ℚ), ya) ∧ ecKb[i + 1]? = some ((p.2 : ℚ), yb) := by
  intro p hp h1 h2
  simp only [specialTemps, List.tail_cons, List.zip_cons_cons, List.zip_nil_right, List.mem_cons, List.not_mem_nil, or_false] at hp
  rcases hp with rfl | rfl | rfl | rfl | rfl | rfl | rfl | rfl | rfl | rfl | rfl | rfl | rfl
  · exact ⟨0, _, _, rfl, rfl, by norm_num [ecKb], by norm_num [ecKb]⟩
  · exact ⟨1, _, _, rfl, rfl, by norm_num [ecKb], by norm_num [ecKb]⟩
  · exact ⟨2, _, _, rfl, rfl, by norm_num [ecKb], by norm_num [ecKb]⟩
  · exact ⟨3, _, _, rfl, rfl, by norm_num [ecKb], by norm_num [ecKb]⟩
  · exact ⟨4, _, _, rfl, rfl, by norm_num [ecKb], by norm_num [ecKb]⟩
  · exact ⟨5, _, _, rfl, rfl, by norm_num [ecKb], by norm_num [ecKb]⟩
  · exact ⟨6, _, _, rfl, rfl, by norm_num [ecKb], by norm_num [ecKb]⟩
  · exact ⟨7, _, _, rfl, rfl, by norm_num [ecKb], by norm_num [ecKb]⟩
  · exact ⟨8, _, _, rfl, rfl, by norm_num [ecKb], by norm_num [ecKb]⟩
  · exact ⟨9, _, _, rfl, rfl, by norm_num [ecKb], by norm_num [ecKb]⟩
  · exact ⟨10, _, _, rfl, rfl, by norm_num [ecKb], by norm_num [ecKb]⟩
  · exact absurd rfl h1
  · exact absurd rfl h2

/-- **C34, bolts.** From 20 to 1000 degrees, without a gap, the factor for bolts exists, is the value of the polygon of Table D.1, lies in `[0, 1]`
    and does not increase with the temperature. -/
theorem C34_bolts {t : K} (h1 : 20 ≤ t) (h2 : t ≤ 1000) :
    ∃ v : K, reduceProperty t "kb" "bolts" = .ok v ∧ OnCurve ecKb t v ∧ 0 ≤ v ∧ v ≤ 1 ∧
      ∀ t' v' : K, t ≤ t' → t' ≤ 1000 → reduceProperty t' "kb" "bolts" = .ok v' → v' ≤ v := by
  have key : ∀ t : K, 20 ≤ t → t ≤ 1000 → ∃ v : K, reduceProperty t "kb" "bolts" = .ok v ∧ OnCurve ecKb t v := by
    intro t h1 h2
    have go : ∀ p ∈ specialTemps.zip specialTemps.tail, p ≠ (1000, 1100) → p ≠ (1100, 1200) → ((p.1 : ℕ) : K) ≤ t → t ≤ ((p.2 : ℕ) : K) →
        ∃ v : K, reduceProperty t "kb" "bolts" = .ok v ∧ OnCurve ecKb t v := by
      intro p hp n1 n2 hp1 hp2
      obtain ⟨m1, m2, hlt, hgap⟩ := special_gap p hp
      obtain ⟨i, ya, yb, la, lb, ca, cb⟩ := bolt_rows p hp n1 n2
      exact ⟨_, reduce_segment (K := K) m1 m2 hlt hgap hp1 hp2 (tb := tableBolts) (steel := "bolts") rfl la lb,
        i, _, _, ca, cb, by simpa using hp1, by simpa using hp2, by simp⟩
    obtain ⟨p, hp, hp1, hp2⟩ := special_segment h1 (h2.trans (by norm_num))
    by_cases n1 : p = (1000, 1100)
    · subst n1
      have : t = 1000 := le_antisymm h2 (by simpa using hp1)
      exact go (900, 1000) (by decide) (by decide) (by decide) (by simp [this]; norm_num) (by simp [this])
    · by_cases n2 : p = (1100, 1200)
      · subst n2
        have : (1100 : K) ≤ t := by simpa using hp1
        linarith
      · exact go p hp n1 n2 hp1 hp2
  obtain ⟨v, e, on⟩ := key t h1 h2
  have hb := on.bounds bolt_falling bolt_range
  refine ⟨v, e, on, by simpa using hb.1, by simpa using hb.2, ?_⟩
  intro t' v' h h2' e'
  obtain ⟨w, e2, on'⟩ := key t' (h1.trans h) h2'
  rw [e'] at e2
  cases e2
  exact on.anti bolt_falling on' h

/-- A temperature in the gap of the other tables. -/
example : ∃ v : ℚ, reduceProperty 120 "kb" "bolts" = .ok v ∧ 0 ≤ v := by
  obtain ⟨v, h, _, h0, _⟩ := C34_bolts (K := ℚ) (t := 120) (by norm_num) (by norm_num)
  exact ⟨v, h, h0⟩

/-- **C34, range.** Outside 20 to 1200 degrees every query raises `ValueError`, whatever property and steel. -/
theorem C34_range {t : K} (h : t < 20 ∨ 1200 < t) (prop steel : String) : reduceProperty t prop steel = .error .valueError := by
  have hmem : ∀ n ∈ specialTemps, 20 ≤ n ∧ n ≤ 1200 := by decide
  have hc : ∀ n ∈ specialTemps, (20 : K) ≤ n ∧ (n : K) ≤ 1200 := fun n hn =>
    ⟨by exact_mod_cast (hmem n hn).1, by exact_mod_cast (hmem n hn).2⟩
  have hn : (specialTemps.find? fun m : ℕ => decide ((m : K) = t)) = none := by
    rw [List.find?_eq_none]
    intro n hn
    simp only [decide_eq_true_eq]
    rintro rfl
    have := hc n hn
    rcases h with h | h <;> linarith
  unfold reduceProperty
  rw [hn]
  rcases h with h | h
  · have : (specialTemps.filter fun n : ℕ => decide ((n : K) < t)) = [] := by
      rw [List.filter_eq_nil_iff]
      intro n hn
      simp only [decide_eq_true_eq, not_lt]
      exact h.le.trans (hc n hn).1
    simp only [this, List.max?_nil]
  · have : (specialTemps.filter fun n : ℕ => decide (t < (n : K))) = [] := by
      rw [List.filter_eq_nil_iff]
      intro n hn
      simp only [decide_eq_true_eq, not_lt]
      exact (hc n hn).2.trans h.le
    have hne : (specialTemps.filter fun n : ℕ => decide ((n : K) < t)) = specialTemps := by
      rw [List.filter_eq_self]
      intro n hn
      simp only [decide_eq_true_eq]
      exact (hc n hn).2.trans_lt h
    simp only [this, List.min?_nil, hne]
    rfl

example : reduceProperty (15 : ℚ) "ky" "carbon" = .error .valueError := C34_range (.inl (by norm_num)) _ _

end Field
end Metku.Fire
