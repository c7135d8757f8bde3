import Verif.Model.TimberApex
import Verif.Spec.TimberApex
import Verif.Props.TimberSlender

/-!
Tapered and curved timber beams: factors of the apex, moment at the apex, tapered edge, volume, shear together with tension across the grain.
-/
namespace Metku.Timber

open TimberSpec Real

/-! ### C159: factors of the apex -/

theorem alfa_slope {a : ApexSec} {L : ℝ} (h : a.form = .double) : tan (a.alfa L) = (a.hap - a.h0) / (L / 2) := by
  unfold ApexSec.alfa
  rw [h]
  exact Real.tan_arctan _

/-- **C159** (partial).  The factors of stresses at the apex are those of the standard: for double tapered and pitched beams without curvature, for curved beams without slope, and for curved beams with a ridge as far as
stresses across the grain are concerned.  The slope of a double tapered beam is the rise of its upper edge.  Laminations that are not bent, or bent with a radius of 240 thicknesses at least, are not reduced. -/
theorem C159_partial (a : ApexSec) (L q : ℝ) (hq : q * (a.rIn + a.hap / 2) = a.hap) (hr : 0 < a.rIn + a.hap / 2) :
    (a.form = .double ∨ a.form = .belly → a.kL L = some (apexBending (tan (a.alfa L)) 0) ∧ a.kP L = some (apexTension (tan (a.alfa L)) 0)) ∧
    (a.form = .arc → a.kL L = some (apexBending 0 q) ∧ a.kP L = some (apexTension 0 q)) ∧
    (a.form = .ridge → a.kP L = some (apexTension (tan (a.alfa L)) q)) ∧
    (a.form = .double → tan (a.alfa L) * (L / 2) = a.hap - a.h0 ∨ L = 0) ∧
    (a.form ≠ .arc → a.form ≠ .ridge → a.kR = 1) ∧ (0 < a.t → 0 ≤ a.rIn → a.form = .arc ∨ a.form = .ridge → 240 ≤ a.rIn / a.t → a.kR = bentStrength a.rIn a.t) := by
  have hratio : a.ratio = q := by
    unfold ApexSec.ratio
    rw [div_eq_iff (by linarith), show a.rIn + 0.5 * a.hap = a.rIn + a.hap / 2 by ring, hq]
  refine ⟨?_, ?_, ?_, ?_, ?_, ?_⟩
  · intro h
    unfold ApexSec.kL ApexSec.kP apexBending apexTension
    rcases h with h | h <;> rw [h] <;> constructor <;> simp only [Option.some.injEq] <;> ring
  · intro h
    unfold ApexSec.kL ApexSec.kP apexBending apexTension
    rw [h, hratio]
    constructor <;> simp only [Option.some.injEq] <;> ring
  · intro h
    unfold ApexSec.kP apexTension
    rw [h, hratio]
  · intro h
    rw [alfa_slope h]
    by_cases hL : L = 0
    · exact .inr hL
    · left
      field_simp
  · intro h1 h2
    unfold ApexSec.kR
    cases hf : a.form <;> simp_all
  · intro ht hr0 h h240
    unfold ApexSec.kR bentStrength
    rw [if_pos h240]
    have : 240 ≤ a.rIn * 1000 / a.t := by
      rw [le_div_iff₀ ht] at h240 ⊢
      linarith
    rcases h with h | h <;> rw [h] <;> simp only [if_pos this]

/-- **C159** (negation).  Curved beams with a ridge: the factor of bending lacks a sum, and is below that of the standard by (0.35 - 5.2 tan α) h/r.  With slopes below 0.067 the apex is rated too strong. -/
theorem C159_violation_ridge (a : ApexSec) (L q : ℝ) (h : a.form = .ridge) (hq : q * (a.rIn + a.hap / 2) = a.hap) (hr : 0 < a.rIn + a.hap / 2) (hh : 0 < a.hap) :
    ∃ k, a.kL L = some k ∧ apexBending (tan (a.alfa L)) q - k = (0.35 - 5.2 * tan (a.alfa L)) * q ∧ (tan (a.alfa L) < 0.067 → k < apexBending (tan (a.alfa L)) q) := by
  have hratio : a.ratio = q := by
    unfold ApexSec.ratio
    rw [div_eq_iff (by linarith), show a.rIn + 0.5 * a.hap = a.rIn + a.hap / 2 by ring, hq]
  have hq0 : 0 < q := pos_of_mul_pos_left (by rw [hq]; exact hh) hr.le
  have hk : ∃ k, a.kL L = some k ∧ apexBending (tan (a.alfa L)) q - k = (0.35 - 5.2 * tan (a.alfa L)) * q := by
    unfold ApexSec.kL apexBending
    rw [h, hratio]
    exact ⟨_, rfl, by ring⟩
  obtain ⟨k, h1, h2⟩ := hk
  refine ⟨k, h1, h2, fun ht => ?_⟩
  have : 0 < (0.35 - 5.2 * tan (a.alfa L)) * q := mul_pos (by linarith) hq0
  linarith

/-- **C159** (negation).  Bent laminations: the radius is multiplied by a thousand although it is in millimetres like the thickness, so that every radius above a quarter of a thickness counts as straight. -/
theorem C159_violation_bent (a : ApexSec) (h : a.form = .arc ∨ a.form = .ridge) (ht : 0 < a.t) (h1 : 0.24 * a.t ≤ a.rIn) (h2 : a.rIn < 240 * a.t) : a.kR = 1 ∧ bentStrength a.rIn a.t < 1 := by
  constructor
  · have : 240 ≤ a.rIn * 1000 / a.t := by
      rw [le_div_iff₀ ht]
      linarith
    unfold ApexSec.kR
    rcases h with h | h <;> rw [h] <;> simp only [if_pos this]
  · unfold bentStrength
    have : a.rIn / a.t < 240 := by
      rw [div_lt_iff₀ ht]
      exact h2
    rw [if_neg (not_le.2 this)]
    linarith

/-- A double tapered beam of 20 m that rises from 0.8 m to 1.6 m: slope 0.08. -/
example : (⟨.double, 800, 1600, 0, 0, 45, 0.5, false⟩ : ApexSec).kL 20000 = some (apexBending (tan ((⟨.double, 800, 1600, 0, 0, 45, 0.5, false⟩ : ApexSec).alfa 20000)) 0) ∧
    tan ((⟨.double, 800, 1600, 0, 0, 45, 0.5, false⟩ : ApexSec).alfa 20000) = 0.08 := by
  refine ⟨((C159_partial ⟨.double, 800, 1600, 0, 0, 45, 0.5, false⟩ 20000 2 (by norm_num) (by norm_num)).1 (.inl rfl)).1, ?_⟩
  rw [alfa_slope rfl]
  norm_num

/-- A curved beam with a ridge, 1 m high over a radius of 9.5 m, with a flat upper edge: the standard asks for 0.035 more. -/
example : ∃ k, (⟨.ridge, 800, 1000, 0, 9500, 45, 0.5, false⟩ : ApexSec).kL 20000 = some k ∧ k < apexBending (tan ((⟨.ridge, 800, 1000, 0, 9500, 45, 0.5, false⟩ : ApexSec).alfa 20000)) 0.1 := by
  obtain ⟨k, h1, -, h3⟩ := C159_violation_ridge ⟨.ridge, 800, 1000, 0, 9500, 45, 0.5, false⟩ 20000 0.1 rfl (by norm_num) (by norm_num) (by norm_num)
  exact ⟨k, h1, h3 (by norm_num [ApexSec.alfa])⟩

/-- Laminations of 45 mm bent to 5 m. -/
example : (⟨.arc, 800, 1000, 0, 5000, 45, 0.5, false⟩ : ApexSec).kR = 1 ∧ bentStrength 5000 45 < 1 :=
  C159_violation_bent ⟨.arc, 800, 1000, 0, 5000, 45, 0.5, false⟩ (.inl rfl) (by norm_num) (by norm_num) (by norm_num)

/-! ### C160: moment at the apex -/

theorem below_spec {x : ℝ} : ∀ (l : List ℝ) (a : ℝ), a ≤ x → l.foldl (nearBelow x) a ≤ x ∧ a ≤ l.foldl (nearBelow x) a ∧ (l.foldl (nearBelow x) a = a ∨ l.foldl (nearBelow x) a ∈ l) ∧ ∀ y ∈ l, y ≤ x → y ≤ l.foldl (nearBelow x) a
  | [], a, h => ⟨h, le_rfl, .inl rfl, by simp⟩
  | b :: l, a, h => by
    rw [List.foldl_cons]
    by_cases hc : x - b < x - a ∧ 0 ≤ x - b
    · rw [show nearBelow x a b = b from if_pos hc]
      obtain ⟨h1, h2, h3, h4⟩ := below_spec (x := x) l b (by linarith [hc.2])
      refine ⟨h1, by linarith [hc.1], ?_, ?_⟩
      · rcases h3 with h3 | h3
        · exact .inr (by rw [h3]; exact List.mem_cons_self)
        · exact .inr (List.mem_cons_of_mem _ h3)
      · intro y hy hle
        rcases List.mem_cons.1 hy with rfl | hy
        · exact h2
        · exact h4 y hy hle
    · rw [show nearBelow x a b = a from if_neg hc]
      obtain ⟨h1, h2, h3, h4⟩ := below_spec l a h
      refine ⟨h1, h2, ?_, ?_⟩
      · rcases h3 with h3 | h3
        · exact .inl h3
        · exact .inr (List.mem_cons_of_mem _ h3)
      · intro y hy hle
        rcases List.mem_cons.1 hy with rfl | hy
        · have : ¬ x - y < x - a := fun hlt => hc ⟨hlt, by linarith⟩
          exact le_trans (by linarith [not_lt.1 this]) h2
        · exact h4 y hy hle

theorem above_spec {x : ℝ} : ∀ (l : List ℝ) (a : ℝ), x ≤ a → x ≤ l.foldl (nearAbove x) a ∧ l.foldl (nearAbove x) a ≤ a ∧ (l.foldl (nearAbove x) a = a ∨ l.foldl (nearAbove x) a ∈ l) ∧ ∀ y ∈ l, x ≤ y → l.foldl (nearAbove x) a ≤ y
  | [], a, h => ⟨h, le_rfl, .inl rfl, by simp⟩
  | b :: l, a, h => by
    rw [List.foldl_cons]
    by_cases hc : b - x < a - x ∧ 0 ≤ b - x
    · rw [show nearAbove x a b = b from if_pos hc]
      obtain ⟨h1, h2, h3, h4⟩ := above_spec (x := x) l b (by linarith [hc.2])
      refine ⟨h1, by linarith [hc.1], ?_, ?_⟩
      · rcases h3 with h3 | h3
        · exact .inr (by rw [h3]; exact List.mem_cons_self)
        · exact .inr (List.mem_cons_of_mem _ h3)
      · intro y hy hle
        rcases List.mem_cons.1 hy with rfl | hy
        · exact h2
        · exact h4 y hy hle
    · rw [show nearAbove x a b = a from if_neg hc]
      obtain ⟨h1, h2, h3, h4⟩ := above_spec l a h
      refine ⟨h1, h2, ?_, ?_⟩
      · rcases h3 with h3 | h3
        · exact .inl h3
        · exact .inr (List.mem_cons_of_mem _ h3)
      · intro y hy hle
        rcases List.mem_cons.1 hy with rfl | hy
        · have : ¬ y - x < a - x := fun hlt => hc ⟨hlt, by linarith⟩
          exact le_trans h2 (by linarith [not_lt.1 this])
        · exact h4 y hy hle

theorem firstAt_none {m : TMember} {x : ℝ} (h : ∀ f ∈ m.secs, f.loc ≠ x) : m.firstAt x = none := by
  unfold TMember.firstAt
  rw [List.find?_eq_none]
  intro f hf
  simp only [decide_eq_true_eq]
  exact h f hf

/-- Between its first and its last section a member has neighbours of a location, and takes their mean. -/
theorem atApex_mean {m : TMember} (hnd : m.locs.Nodup) {x : ℝ} (hno : ∀ f ∈ m.secs, f.loc ≠ x) {f0 f1 : Forces} (h0 : m.secs.head? = some f0) (h1 : m.secs.getLast? = some f1) (hx0 : f0.loc ≤ x) (hx1 : x ≤ f1.loc) (q : Forces → ℝ) :
    ∃ f ∈ m.secs, ∃ g ∈ m.secs, f.loc < x ∧ x < g.loc ∧ (∀ p ∈ m.secs, p.loc < x → p.loc ≤ f.loc) ∧ (∀ p ∈ m.secs, x < p.loc → g.loc ≤ p.loc) ∧ m.atApex x q = .ok ((q f + q g) / 2) := by
  have hm : ∀ y, y ∈ m.locs ↔ ∃ p ∈ m.secs, p.loc = y := by
    intro y
    unfold TMember.locs
    rw [List.mem_map]
  have e0 : ∃ t, m.locs = f0.loc :: t := by
    unfold TMember.locs
    cases hs : m.secs with
    | nil => rw [hs] at h0; cases h0
    | cons a l =>
      rw [hs] at h0
      obtain rfl := Option.some.inj h0
      exact ⟨_, rfl⟩
  have e1 : ∃ t, m.locs.reverse = f1.loc :: t := by
    unfold TMember.locs
    rw [← List.map_reverse]
    cases hs : m.secs.reverse with
    | nil =>
      rw [List.reverse_eq_nil_iff] at hs
      rw [hs] at h1
      cases h1
    | cons a l =>
      rw [List.getLast?_eq_head?_reverse, hs] at h1
      obtain rfl := Option.some.inj h1
      exact ⟨_, rfl⟩
  obtain ⟨t0, e0⟩ := e0
  obtain ⟨t1, e1⟩ := e1
  obtain ⟨a1, a2, a3, a4⟩ := below_spec t0 f0.loc hx0
  obtain ⟨b1, b2, b3, b4⟩ := above_spec t1 f1.loc hx1
  have am : t0.foldl (nearBelow x) f0.loc ∈ m.locs := by
    rw [e0]
    rcases a3 with a3 | a3
    · rw [a3]
      exact List.mem_cons_self
    · exact List.mem_cons_of_mem _ a3
  have bm : t1.foldl (nearAbove x) f1.loc ∈ m.locs := by
    rw [← List.mem_reverse, e1]
    rcases b3 with b3 | b3
    · rw [b3]
      exact List.mem_cons_self
    · exact List.mem_cons_of_mem _ b3
  obtain ⟨f, hf, ef⟩ := (hm _).1 am
  obtain ⟨g, hg, eg⟩ := (hm _).1 bm
  refine ⟨f, hf, g, hg, ?_, ?_, ?_, ?_, ?_⟩
  · exact lt_of_le_of_ne (ef ▸ a1) (hno f hf)
  · exact lt_of_le_of_ne (eg ▸ b1) (hno g hg).symm
  · intro p hp hlt
    have hpm : p.loc ∈ m.locs := (hm _).2 ⟨p, hp, rfl⟩
    rw [e0] at hpm
    rcases List.mem_cons.1 hpm with e | hpm
    · rw [e, ef]
      exact a2
    · rw [ef]
      exact a4 _ hpm hlt.le
  · intro p hp hlt
    have hpm : p.loc ∈ m.locs.reverse := List.mem_reverse.2 ((hm _).2 ⟨p, hp, rfl⟩)
    rw [e1] at hpm
    rcases List.mem_cons.1 hpm with e | hpm
    · rw [e, eg]
      exact b2
    · rw [eg]
      exact b4 _ hpm hlt.le
  · unfold TMember.atApex
    have k1 : minusLoc x m.locs = .ok f.loc := by
      rw [e0, ef]
      rfl
    have k2 : plusLoc x m.locs = .ok g.loc := by
      unfold plusLoc
      rw [e1, eg]
    simp only [firstAt_none hno, k1, k2, bind, Except.bind, firstAt_eq hnd hf, firstAt_eq hnd hg]

/-- **C160** (partial).  The moment at the apex is that of the section at the apex, and then both checks of bending at the apex agree.  Without such a section it is the mean of the moments of the sections next to the apex, which is
the value on the straight line between them if the apex is in the middle. -/
theorem C160_partial (m : TMember) (hnd : m.locs.Nodup) (a : ApexSec) :
    (∀ f ∈ m.secs, f.loc = a.xap → m.apexMoment a = .ok f.myed ∧ m.checkTaperedBending a = m.checkApexBending a) ∧
    ∀ f0 f1, (∀ f ∈ m.secs, f.loc ≠ a.xap) → m.secs.head? = some f0 → m.secs.getLast? = some f1 → f0.loc ≤ a.xap → a.xap ≤ f1.loc →
      ∃ f ∈ m.secs, ∃ g ∈ m.secs, f.loc < a.xap ∧ a.xap < g.loc ∧ (∀ p ∈ m.secs, p.loc < a.xap → p.loc ≤ f.loc) ∧ (∀ p ∈ m.secs, a.xap < p.loc → g.loc ≤ p.loc) ∧
        ∃ M, m.apexMoment a = .ok M ∧ M = (f.myed + g.myed) / 2 ∧ (a.xap - f.loc = g.loc - a.xap → M = lineAt a.xap f.loc f.myed g.loc g.myed) := by
  constructor
  · intro f hf hx
    have hfa : m.firstAt a.xap = some f := hx ▸ firstAt_eq hnd hf
    have h1 : ∀ q, m.atApex a.xap q = .ok (q f) := by
      intro q
      unfold TMember.atApex
      rw [hfa]
    refine ⟨h1 _, ?_⟩
    unfold TMember.checkTaperedBending TMember.checkApexBending TMember.apexStress TMember.apexMoment
    simp only [h1, bind, Except.bind]
    rw [← hx]
    rfl
  · intro f0 f1 hno h0 h1 hx0 hx1
    obtain ⟨f, hf, g, hg, k1, k2, k3, k4, k5⟩ := atApex_mean hnd hno h0 h1 hx0 hx1 Forces.myed
    refine ⟨f, hf, g, hg, k1, k2, k3, k4, _, k5, rfl, fun he => ?_⟩
    unfold lineAt
    have : (a.xap - f.loc) / (g.loc - f.loc) = 1 / 2 := by
      rw [div_eq_iff (by linarith)]
      linarith
    rw [this]
    ring

/-- **C160** (checks).  The checks at the apex in terms of the moment there and the factors: bending stress of the rectangle times `k_l`, over the strength reduced by `k_r`; stress across the grain `k_p` times bending stress, over the
strength enlarged by `k_dis` and `k_vol`. -/
theorem C160_checks (m : TMember) (h : m.Sound) (a : ApexSec) (kvol ft90d : ℝ) (M kl kp : ℝ) (hM : m.apexMoment a = .ok M) (hl : a.kL m.L = some kl) (hp : a.kP m.L = some kp) :
    ∃ r s, m.checkApexBending a = .ok r ∧ m.checkApexTension a kvol ft90d = .ok s ∧ r = kl * (6 * M / (m.B * m.H a.xap ^ 2)) / (a.kR * m.fmd) ∧ s = kp * (6 * M / (m.B * m.H a.xap ^ 2)) / (a.kDis * kvol * ft90d) := by
  have hB := h.B
  have hH := h.H a.xap
  have e : M / (m.B * m.H a.xap ^ 2 / 6) = 6 * M / (m.B * m.H a.xap ^ 2) := by
    field_simp
  unfold TMember.checkApexBending TMember.checkApexTension TMember.sigmaT90 TMember.apexStress
  simp only [hM, hl, hp, needed, bind, Except.bind, e, Bool.false_eq_true, if_false]
  exact ⟨_, _, rfl, rfl, rfl, rfl⟩

/-- **C160** (negation).  The mean ignores the distances: with the apex nearer to the neighbour with the larger moment, the moment used is below the one on the straight line. -/
theorem C160_violation (m : TMember) (hnd : m.locs.Nodup) (a : ApexSec) (f g : Forces) (hm : m.secs = [f, g]) (h1 : f.loc < a.xap) (h2 : a.xap < g.loc) (hd : g.loc - a.xap < a.xap - f.loc) (hy : f.myed < g.myed) :
    ∃ M, m.apexMoment a = .ok M ∧ M < lineAt a.xap f.loc f.myed g.loc g.myed := by
  have hno : ∀ p ∈ m.secs, p.loc ≠ a.xap := by
    rw [hm]
    simp only [List.mem_cons, List.not_mem_nil, or_false]
    rintro p (rfl | rfl)
    · exact h1.ne
    · exact h2.ne'
  obtain ⟨p, hp, q, hq, k1, k2, -, -, k5⟩ := atApex_mean hnd hno (f0 := f) (f1 := g) (by rw [hm]; rfl) (by rw [hm]; rfl) h1.le h2.le Forces.myed
  rw [hm] at hp hq
  simp only [List.mem_cons, List.not_mem_nil, or_false] at hp hq
  have ep : p = f := by
    rcases hp with rfl | rfl
    · rfl
    · linarith
  have eq : q = g := by
    rcases hq with rfl | rfl
    · linarith
    · rfl
  rw [ep, eq] at k5
  refine ⟨_, k5, ?_⟩
  unfold lineAt
  have : 1 / 2 < (a.xap - f.loc) / (g.loc - f.loc) := by
    rw [lt_div_iff₀ (by linarith)]
    linarith
  nlinarith

/-- A beam with its apex at 0.6 and sections at 0.2 and 0.7. -/
example : ∃ M, (demoMember [.plane 0 10 0 0.2, .plane 0 20 0 0.7]).apexMoment ⟨.double, 800, 1600, 0, 0, 45, 0.6, false⟩ = .ok M ∧ M < 18 := by
  obtain ⟨M, h1, h2⟩ := C160_violation (demoMember [.plane 0 10 0 0.2, .plane 0 20 0 0.7]) (by norm_num [TMember.locs, demoMember, Forces.plane]) ⟨.double, 800, 1600, 0, 0, 45, 0.6, false⟩ (.plane 0 10 0 0.2) (.plane 0 20 0 0.7) rfl
    (by norm_num [Forces.plane]) (by norm_num [Forces.plane]) (by norm_num [Forces.plane]) (by norm_num [Forces.plane])
  refine ⟨M, h1, h2.trans_le ?_⟩
  norm_num [lineAt, Forces.plane]

/-- A beam with sections at its ends and 0.4 and 0.6, its apex in the middle. -/
example : ∃ M, (demoMember [.plane 0 0 0 0, .plane 0 10 0 0.4, .plane 0 20 0 0.6, .plane 0 0 0 1]).apexMoment ⟨.double, 800, 1600, 0, 0, 45, 0.5, false⟩ = .ok M := by
  obtain ⟨f, -, g, -, -, -, -, -, M, h, -⟩ := (C160_partial (demoMember [.plane 0 0 0 0, .plane 0 10 0 0.4, .plane 0 20 0 0.6, .plane 0 0 0 1]) (by norm_num [TMember.locs, demoMember, Forces.plane])
    ⟨.double, 800, 1600, 0, 0, 45, 0.5, false⟩).2 (.plane 0 0 0 0) (.plane 0 0 0 1) (by simp only [demoMember, List.mem_cons, List.not_mem_nil, or_false]; rintro f (rfl | rfl | rfl | rfl) <;> norm_num [Forces.plane]) rfl rfl
    (by norm_num [Forces.plane]) (by norm_num [Forces.plane])
  exact ⟨M, h⟩

/-! ### C161: tapered edge -/

theorem edgeStress_spec {m : TMember} (hnd : m.locs.Nodup) {s : ℝ} (h : m.edgeStress = .ok s) : (∀ f ∈ m.secs, |m.sigmaY f| ≤ |s|) ∧ ∃ f ∈ m.secs, s = m.sigmaY f := by
  have hm : ∀ y, y ∈ (m.locs.filterMap fun x => (m.firstAt x).map m.sigmaY) ↔ ∃ f ∈ m.secs, y = m.sigmaY f := by
    intro y
    rw [List.mem_filterMap]
    constructor
    · rintro ⟨x, hx, hy⟩
      obtain ⟨f, hf, rfl⟩ := List.mem_map.1 (show x ∈ m.secs.map Forces.loc from hx)
      rw [firstAt_eq hnd hf] at hy
      exact ⟨f, hf, (Option.some.inj hy).symm⟩
    · rintro ⟨f, hf, rfl⟩
      exact ⟨f.loc, List.mem_map.2 ⟨f, hf, rfl⟩, by rw [firstAt_eq hnd hf]; rfl⟩
  unfold TMember.edgeStress at h
  cases h1 : listMin (m.locs.filterMap fun x => (m.firstAt x).map m.sigmaY) with
  | error e => rw [h1] at h; cases h
  | ok lo =>
    cases h2 : listMax (m.locs.filterMap fun x => (m.firstAt x).map m.sigmaY) with
    | error e => rw [h1, h2] at h; cases h
    | ok hi =>
      rw [h1, h2] at h
      obtain rfl := Except.ok.inj h
      obtain ⟨l1, l2⟩ := listMin_spec h1
      have u1 := listMax_ge h2
      have u2 := listMax_mem h2
      have key : ∀ f ∈ m.secs, |m.sigmaY f| ≤ max |lo| |hi| := by
        intro f hf
        have a1 := l1 _ ((hm _).2 ⟨f, hf, rfl⟩)
        have a2 := u1 _ ((hm _).2 ⟨f, hf, rfl⟩)
        rcases abs_cases (m.sigmaY f) with ⟨e, -⟩ | ⟨e, -⟩ <;> rw [e]
        · exact le_max_of_le_right (a2.trans (le_abs_self _))
        · exact le_max_of_le_left ((neg_le_neg a1).trans (neg_le_abs _))
      split_ifs with hc
      · exact ⟨fun f hf => hc ▸ key f hf, (hm _).1 l2⟩
      · have : max |lo| |hi| = |hi| := (max_choice _ _).resolve_left hc
        exact ⟨fun f hf => this ▸ key f hf, (hm _).1 u2⟩

theorem edge_ok {m : TMember} (hnd : m.locs.Nodup) (hne : m.secs ≠ []) (a : ApexSec) (fc90d : ℝ) : ∃ r, m.checkEdge a fc90d = .ok r := by
  have hl : ∃ b l, (m.locs.filterMap fun x => (m.firstAt x).map m.sigmaY) = b :: l := by
    obtain ⟨f, t, hf⟩ := List.exists_cons_of_ne_nil hne
    refine List.exists_cons_of_ne_nil (List.ne_nil_of_mem (a := m.sigmaY f) (List.mem_filterMap.2 ⟨f.loc, ?_, ?_⟩))
    · exact List.mem_map.2 ⟨f, by rw [hf]; exact List.mem_cons_self, rfl⟩
    · rw [firstAt_eq hnd (by rw [hf]; exact List.mem_cons_self)]
      rfl
  obtain ⟨b, l, hl⟩ := hl
  unfold TMember.checkEdge TMember.edgeStress
  rw [hl]
  exact ⟨_, rfl⟩

theorem edge_bounds (x y : ℝ) : 0 < (√(1 + x ^ 2 + y ^ 2))⁻¹ ∧ (√(1 + x ^ 2 + y ^ 2))⁻¹ ≤ 1 := by
  have h1 : 1 ≤ √(1 + x ^ 2 + y ^ 2) := by
    rw [Real.one_le_sqrt]
    nlinarith [sq_nonneg x, sq_nonneg y]
  exact ⟨inv_pos.2 (by linarith), inv_le_one_of_one_le₀ h1⟩

theorem kMAlpha_bounds (b : Bool) (tn s fmd fvd fc : ℝ) : 0 < kMAlpha b tn s fmd fvd fc ∧ kMAlpha b tn s fmd fvd fc ≤ 1 := by
  unfold kMAlpha
  split_ifs
  · exact edge_bounds _ _
  · exact edge_bounds _ _

/-- **C161** (partial).  The tapered edge is checked with the bending stress of the largest size, and the strength is reduced by a factor in (0, 1].  If the edge is not under tension (turned over with a positive moment, or not turned over
with a negative one) the factor is that of the standard for compression.  For stresses that are not negative the utilisation bounds those of every section, for bending alone and together with the factor. -/
theorem C161_partial (m : TMember) (h : m.Sound) (hnd : m.locs.Nodup) (a : ApexSec) (fc90d r : ℝ) (hr : m.checkEdge a fc90d = .ok r) :
    ∃ g ∈ m.secs, ∃ k, (∀ f ∈ m.secs, |m.strong f| ≤ |m.strong g|) ∧ 0 < k ∧ k ≤ 1 ∧ r * k = m.strong g ∧ (0 ≤ m.strong g → ∀ f ∈ m.secs, |m.strong f| ≤ r) ∧
      ((a.flipped = true ∧ 0 < g.myed) ∨ (a.flipped = false ∧ g.myed < 0) → k = edgeStrength (1.5 * m.fvd) m.fmd fc90d (tan (a.alfa m.L))) := by
  unfold TMember.checkEdge at hr
  cases hs : m.edgeStress with
  | error e => rw [hs] at hr; cases hr
  | ok s =>
    rw [hs] at hr
    obtain rfl := Except.ok.inj hr
    obtain ⟨hmax, g, hg, rfl⟩ := edgeStress_spec hnd hs
    obtain ⟨k0, k1⟩ := kMAlpha_bounds a.flipped (tan (a.alfa m.L)) (m.sigmaY g) m.fmd m.fvd fc90d
    have hf := h.fmd
    have hst : ∀ f : Forces, m.strong f = m.sigmaY f / m.fmd := fun f => rfl
    have hle : ∀ f ∈ m.secs, |m.strong f| ≤ |m.strong g| := by
      intro f hfm
      rw [hst, hst, abs_div, abs_div]
      exact div_le_div_of_nonneg_right (hmax f hfm) (abs_nonneg _)
    refine ⟨g, hg, _, hle, k0, k1, ?_, ?_, ?_⟩
    · rw [hst]
      field_simp
    · intro hpos f hfm
      refine (hle f hfm).trans ?_
      rw [abs_of_nonneg hpos, hst]
      rw [hst] at hpos
      have hs0 : 0 ≤ m.sigmaY g := by
        by_contra hc
        exact absurd hpos (not_le.2 (div_neg_of_neg_of_pos (not_le.1 hc) hf))
      exact div_le_div_of_nonneg_left hs0 (mul_pos k0 hf) (by nlinarith)
    · intro hc
      have hsg := strong_sign h g
      have hn : ¬ ((a.flipped = false ∧ 0 ≤ m.sigmaY g) ∨ (a.flipped = true ∧ m.sigmaY g ≤ 0)) := by
        rcases hc with ⟨e, hy⟩ | ⟨e, hy⟩ <;> rw [e]
        · have : 0 < m.sigmaY g := by
            have := hsg.1.2 hy
            rw [hst] at this
            by_contra hcc
            exact absurd this (not_lt.2 (div_nonpos_of_nonpos_of_nonneg (not_lt.1 hcc) hf.le))
          simp [not_le.2 this]
        · have : m.sigmaY g < 0 := by
            have := hsg.2.2 hy
            rw [hst] at this
            by_contra hcc
            exact absurd this (not_lt.2 (div_nonneg (not_lt.1 hcc) hf.le))
          simp [not_le.2 this]
      unfold kMAlpha edgeStrength
      rw [if_neg hn]
      have hv := h.fvd
      congr 3
      · congr 2
        field_simp
        ring
      · congr 1
        ring

/-- **C161** (negation).  Edges under tension: the compressive strength across the grain is used instead of the tensile one, which is lower, so that every slope is rated too strong. -/
theorem C161_violation (b : Bool) (tn s fmd fvd fc90d ft90d : ℝ) (hb : (b = false ∧ 0 ≤ s) ∨ (b = true ∧ s ≤ 0)) (hm : 0 < fmd) (ht : 0 < ft90d) (hlt : ft90d < fc90d) (hn : tn ≠ 0) (hv : 0 < fvd) :
    edgeStrength (0.75 * fvd) fmd ft90d tn < kMAlpha b tn s fmd fvd fc90d := by
  unfold kMAlpha edgeStrength
  rw [if_pos hb]
  have h2 : 0 < tn ^ 2 := by positivity
  have e1 : (fmd / (0.75 * fvd) * tn) ^ 2 = (tn * (4 / 3) * fmd / fvd) ^ 2 := by
    congr 1
    field_simp
    norm_num
  have hA : 0 ≤ tn ^ 2 * fmd / fc90d := by
    have : 0 < fc90d := ht.trans hlt
    positivity
  have hB : tn ^ 2 * fmd / fc90d < fmd / ft90d * tn ^ 2 := by
    rw [show fmd / ft90d * tn ^ 2 = tn ^ 2 * fmd / ft90d by ring]
    exact div_lt_div_of_pos_left (mul_pos h2 hm) ht hlt
  have hC : (tn ^ 2 * fmd / fc90d) ^ 2 < (fmd / ft90d * tn ^ 2) ^ 2 := by
    have := pow_lt_pow_left₀ hB hA (n := 2) (by norm_num)
    exact this
  refine inv_strictAnti₀ (Real.sqrt_pos.2 ?_) (Real.sqrt_lt_sqrt ?_ ?_)
  · nlinarith [sq_nonneg (tn * (4 / 3) * fmd / fvd), sq_nonneg (tn ^ 2 * fmd / fc90d)]
  · nlinarith [sq_nonneg (tn * (4 / 3) * fmd / fvd), sq_nonneg (tn ^ 2 * fmd / fc90d)]
  · rw [e1]
    linarith

/-- **C161** (negation).  The sign is kept: a beam with negative moments only, or whose largest moment is negative, has a negative utilisation, and passes whatever its size. -/
theorem C161_violation_sign (m : TMember) (h : m.Sound) (hnd : m.locs.Nodup) (a : ApexSec) (fc90d r : ℝ) (hr : m.checkEdge a fc90d = .ok r) (hneg : ∀ f ∈ m.secs, f.myed < 0) : r < 0 := by
  obtain ⟨g, hg, k, -, h0, -, e, -⟩ := C161_partial m h hnd a fc90d r hr
  have h1 : m.strong g < 0 := (strong_sign h g).2.2 (hneg g hg)
  rw [← e] at h1
  by_contra hc
  exact absurd h1 (not_lt.2 (mul_nonneg (not_lt.1 hc) h0.le))

/-- A beam tapered by 10 % with moments 10 kNm and 15 kNm. -/
example : ∃ r, (demoMember [.plane 0 10000000 0 0.2, .plane 0 15000000 0 0.7]).checkEdge ⟨.single, 200, 600, 0, 0, 45, 1, true⟩ 2.5 = .ok r ∧ 0 < r := by
  have hok := edge_ok (m := demoMember [.plane 0 10000000 0 0.2, .plane 0 15000000 0 0.7]) (by norm_num [TMember.locs, demoMember, Forces.plane]) (by simp [demoMember]) ⟨.single, 200, 600, 0, 0, 45, 1, true⟩ 2.5
  obtain ⟨r, hr⟩ := hok
  obtain ⟨g, hg, k, -, h0, -, e, -⟩ := C161_partial _ (demo_sound _) (by norm_num [TMember.locs, demoMember, Forces.plane]) _ _ r hr
  refine ⟨r, hr, ?_⟩
  have : 0 < (demoMember [.plane 0 10000000 0 0.2, .plane 0 15000000 0 0.7]).strong g := by
    refine (strong_sign (demo_sound _) g).1.2 ?_
    simp only [demoMember, List.mem_cons, List.not_mem_nil, or_false] at hg
    rcases hg with rfl | rfl <;> norm_num [Forces.plane]
  rw [← e] at this
  exact pos_of_mul_pos_left this h0.le

/-- Glued timber, slope 10 %. -/
example : edgeStrength (0.75 * 2.5) 20 0.3 0.1 < kMAlpha false 0.1 12 20 2.5 1.6 := C161_violation false 0.1 12 20 2.5 1.6 0.3 (.inl ⟨rfl, by norm_num⟩) (by norm_num) (by norm_num) (by norm_num) (by norm_num) (by norm_num)

/-- A cantilever. -/
example : ∀ r, (demoMember [.plane 0 (-90000000) 0 0, .plane 0 (-10000000) 0 0.7]).checkEdge ⟨.single, 200, 600, 0, 0, 45, 1, false⟩ 2.5 = .ok r → r < 0 := fun r hr =>
  C161_violation_sign _ (demo_sound _) (by norm_num [TMember.locs, demoMember, Forces.plane]) _ _ r hr (by
    simp only [demoMember, List.mem_cons, List.not_mem_nil, or_false]
    rintro f (rfl | rfl) <;> norm_num [Forces.plane])

/-! ### C162: volume and distribution -/

/-- **C162** (partial).  Strength across the grain at the apex: the fifth power of the volume factor times the volume at the apex, at most two thirds of the whole, is the reference volume of 0.01 m³; larger volumes have smaller factors; a
given factor is used as it is.  The distribution factor is 1.4 for double tapered beams and 1.7 for curved beams with a ridge. -/
theorem C162_partial (k : Kind) (V Vtot : ℝ) (hV : 0 < V) (hT : 0 < Vtot) :
    (0 < kVol none k V Vtot ∧ kVol none k V Vtot ^ 5 * min V (2 / 3 * Vtot) = 10 ^ 7) ∧ (∀ V', V ≤ V' → kVol none k V' Vtot ≤ kVol none k V Vtot) ∧ (∀ p, kVol (some p) k V Vtot = p) ∧
    ∀ a : ApexSec, (a.form = .double → a.kDis = 1.4) ∧ (a.form = .ridge → a.kDis = 1.7) := by
  have hk : k.text ≠ "solid timber" := by cases k <;> decide
  have hmin : ∀ W, (if 2 / 3 * Vtot < W then 2 / 3 * Vtot else W) = min W (2 / 3 * Vtot) := by
    intro W
    split_ifs with hc
    · exact (min_eq_right hc.le).symm
    · exact (min_eq_left (not_lt.1 hc)).symm
  have heq : ∀ W, kVol none k W Vtot = (10 ^ 7 / min W (2 / 3 * Vtot)) ^ (0.2 : ℝ) := by
    intro W
    unfold kVol
    rw [if_neg hk, hmin]
    rfl
  have hp : 0 < min V (2 / 3 * Vtot) := lt_min hV (by linarith)
  have hq : 0 < 10 ^ 7 / min V (2 / 3 * Vtot) := by positivity
  refine ⟨⟨?_, ?_⟩, ?_, fun p => rfl, fun a => ⟨fun e => ?_, fun e => ?_⟩⟩
  · rw [heq]
    exact Real.rpow_pos_of_pos hq _
  · rw [heq, ← Real.rpow_natCast, ← Real.rpow_mul hq.le]
    norm_num
    rw [div_mul_cancel₀ _ hp.ne']
  · intro V' hle
    rw [heq, heq]
    refine Real.rpow_le_rpow (by have := lt_of_lt_of_le hp (min_le_min_right (2 / 3 * Vtot) hle); positivity) ?_ (by norm_num)
    exact div_le_div_of_nonneg_left (by norm_num) hp (min_le_min_right _ hle)
  · unfold ApexSec.kDis
    rw [e]
  · unfold ApexSec.kDis
    rw [e]

/-- **C162** (negation).  Solid timber should have the factor 1, but the text compared with is not that of the catalogue: below the reference volume its strength is enlarged. -/
theorem C162_violation_solid (V Vtot : ℝ) (hV : 0 < V) (hT : 0 < Vtot) (hs : V < 10 ^ 7) : 1 < kVol none .solid V Vtot := by
  obtain ⟨⟨h0, h5⟩, -⟩ := C162_partial .solid V Vtot hV hT
  by_contra hc
  have h1 : kVol none .solid V Vtot ^ 5 ≤ 1 := pow_le_one₀ h0.le (not_lt.1 hc)
  have h2 : min V (2 / 3 * Vtot) < 10 ^ 7 := (min_le_left _ _).trans_lt hs
  have h3 : 0 < min V (2 / 3 * Vtot) := lt_min hV (by linarith)
  nlinarith

/-- **C162** (negation).  Curved beams of constant depth get the distribution factor of beams with a ridge: the utilisation across the grain is 1.4 / 1.7 of the one by the standard. -/
theorem C162_violation_arc (a : ApexSec) (h : a.form = .arc) (s kvol ft90d : ℝ) (hs : 0 < s) (hk : 0 < kvol) (hf : 0 < ft90d) : s / (a.kDis * kvol * ft90d) < s / (1.4 * kvol * ft90d) := by
  have e : a.kDis = 1.7 := by
    unfold ApexSec.kDis
    rw [h]
  rw [e]
  refine div_lt_div_of_pos_left hs (by positivity) ?_
  have : 0 < kvol * ft90d := mul_pos hk hf
  nlinarith

/-- An apex of 0.03 m³ in a beam of 0.1 m³. -/
example : kVol none .glt 30000000 100000000 ^ 5 * min 30000000 (2 / 3 * 100000000) = 10 ^ 7 := (C162_partial .glt 30000000 100000000 (by norm_num) (by norm_num)).1.2

/-- An apex of 0.005 m³. -/
example : 1 < kVol none .solid 5000000 100000000 := C162_violation_solid _ _ (by norm_num) (by norm_num) (by norm_num)

example : (0.3 : ℝ) / ((⟨.arc, 800, 1000, 0, 5000, 45, 0.5, false⟩ : ApexSec).kDis * 1 * 0.4) < 0.3 / (1.4 * 1 * 0.4) := C162_violation_arc _ rfl _ _ _ (by norm_num) (by norm_num) (by norm_num)

/-! ### C163: shear together with tension across the grain -/

/-- The stresses of the combined check: that of the section the zone at the start leads to, and that of the last section. -/
theorem apexTau_spec {m : TMember} (hs : m.locs.Pairwise (· < ·)) {f0 fl : Forces} (h0 : m.secs[0]? = some f0) (hl : m.secs.getLast? = some fl) (hz : f0.loc < m.zoneStart) (he : f0.loc ≤ 1 - m.zoneEnd) :
    ∃ (k : ℕ) (g : Forces), m.secs[k]? = some g ∧ g.loc ≤ m.zoneStart ∧ ((∃ q ∈ m.secs, m.zoneStart < q.loc) → ∀ (j : ℕ) (q : Forces), k < j → m.secs[j]? = some q → m.zoneStart < q.loc) ∧
      m.apexTau1 = .ok (m.tau g).2 ∧ m.apexTau2 = .ok (m.tau fl).2 := by
  have hloc : m.locs[0]? = some f0.loc := by
    unfold TMember.locs
    rw [List.getElem?_map, h0]
    rfl
  have hget : pyGet m.locs 0 = .ok f0.loc := pyGet_nat (n := 0) hloc
  obtain ⟨k, y, e, hk, -, hy, -, hex⟩ := shiftStart_spec hs hloc hz
  unfold TMember.locs at hk
  rw [List.getElem?_map, Option.map_eq_some_iff] at hk
  obtain ⟨g, hg, rfl⟩ := hk
  refine ⟨k, g, hg, hy, ?_, ?_, ?_⟩
  · rintro ⟨q, hq, hlt⟩ j p hj hp
    exact hex ⟨q.loc, List.mem_map.2 ⟨q, hq, rfl⟩, hlt⟩ j p.loc hj (by unfold TMember.locs; rw [List.getElem?_map, hp]; rfl)
  · unfold TMember.apexTau1
    simp only [hget, bind, Except.bind, if_pos hz]
    have e' : shiftStart m.locs m.zoneStart 0 = (k : ℤ) := e
    rw [e', pyGet_nat hg]
  · unfold TMember.apexTau2
    simp only [hget, bind, Except.bind, if_neg (not_lt.2 he)]
    have hlen : 0 < m.secs.length := (List.getElem?_eq_some_iff.1 h0).1
    rw [List.getLast?_eq_getElem?] at hl
    have e' : ((m.secs.length : ℤ) - 1) = ((m.secs.length - 1 : ℕ) : ℤ) := by omega
    rw [e', pyGet_nat hl]

/-- **C163** (partial).  Shear together with tension across the grain at the apex: the utilisation is that of tension plus that of shear, where shear is the larger of the stress at the end of the beam and the stress at the edge of the zone
at its start, a depth away from the support, provided that they are positive. -/
theorem C163_partial (m : TMember) (h : m.Sound) (hs : m.locs.Pairwise (· < ·)) (hL : 0 < m.L) (a : ApexSec) (kvol ft90d za zb : ℝ) (ha : za * m.L = m.otherStart + m.H 0) (hb : (1 - zb) * m.L = m.otherEnd + m.H 0) (f0 fl : Forces)
    (h0 : m.secs[0]? = some f0) (hl : m.secs.getLast? = some fl) (hz : f0.loc < za) (he : f0.loc ≤ zb) (f655 compressed : Bool) (loads : List MLoad) (r s : ℝ)
    (hS : m.sigmaT90 a f655 compressed loads = .ok s) (hr : m.checkApexCombined a kvol ft90d f655 compressed loads = .ok r) :
    ∃ (k : ℕ) (g : Forces), m.secs[k]? = some g ∧ g.loc ≤ za ∧ ((∃ q ∈ m.secs, za < q.loc) → ∀ (j : ℕ) (q : Forces), k < j → m.secs[j]? = some q → za < q.loc) ∧
      r = max (1.5 * g.vzed / (m.H g.loc * m.B * m.kcr * m.fvd)) (1.5 * fl.vzed / (m.H fl.loc * m.B * m.kcr * m.fvd)) + s / (a.kDis * kvol * ft90d) := by
  have ea : m.zoneStart = za := by
    unfold TMember.zoneStart
    rw [← ha, mul_div_cancel_right₀ _ hL.ne']
  have eb : 1 - m.zoneEnd = zb := by
    unfold TMember.zoneEnd
    rw [← hb, mul_div_cancel_right₀ _ hL.ne']
    ring
  rw [← ea] at hz ⊢
  rw [← eb] at he
  obtain ⟨k, g, hg, h1, h2, t1, t2⟩ := apexTau_spec hs h0 hl hz he
  refine ⟨k, g, hg, h1, h2, ?_⟩
  unfold TMember.checkApexCombined at hr
  simp only [t1, t2, hS, bind, Except.bind] at hr
  obtain rfl := Except.ok.inj hr
  have hv := h.fvd
  congr 1
  rw [← max_div_div_right hv.le]
  unfold TMember.tau
  simp only [div_div]
  norm_num

/-- **C163** (negation).  Signed stresses are compared: the shear force at the end of a beam on two supports is negative, and does not count however large it is. -/
theorem C163_violation (m : TMember) (h : m.Sound) (hs : m.locs.Pairwise (· < ·)) (a : ApexSec) (kvol ft90d : ℝ) (f0 fl : Forces) (h0 : m.secs[0]? = some f0) (hl : m.secs.getLast? = some fl) (hz : f0.loc < m.zoneStart)
    (he : f0.loc ≤ 1 - m.zoneEnd) (hneg : fl.vzed ≤ 0) (f655 compressed : Bool) (loads : List MLoad) (r s : ℝ) (hS : m.sigmaT90 a f655 compressed loads = .ok s) (hr : m.checkApexCombined a kvol ft90d f655 compressed loads = .ok r)
    (q : Forces) (hq : ∀ f ∈ m.secs, f.loc ≤ m.zoneStart → 0 ≤ f.vzed ∧ (m.tau f).2 < |(m.tau q).2|) : r < |(m.tau q).2| / m.fvd + s / (a.kDis * kvol * ft90d) := by
  obtain ⟨k, g, hg, h1, h2, t1, t2⟩ := apexTau_spec hs h0 hl hz he
  obtain ⟨b1, b2⟩ := hq g (List.mem_of_getElem? hg) h1
  unfold TMember.checkApexCombined at hr
  simp only [t1, t2, hS, bind, Except.bind] at hr
  obtain rfl := Except.ok.inj hr
  have hd : ∀ f : Forces, 0 < m.H f.loc * m.B * m.kcr := fun f => mul_pos (mul_pos (h.H _) h.B) h.kcr
  have c1 : (m.tau fl).2 ≤ 0 := div_nonpos_of_nonpos_of_nonneg (by linarith) (hd fl).le
  have c2 : 0 ≤ (m.tau g).2 := div_nonneg (by linarith) (hd g).le
  rw [max_eq_left (c1.trans c2)]
  have := div_lt_div_of_pos_right b2 h.fvd
  linarith

/-! ### C164: load on the compressed edge -/

/-- **C164** (partial).  A single uniform load `v` on the compressed edge changes the stress across the grain at the apex by 0.6 v / B; without it, or with loads that are not uniform or not along y, the stress is `k_p` times the bending stress. -/
theorem C164_partial (m : TMember) (a : ApexSec) (s : ℝ) (hs : m.sigmaT90 a false false [] = .ok s) :
    (∀ v, m.sigmaT90 a true true [⟨true, v, v⟩] = .ok (s - 0.6 * (v / m.B))) ∧ (∀ loads, m.sigmaT90 a true false loads = .ok s) ∧ (∀ b loads, m.sigmaT90 a false b loads = .ok s) ∧
    ∀ loads : List MLoad, (∀ l ∈ loads, l.isY = false ∨ l.v0 ≠ l.v1) → m.sigmaT90 a true true loads = .ok s := by
  have hE : ∀ (b : Bool) (loads : List MLoad), (b = false ∨ ∀ l ∈ loads, l.isY = false ∨ l.v0 ≠ l.v1) → edgeLoad b loads = 0 := by
    intro b loads hc
    have key : ∀ (loads : List MLoad) (p : ℝ), (b = false ∨ ∀ l ∈ loads, l.isY = false ∨ l.v0 ≠ l.v1) → loads.foldl (fun p l => if l.isY ∧ l.v0 = l.v1 ∧ b then l.v0 else p) p = p := by
      intro loads
      induction loads with
      | nil => intro p _; rfl
      | cons l loads ih =>
        intro p hc
        rw [List.foldl_cons, if_neg ?_]
        · exact ih p (hc.imp id fun hc l' hl' => hc l' (List.mem_cons_of_mem _ hl'))
        · rintro ⟨e1, e2, e3⟩
          rcases hc with hc | hc
          · rw [hc] at e3
            cases e3
          · rcases hc l List.mem_cons_self with e | e
            · rw [e] at e1
              cases e1
            · exact e e2
    exact key loads 0 hc
  unfold TMember.sigmaT90 at hs ⊢
  cases hk : needed (a.kP m.L) with
  | error e => rw [hk] at hs; cases hs
  | ok k =>
    cases hm : m.apexStress a with
    | error e => rw [hk, hm] at hs; cases hs
    | ok M =>
      rw [hk, hm] at hs
      simp only [bind, Except.bind, Bool.false_eq_true, if_false] at hs
      obtain rfl := Except.ok.inj hs
      simp only [bind, Except.bind, Bool.false_eq_true, if_false, if_true]
      refine ⟨fun v => ?_, fun loads => ?_, fun b loads => by trivial, fun loads hl => ?_⟩
      · simp [edgeLoad]
      · rw [hE false loads (.inl rfl)]
        simp
      · rw [hE true loads (.inr hl)]
        simp

/-- **C164** (negation).  Loads pointing downwards are negative, and enlarge the stress that they should reduce; and of several uniform loads the last one alone counts, so that a small load applied last hides the others. -/
theorem C164_violation (m : TMember) (h : m.Sound) (a : ApexSec) (s : ℝ) (hs : m.sigmaT90 a false false [] = .ok s) :
    (∀ v, v < 0 → ∃ s', m.sigmaT90 a true true [⟨true, v, v⟩] = .ok s' ∧ s < s') ∧ ∀ v w, m.sigmaT90 a true true [⟨true, v, v⟩, ⟨true, w, w⟩] = m.sigmaT90 a true true [⟨true, w, w⟩] := by
  constructor
  · intro v hv
    refine ⟨_, (C164_partial m a s hs).1 v, ?_⟩
    have : v / m.B < 0 := div_neg_of_neg_of_pos hv h.B
    linarith
  · intro v w
    unfold TMember.sigmaT90 edgeLoad
    simp

/-- A double tapered beam with its apex in the middle. -/
noncomputable def apexDemo : ApexSec := ⟨.double, 800, 1600, 0, 0, 45, 0.5, false⟩

/-- Its forces: shear of 10 kN at the start and of 30 kN at the end. -/
noncomputable def apexForces : List Forces := [.plane 0 0 10000 0, .plane 0 40000000 0 0.5, .plane 0 0 (-30000) 1]

theorem apex_stress : ∃ s, (demoMember apexForces).sigmaT90 apexDemo false false [] = .ok s := by
  have h := ((C160_partial (demoMember apexForces) (by norm_num [TMember.locs, demoMember, apexForces, Forces.plane]) apexDemo).1 (.plane 0 40000000 0 0.5) (by simp [demoMember, apexForces]) (by norm_num [Forces.plane, apexDemo])).1
  unfold TMember.sigmaT90 TMember.apexStress
  rw [h]
  exact ⟨_, rfl⟩

/-- The beam is checked with 10 kN although 30 kN act at its end. -/
example : ∃ r s, (demoMember apexForces).sigmaT90 apexDemo false false [] = .ok s ∧ (demoMember apexForces).checkApexCombined apexDemo 1 0.4 false false [] = .ok r ∧
    r < |((demoMember apexForces).tau (.plane 0 0 (-30000) 1)).2| / 2 + s / (apexDemo.kDis * 1 * 0.4) := by
  obtain ⟨s, hs⟩ := apex_stress
  have hsort : (demoMember apexForces).locs.Pairwise (· < ·) := by norm_num [TMember.locs, demoMember, apexForces, Forces.plane]
  have hz : (Forces.plane 0 0 10000 0).loc < (demoMember apexForces).zoneStart := by norm_num [TMember.zoneStart, demoMember, Forces.plane]
  have he : (Forces.plane 0 0 10000 0).loc ≤ 1 - (demoMember apexForces).zoneEnd := by norm_num [TMember.zoneEnd, demoMember, Forces.plane]
  obtain ⟨k, g, -, -, -, t1, t2⟩ := apexTau_spec (m := demoMember apexForces) hsort (f0 := .plane 0 0 10000 0) (fl := .plane 0 0 (-30000) 1) rfl rfl hz he
  have hok : ∃ r, (demoMember apexForces).checkApexCombined apexDemo 1 0.4 false false [] = .ok r := by
    unfold TMember.checkApexCombined
    rw [t1, t2, hs]
    exact ⟨_, rfl⟩
  obtain ⟨r, hr⟩ := hok
  refine ⟨r, s, hs, hr, ?_⟩
  refine C163_violation (demoMember apexForces) (demo_sound _) hsort apexDemo 1 0.4 (.plane 0 0 10000 0) (.plane 0 0 (-30000) 1) rfl rfl hz he (by norm_num [Forces.plane]) false false [] r s hs hr (.plane 0 0 (-30000) 1) ?_
  intro f hf hloc
  simp only [demoMember, apexForces, List.mem_cons, List.not_mem_nil, or_false] at hf
  rcases hf with rfl | rfl | rfl
  · norm_num [TMember.tau, demoMember, Forces.plane, abs_of_pos]
  · norm_num [TMember.zoneStart, demoMember, Forces.plane] at hloc
  · norm_num [TMember.zoneStart, demoMember, Forces.plane] at hloc

/-- A load of 5 kN/m downwards. -/
example : ∃ s s', (demoMember apexForces).sigmaT90 apexDemo false false [] = .ok s ∧ (demoMember apexForces).sigmaT90 apexDemo true true [⟨true, -5, -5⟩] = .ok s' ∧ s < s' := by
  obtain ⟨s, hs⟩ := apex_stress
  obtain ⟨s', h1, h2⟩ := (C164_violation _ (demo_sound _) apexDemo s hs).1 (-5) (by norm_num)
  exact ⟨s, s', hs, h1, h2⟩

end Metku.Timber
