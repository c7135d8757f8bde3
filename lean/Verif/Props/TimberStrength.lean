import Verif.Model.TimberStrength
import Verif.Spec.Timber
import Mathlib.Tactic.Linarith
import Mathlib.Tactic.FieldSimp
import Mathlib.Tactic.NormNum
import Mathlib.Tactic.Positivity

/-!
Design strengths of timber members: load duration, service classes, size effects.
-/
namespace Metku.Timber

open Real TimberSpec

/-! ### C144: design strengths -/

/-- Order of the load durations, from permanent to instantaneous; unknown classes have none. -/
def rank : Duration → Option ℕ
  | .perm => some 0
  | .lt => some 1
  | .mt => some 2
  | .st => some 3
  | .inst => some 4
  | .other => none

theorem kmod_ok {k : Kind} (hk : k ≠ .other) {sc : ℤ} (hs : sc = 1 ∨ sc = 2 ∨ sc = 3) {d : Duration} (hd : d ≠ .other) : ∃ v, kmod k sc d = .ok v ∧ 0.5 ≤ v ∧ v ≤ 1.1 := by
  unfold kmod
  rw [if_neg hk]
  rcases hs with rfl | rfl | rfl
  · cases d <;> first | exact absurd rfl hd | exact ⟨_, rfl, by norm_num, by norm_num⟩
  · cases d <;> first | exact absurd rfl hd | exact ⟨_, rfl, by norm_num, by norm_num⟩
  · cases d <;> first | exact absurd rfl hd | exact ⟨_, rfl, by norm_num, by norm_num⟩

theorem kmod_duration {k : Kind} (hk : k ≠ .other) {sc : ℤ} (hs : sc = 1 ∨ sc = 2 ∨ sc = 3) {d d' : Duration} {i j : ℕ} (hi : rank d = some i) (hj : rank d' = some j) (hij : i ≤ j) :
    Below (kmod k sc d) (kmod k sc d') := by
  unfold kmod
  rw [if_neg hk, if_neg hk]
  rcases hs with rfl | rfl | rfl <;> cases d <;> cases d' <;> simp only [rank, Option.some.injEq, reduceCtorEq] at hi hj <;>
    first
    | omega
    | exact ⟨_, _, rfl, rfl, by norm_num⟩

theorem kmod_wet {k : Kind} (hk : k ≠ .other) {sc : ℤ} (hs : sc = 1 ∨ sc = 2) {d : Duration} (hd : d ≠ .other) : Below (kmod k 3 d) (kmod k sc d) := by
  unfold kmod
  rw [if_neg hk, if_neg hk]
  rcases hs with rfl | rfl <;> cases d <;> first | exact absurd rfl hd | exact ⟨_, _, rfl, rfl, by norm_num⟩

theorem gamma_bounds (k : Kind) : 1.2 ≤ gammaM k := by
  cases k <;> norm_num [gammaM]

theorem toDesign_mono {f a b : ℝ} (k : Kind) (hf : 0 ≤ f) (h : a ≤ b) : toDesign f a (gammaM k) ≤ toDesign f b (gammaM k) := by
  have := gamma_bounds k
  exact div_le_div_of_nonneg_right (mul_le_mul_of_nonneg_right h hf) (by linarith)

theorem toDesign_le {f a : ℝ} (k : Kind) (hf : 0 ≤ f) (h : a ≤ 1.1) : toDesign f a (gammaM k) ≤ f := by
  have := gamma_bounds k
  unfold toDesign
  rw [div_le_iff₀ (by linarith)]
  nlinarith

theorem size_nonneg {x : ℝ} (hx : 0 < x) : 0 ≤ sizeSolid x ∧ 0 ≤ sizeGlt x :=
  ⟨le_min (by norm_num) (rpow_nonneg (by positivity) _), le_min (by norm_num) (rpow_nonneg (by positivity) _)⟩

theorem kh_nonneg (k : Kind) (rhok s N M : ℝ) {B H : ℝ} (hB : 0 < B) (hH : 0 < H) : 0 ≤ kh k rhok s N M B H := by
  have h1 := size_nonneg hB
  have h2 := size_nonneg hH
  cases k <;> simp only [kh]
  · unfold khBranch
    split_ifs
    · exact le_min h1.1 h2.1
    · exact h1.1
    · exact h2.1
    · norm_num
    · norm_num
  · unfold khBranch
    split_ifs
    · exact le_min h1.2 h2.2
    · exact h1.2
    · exact h2.2
    · norm_num
  · split_ifs
    · exact le_min (by norm_num) (rpow_nonneg (by positivity) _)
    · norm_num
  · norm_num

theorem maxAbs_ok {l : List ℝ} (h : l ≠ []) : ∃ v, maxAbs l = .ok v ∧ (∀ x ∈ l, |x| ≤ v) ∧ ∃ x ∈ l, v = |x| := by
  cases l with
  | nil => exact absurd rfl h
  | cons a l =>
    refine ⟨_, rfl, ?_⟩
    have key : ∀ (l : List ℝ) (m : ℝ), (m ≤ l.foldl (fun m x => max m |x|) m) ∧ (∀ x ∈ l, |x| ≤ l.foldl (fun m x => max m |x|) m) ∧
        (l.foldl (fun m x => max m |x|) m = m ∨ ∃ x ∈ l, l.foldl (fun m x => max m |x|) m = |x|) := by
      intro l
      induction l with
      | nil => exact fun m => ⟨le_rfl, by simp, .inl rfl⟩
      | cons b l ih =>
        intro m
        obtain ⟨h1, h2, h3⟩ := ih (max m |b|)
        simp only [List.foldl_cons]
        refine ⟨(le_max_left _ _).trans h1, ?_, ?_⟩
        · intro x hx
          rcases List.mem_cons.1 hx with rfl | hx
          · exact (le_max_right _ _).trans h1
          · exact h2 x hx
        · rcases h3 with h3 | ⟨x, hx, h3⟩
          · rw [h3]
            rcases max_choice m |b| with hc | hc
            · exact .inl hc
            · exact .inr ⟨b, List.mem_cons_self, hc⟩
          · exact .inr ⟨x, List.mem_cons_of_mem b hx, h3⟩
    obtain ⟨h1, h2, h3⟩ := key l |a|
    refine ⟨?_, ?_⟩
    · intro x hx
      rcases List.mem_cons.1 hx with rfl | hx
      · exact h1
      · exact h2 x hx
    · rcases h3 with h3 | ⟨x, hx, h3⟩
      · exact ⟨a, List.mem_cons_self, h3⟩
      · exact ⟨x, List.mem_cons_of_mem a hx, h3⟩

theorem kh_ok (m : Strengths) (hB : 0 < m.B) (hH : 0 < m.H) (hn : m.ned ≠ []) (hy : m.myed ≠ []) (hz : m.mzed ≠ []) : ∃ v, m.kh = .ok v ∧ 0 ≤ v := by
  obtain ⟨n, en, -⟩ := maxAbs_ok hn
  obtain ⟨y, ey, -⟩ := maxAbs_ok hy
  obtain ⟨z, ez, -⟩ := maxAbs_ok hz
  unfold Strengths.kh
  simp only [bind, Except.bind, en, ey, ez]
  split_ifs
  · exact ⟨_, rfl, kh_nonneg _ _ _ _ _ hB hH⟩
  · exact ⟨_, rfl, kh_nonneg _ _ _ _ _ hB hH⟩

theorem kh_same {m m' : Strengths} (hg : m'.g = m.g) (hB : m'.B = m.B) (hH : m'.H = m.H) (hn : m'.ned = m.ned) (hy : m'.myed = m.myed) (hz : m'.mzed = m.mzed) : m'.kh = m.kh := by
  unfold Strengths.kh
  rw [hg, hB, hH, hn, hy, hz]

/-- What a design strength is to a characteristic one. -/
theorem strengths_mono {m m' : Strengths} (hg : m'.g = m.g) (hL : m'.L = m.L) (hB : m'.B = m.B) (hH : m'.H = m.H) (hn : m'.ned = m.ned) (hy : m'.myed = m.myed) (hz : m'.mzed = m.mzed) (hk : m.km ≤ m'.km)
    (pB : 0 < m.B) (pH : 0 < m.H) (pL : 0 < m.L) (en : m.ned ≠ []) (ey : m.myed ≠ []) (ez : m.mzed ≠ [])
    (hf : 0 ≤ m.g.fmk ∧ 0 ≤ m.g.fmFlatk ∧ 0 ≤ m.g.ft0k ∧ 0 ≤ m.g.ft90k ∧ 0 ≤ m.g.fc0k ∧ 0 ≤ m.g.fc90k ∧ 0 ≤ m.g.fc90Flatk ∧ 0 ≤ m.g.fvk) :
    Below m.fmd m'.fmd ∧ Below m.ft0d m'.ft0d ∧ m.fc0d ≤ m'.fc0d ∧ m.fc90d ≤ m'.fc90d ∧ m.fvd ≤ m'.fvd ∧ (m.g.flat = false → Below m.ft90d m'.ft90d) := by
  obtain ⟨k, ek, k0⟩ := kh_ok m pB pH en ey ez
  have ek' : m'.kh = .ok k := by rw [kh_same hg hB hH hn hy hz, ek]
  obtain ⟨n, e1, -⟩ := maxAbs_ok en
  obtain ⟨f1, f2, f3, f4, f5, f6, f7, f8⟩ := hf
  refine ⟨?_, ?_, ?_, ?_, ?_, ?_⟩
  · unfold Strengths.fmd
    simp only [bind, Except.bind, ek, ek', hg]
    split_ifs
    · exact ⟨_, _, rfl, rfl, mul_le_mul_of_nonneg_left (toDesign_mono _ f2 hk) k0⟩
    · exact ⟨_, _, rfl, rfl, mul_le_mul_of_nonneg_left (toDesign_mono _ f1 hk) k0⟩
  · have hL0 : 0 ≤ kL m.g.kind m.g.s n m.L := by
      unfold kL
      split_ifs
      · exact le_min (by norm_num) (rpow_nonneg (by positivity) _)
      · norm_num
    unfold Strengths.ft0d
    cases hkind : m.g.kind <;> simp only [hg, hkind, bind, Except.bind, ek, ek', hn, e1, hL]
    · exact ⟨_, _, rfl, rfl, mul_le_mul_of_nonneg_left (toDesign_mono _ f3 hk) k0⟩
    · exact ⟨_, _, rfl, rfl, mul_le_mul_of_nonneg_left (toDesign_mono _ f3 hk) k0⟩
    · rw [hkind] at hL0
      exact ⟨_, _, rfl, rfl, mul_le_mul_of_nonneg_left (toDesign_mono _ f3 hk) hL0⟩
    · exact ⟨_, _, rfl, rfl, mul_le_mul_of_nonneg_left (toDesign_mono _ f3 hk) k0⟩
  · unfold Strengths.fc0d
    rw [hg]
    exact toDesign_mono _ f5 hk
  · unfold Strengths.fc90d
    rw [hg]
    split_ifs
    · exact toDesign_mono _ f7 hk
    · exact toDesign_mono _ f6 hk
  · unfold Strengths.fvd
    rw [hg]
    exact toDesign_mono _ f8 hk
  · intro hflat
    unfold Strengths.ft90d
    simp only [hg, hflat, Bool.false_eq_true, and_false, if_false]
    exact ⟨_, _, rfl, rfl, toDesign_mono _ f4 hk⟩

/-- **C144**.  Members of sawn timber, glulam and LVL can be made for the three service classes and the five load durations and for no others.  A shorter duration never lowers a design strength, service class 3 never raises
one, and strengths without size factor stay below the characteristic ones. -/
theorem C144 (g : Grade) (hk : g.kind ≠ .other) (L B H : ℝ) (ned myed mzed : List ℝ) (pL : 0 < L) (pB : 0 < B) (pH : 0 < H) (en : ned ≠ []) (ey : myed ≠ []) (ez : mzed ≠ [])
    (hf : 0 ≤ g.fmk ∧ 0 ≤ g.fmFlatk ∧ 0 ≤ g.ft0k ∧ 0 ≤ g.ft90k ∧ 0 ≤ g.fc0k ∧ 0 ≤ g.fc90k ∧ 0 ≤ g.fc90Flatk ∧ 0 ≤ g.fvk) (sc : ℤ) (d : Duration) :
    ((∃ m, Strengths.make g sc d L B H ned myed mzed = .ok m) ↔ (sc = 1 ∨ sc = 2 ∨ sc = 3) ∧ d ≠ .other) ∧
    (∀ m, Strengths.make g sc d L B H ned myed mzed = .ok m → m.fc0d ≤ g.fc0k ∧ m.fvd ≤ g.fvk ∧ m.fc90d ≤ max g.fc90k g.fc90Flatk ∧ (0 < g.fc0k → 0 < m.fc0d) ∧ (0 < g.fvk → 0 < m.fvd)) ∧
    (∀ m m' d' i j, Strengths.make g sc d L B H ned myed mzed = .ok m → Strengths.make g sc d' L B H ned myed mzed = .ok m' → rank d = some i → rank d' = some j → i ≤ j →
      Below m.fmd m'.fmd ∧ Below m.ft0d m'.ft0d ∧ m.fc0d ≤ m'.fc0d ∧ m.fc90d ≤ m'.fc90d ∧ m.fvd ≤ m'.fvd ∧ (g.flat = false → Below m.ft90d m'.ft90d)) ∧
    ∀ m m', Strengths.make g 3 d L B H ned myed mzed = .ok m → Strengths.make g sc d L B H ned myed mzed = .ok m' →
      Below m.fmd m'.fmd ∧ Below m.ft0d m'.ft0d ∧ m.fc0d ≤ m'.fc0d ∧ m.fc90d ≤ m'.fc90d ∧ m.fvd ≤ m'.fvd ∧ (g.flat = false → Below m.ft90d m'.ft90d) := by
  have inv : ∀ sc d m, Strengths.make g sc d L B H ned myed mzed = .ok m → (sc = 1 ∨ sc = 2 ∨ sc = 3) ∧ d ≠ .other ∧ ∃ km, kmod g.kind sc d = .ok km ∧ m = ⟨g, km, L, B, H, ned, myed, mzed⟩ := by
    intro sc d m h
    unfold Strengths.make at h
    simp only [bind, Except.bind] at h
    split at h
    · cases h
    rename_i km hkm
    refine ⟨?_, ?_, km, hkm, (Except.ok.inj h).symm⟩
    · by_contra hc
      push Not at hc
      unfold kmod at hkm
      rw [if_neg hk, if_neg (by rintro (h | h); exacts [hc.1 h, hc.2.1 h]), if_neg hc.2.2] at hkm
      cases hkm
    · rintro rfl
      unfold kmod at hkm
      rw [if_neg hk] at hkm
      split_ifs at hkm <;> cases hkm
  refine ⟨⟨?_, ?_⟩, ?_, ?_, ?_⟩
  · rintro ⟨m, h⟩
    obtain ⟨h1, h2, -⟩ := inv sc d m h
    exact ⟨h1, h2⟩
  · rintro ⟨h1, h2⟩
    obtain ⟨v, hv, -⟩ := kmod_ok hk h1 h2
    exact ⟨⟨g, v, L, B, H, ned, myed, mzed⟩, by unfold Strengths.make; simp only [bind, Except.bind, hv]⟩
  · intro m h
    obtain ⟨h1, h2, km, hkm, rfl⟩ := inv sc d m h
    obtain ⟨v, hv, hv1, hv2⟩ := kmod_ok hk h1 h2
    rw [hkm] at hv
    obtain rfl := Except.ok.inj hv
    obtain ⟨f1, f2, f3, f4, f5, f6, f7, f8⟩ := hf
    have hg := gamma_bounds g.kind
    refine ⟨toDesign_le _ f5 hv2, toDesign_le _ f8 hv2, ?_, ?_, ?_⟩
    · unfold Strengths.fc90d
      split_ifs
      · exact (toDesign_le _ f7 hv2).trans (le_max_right _ _)
      · exact (toDesign_le _ f6 hv2).trans (le_max_left _ _)
    · intro hp
      exact div_pos (mul_pos (by linarith) hp) (by linarith)
    · intro hp
      exact div_pos (mul_pos (by linarith) hp) (by linarith)
  · intro m m' d' i j h h' hi hj hij
    obtain ⟨h1, -, km, hkm, rfl⟩ := inv sc d m h
    obtain ⟨-, -, km', hkm', rfl⟩ := inv sc d' m' h'
    obtain ⟨a, b, ha, hb, hab⟩ := kmod_duration hk h1 hi hj hij
    rw [hkm] at ha
    rw [hkm'] at hb
    obtain rfl := Except.ok.inj ha
    obtain rfl := Except.ok.inj hb
    exact strengths_mono (m := ⟨g, km, L, B, H, ned, myed, mzed⟩) (m' := ⟨g, km', L, B, H, ned, myed, mzed⟩) rfl rfl rfl rfl rfl rfl rfl hab pB pH pL en ey ez hf
  · intro m m' h h'
    obtain ⟨-, h2, km, hkm, rfl⟩ := inv 3 d m h
    obtain ⟨h1, -, km', hkm', rfl⟩ := inv sc d m' h'
    have hle : km ≤ km' := by
      rcases h1 with h1 | h1 | h1
      · obtain ⟨a, b, ha, hb, hab⟩ := kmod_wet hk (.inl h1) h2
        rw [hkm] at ha
        rw [hkm'] at hb
        obtain rfl := Except.ok.inj ha
        obtain rfl := Except.ok.inj hb
        exact hab
      · obtain ⟨a, b, ha, hb, hab⟩ := kmod_wet hk (.inr h1) h2
        rw [hkm] at ha
        rw [hkm'] at hb
        obtain rfl := Except.ok.inj ha
        obtain rfl := Except.ok.inj hb
        exact hab
      · rw [h1, hkm] at hkm'
        exact (Except.ok.inj hkm').le
    exact strengths_mono (m := ⟨g, km, L, B, H, ned, myed, mzed⟩) (m' := ⟨g, km', L, B, H, ned, myed, mzed⟩) rfl rfl rfl rfl rfl rfl rfl hle pB pH pL en ey ez hf

/-- The grade C24. -/
noncomputable def c24 : Grade := ⟨.solid, 350, 0, false, 24, 0, 14, 0.5, 21, 2.5, 0, 2.5⟩

/-- A member of C24 in service class 1 under medium-term load: compressive strength 21 · 0.8 / 1.3. -/
example : ∃ m, Strengths.make c24 1 .mt 4000 100 200 [-1000, -1200] [0, 50000] [0, 0] = .ok m ∧ m.fc0d = 21 * 0.8 / 1.3 ∧ m.fc0d ≤ 21 := by
  obtain ⟨h1, h2, -⟩ := C144 c24 (by simp [c24]) 4000 100 200 [-1000, -1200] [0, 50000] [0, 0] (by norm_num) (by norm_num) (by norm_num) (by simp) (by simp) (by simp) (by norm_num [c24]) 1 .mt
  obtain ⟨m, hm⟩ := h1.2 ⟨.inl rfl, by simp⟩
  refine ⟨m, hm, ?_, (h2 m hm).1⟩
  have e : Strengths.make c24 1 .mt 4000 100 200 [-1000, -1200] [0, 50000] [0, 0] = .ok ⟨c24, 0.8, 4000, 100, 200, [-1000, -1200], [0, 50000], [0, 0]⟩ := by
    unfold Strengths.make kmod
    rw [if_neg (by simp [c24]), if_pos (.inl rfl)]
    rfl
  rw [e] at hm
  obtain rfl := Except.ok.inj hm
  norm_num [Strengths.fc0d, toDesign, c24, gammaM]

/-! ### C145: size effect -/

theorem pow_ge_one {a x e : ℝ} (hx : 0 < x) (h : x ≤ a) (he : 0 ≤ e) : 1 ≤ (a / x) ^ e := one_le_rpow (by rw [le_div_iff₀ hx]; linarith) he

theorem solid_bounds {x : ℝ} (hx : 0 < x) (h : x ≤ 150) : 1 ≤ sizeSolid x ∧ sizeSolid x ≤ 1.3 :=
  ⟨le_min (by norm_num) (pow_ge_one hx h (by norm_num)), min_le_left _ _⟩

theorem glt_bounds {x : ℝ} (hx : 0 < x) (h : x ≤ 600) : 1 ≤ sizeGlt x ∧ sizeGlt x ≤ 1.1 :=
  ⟨le_min (by norm_num) (pow_ge_one hx h (by norm_num)), min_le_left _ _⟩

theorem solid_anti {x y : ℝ} (hx : 0 < x) (h : x ≤ y) : sizeSolid y ≤ sizeSolid x :=
  min_le_min le_rfl (rpow_le_rpow (div_nonneg (by norm_num) (hx.le.trans h)) (div_le_div_of_nonneg_left (by norm_num) hx h) (by norm_num))

theorem glt_anti {x y : ℝ} (hx : 0 < x) (h : x ≤ y) : sizeGlt y ≤ sizeGlt x :=
  min_le_min le_rfl (rpow_le_rpow (div_nonneg (by norm_num) (hx.le.trans h)) (div_le_div_of_nonneg_left (by norm_num) hx h) (by norm_num))

theorem branch_bounds {f : ℝ → ℝ} {ref c : ℝ} (hc : 1 ≤ c) (hf : ∀ x, 0 < x → x ≤ ref → 1 ≤ f x ∧ f x ≤ c) (N M : ℝ) {B H : ℝ} (hB : 0 < B) (hH : 0 < H) :
    1 ≤ khBranch f ref N M B H ∧ khBranch f ref N M B H ≤ c := by
  unfold khBranch
  split_ifs with h1 h2 h3
  · have a := hf B hB h1.2.1.le
    have b := hf H hH h1.2.2.2.le
    exact ⟨le_min a.1 b.1, (min_le_left _ _).trans a.2⟩
  · exact hf B hB h2.2.le
  · exact hf H hH h3.2.le
  · exact ⟨le_rfl, hc⟩

theorem branch_anti {f : ℝ → ℝ} {ref : ℝ} (hf : ∀ x, 0 < x → x ≤ ref → 1 ≤ f x) (ha : ∀ x y, 0 < x → x ≤ y → f y ≤ f x) (M : ℝ) {B H H' : ℝ} (hH : 0 < H) (h : H ≤ H') :
    khBranch f ref 0 M B H' ≤ khBranch f ref 0 M B H := by
  unfold khBranch
  simp only [lt_irrefl, false_and, if_false]
  by_cases h1 : M ≠ 0 ∧ H' < ref
  · rw [if_pos h1, if_pos ⟨h1.1, lt_of_le_of_lt h h1.2⟩]
    exact ha H H' hH h
  · rw [if_neg h1]
    split_ifs with h2
    · exact hf H hH h2.2.le
    · exact le_rfl

/-- **C145** (partial).  The size factor of sawn timber lies between 1 and 1.3, of glulam between 1 and 1.1, and of LVL below 1.2; in members without axial force it never grows with the depth and is 1 from the reference depth on. -/
theorem C145_partial (rhok s N M B H : ℝ) (hB : 0 < B) (hH : 0 < H) :
    (1 ≤ kh .solid rhok s N M B H ∧ kh .solid rhok s N M B H ≤ 1.3) ∧ (1 ≤ kh .glt rhok s N M B H ∧ kh .glt rhok s N M B H ≤ 1.1) ∧ kh .lvl rhok s N M B H ≤ 1.2 ∧
    (∀ H', H ≤ H' → kh .solid rhok s 0 M B H' ≤ kh .solid rhok s 0 M B H ∧ kh .glt rhok s 0 M B H' ≤ kh .glt rhok s 0 M B H) ∧
    (∀ H', H ≤ H' → 0 ≤ s → M ≠ 0 → H ≠ 300 → H' ≠ 300 → kh .lvl rhok s N M B H' ≤ kh .lvl rhok s N M B H) ∧
    (150 ≤ H → kh .solid rhok s 0 M B H = 1) ∧ (600 ≤ H → kh .glt rhok s 0 M B H = 1) := by
  have bs := branch_bounds (c := 1.3) (by norm_num) (fun x => solid_bounds) N M hB hH
  have bg := branch_bounds (c := 1.1) (by norm_num) (fun x => glt_bounds) N M hB hH
  refine ⟨?_, bg, ?_, ?_, ?_, ?_, ?_⟩
  · simp only [kh]
    split_ifs
    · exact bs
    · norm_num
  · simp only [kh]
    split_ifs
    · exact min_le_left _ _
    · norm_num
  · intro H' h
    refine ⟨?_, branch_anti (fun x h1 h2 => (glt_bounds h1 h2).1) (fun x y => glt_anti) M hH h⟩
    simp only [kh]
    split_ifs
    · exact branch_anti (fun x h1 h2 => (solid_bounds h1 h2).1) (fun x y => solid_anti) M hH h
    · exact le_rfl
  · intro H' h hs hM h3 h3'
    simp only [kh]
    rw [if_pos ⟨hM, h3'⟩, if_pos ⟨hM, h3⟩]
    have hH' : 0 < H' := lt_of_lt_of_le hH h
    exact min_le_min le_rfl (rpow_le_rpow (by positivity) (div_le_div_of_nonneg_left (by norm_num) hH h) hs)
  · intro h
    simp only [kh, khBranch, lt_irrefl, false_and, if_false, not_lt.2 h, and_false, ite_self]
  · intro h
    simp only [kh, khBranch, lt_irrefl, false_and, if_false]
    rw [if_neg (fun hc => absurd hc.2 (not_lt.2 h))]

/-- **C145** (negation).  Any axial force, compression included, raises the bending strength of a narrow deep beam of sawn timber above the one without size factor, though its depth is not below the reference depth. -/
theorem C145_violation (m : Strengths) (fm : ℝ) (hk : m.g.kind = .solid) (hr : m.g.rhok ≤ 700) (hB : 0 < m.B) (hB' : m.B < 150) (hH : 150 ≤ m.H) (hn : ∃ x ∈ m.ned, x ≠ 0) (hf : 0 < m.g.fmk) (hkm : 0 < m.km)
    (h : m.fmd = .ok fm) : m.fmdPlain < fm := by
  obtain ⟨x, hx, hx0⟩ := hn
  obtain ⟨n, en, hn1, -⟩ := maxAbs_ok (l := m.ned) (by rintro h; rw [h] at hx; cases hx)
  have hn0 : 0 < n := lt_of_lt_of_le (abs_pos.2 hx0) (hn1 x hx)
  unfold Strengths.fmd Strengths.kh at h
  simp only [bind, Except.bind] at h
  split at h
  · cases h
  rename_i k hkk
  split at hkk
  · cases hkk
  split at hkk
  · cases hkk
  rename_i y hy _ z hz
  rw [if_pos (.inl ⟨hk, hr⟩), en] at hkk
  obtain rfl := Except.ok.inj hkk
  rw [if_neg (by rw [hk]; simp)] at h
  obtain rfl := Except.ok.inj h
  unfold Strengths.fmdPlain
  have hpos : 0 < toDesign m.g.fmk m.km (gammaM m.g.kind) := div_pos (mul_pos hkm hf) (by linarith [gamma_bounds m.g.kind])
  have h1 : 1 < kh m.g.kind m.g.rhok m.g.s n (max y z) m.B m.H := by
    rw [hk]
    simp only [kh, khBranch]
    rw [if_pos hr, if_neg (fun hc => absurd hc.2.2.2 (not_lt.2 hH)), if_pos ⟨hn0, hB'⟩]
    refine lt_min (by norm_num) (one_lt_rpow ?_ (by norm_num))
    rw [lt_div_iff₀ hB]
    linarith
  nlinarith

/-- A beam of C24, 100 by 200 mm, with a compression of 1 kN in one section. -/
example : ∃ m fm, Strengths.make c24 1 .mt 4000 100 200 [0, -1000] [0, 50000] [0, 0] = .ok m ∧ m.fmd = .ok fm ∧ m.fmdPlain < fm := by
  have e : Strengths.make c24 1 .mt 4000 100 200 [0, -1000] [0, 50000] [0, 0] = .ok ⟨c24, 0.8, 4000, 100, 200, [0, -1000], [0, 50000], [0, 0]⟩ := by
    unfold Strengths.make kmod
    rw [if_neg (by simp [c24]), if_pos (.inl rfl)]
    rfl
  obtain ⟨v, hv, -⟩ := kh_ok ⟨c24, 0.8, 4000, 100, 200, [0, -1000], [0, 50000], [0, 0]⟩ (by norm_num) (by norm_num) (by simp) (by simp) (by simp)
  have hf : (⟨c24, 0.8, 4000, 100, 200, [0, -1000], [0, 50000], [0, 0]⟩ : Strengths).fmd = .ok (v * toDesign 24 0.8 (gammaM .solid)) := by
    unfold Strengths.fmd
    simp only [bind, Except.bind, hv]
    rw [if_neg (by simp [c24])]
    rfl
  exact ⟨_, _, e, hf, C145_violation _ _ rfl (by norm_num [c24]) (by norm_num) (by norm_num) (by norm_num) ⟨-1000, by simp, by norm_num⟩ (by norm_num [c24]) (by norm_num) hf⟩

/-- **C145** (negation).  With axial force and bending, a beam of sawn timber gains strength when its depth reaches the reference depth: from just below it the factor rises to that of the width. -/
theorem C145_violation_depth (rhok s N M B H H' : ℝ) (hr : rhok ≤ 700) (hN : 0 < N) (hM : M ≠ 0) (hB : 0 < B) (hBH : B < H) (hH : H < 150) (hH' : 150 ≤ H') (h13 : sizeSolid B < 1.3) :
    kh .solid rhok s N M B H < kh .solid rhok s N M B H' := by
  simp only [kh, khBranch]
  rw [if_pos hr, if_pos hr, if_pos ⟨hN, by linarith, hM, hH⟩, if_neg (fun hc => absurd hc.2.2.2 (not_lt.2 hH')), if_pos ⟨hN, by linarith⟩]
  have hH0 : 0 < H := hB.trans hBH
  refine lt_of_le_of_lt (min_le_right _ _) ?_
  have e : sizeSolid B = (150 / B) ^ (0.2 : ℝ) := by
    unfold sizeSolid at h13 ⊢
    rcases min_choice 1.3 ((150 / B) ^ (0.2 : ℝ)) with h | h
    · rw [h] at h13
      exact absurd h13 (lt_irrefl _)
    · exact h
  rw [e]
  refine lt_of_le_of_lt (min_le_right _ _) (rpow_lt_rpow (by positivity) ?_ (by norm_num))
  exact div_lt_div_of_pos_left (by norm_num) hB hBH

/-- A width of 100 mm meets the last hypothesis. -/
example (s : ℝ) : kh .solid 350 s 1000 50000 100 149 < kh .solid 350 s 1000 50000 100 150 := by
  refine C145_violation_depth 350 s 1000 50000 100 149 150 (by norm_num) (by norm_num) (by norm_num) (by norm_num) (by norm_num) (by norm_num) (by norm_num) ?_
  refine lt_of_le_of_lt (min_le_right _ _) ?_
  have h2 : (150 / 100 : ℝ) ^ (0.2 : ℝ) < 1.3 := by
    have e : (1.3 : ℝ) = (1.3 ^ (5 : ℝ)) ^ (0.2 : ℝ) := by
      rw [← rpow_mul (by norm_num)]
      norm_num
    rw [e]
    refine rpow_lt_rpow (by norm_num) ?_ (by norm_num)
    norm_num
  exact h2

end Metku.Timber
