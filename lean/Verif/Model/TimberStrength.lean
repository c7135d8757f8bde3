import Verif.Model.TimberFire
import Mathlib.Analysis.SpecialFunctions.Pow.Real

/-!
Model of the design strengths of timber members: modification and safety factors (`metku/eurocodes/en1995/en1995_1_1.py`, `constants.py`), size factors (`k_h` of `metku/sections/timber/timber_section.py`
171-201, `k_L` of `metku/structures/timber/timber_member.py` 115-122) and the strengths (`timber_member.py` 135-206), function by function, over the reals.

Simplifications: floats are exact; a bare `Exception` is represented by `PyErr.assertion`; attributes that a grade of another kind does not have are never read by the functions below.
-/
namespace Metku.Timber

open Real

noncomputable section

/-- Load duration classes, timber_member.py 61-62; `other` stands for any other text. -/
inductive Duration
  | perm | lt | mt | st | inst | other
  deriving DecidableEq

/-- The row of service classes 1 and 2, en1995_1_1.py 17-28. -/
def kmodDry : Duration → Except PyErr ℝ
  | .perm => .ok 0.6
  | .lt => .ok 0.7
  | .mt => .ok 0.8
  | .st => .ok 0.9
  | .inst => .ok 1.1
  | .other => .error .keyError

/-- The row of service class 3, en1995_1_1.py 17-28. -/
def kmodWet : Duration → Except PyErr ℝ
  | .perm => .ok 0.5
  | .lt => .ok 0.55
  | .mt => .ok 0.65
  | .st => .ok 0.7
  | .inst => .ok 0.9
  | .other => .error .keyError

/-- `kmod`, en1995_1_1.py 37-45: the tables of the three kinds are the same; other kinds and classes raise. -/
def kmod (k : Kind) (sc : ℤ) (d : Duration) : Except PyErr ℝ :=
  if k = .other then .error .keyError
  else if sc = 1 ∨ sc = 2 then kmodDry d
  else if sc = 3 then kmodWet d
  else .error .keyError

/-- `get_gammaM`, en1995_1_1.py 62-70, with constants.py 13-17. -/
def gammaM : Kind → ℝ
  | .solid => 1.3
  | .glt => 1.25
  | .lvl => 1.2
  | .other => 1.3

/-- `k_to_d`, en1995_1_1.py 58-59. -/
def toDesign (fk kmod gamma : ℝ) : ℝ := kmod * fk / gamma

/-- `MEdY`, `MEdZ` and `NEd`, timber_member.py 195-206: the largest absolute value; `max` of nothing raises. -/
def maxAbs : List ℝ → Except PyErr ℝ
  | [] => .error .valueError
  | a :: l => .ok (l.foldl (fun m x => max m |x|) |a|)

/-- The size factor of sawn timber for one size, timber_section.py 179-183. -/
def sizeSolid (x : ℝ) : ℝ := min 1.3 ((150 / x) ^ (0.2 : ℝ))

/-- The size factor of glulam for one size, timber_section.py 188-192. -/
def sizeGlt (x : ℝ) : ℝ := min 1.1 ((600 / x) ^ (0.1 : ℝ))

/-- The branches of sawn timber and glulam, timber_section.py 178-185 and 187-194, with the size `ref` up to which the factor applies. -/
def khBranch (f : ℝ → ℝ) (ref N M B H : ℝ) : ℝ :=
  if 0 < N ∧ B < ref ∧ M ≠ 0 ∧ H < ref then min (f B) (f H)
  else if 0 < N ∧ B < ref then f B
  else if M ≠ 0 ∧ H < ref then f H
  else 1

/-- `k_h`, timber_section.py 171-201; `N` and `M` are the largest absolute axial force and moment of the member. -/
def kh (k : Kind) (rhok s N M B H : ℝ) : ℝ :=
  match k with
  | .solid => if rhok ≤ 700 then khBranch sizeSolid 150 N M B H else 1
  | .glt => khBranch sizeGlt 600 N M B H
  | .lvl => if M ≠ 0 ∧ H ≠ 300 then min 1.2 ((300 / H) ^ s) else 1
  | .other => 1

/-- `k_L`, timber_member.py 115-122. -/
def kL (k : Kind) (s N L : ℝ) : ℝ := if k = .lvl ∧ 0 < N ∧ L ≠ 3000 then min 1.1 ((3000 / L) ^ (s / 2)) else 1

/-- The characteristic strengths and the kind of a grade, timber_data.py 121-177; `flat` tells whether LVL lies flat. -/
structure Grade where
  kind : Kind
  rhok : ℝ
  s : ℝ
  flat : Bool
  fmk : ℝ
  fmFlatk : ℝ
  ft0k : ℝ
  ft90k : ℝ
  fc0k : ℝ
  fc90k : ℝ
  fc90Flatk : ℝ
  fvk : ℝ

/-- What the strengths of a member depend on, timber_member.py 76-113: grade, factor `kmod`, length, residual width and depth, axial forces and moments of the sections. -/
structure Strengths where
  g : Grade
  km : ℝ
  L : ℝ
  B : ℝ
  H : ℝ
  ned : List ℝ
  myed : List ℝ
  mzed : List ℝ

/-- The factor `kmod` is looked up by the constructor, timber_member.py 107. -/
def Strengths.make (g : Grade) (sc : ℤ) (d : Duration) (L B H : ℝ) (ned myed mzed : List ℝ) : Except PyErr Strengths := do
  let km ← kmod g.kind sc d
  .ok ⟨g, km, L, B, H, ned, myed, mzed⟩

/-- The `k_h` of the section of a member, timber_section.py 176-201.  `k_h` reads the moments in every case, the axial forces only for sawn timber up to 700 kg/m3 and for glulam. -/
def Strengths.kh (m : Strengths) : Except PyErr ℝ := do
  let my ← maxAbs m.myed
  let mz ← maxAbs m.mzed
  if (m.g.kind = .solid ∧ m.g.rhok ≤ 700) ∨ m.g.kind = .glt then
    let n ← maxAbs m.ned
    .ok (Timber.kh m.g.kind m.g.rhok m.g.s n (max my mz) m.B m.H)
  else .ok (Timber.kh m.g.kind m.g.rhok m.g.s 0 (max my mz) m.B m.H)

/-- `fmd`, timber_member.py 135-140. -/
def Strengths.fmd (m : Strengths) : Except PyErr ℝ := do
  let k ← m.kh
  if m.g.kind = .lvl ∧ m.g.flat then .ok (k * toDesign m.g.fmFlatk m.km (gammaM m.g.kind))
  else .ok (k * toDesign m.g.fmk m.km (gammaM m.g.kind))

/-- `unmodified_fmd`, timber_member.py 143-145. -/
def Strengths.fmdPlain (m : Strengths) : ℝ := toDesign m.g.fmk m.km (gammaM m.g.kind)

/-- `ft0d`, timber_member.py 147-152; the kind `other` has no members. -/
def Strengths.ft0d (m : Strengths) : Except PyErr ℝ :=
  match m.g.kind with
  | .lvl => do
    let n ← maxAbs m.ned
    .ok (kL m.g.kind m.g.s n m.L * toDesign m.g.ft0k m.km (gammaM m.g.kind))
  | _ => do
    let k ← m.kh
    .ok (k * toDesign m.g.ft0k m.km (gammaM m.g.kind))

/-- `ft90d`, timber_member.py 159-165. -/
def Strengths.ft90d (m : Strengths) : Except PyErr ℝ :=
  if m.g.kind = .lvl ∧ m.g.flat then .error .assertion else .ok (toDesign m.g.ft90k m.km (gammaM m.g.kind))

/-- `fc0d`, timber_member.py 167-169. -/
def Strengths.fc0d (m : Strengths) : ℝ := toDesign m.g.fc0k m.km (gammaM m.g.kind)

/-- `fc90d`, timber_member.py 171-177. -/
def Strengths.fc90d (m : Strengths) : ℝ := if m.g.kind = .lvl ∧ m.g.flat then toDesign m.g.fc90Flatk m.km (gammaM m.g.kind) else toDesign m.g.fc90k m.km (gammaM m.g.kind)

/-- `fvd`, timber_member.py 179-181. -/
def Strengths.fvd (m : Strengths) : ℝ := toDesign m.g.fvk m.km (gammaM m.g.kind)

end

end Metku.Timber
