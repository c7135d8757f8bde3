import Verif.Model.TimberMember
import Mathlib.Data.List.Sort
import Mathlib.Analysis.SpecialFunctions.Trigonometric.Basic

/-!
Model of the stability checks of timber members (`metku/structures/timber/timber_member.py` 701-954, 1138-1243 and 1424-1464), function by function, over the reals.

Simplifications: floats are exact; infinite rotational stiffness stands for any number from 1e15 on; arrays are lists, and numpy broadcasting is written out (`bcast`); of a support only its class is kept, and the
supports at the two ends are given (`None` when the frame has none there); the effective length for lateral buckling is not zero, so that the fallback in `sigma_mcrit` (line 936) is not reached; a number to the power
0.5 is its root, which C151 shows to be of a number that is not negative.
-/
namespace Metku.Timber

open Real

noncomputable section

/-- `beta_c`, timber_member.py 701-708. -/
def betaC (k : Kind) : ℝ := if k = .solid then 0.2 else 0.1

/-- `lamda_rel`, timber_member.py 875-882, of one segment. -/
def relSlender (lam fc0k e005 : ℝ) : ℝ := lam / π * √(fc0k / e005)

/-- `k`, timber_member.py 893-900, of one segment. -/
def kFac (bc l : ℝ) : ℝ := 0.5 * (1 + bc * (l - 0.3) + l ^ 2)

/-- `k_c`, timber_member.py 902-912, of one segment. -/
def kC (bc l : ℝ) : ℝ := (kFac bc l + √(kFac bc l ^ 2 - l ^ 2))⁻¹

/-- `list.sort`. -/
def sortR (l : List ℝ) : List ℝ := l.insertionSort (· ≤ ·)

/-- The ends of the segments between lateral supports, timber_member.py 584-591, 716-723, 1145-1148, 1186-1189 and 1222-1225. -/
def edges (s : List ℝ) : List ℝ := sortR (s ++ [0, 1])

/-- The segments as pairs of ends. -/
def segs (s : List ℝ) : List (ℝ × ℝ) := (edges s).zip (edges s).tail

/-- The length of segment `i`, timber_member.py 1445-1453 and 1454-1462, from sorted supports. -/
def segLength (L : ℝ) (s : List ℝ) (i : ℕ) : ℝ :=
  if s.length = 0 then L
  else if i = 0 then L * s.getD i 0
  else if i = s.length then L * (1 - s.getD (i - 1) 0)
  else L * (s.getD i 0 - s.getD (i - 1) 0)

/-- `calc_l_c`, timber_member.py 1439-1464, about one axis. -/
def segLengths (L : ℝ) (s : List ℝ) : List ℝ := (List.range ((sortR s).length + 1)).map (segLength L (sortR s))

/-- `add_neighbours_support`, timber_member.py 1424-1437, from the locations of the inner nodes that belong to other members too. -/
def addNeighbours (s inner : List ℝ) : List ℝ := sortR (s ++ inner)

/-- The classes of supports, frame2d.py 3711-3755. -/
inductive Supp
  | fixed | xy | y | x | hinge
  deriving DecidableEq

/-- The type of a member, timber_member.py 843-862. -/
inductive MType
  | column | beam | other
  deriving DecidableEq

/-- Effective length factor of a beam with one segment, timber_member.py 774-782. -/
def betaBeam (sj1 sj2 : ℝ) : ℝ :=
  if sj1 < 1000 ∧ sj2 < 1000 then 1
  else if (10 ^ 15 ≤ sj1 ∧ sj2 ≤ 1000) ∨ (10 ^ 15 ≤ sj2 ∧ sj1 ≤ 1000) then 0.9
  else if 10 ^ 15 ≤ sj1 ∧ 10 ^ 15 ≤ sj2 then 0.8
  else 0.85

/-- The same of a column with supports at both ends, timber_member.py 784-801; `and` binds stronger than `or` in lines 789-790, and no branch leaves the empty list. -/
def betaBoth (a b : Supp) : Option ℝ :=
  if a = .fixed ∧ b = .fixed then some 0.7
  else if a = .xy ∧ b = .xy then some 1
  else if a = .fixed ∨ (b = .fixed ∧ a = .xy) ∨ b = .xy then some 0.85
  else if a = .y ∨ b = .y then
    if a = .fixed ∨ b = .fixed then some 2.2 else if a = .xy ∨ b = .xy then some 2 else none
  else if a = .x ∨ b = .x then
    if a = .fixed ∨ b = .fixed then some 0.85 else if a = .xy ∨ b = .xy then some 1 else none
  else none

/-- The same with a support at one end at most, timber_member.py 802-805. -/
def betaOne (s e : Option Supp) : Option ℝ :=
  if s = some .fixed ∨ e = some .fixed then some 2.2 else if s = some .xy ∨ e = some .xy then some 2 else none

/-- Effective length factor of a column with one segment, timber_member.py 784-805. -/
def betaColumn : Option Supp → Option Supp → Option ℝ
  | some a, some b => betaBoth a b
  | s, e => betaOne s e

/-- The factor of the first or the last of several segments, timber_member.py 816-823 and 826-833. -/
def betaEnd (s : Option Supp) (sj : ℝ) : ℝ :=
  if s = some .fixed ∨ 10 ^ 15 ≤ sj then 0.8
  else if s = some .xy ∨ sj ≤ 1000 then 1
  else if 1000 < sj ∧ sj < 10 ^ 15 then 0.85
  else 1

/-- The value of `self.beta` about one axis: a number, or a list with a number per segment. -/
inductive Beta
  | num (x : ℝ)
  | vec (l : List ℝ)

/-- The supports and stiffnesses that the effective lengths depend on. -/
structure Ends where
  start : Option Supp
  stop : Option Supp
  sj1 : ℝ
  sj2 : ℝ

/-- The factor of segment `i` of several, timber_member.py 809-839; `weak` is `index == 1`. -/
def betaSeg (e : Ends) (beam weak : Bool) (n i : ℕ) : ℝ :=
  if beam && weak then 1
  else if i = 0 then betaEnd e.start e.sj1
  else if i = n - 1 then betaEnd e.stop e.sj2
  else if weak then 1 else 0.9

/-- `form_beta`, timber_member.py 764-839, for `n` segments. -/
def formBeta (e : Ends) (beam weak : Bool) (n : ℕ) : Beta :=
  if n = 1 then
    if beam then .num (betaBeam e.sj1 e.sj2) else (betaColumn e.start e.stop).elim (.vec []) .num
  else .vec ((List.range n).map (betaSeg e beam weak n))

/-- A binary operation on arrays of one dimension. -/
def bcast {α β γ : Type} (f : α → β → γ) (a : List α) (b : List β) : Except PyErr (List γ) :=
  if a.length = b.length then .ok (List.zipWith f a b)
  else
    match a, b with
    | a, [y] => .ok (a.map fun x => f x y)
    | [x], b => .ok (b.map (f x))
    | _, _ => .error .valueError

/-- Factor times lengths. -/
def Beta.times (b : Beta) (lc : List ℝ) : Except PyErr (List ℝ) :=
  match b with
  | .num x => .ok (lc.map (x * ·))
  | .vec l => bcast (· * ·) l lc

/-- What `Ln` reads and writes: type, ends, the attribute `beta` about both axes (a single number stands for both), and the lengths of the segments. -/
structure Stab where
  type : MType
  ends : Ends
  beta : Option (Beta × Beta)
  lcy : List ℝ
  lcz : List ℝ

/-- The factor of members that are neither columns nor beams, timber_member.py 855-860. -/
def betaOther (e : Ends) : ℝ :=
  if 10 ^ 15 ≤ e.sj1 ∧ 10 ^ 15 ≤ e.sj2 then 0.7
  else if (10 ^ 15 ≤ e.sj1 ∧ e.sj2 ≤ 1000) ∨ (10 ^ 15 ≤ e.sj2 ∧ e.sj1 ≤ 1000) then 0.85
  else 1

/-- The factors that `Ln` uses, timber_member.py 841-862: those stored before, or those of the type. -/
def Stab.factors (s : Stab) : Beta × Beta :=
  match s.beta with
  | some b => b
  | none =>
    match s.type with
    | .column => (formBeta s.ends false false s.lcy.length, formBeta s.ends false true s.lcz.length)
    | .beam => (formBeta s.ends true false s.lcy.length, formBeta s.ends true true s.lcz.length)
    | .other => (.num (betaOther s.ends), .num (betaOther s.ends))

/-- `Ln`, timber_member.py 755-863: the buckling lengths. -/
def Stab.ln (s : Stab) : Except PyErr (List ℝ × List ℝ) := do
  let y ← s.factors.1.times s.lcy
  let z ← s.factors.2.times s.lcz
  .ok (y, z)

/-- The member after `Ln`: columns and beams keep the factors, timber_member.py 848 and 853. -/
def Stab.afterLn (s : Stab) : Stab := if s.type = .other then s else { s with beta := some s.factors }

/-- The first section at a location, `self.loc.index(loc)`. -/
def TMember.firstAt (m : TMember) (x : ℝ) : Option Forces := m.secs.find? fun f => decide (f.loc = x)

/-- The sections read for a segment, timber_member.py 1153-1157. -/
def TMember.secsIn (m : TMember) (seg : ℝ × ℝ) : List Forces := (m.locs.filter fun x => decide (seg.1 ≤ x ∧ x ≤ seg.2)).filterMap m.firstAt

/-- `min` of a list. -/
def listMin : List ℝ → Except PyErr ℝ
  | [] => .error .valueError
  | a :: l => .ok (l.foldl min a)

/-- `max` of a list by absolute value. -/
def maxByAbs : List ℝ → Except PyErr ℝ
  | [] => .error .valueError
  | a :: l => .ok (l.foldl (fun x y => if |x| < |y| then y else x) a)

/-- The stresses of a segment, timber_member.py 1149-1164. -/
def TMember.segStress (m : TMember) (seg : ℝ × ℝ) : Except PyErr (ℝ × ℝ × ℝ) := do
  let c ← listMin ((m.secsIn seg).map m.sigma0)
  let y ← maxByAbs ((m.secsIn seg).map m.sigmaY)
  let z ← maxByAbs ((m.secsIn seg).map m.sigmaZ)
  .ok (c, y, z)

/-- The utilisation of a segment about the strong axis, timber_member.py 1177 and 1179. -/
def TMember.useY (m : TMember) (s : ℝ × ℝ × ℝ) (kc : ℝ) : ℝ := if s.1 < 0 then |s.1| / (kc * m.fc0d) + |s.2.1| / m.fmd + 0.7 * s.2.2 / m.fmd else 0

/-- The utilisation of a segment about the weak axis, timber_member.py 1178 and 1179. -/
def TMember.useZ (m : TMember) (s : ℝ × ℝ × ℝ) (kc : ℝ) : ℝ := if s.1 < 0 then |s.1| / (kc * m.fc0d) + 0.7 * |s.2.1| / m.fmd + s.2.2 / m.fmd else 0

/-- `check_buckling`, timber_member.py 1138-1181, from the supports and the factors `k_c` about both axes. -/
def TMember.checkBuckling (m : TMember) (supY supZ kcy kcz : List ℝ) : Except PyErr (ℝ × ℝ) := do
  let sy ← (segs supY).mapM m.segStress
  let sz ← (segs supZ).mapM m.segStress
  let uy ← bcast m.useY sy kcy
  let uz ← bcast m.useZ sz kcz
  let a ← listMax uy
  let b ← listMax uz
  .ok (a, b)

/-- Whether `[a, b] < [c, d]` in Python. -/
def lexLt (a b : ℝ × ℝ) : Bool := decide (a.1 < b.1 ∨ (a.1 = b.1 ∧ a.2 < b.2))

/-- The section whose stresses are the largest list, timber_member.py 735 and 744. -/
def TMember.lexMax (m : TMember) : List Forces → Except PyErr Forces
  | [] => .error .valueError
  | f :: l => .ok (l.foldl (fun g h => if lexLt (m.sigmaY g, m.sigmaZ g) (m.sigmaY h, m.sigmaZ h) then h else g) f)

/-- `radius_of_gyration`, timber_member.py 710-753, about the strong axis. -/
def TMember.gyrY (m : TMember) (s : List ℝ) : Except PyErr (List ℝ) := (segs s).mapM fun g => do
  let f ← m.lexMax (m.secsIn g)
  .ok √(m.B * m.H f.loc ^ 3 / 12 / (m.B * m.H f.loc))

/-- `radius_of_gyration`, timber_member.py 710-753, about the weak axis. -/
def TMember.gyrZ (m : TMember) (s : List ℝ) : Except PyErr (List ℝ) := (segs s).mapM fun g => do
  let f ← m.lexMax (m.secsIn g)
  .ok √(m.H f.loc * m.B ^ 3 / 12 / (m.B * m.H f.loc))

/-- `k_c` about one axis from buckling lengths and radii, timber_member.py 865-882 and 893-912. -/
def kcList (bc fc0k e005 : ℝ) (ln i : List ℝ) : Except PyErr (List ℝ) := bcast (fun l r => kC bc (relSlender (l / r) fc0k e005)) ln i

/-- `k_c`, timber_member.py 902-912, and `check_buckling`, 1138-1181, of a member. -/
def TMember.buckling (m : TMember) (s : Stab) (supY supZ : List ℝ) (bc fc0k e005 : ℝ) : Except PyErr (ℝ × ℝ) := do
  let iy ← m.gyrY supY
  let iz ← m.gyrZ supZ
  let ln ← s.ln
  let kcy ← kcList bc fc0k e005 ln.1 iy
  let kcz ← kcList bc fc0k e005 ln.2 iz
  m.checkBuckling supY supZ kcy kcz

/-- `edge_load`, timber_member.py 921-926. -/
inductive Edge
  | compression | tension | other
  deriving DecidableEq

/-- `l_ef`, timber_member.py 914-926, from the length of the segment and the depth. -/
def lEf (e : Edge) (lc h : ℝ) : ℝ :=
  match e with
  | .compression => lc * 0.9 + 2 * h
  | .tension => lc * 0.9 - 0.5 * h
  | .other => lc * 0.9

/-- `sigma_mcrit`, timber_member.py 928-938, of a rectangle with a torsion constant. -/
def sigmaCrit (e005 g005 b h it lef : ℝ) : ℝ := π * √(e005 * (h * b ^ 3 / 12) * g005 * it) / (lef * (b * h ^ 2 / 6))

/-- `lamda_relm`, timber_member.py 940-945. -/
def relM (fmk scrit : ℝ) : ℝ := √(fmk / scrit)

/-- `k_crit`, timber_member.py 947-954. -/
def kCrit (l : ℝ) : ℝ := if l ≤ 0.75 then 1 else if l ≤ 1.4 then 1.56 - 0.75 * l else 1 / l ^ 2

/-- The material data lateral buckling needs. -/
structure LatMat where
  e005 : ℝ
  g005 : ℝ
  fmk : ℝ
  edge : Edge

/-- `k_crit` of a segment at a location. -/
def TMember.kCritAt (m : TMember) (t : LatMat) (lc x : ℝ) : ℝ :=
  kCrit (relM t.fmk (sigmaCrit t.e005 t.g005 m.B (m.H x) (torInertia (m.H x) m.B) (lEf t.edge lc (m.H x))))

/-- Whether formula 6.33 is used, timber_member.py 1193. -/
def TMember.pureBending (m : TMember) : Except PyErr Bool := do
  let y ← maxByAbs (m.secs.map Forces.myed)
  let n ← maxByAbs (m.secs.map Forces.ned)
  .ok (decide (y ≠ 0 ∧ |n| ≤ 0.1))

/-- The utilisation of one section in segment `i`, timber_member.py 1194-1198. -/
def TMember.lateralAt (m : TMember) (t : LatMat) (lcz kcz : List ℝ) (pure : Bool) (i : ℕ) (f : Forces) : Except PyErr ℝ := do
  let lc ← pyGet lcz i
  if pure then .ok (m.sigmaY f / (m.kCritAt t lc f.loc * m.fmd))
  else do
    let kc ← pyGet kcz i
    .ok ((m.sigmaY f / (m.kCritAt t lc f.loc * m.fmd)) ^ 2 + |m.sigma0 f| / (kc * m.fc0d))

/-- `check_LT_buckling`, timber_member.py 1183-1203, from the supports, lengths of segments and factors `k_c` about the weak axis. -/
def TMember.checkLateral (m : TMember) (t : LatMat) (supZ lcz kcz : List ℝ) : Except PyErr ℝ := do
  let pure ← m.pureBending
  let rows ← (List.range (segs supZ).length).mapM fun i : ℕ => (((segs supZ)[i]?.elim [] m.secsIn).mapM (m.lateralAt t lcz kcz pure i))
  listMax rows.flatten

/-- The forces `Nd` of the compressed edge, timber_member.py 1226-1233. -/
def TMember.edgeForces (m : TMember) (t : LatMat) (supZ lcz : List ℝ) : Except PyErr (List ℝ) := do
  let rows ← (List.range (segs supZ).length).mapM fun i : ℕ => (((segs supZ)[i]?.elim [] m.secsIn).mapM fun f => do
    let lc ← pyGet lcz i
    .ok ((1 - m.kCritAt t lc f.loc) * (f.myed / m.H f.loc)))
  .ok rows.flatten

/-- `bracing`, timber_member.py 1205-1243: stiffness and force of a brace, and the load of a bracing system for `n` frames.  `L` is the length of the member in millimetres, `ks` the factor that line 1219 sets when
it is not given and no line reads. -/
def TMember.bracing (m : TMember) (k : Kind) (t : LatMat) (supZ lcz : List ℝ) (n : ℕ) (_ks : Option ℝ) : Except PyErr (ℝ × ℝ × ℝ) := do
  let nds ← m.edgeForces t supZ lcz
  let nd ← listMax nds
  .ok (nd / (m.L / (supZ.length + 1 : ℕ)), if k = .solid then nd / 50 else nd / 80, min 1 √(15 / m.L) * (n * nd / (50 * m.L)))

end

end Metku.Timber
