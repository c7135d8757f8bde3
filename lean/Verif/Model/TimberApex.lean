import Verif.Model.TimberStab
import Mathlib.Analysis.SpecialFunctions.Trigonometric.Arctan
import Mathlib.Analysis.SpecialFunctions.Pow.Real

/-!
Model of the checks of tapered and curved timber beams at their apex and along their tapered edge (`metku/structures/timber/timber_member.py` 283-352, 398-479, 956-997 and 1245-1334), function by function, over the reals.

Simplifications: floats are exact; the volumes `V` and `V_tot` (354-396) are arguments; a number to the power -1/2 is the inverse of its root; the elastic moduli are those of a rectangle (C141); the frame's loads are reduced to
direction and end values; the class `PulpettiPalkki` has no apex, and the error of its apex checks stands for any exception.
-/
namespace Metku.Timber

open Real

noncomputable section

/-- The classes of sections with an apex or a tapered edge, timber_section.py 318-852: `PulpettiPalkki`, `HarjaPalkki`, `MahaPalkki`, `KaarevaPalkki` and `KaarevaHarjaPalkki`. -/
inductive Form
  | single | double | belly | arc | ridge
  deriving DecidableEq

/-- What the checks read of such a section: class, depths at the end and at the apex, attribute `alpha`, inner radius and thickness of laminations, place of the apex, whether it is turned over. -/
structure ApexSec where
  form : Form
  h0 : ℝ
  hap : ℝ
  alpha : ℝ
  rIn : ℝ
  t : ℝ
  xap : ℝ
  flipped : Bool

/-- `alfa`, timber_member.py 466-479. -/
def ApexSec.alfa (a : ApexSec) (L : ℝ) : ℝ :=
  match a.form with
  | .single => arctan ((a.hap - a.h0) / L)
  | .double => arctan ((a.hap - a.h0) / (L / 2))
  | _ => a.alpha

/-- `k_r`, timber_member.py 341-352. -/
def ApexSec.kR (a : ApexSec) : ℝ :=
  match a.form with
  | .arc | .ridge => if 240 ≤ a.rIn * 1000 / a.t then 1 else 0.76 + 0.001 * (a.rIn * 1000 / a.t)
  | _ => 1

/-- `k_dis`, timber_member.py 410-415. -/
def ApexSec.kDis (a : ApexSec) : ℝ :=
  match a.form with
  | .arc | .ridge => 1.7
  | _ => 1.4

/-- The texts of the types, timber_data.py 125-177. -/
def Kind.text : Kind → String
  | .solid => "solid_timber"
  | .glt => "glt"
  | .lvl => "lvl"
  | .other => ""

/-- `k_vol`, timber_member.py 398-408, from `perm_k_vol`, the type and the volumes. -/
def kVol (perm : Option ℝ) (k : Kind) (V Vtot : ℝ) : ℝ := perm.getD (if k.text = "solid timber" then 1 else (10 ^ 7 / if 2 / 3 * Vtot < V then 2 / 3 * Vtot else V) ^ (0.2 : ℝ))

/-- `hap / r` with the radius of the middle, timber_member.py 422, 428, 437 and 440. -/
def ApexSec.ratio (a : ApexSec) : ℝ := a.hap / (a.rIn + 0.5 * a.hap)

/-- `k_p`, timber_member.py 417-429; `None` for the class `PulpettiPalkki`. -/
def ApexSec.kP (a : ApexSec) (L : ℝ) : Option ℝ :=
  match a.form with
  | .single => none
  | .double | .belly => some (0.2 * tan (a.alfa L))
  | .arc => some (0.25 * a.ratio)
  | .ridge => some (0.2 * tan (a.alfa L) + (0.25 - 1.5 * tan (a.alfa L) + 2.6 * tan (a.alfa L) ^ 2) * a.ratio + (2.1 * tan (a.alfa L) - 4 * tan (a.alfa L) ^ 2) * a.ratio ^ 2)

/-- `k_l`, timber_member.py 431-445; `None` for the class `PulpettiPalkki`. -/
def ApexSec.kL (a : ApexSec) (L : ℝ) : Option ℝ :=
  match a.form with
  | .single => none
  | .double | .belly => some (1 + 1.4 * tan (a.alfa L) + 5.4 * tan (a.alfa L) ^ 2)
  | .arc => some (1 + 0.35 * a.ratio + 0.6 * a.ratio ^ 2)
  | .ridge => some (1 + 1.4 * tan (a.alfa L) + 5.4 * tan (a.alfa L) ^ 2 + 0.35 * -8 * tan (a.alfa L) * a.ratio + (0.6 + 8.3 * tan (a.alfa L) - 7.8 * tan (a.alfa L) ^ 2) * a.ratio ^ 2 + 6 * tan (a.alfa L) ^ 2 * a.ratio ^ 3)

/-- One step of the search from the start, timber_member.py 315-322 and 970-977. -/
def nearBelow (x q y : ℝ) : ℝ := if x - y < x - q ∧ 0 ≤ x - y then y else q

/-- One step of the search from the end, timber_member.py 324-331 and 979-986. -/
def nearAbove (x q y : ℝ) : ℝ := if y - x < q - x ∧ 0 ≤ y - x then y else q

/-- `minusloc`; `loc.index(None)` raises, timber_member.py 314-322 and 332. -/
def minusLoc (x : ℝ) : List ℝ → Except PyErr ℝ
  | [] => .error .valueError
  | a :: l => .ok (l.foldl (nearBelow x) a)

/-- `plusloc`, timber_member.py 323-331. -/
def plusLoc (x : ℝ) (l : List ℝ) : Except PyErr ℝ :=
  match l.reverse with
  | [] => .error .valueError
  | a :: l => .ok (l.foldl (nearAbove x) a)

/-- A quantity of the section at `x`, or else the mean of the sections next to it, timber_member.py 305-332 and 965-988. -/
def TMember.atApex (m : TMember) (x : ℝ) (q : Forces → ℝ) : Except PyErr ℝ :=
  match m.firstAt x with
  | some f => .ok (q f)
  | none => do
    let a ← minusLoc x m.locs
    let b ← plusLoc x m.locs
    match m.firstAt a, m.firstAt b with
    | some f, some g => .ok ((q f + q g) / 2)
    | _, _ => .error .valueError

/-- `M_apd`, timber_member.py 305-332. -/
def TMember.apexMoment (m : TMember) (a : ApexSec) : Except PyErr ℝ := m.atApex a.xap Forces.myed

/-- `M_apd / W_ap`, timber_member.py 301, 304, 334-339 and 1247. -/
def TMember.apexStress (m : TMember) (a : ApexSec) : Except PyErr ℝ := do
  let M ← m.apexMoment a
  .ok (M / (m.B * m.H a.xap ^ 2 / 6))

/-- A factor that is `None` cannot be multiplied. -/
def needed : Option ℝ → Except PyErr ℝ
  | some x => .ok x
  | none => .error .typeError

/-- `check_apex_bending_stress`, timber_member.py 1245-1248. -/
def TMember.checkApexBending (m : TMember) (a : ApexSec) : Except PyErr ℝ := do
  let k ← needed (a.kL m.L)
  let s ← m.apexStress a
  .ok (k * s / (a.kR * m.fmd))

/-- A load of the member: whether it acts along y, and its values at both ends. -/
structure MLoad where
  isY : Bool
  v0 : ℝ
  v1 : ℝ

/-- The load `p`, timber_member.py 296-299: the last uniform one along y, if the compressed edge is loaded. -/
def edgeLoad (compressed : Bool) (loads : List MLoad) : ℝ := loads.foldl (fun p l => if l.isY ∧ l.v0 = l.v1 ∧ compressed then l.v0 else p) 0

/-- `sigma_t90d`, timber_member.py 294-304. -/
def TMember.sigmaT90 (m : TMember) (a : ApexSec) (f655 : Bool) (compressed : Bool) (loads : List MLoad) : Except PyErr ℝ := do
  let k ← needed (a.kP m.L)
  let s ← m.apexStress a
  if f655 then .ok (k * s - 0.6 * (edgeLoad compressed loads / m.B)) else .ok (k * s)

/-- `check_apex_perpendicular_tension`, timber_member.py 1250-1252, and `check_perpendicular_to_grain_tension`, 992-997. -/
def TMember.checkApexTension (m : TMember) (a : ApexSec) (kvol ft90d : ℝ) : Except PyErr ℝ := do
  let s ← m.sigmaT90 a false false []
  .ok (s / (a.kDis * kvol * ft90d))

/-- The shear stress at the start, timber_member.py 1257-1274. -/
def TMember.apexTau1 (m : TMember) : Except PyErr ℝ := do
  let loc ← pyGet m.locs 0
  let f ← pyGet m.secs (if loc < m.zoneStart then shiftStart m.locs m.zoneStart 0 else 0)
  .ok (m.tau f).2

/-- The shear stress at the end, timber_member.py 1275-1290; the location compared in line 1282 is still that of the start. -/
def TMember.apexTau2 (m : TMember) : Except PyErr ℝ := do
  let loc ← pyGet m.locs 0
  let f ← pyGet m.secs (if 1 - m.zoneEnd < loc then shiftEnd m.locs (1 - m.zoneEnd) (m.secs.length - 1) else m.secs.length - 1)
  .ok (m.tau f).2

/-- `check_apex_shear_perpendicular_tension_combined`, timber_member.py 1254-1334. -/
def TMember.checkApexCombined (m : TMember) (a : ApexSec) (kvol ft90d : ℝ) (f655 compressed : Bool) (loads : List MLoad) : Except PyErr ℝ := do
  let t1 ← m.apexTau1
  let t2 ← m.apexTau2
  let s ← m.sigmaT90 a f655 compressed loads
  .ok (max t1 t2 / m.fvd + s / (a.kDis * kvol * ft90d))

/-- `sigma_m_alpha_d`, timber_member.py 283-292. -/
def TMember.edgeStress (m : TMember) : Except PyErr ℝ := do
  let lo ← listMin (m.locs.filterMap fun x => (m.firstAt x).map m.sigmaY)
  let hi ← listMax (m.locs.filterMap fun x => (m.firstAt x).map m.sigmaY)
  .ok (if max |lo| |hi| = |lo| then lo else hi)

/-- `k_m_alpha`, timber_member.py 447-464, from the slope, the stress and the strengths. -/
def kMAlpha (flipped : Bool) (tn sigma fmd fvd fc90d : ℝ) : ℝ :=
  if (flipped = false ∧ 0 ≤ sigma) ∨ (flipped = true ∧ sigma ≤ 0) then (√(1 + (tn * (4 / 3) * fmd / fvd) ^ 2 + (tn ^ 2 * fmd / fc90d) ^ 2))⁻¹
  else (√(1 + (tn * (2 / 3) * fmd / fvd) ^ 2 + (tn ^ 2 * fmd / fc90d) ^ 2))⁻¹

/-- `check_single_tapered_beam_bending_tension`, timber_member.py 956-958. -/
def TMember.checkEdge (m : TMember) (a : ApexSec) (fc90d : ℝ) : Except PyErr ℝ := do
  let s ← m.edgeStress
  .ok (s / (kMAlpha a.flipped (tan (a.alfa m.L)) s m.fmd m.fvd fc90d * m.fmd))

/-- `check_tapered_beam_bending_tension`, timber_member.py 960-990. -/
def TMember.checkTaperedBending (m : TMember) (a : ApexSec) : Except PyErr ℝ := do
  let k ← needed (a.kL m.L)
  let s ← m.atApex a.xap m.sigmaY
  .ok (k * s / (a.kR * m.fmd))

end

end Metku.Timber
