import Mathlib.Analysis.SpecialFunctions.Trigonometric.Basic
import Verif.Model.OpenProf
import Verif.Model.ColdRules
import Verif.Model.Ec3Fire

/-!
Model of the cold-formed Z and C sections, `ZSection` and `CSection` of
`metku/eurocodes/en1993/en1993_1_3/cf_profs.py`.

Floats are real numbers and π is exact.  The nodes of the calculation model are kept in three lists (lower part, web,
upper part) whose concatenation is the list `self._points`; `self.parts[...]['nodes'][i]` is then an element of one of
the three.  The reduction factors for local and distortional buckling (`_rho_*`, `_chi_d_*`, `_psi_w`) are the state
`Factors`; the rules they come from are modelled in `Ec3Plate` and `ColdRules`.  Printing and drawing are left out, and
so are `export_cufsm`, `create_free_flange` and the second moments (they are those of `OpenProf`).  The thickness
`t_nom - t_coat` is taken to be a `float`.
-/
namespace Metku.CF

open Metku Metku.Cold Metku.Fire

/-- Which of the two classes. -/
inductive Kind
  | z
  | c
  deriving DecidableEq

/-- Dimensions kept by the constructor, cf_profs.py 109-137, 163-177; `rounded` is the flag `rounded_corners`. -/
structure Dim where
  (tnom tcoat h a b ca cb r : ℝ)
  rounded : Bool

namespace Dim
variable (d : Dim)

/-- `t`, 137, 293-296. -/
def t : ℝ := d.tnom - d.tcoat
/-- `hw`, 739-742. -/
def hw : ℝ := d.h - 2 * (d.r + d.tnom)
/-- `hw_center`, 744-749. -/
def hwC : ℝ := d.h - d.tnom
open Classical in
/-- `bt_center`, 751-761. -/
noncomputable def btC : ℝ := if d.ca = 0 then d.a - 0.5 * d.tnom else d.a - d.tnom
open Classical in
/-- `bb_center`, 763-773. -/
noncomputable def bbC : ℝ := if d.cb = 0 then d.b - 0.5 * d.tnom else d.b - d.tnom
open Classical in
/-- `bt_lip_center`, 775-783. -/
noncomputable def tLip : ℝ := if d.ca = 0 then 0 else d.ca - 0.5 * d.tnom
open Classical in
/-- `bb_lip_center`, 785-793. -/
noncomputable def bLip : ℝ := if d.cb = 0 then 0 else d.cb - 0.5 * d.tnom
open Classical in
/-- `c_top`, 795-802. -/
noncomputable def cTop : ℝ := if 0 < d.ca then d.a - 2 * (d.r + d.tnom) else d.a - (d.r + d.tnom)
open Classical in
/-- `c_bottom`, 804-811. -/
noncomputable def cBottom : ℝ := if 0 < d.cb then d.b - 2 * (d.r + d.tnom) else d.b - (d.r + d.tnom)
open Classical in
/-- `ca_straight`, 813-820. -/
noncomputable def caS : ℝ := if 0 < d.ca then d.ca - d.tnom - d.r else 0
open Classical in
/-- `cb_straight`, 822-830. -/
noncomputable def cbS : ℝ := if 0 < d.cb then d.cb - d.tnom - d.r else 0
/-- `rm` and `Rm`, 215-218, 832-835. -/
def rm : ℝ := d.r + 0.5 * d.tnom
open Classical in
/-- `center_line_length`, 844-855. -/
noncomputable def centerLine : ℝ :=
  let straight := d.cbS + d.cBottom + d.hw + d.cTop + d.caS
  let n : ℝ := 2 + (if 0 < d.ca then 1 else 0) + (if 0 < d.cb then 1 else 0)
  straight + n * Real.pi * d.rm / 2
/-- `Agross`, 857-860. -/
noncomputable def Agross : ℝ := d.t * d.centerLine
/-- `issymmetric`, 200-204. -/
def Sym : Prop := d.a = d.b ∧ d.ca = d.cb

/-- `sin(radians(0.5*90))`, the factor in `notional_width(b, [rm, ..], [90, ..])`, en1993_1_3.py 58-71. -/
noncomputable def s45 : ℝ := Real.sin (0.5 * 90 * Real.pi / 180)
/-- `bp_w`, 331-337. -/
noncomputable def bpW : ℝ := if d.rounded then d.hw + (d.rm * s45 + d.rm * s45) else d.hwC
open Classical in
/-- `bp_t`, 339-349. -/
noncomputable def bpT : ℝ :=
  if d.rounded then (if 0 < d.ca then d.cTop + (d.rm * s45 + d.rm * s45) else d.cTop + d.rm * s45) else d.btC
open Classical in
/-- `bp_b`, 351-364. -/
noncomputable def bpB : ℝ :=
  if d.rounded then (if 0 < d.cb then d.cBottom + (d.rm * s45 + d.rm * s45) else d.cBottom + d.rm * s45) else d.bbC
open Classical in
/-- `bp_t_lip`, 366-376. -/
noncomputable def bpTLip : ℝ := if d.rounded then (if 0 < d.ca then d.caS + d.rm * s45 else 0) else d.tLip
open Classical in
/-- `bp_b_lip`, 378-388. -/
noncomputable def bpBLip : ℝ := if d.rounded then (if 0 < d.cb then d.cbS + d.rm * s45 else 0) else d.bLip
/-- `gr`, 398-401, with `gr(r, t, 45)` of en1993_1_3.py 52-56. -/
noncomputable def gr : ℝ :=
  (d.r + 0.5 * d.tnom) * (Real.tan (45 * Real.pi / 180) - Real.sin (45 * Real.pi / 180))

end Dim

open Classical in
/-- The constructor as far as dimensions go, 109-177.  The flag is stored before the notional widths are read, so the
    two ratios use the widths between centre lines. -/
noncomputable def newDim (tnom h a b ca cb r tcoat : ℝ) (corners : Bool) : Except PyErr Dim := do
  let d : Dim := ⟨tnom, tcoat, h, a, b, ca, cb, if r = 0 then 1.5 * tnom else r, corners⟩
  if corners = false then
    let q1 ← pdiv d.r d.t
    if q1 ≤ 5 then
      let q2 ← pdiv d.r d.bpT
      if q2 ≤ 0.1 then
        let q3 ← pdiv d.r d.bpB
        if q3 ≤ 0.1 then pure { d with rounded := false } else pure { d with rounded := true }
      else pure { d with rounded := true }
    else pure { d with rounded := true }
  else pure d

/-- `xc + r*np.array([cos(angle), sin(angle)])`, 103. -/
noncomputable def arc (xc : Pt) (r φ : ℝ) : Pt := (xc.1 + r * Real.cos φ, xc.2 + r * Real.sin φ)

/-- `corner_points(xc, r, [φ1, φ2], n=5)`, 94-103. -/
noncomputable def cornerPts (xc : Pt) (r φ1 φ2 : ℝ) : List Pt :=
  [arc xc r φ1, arc xc r (φ1 + 1 * ((φ2 - φ1) / 4)), arc xc r (φ1 + 2 * ((φ2 - φ1) / 4)),
   arc xc r (φ1 + 3 * ((φ2 - φ1) / 4)), arc xc r φ2]

/-- `newPts[1:-1]`. -/
def inner (l : List Pt) : List Pt := l.tail.dropLast

/-- Nodes of the calculation model in three lists. -/
structure Pts where
  (lower web upper : List Pt)

/-- `self._points`. -/
def Pts.flat (p : Pts) : List Pt := p.lower ++ p.web ++ p.upper

open Classical in
/-- Lip and flange at the bottom and the corner to the web: `ZSection.create_points` 456-500, `CSection.create_points`
    1443-1491. -/
noncomputable def lowerPts (k : Kind) (d : Dim) : List Pt :=
  let zb := -0.5 * d.hwC
  let rm := d.rm
  match k with
  | .z =>
    (if 0 < d.bLip then
      [(-d.bbC, zb + d.bLip), (-d.bbC, zb + d.bLip - 0.5 * d.cbS)] ++
      (cornerPts (-d.bbC + rm, zb + rm) rm Real.pi (1.5 * Real.pi)).dropLast ++
      [(-d.bbC + rm, zb), (-d.bbC + rm + 1 / 3 * d.cBottom, zb), (-d.bbC + rm + 2 / 3 * d.cBottom, zb),
       (-d.bbC + rm + d.cBottom, zb)]
    else
      [(-d.bbC, zb), (-d.bbC + 0.5 * d.cBottom, zb), (-d.bbC + d.cBottom, zb)]) ++
    inner (cornerPts (-rm, zb + rm) rm (1.5 * Real.pi) (2 * Real.pi))
  | .c =>
    (if 0 < d.bLip then
      [(d.bbC, zb + d.bLip), (d.bbC, zb + d.bLip - 0.5 * d.cbS)] ++
      (cornerPts (d.bbC - rm, zb + rm) rm 0 (-0.5 * Real.pi)).dropLast ++
      [(d.bbC - rm, zb), (d.bbC - rm - 1 / 3 * d.cBottom, zb), (d.bbC - rm - 2 / 3 * d.cBottom, zb),
       (d.bbC - rm - d.cBottom, zb)]
    else
      [(d.bbC, zb), (d.bbC - 0.5 * d.cBottom, zb), (d.bbC - d.cBottom, zb)]) ++
    inner (cornerPts (rm, zb + rm) rm (1.5 * Real.pi) Real.pi)

/-- Nodes of the web, 503-506 and 1494-1497. -/
noncomputable def webPts (d : Dim) : List Pt :=
  [(0, -0.5 * d.hwC + d.rm), (0, -0.5 * d.hwC + d.rm + 0.25 * d.hw), (0, -0.5 * d.hwC + d.rm + 0.75 * d.hw),
   (0, 0.5 * d.hwC - d.rm)]

open Classical in
/-- Corner from the web, flange and lip at the top, 508-541 and 1499-1532 (the two classes agree). -/
noncomputable def upperPts (d : Dim) : List Pt :=
  let zt := 0.5 * d.hwC
  let rm := d.rm
  inner (cornerPts (rm, zt - rm) rm Real.pi (0.5 * Real.pi)) ++
  (if 0 < d.tLip then
    [(rm, zt), (0.25 * d.btC, zt), (0.75 * d.btC, zt), (d.btC - rm, zt)] ++
    inner (cornerPts (d.btC - rm, zt - rm) rm (0.5 * Real.pi) 0) ++
    [(d.btC, zt - rm), (d.btC, zt - 0.5 * d.tLip), (d.btC, zt - d.tLip)]
  else [(rm, zt), (0.5 * d.btC, zt), (d.btC, zt)])

/-- `create_points(n=5)`, 429-541 and 1414-1532. -/
noncomputable def points (k : Kind) (d : Dim) : Pts := ⟨lowerPts k d, webPts d, upperPts d⟩

/-- `create_model`, 544-566: `OpenProf(self._points, self.t)`. -/
noncomputable def grossProf (d : Dim) (p : Pts) : Except PyErr OpenProf := newProf p.flat (.float d.t)

open Classical in
/-- `rounding_factor(r, phi, bp)` as `area(delta=True)` calls it, 971-990 with en1993_1_3.py 73-84. -/
noncomputable def roundingFactor (d : Dim) : Except PyErr ℝ :=
  let n : ℝ := 2 + (if 0 < d.ca then 1 else 0) + (if 0 < d.cb then 1 else 0)
  let bp := d.bpB + d.bpW + d.bpT + (if 0 < d.ca then d.bpTLip else 0) + (if 0 < d.cb then d.bpBLip else 0)
  pdiv (0.43 * (n * (d.r * 90 / 90))) bp

/-- `area(delta)`, 964-994 (a division by zero in NumPy gives `inf`; here an error). -/
noncomputable def areaGross (d : Dim) (p : Pts) (delta : Bool) : Except PyErr ℝ := do
  let g ← grossProf d p
  if delta then
    let q ← roundingFactor d
    pure (g.area * (1 - q))
  else pure (g.area * (1 - 0))

/-- Reduction factors, 149-163. -/
structure Factors where
  (rhoT rhoTLip rhoW psiW rhoB rhoBLip chiT chiB : ℝ)

/-- The values the constructor sets. -/
def Factors.one : Factors := ⟨1, 1, 1, 1, 1, 1, 1, 1⟩

/-- The argument `load` of `effective_section`; other strings fall through both branches. -/
inductive EffLoad
  | bendingYPos
  | compression
  | other

open Classical in
/-- What `effective_section(load)` leaves in the factors, 1003-1060; `new` holds the values computed in this call. -/
noncomputable def effSection (d : Dim) (load : EffLoad) (new old : Factors) : Factors :=
  match load with
  | .bendingYPos =>
    { old with
      rhoT := new.rhoT
      rhoTLip := if 0 < d.ca then new.rhoTLip else old.rhoTLip
      chiT := if 0 < d.ca then new.chiT else old.chiT
      rhoW := new.rhoW
      psiW := new.psiW }
  | .compression =>
    { rhoT := new.rhoT
      rhoTLip := if 0 < d.ca then new.rhoTLip else old.rhoTLip
      chiT := if 0 < d.ca then new.chiT else old.chiT
      rhoB := new.rhoB
      rhoBLip := if 0 < d.cb then new.rhoBLip else old.rhoBLip
      chiB := if 0 < d.cb then new.chiB else old.chiB
      rhoW := new.rhoW
      psiW := 1 }
  | .other => old

/-- `nodes[i].y = y`. -/
def setY (l : List Pt) (i : Nat) (y : ℝ) : List Pt := l.modify i fun p => (y, p.2)
/-- `nodes[i].z = z`. -/
def setZ (l : List Pt) (i : Nat) (z : ℝ) : List Pt := l.modify i fun p => (p.1, z)
/-- `nodes[i].z`. -/
def getZ (l : List Pt) (i : Nat) : ℝ := (l.getD i (0, 0)).2

open Classical in
/-- `CSection.create_edge_stiffener('top')`, 1699-1710, when there is a lip: the nodes belong to `self.prof` and are
    moved in place.  `top_flange[-2]` is entry 5 of the upper part, the last two nodes are entries 11 and 12. -/
noncomputable def cStiffTop (d : Dim) (f : Factors) (p : Pts) : Pts :=
  let u := setY p.upper 5 (d.bpT + d.gr - 0.5 * d.bpT * f.rhoT)
  { p with upper := if f.rhoTLip < 1 then setZ u 11 (getZ u 12 + (1 - f.rhoTLip) * d.bpTLip) else u }

open Classical in
/-- `CSection.create_edge_stiffener('bottom')`, 1725-1735: `bottom_flange[1]` is entry 7 of the lower part. -/
noncomputable def cStiffBottom (d : Dim) (f : Factors) (p : Pts) : Pts :=
  let l := setY p.lower 7 (d.bpB + d.gr - 0.5 * d.bpB * f.rhoB)
  { p with lower := if f.rhoBLip < 1 then setZ l 1 (getZ l 0 + (1 - f.rhoBLip) * d.bpBLip) else l }

open Classical in
/-- What `effective_section('compression')` does to the nodes of the gross section of a C section, 1044-1053. -/
noncomputable def cCompress (d : Dim) (f : Factors) (p : Pts) : Pts :=
  let p := if 0 < d.ca then cStiffTop d f p else p
  if 0 < d.cb then cStiffBottom d f p else p

/-- Nodes and thicknesses of the effective section; thickness `i` belongs to the segment that starts at node `i`. -/
structure EffC where
  pts : Pts
  (tl tw tu : List ℝ)

open Classical in
/-- Compressed height and the effective part at the top, 1603-1617. -/
noncomputable def webParts (d : Dim) (f : Factors) : ℝ × ℝ :=
  if f.psiW < 0 then (d.bpW / (1 - f.psiW), 0.4 * (f.rhoW * (d.bpW / (1 - f.psiW))))
  else if f.psiW < 1 then (d.bpW, 2 * (f.rhoW * d.bpW) / (5 - f.psiW))
  else (d.bpW, 0.5 * (f.rhoW * d.bpW))

open Classical in
/-- The web in `CSection.create_effective_model`, 1600-1644. -/
noncomputable def cEffWeb (d : Dim) (f : Factors) (e : EffC) : EffC :=
  if f.rhoW < 1 then
    let hc := (webParts d f).1
    let be1 := (webParts d f).2
    let bneg := hc - f.rhoW * hc
    let w := setZ e.pts.web 2 (getZ e.pts.web 3 + d.rm * Real.sin (45 * Real.pi / 180) - be1)
    let w := setZ w 1 (getZ w 2 - bneg)
    { e with pts := { e.pts with web := w }, tw := e.tw.set 1 0 }
  else e

open Classical in
/-- The top flange in `CSection.create_effective_model`, 1646-1684. -/
noncomputable def cEffTop (d : Dim) (f : Factors) (e : EffC) : EffC :=
  if 0 < d.ca then
    let tu := e.tu.take 5 ++ (e.tu.drop 5).map (· * f.chiT)
    { e with tu := if f.rhoT < 1 then tu.set 4 0 else tu }
  else if f.rhoT < 1 then
    { e with pts := { e.pts with upper := setY e.pts.upper 4 (f.rhoT * d.bpT + d.gr) }, tu := e.tu.set 4 0 }
  else e

open Classical in
/-- The bottom flange in `CSection.create_effective_model`, 1687-1730. -/
noncomputable def cEffBottom (d : Dim) (f : Factors) (e : EffC) : EffC :=
  if 0 < d.cb then
    let tl := (e.tl.take 7).map (· * f.chiB) ++ e.tl.drop 7
    { e with tl := if f.rhoB < 1 then tl.set 7 0 else tl }
  else if f.rhoB < 1 then
    { e with pts := { e.pts with lower := setY e.pts.lower 1 (f.rhoB * d.bpB + d.gr) } }
  else e

/-- A copy of the gross section, 1598. -/
def copyC (t : ℝ) (p : Pts) : EffC :=
  ⟨p, List.replicate p.lower.length t, List.replicate p.web.length t, List.replicate (p.upper.length - 1) t⟩

/-- `CSection.create_effective_model`, 1590-1733. -/
noncomputable def cEffective (d : Dim) (f : Factors) (p : Pts) : EffC :=
  cEffBottom d f (cEffTop d f (cEffWeb d f (copyC d.t p)))

/-- The effective section as a profile. -/
def EffC.prof (e : EffC) : Except PyErr OpenProf := newProf e.pts.flat (.seq (e.tl ++ e.tw ++ e.tu))

/-- `Aeff` of a C section, 228-231, with the nodes of the gross section afterwards. -/
noncomputable def cAeff (d : Dim) (f : Factors) (p : Pts) : Except PyErr (ℝ × Pts) := do
  let p := cCompress d f p
  let e ← (cEffective d f p).prof
  pure (e.area, p)

open Classical in
/-- `ZSection.create_effective_model`, 587-693, up to the first exception.  A profile has no attribute `parts` (626),
    and `nseg` is commented out where it would be set (643, 657).  What follows without exception is the area when
    there is no lip: only the last node but one and the last segment are touched. -/
noncomputable def zEffective (d : Dim) (f : Factors) (p : Pts) : Except PyErr (Option EffC) := do
  if f.rhoW < 1 then throw .attributeError
  if 0 < d.ca then
    if f.rhoT < 1 then throw .nameError
    pure none
  else if 0 < d.cb then pure none
  else
    let e := copyC d.t p
    pure (some { e with
      pts := { e.pts with upper := setY e.pts.upper 4 (f.rhoT * d.bpT + d.gr) }, tu := e.tu.set 4 0 })

open Classical in
/-- Factor `kf`, 1138-1149. -/
noncomputable def kFactor (d : Dim) (Ned : ℝ) (s1 s2 : Option OpenProf) : Except PyErr ℝ :=
  if Ned < 0 then
    if d.Sym then .ok 1
    else match s1, s2 with
      | some q1, some q2 => pdiv q2.area q1.area
      | _, _ => .error .attributeError
  else .ok 0

open Classical in
/-- `edge_stiffness(flange)`, 1120-1167; `s1` is the stiffener of this flange, `s2` of the other one. -/
noncomputable def edgeStiffness (d : Dim) (E nu Ned : ℝ) (s1 s2 : Option OpenProf) : Except PyErr ℝ := do
  let C ← pdiv (0.25 * E * d.t ^ 3) (1 - nu ^ 2)
  let hw := d.hwC
  let kf ← kFactor d Ned s1 s2
  let b1 ← (match s1 with
    | some q => .ok (|q.centroid.1|)
    | none => .error .attributeError : Except PyErr ℝ)
  let b2 ← (if kf ≠ 0 then
      match s2 with
      | some q => .ok (|q.centroid.1|)
      | none => .error .attributeError
    else .ok 0 : Except PyErr ℝ)
  pdiv C (b1 ^ 2 * hw + b1 ^ 3 + 0.5 * b1 * b2 * hw * kf)

/-- `distortional_buckling(flange)`, 931-961, with `distortional_buckling_stress` of en1993_1_3.py 122-126: slenderness
    and reduction factor. -/
noncomputable def distortional (fyb E K Is As : ℝ) : Except PyErr (ℝ × ℝ) := do
  let scr ← pdiv (2 * √(K * E * Is)) As
  let q ← pdiv fyb scr
  let lam := √q
  pure (lam, chiD lam)

/-- `stress_ratio`, 1082-1118; `zgc` is the height of the centroid. -/
noncomputable def stressRatio (d : Dim) (zgc : ℝ) : Except PyErr ℝ := do
  let q ← pdiv d.hwC (0.5 * d.hwC - zgc)
  pure (-(q - 1))

/-- Slendernesses, 149-158. -/
structure Slender where
  (web top bottom : ℝ)

open Classical in
/-- `axial_force_resistance`, 1237-1265; `gammaM0` is 1. -/
noncomputable def axial (d : Dim) (Ned fyb fya Ag Aeff : ℝ) (l : Slender) : ℝ :=
  if 0 ≤ Ned then fya * Ag
  else if Aeff < Ag then fyb * Aeff
  else
    let top := if 0 < d.ca then l.top / 0.65 else l.top / 0.673
    let bot := if 0 < d.cb then l.bottom / 0.65 else l.bottom / 0.673
    let ratio := max (max (l.web / 0.673) top) bot
    min (Ag * (fyb + 4 * (fya - fyb) * (1 - ratio))) (fya * Ag)

/-- `fya` of a section, 281-284: always with four bends. -/
noncomputable def avgStrength (d : Dim) (fyb fu : ℝ) : ℝ := fya fyb fu d.t d.Agross 4 7

/-- `load` of a purlin. -/
inductive Load
  | gravity
  | uplift
  | down
  deriving DecidableEq

open Classical in
/-- `ZSection.kh(load, a=0)`, 1169-1194; `(e, zs)` is the shear centre, `q = Iyz/Iy`. -/
noncomputable def khZ (d : Dim) (e zs q : ℝ) (load : Load) : Except PyErr ℝ := do
  let gs := 0.5 * d.h - zs
  let kh0 ← pdiv (q * gs) d.h
  match load with
  | .gravity => let kh := kh0 + e / d.h; pure (if e < 0 then kh * (-1) else kh)
  | .uplift => let kh := kh0 + (0 - e) / d.h; pure (if kh0 ≤ (0 - e) / d.h then kh * (-1) else kh)
  | .down => throw .unboundLocal

/-- `CSection.kh(load)`, 1392-1411. -/
noncomputable def khC (d : Dim) (e zs q : ℝ) (load : Load) : Except PyErr ℝ := do
  let gs := 0.5 * d.h - zs
  let kh0 ← pdiv (q * gs) d.h
  match load with
  | .down => pure (kh0 + e / d.h)
  | _ => pure (kh0 - (0.5 * d.btC - e) / d.h)

open Classical in
/-- `KB(load, afp)`, 1196-1213; `kh` is what `self.kh(load)` returns. -/
noncomputable def KB (d : Dim) (E nu kh afp : ℝ) : Except PyErr ℝ :=
  let afp := if afp = 0 then 0.5 * d.a else afp
  let bmod := if 0 < kh then afp else 2 * afp + d.b
  pdiv (0.25 * E * d.t ^ 3) (d.hwC ^ 2 * (1 - nu ^ 2) * (d.hwC + bmod))

open Classical in
/-- `K(load, afp, CD)`, 1215-1235. -/
noncomputable def K (d : Dim) (E nu kh afp CD : ℝ) (load : Load) : Except PyErr ℝ := do
  let kb ← KB d E nu kh afp
  let CD ← if CD ≠ 0 then pure CD else cdA d.a 1 true 10 50 150 (decide (load = .gravity))
  let kaInv ← pdiv (d.hwC ^ 2) CD
  let _ ← pdiv 1 kaInv
  let kbInv ← pdiv 1 kb
  pdiv 1 (kbInv + kaInv)

open Classical in
/-- `ruukki_z(h, t)`, 32-92: widths of the flanges, lip and radius, or `UnboundLocalError`. -/
noncomputable def ruukkiSize (h t : ℝ) : Except PyErr (ℝ × ℝ × ℝ × ℝ) :=
  if h ≤ 150 then
    if t = 1 then .ok (45, 39, 18, 2)
    else if t = 1.2 then .ok (45.4, 39.4, 18, 2)
    else if t = 1.5 then .ok (46, 40, 18, 2)
    else if t = 2 then .ok (47, 41, 18, 2)
    else .error .unboundLocal
  else if h ≤ 250 then
    if t = 1.5 then .ok (70, 62, 26, 2)
    else if t = 2 then .ok (71, 63, 26, 2)
    else if t = 2.5 then .ok (72, 64, 26, 2)
    else if t = 3 then .ok (73, 65, 26, 2)
    else .error .unboundLocal
  else if h = 300 then
    if t = 1.5 then .ok (89, 81, 26, 1)
    else if t = 2 then .ok (90, 82, 26, 1)
    else if t = 2.5 then .ok (91, 83, 26, 1)
    else if t = 3 then .ok (92, 84, 26, 1)
    else .error .unboundLocal
  else if h = 350 then
    if t = 2 then .ok (90, 82, 30, 2)
    else if t = 2.5 then .ok (91, 83, 30, 2)
    else if t = 3 then .ok (92, 84, 30, 2)
    else .error .unboundLocal
  else .error .unboundLocal

/-- `ruukki_z(h, t)`, 32-92, with the default coating of 0.04 mm. -/
noncomputable def ruukkiZ (h t : ℝ) : Except PyErr Dim := do
  let s ← ruukkiSize h t
  newDim t h s.1 s.2.1 s.2.2.1 s.2.2.1 s.2.2.2 0.04 true

end Metku.CF
