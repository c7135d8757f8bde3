import Verif.Model.Bolt

/-!
Model of T-stubs, bolt rows and groups of bolt rows (`metku/eurocodes/en1993/en1993_1_8/en1993_1_8.py` 336-2106) and of the end-plate joint (`metku/structures/steel/end_plate_joint.py`),
function by function, over the reals.

Simplifications: floats are exact; printing, drawing and costs are left out; the end distance `e1` of a column flange keeps its default, infinity (line 1375, no line of the library sets it);
two bolts in a row (386-389: the joint passes a number); the rows of a group are at the positions END_ROW, INNER_ROW, ADJACENT_TO_STIFFENER_ROW or END_ROW_ADJACENT_TO_STIFFENER of the column
flange, and the plate positions are those of Table 6.6 with the row outside the tension flange, if any, first; stiffness factors of the rows are passed to the stiffness of the joint;
the resistances of stiffened columns raise before they are computed, so `find_alpha` is not reached and not modelled; divisions by dimensions are total and the theorems assume them positive.
-/
namespace Metku.Bolts

open Real

noncomputable section

/-- Current values of the properties of a `TStub`, en1993_1_8.py 1173-1369. -/
structure TStub where
  cp : ℝ
  nc : ℝ
  tf : ℝ
  fy : ℝ
  m : ℝ
  n : ℝ
  Ft : ℝ

/-- `leff_1`, en1993_1_8.py 1283-1289, 1741-1747. -/
def TStub.leff1 (s : TStub) : ℝ := min s.cp s.nc

/-- `leff_2`, en1993_1_8.py 1291-1297, 1749-1755. -/
def TStub.leff2 (s : TStub) : ℝ := s.nc

/-- `MplRd_1`, en1993_1_8.py 1315-1319, 1784-1788. -/
def TStub.mpl1 (s : TStub) : ℝ := 25 / 100 * s.leff1 * s.tf ^ 2 * s.fy / gammaM0

/-- `MplRd_2`, en1993_1_8.py 1321-1325, 1790-1794. -/
def TStub.mpl2 (s : TStub) : ℝ := 25 / 100 * s.leff2 * s.tf ^ 2 * s.fy / gammaM0

/-- `F_T_1_Rd`, en1993_1_8.py 1327-1329, 1796-1798. -/
def TStub.F1 (s : TStub) : ℝ := 4 * s.mpl1 / s.m

/-- `F_T_3_Rd`, en1993_1_8.py 1339-1345, 1804-1813: `Ft` is the sum of the tension resistances of the bolts. -/
def TStub.F3 (s : TStub) : ℝ := s.Ft

/-- `F_T_2_Rd`, en1993_1_8.py 1331-1333, 1800-1802. -/
def TStub.F2 (s : TStub) : ℝ := (2 * s.mpl2 + s.n * s.F3) / (s.m + s.n)

/-- `failure_mode`: the first smallest of the three resistances, en1993_1_8.py 1366, 1828. -/
def TStub.mode (s : TStub) : ℕ := if s.F1 ≤ s.F2 ∧ s.F1 ≤ s.F3 then 0 else if s.F2 ≤ s.F3 then 1 else 2

/-- Value of `FT_Rd`, en1993_1_8.py 1353-1369, 1815-1831. -/
def TStub.FT (s : TStub) : ℝ := match s.mode with
  | 0 => s.F1
  | 1 => s.F2
  | _ => s.F3

/-- What a T-stub remembers: `failure_mode` (`none` for -1) and `_leff`, en1993_1_8.py 1205-1208. -/
structure Cache where
  mode : Option ℕ
  leff1 : ℝ
  leff2 : ℝ

/-- `FT_Rd` with its effects on the object, en1993_1_8.py 1353-1369. -/
def TStub.evalFT (s : TStub) (_ : Cache) : ℝ × Cache := (s.FT, { mode := some s.mode, leff1 := s.leff1, leff2 := s.leff2 })

/-- `leff`, en1993_1_8.py 1257-1281: `FT_Rd` is evaluated only when no failure mode is remembered. -/
def TStub.evalLeff (s : TStub) (c : Cache) : ℝ × Cache :=
  let c := if c.mode = none then (s.evalFT c).2 else c
  (if c.mode = some 0 then c.leff1 else c.leff2, c)

/-- A new T-stub, en1993_1_8.py 1205-1208. -/
def Cache.new : Cache := { mode := none, leff1 := -1, leff2 := -1 }

/-- Positions of bolt rows, en1993_1_8.py 94-103. -/
inductive RowPos
  | inner | endRow | adjacent | otherInner | otherEnd | endAdjacent | outside | firstBelow
  deriving DecidableEq

/-- A `BoltRow` of a joint, en1993_1_8.py 351-426: the type is SHEAR_ROW or another one. -/
structure Row where
  bolt : Bolt
  z : ℝ
  shear : Bool
  flange : RowPos
  plate : RowPos

/-- Position of a row of a group on the column flange. -/
inductive GroupPos
  | endRow | inner | adjacent | endAdjacent
  deriving DecidableEq

/-- Position of a row of a group on the end plate. -/
inductive PlatePos
  | firstBelow | otherInner | otherEnd
  deriving DecidableEq

/-- A `BoltRowGroup`, en1993_1_8.py 967-1013: indices and positions of the rows; `plate = none` when the first row is outside the beam tension flange. -/
structure Group where
  rows : List ℕ
  flange : List GroupPos
  plate : Option (List PlatePos)

/-- An `EndPlateJoint`, end_plate_joint.py 40-149; `σ` is `col.sigma_com()`, `MRd` is `beam.MRd`, a stiffener is its thickness and yield strength. -/
structure Joint where
  col : Sec
  beam : Sec
  bp : ℝ
  tp : ℝ
  fyp : ℝ
  etop : ℝ
  ebottom : ℝ
  ebolts : ℝ
  weldF : ℝ
  weldW : ℝ
  β : ℝ
  σ : ℝ
  MRd : ℝ
  rows : List Row
  groups : List Group
  top : Option (ℝ × ℝ)
  bottom : Option (ℝ × ℝ)

/-- `p` of the joint, end_plate_joint.py 207-210, `w` of a row, en1993_1_8.py 525-528. -/
def Joint.w (j : Joint) : ℝ := j.bp - 2 * j.ebolts

/-- `zc`, end_plate_joint.py 261-267. -/
def Joint.zc (j : Joint) : ℝ := -(1 / 2) * (j.beam.h - j.beam.tf)

/-- `h` of a row, en1993_1_8.py 464-467. -/
def Joint.arm (j : Joint) (r : Row) : ℝ := r.z - j.zc

/-- `col_flange_m`, en1993_1_8.py 530-534. -/
def Joint.colM (j : Joint) : ℝ := 1 / 2 * (j.w - j.col.tw) - 8 / 10 * j.col.r

/-- `col_flange_e`, en1993_1_8.py 536-544. -/
def Joint.colE (j : Joint) : ℝ := if j.bp < j.col.b then j.ebolts + 1 / 2 * (j.col.b - j.bp) else j.ebolts - 1 / 2 * (j.bp - j.col.b)

/-- `emin_flange`, en1993_1_8.py 469-484. -/
def Joint.eminFlange (j : Joint) : ℝ := if j.bp < j.col.b then j.ebolts else j.ebolts - 1 / 2 * (j.bp - j.col.b)

/-- `ex`, en1993_1_8.py 509-514. -/
def Joint.ex (j : Joint) (r : Row) : ℝ := 1 / 2 * j.beam.h + j.etop - r.z

/-- `mx`, en1993_1_8.py 516-523. -/
def Joint.mx (j : Joint) (r : Row) : ℝ := r.z - 1 / 2 * j.beam.h - 8 / 10 * √2 * j.weldF

/-- `end_plate_m`, en1993_1_8.py 546-553. -/
def Joint.plateM (j : Joint) (r : Row) : ℝ := if r.plate = .outside then j.mx r else 1 / 2 * (j.w - j.beam.tw) - 8 / 10 * √2 * j.weldW

/-- `end_plate_m2`, en1993_1_8.py 555-559. -/
def Joint.plateM2 (j : Joint) (r : Row) : ℝ := 1 / 2 * j.beam.h - j.beam.tf - 8 / 10 * √2 * j.weldF - r.z

/-- `emin` of the T-stub of the end plate, en1993_1_8.py 1558-1566. -/
def Joint.eminPlate (j : Joint) (r : Row) : ℝ := if r.plate = .outside then j.ex r else j.ebolts

/-- `leff_cp` of the column flange with `e1 = inf`, en1993_1_8.py 1419-1433. -/
def Joint.flangeCp (j : Joint) (r : Row) : Except PyErr ℝ := match r.flange with
  | .inner | .otherInner | .endRow | .otherEnd | .adjacent | .endAdjacent => .ok (2 * π * j.colM)
  | _ => .error .unboundLocal

/-- `leff_nc` of the column flange with `e1 = inf`, en1993_1_8.py 1435-1467. Next to a stiffener `m2` reads the attribute `khp` of the stiffener, which no plate has. -/
def Joint.flangeNc (j : Joint) (r : Row) : Except PyErr ℝ := match r.flange with
  | .inner | .otherInner | .endRow | .otherEnd => .ok (4 * j.colM + 125 / 100 * j.colE)
  | .adjacent | .endAdjacent => .error .attributeError
  | _ => .error .unboundLocal

/-- `leff_cp` of the end plate, en1993_1_8.py 1591-1609. -/
def Joint.plateCp (j : Joint) (r : Row) : Except PyErr ℝ := match r.plate with
  | .outside => .ok (min (min (2 * π * j.plateM r) (π * j.plateM r + j.w)) (π * j.plateM r + 2 * j.ebolts))
  | .firstBelow | .otherInner | .otherEnd => .ok (2 * π * j.plateM r)
  | _ => .error .unboundLocal

/-- `leff_nc` of the end plate, en1993_1_8.py 1611-1636. -/
def Joint.plateNc (j : Joint) (r : Row) : Except PyErr ℝ := match r.plate with
  | .outside => .ok (min (min (min (4 * j.plateM r + 125 / 100 * j.eminPlate r) (j.ebolts + 2 * j.plateM r + 625 / 1000 * j.eminPlate r)) (1 / 2 * j.bp))
      (1 / 2 * j.w + 2 * j.plateM r + 625 / 1000 * j.eminPlate r))
  | .firstBelow => .ok (newAlpha j.ebolts (j.plateM r) (j.plateM2 r) * j.plateM r)
  | .otherInner | .otherEnd => .ok (4 * j.plateM r + 125 / 100 * j.ebolts)
  | _ => .error .unboundLocal

/-- The T-stub of the column flange of a row. -/
def Joint.flangeStub (j : Joint) (r : Row) : Except PyErr TStub := do
  let cp ← j.flangeCp r
  let nc ← j.flangeNc r
  pure
    { cp := cp
      nc := nc
      tf := j.col.tf
      fy := j.col.fy
      m := j.colM
      n := min j.eminFlange (125 / 100 * j.colM)
      Ft := 2 * r.bolt.tension (9 / 10) }

/-- The T-stub of the end plate of a row. -/
def Joint.plateStub (j : Joint) (r : Row) : Except PyErr TStub := do
  let cp ← j.plateCp r
  let nc ← j.plateNc r
  pure
    { cp := cp
      nc := nc
      tf := j.tp
      fy := j.fyp
      m := j.plateM r
      n := min (j.eminPlate r) (125 / 100 * j.plateM r)
      Ft := 2 * r.bolt.tension (9 / 10) }

/-- Effective length of the governing mode just after `FT_Rd`. -/
def TStub.govLeff (s : TStub) : ℝ := if s.mode = 0 then s.leff1 else s.leff2

/-- `BoltRow.tension_resistance`, en1993_1_8.py 892-923, with the components 752-890. With a stiffener at the top flange line 796 assigns to the property `m2`, which has no setter. -/
def Joint.rowTension (j : Joint) (r : Row) : Except PyErr ℝ := do
  if j.top ≠ none then .error .attributeError
  else
    let f ← j.flangeStub r
    let p ← j.plateStub r
    let cw := colWebTension j.col f.govLeff j.β
    let bw := if r.plate = .outside then 10 ^ 8 else beamWebTension j.beam p.govLeff
    pure (min (min (min f.FT p.FT) cw) bw)

/-- A Python list index: negative ones count from the end. -/
def pyGet (l : List ℝ) (i : ℤ) : Except PyErr ℝ :=
  let k := if i < 0 then i + l.length else i
  if k < 0 then .error .indexError
  else match l[k.toNat]? with
    | some x => .ok x
    | none => .error .indexError

/-- `p` of a group, en1993_1_8.py 1015-1020: distances between consecutive rows. -/
def groupP : List ℝ → List ℝ
  | a :: b :: t => (a - b) :: groupP (b :: t)
  | _ => []

/-- `p` of the row with the given number in a group, en1993_1_8.py 1870-1877, 1895-1902, 1990-2008. -/
def rowP (p : List ℝ) (i : ℕ) (atEnd : Bool) : Except PyErr ℝ :=
  if atEnd then (if i = 0 then pyGet p i else pyGet p ((i : ℤ) - 1))
  else do
    let a ← pyGet p ((i : ℤ) - 1)
    let b ← pyGet p i
    pure (1 / 2 * (a + b))

/-- Summand of `leff_nc` of a group on the column flange, en1993_1_8.py 1487-1513 and 1862-1885. -/
def Joint.flangeNcGroup (j : Joint) (p : List ℝ) (i : ℕ) : GroupPos → Except PyErr ℝ
  | .endRow => do
    let q ← rowP p i true
    pure (2 * j.colM + 625 / 1000 * j.colE + 1 / 2 * q)
  | .inner => do
    let q ← rowP p i false
    pure q
  | .adjacent => do
    let _ ← rowP p i true
    .error .attributeError
  | .endAdjacent => .error .unboundLocal

/-- Summand of `leff_cp` of a group on the column flange, en1993_1_8.py 1469-1485 and 1888-1908. -/
def Joint.flangeCpGroup (j : Joint) (p : List ℝ) (i : ℕ) : GroupPos → Except PyErr ℝ
  | .endRow => do
    let q ← rowP p i true
    pure (π * j.colM + q)
  | .inner => do
    let q ← rowP p i false
    pure (2 * q)
  | .adjacent => do
    let q ← rowP p i true
    pure (π * j.colM + q)
  | .endAdjacent => .error .unboundLocal

/-- Summand of `leff_nc` of a group on the end plate, en1993_1_8.py 1654-1675 and 1984-2015. -/
def Joint.plateNcGroup (j : Joint) (p : List ℝ) (i : ℕ) (r : Row) : PlatePos → Except PyErr ℝ
  | .firstBelow => do
    let q ← pyGet p i
    pure (1 / 2 * q + newAlpha j.ebolts (j.plateM r) (j.plateM2 r) * j.plateM r - (2 * j.plateM r + 625 / 1000 * j.ebolts))
  | .otherInner => do
    let q ← rowP p i false
    pure q
  | .otherEnd => do
    let q ← rowP p i true
    pure (2 * j.plateM r + 625 / 1000 * j.ebolts + 1 / 2 * q)

/-- Summand of `leff_cp` of a group on the end plate, en1993_1_8.py 1638-1652 and 2017-2037, with the distances `leff_nc` has stored just before (1093-1094). -/
def Joint.plateCpGroup (j : Joint) (p : List ℝ) (i : ℕ) (r : Row) : PlatePos → Except PyErr ℝ
  | .firstBelow => do
    let q ← pyGet p i
    pure (π * j.plateM r + q)
  | .otherInner => do
    let q ← rowP p i false
    pure (2 * q)
  | .otherEnd => do
    let q ← rowP p i true
    pure (π * j.plateM r + q)

/-- Sum of the summands of the rows of a group, from number `i` on. -/
def sumRows {α : Type} (f : ℕ → α → Except PyErr ℝ) : ℕ → List α → Except PyErr ℝ
  | _, [] => .ok 0
  | i, a :: l => do
    let x ← f i a
    let y ← sumRows f (i + 1) l
    pure (x + y)

/-- The rows of a group, end_plate_joint.py 133-136. -/
def Joint.groupRows (j : Joint) (g : Group) : Except PyErr (List Row) :=
  g.rows.mapM (fun i => match j.rows[i]? with
    | some r => .ok r
    | none => .error .indexError)

/-- Sum of the tension resistances of the bolts of a group, en1993_1_8.py 1804-1813. -/
def groupFt (rows : List Row) : ℝ := (rows.map (fun r => 2 * r.bolt.tension (9 / 10))).sum

/-- `TStubGroupColumnFlange`, en1993_1_8.py 1833-1908: thickness, strength and distances are those of the first row (the same for all rows). -/
def Joint.flangeStubGroup (j : Joint) (rows : List Row) (pos : List GroupPos) : Except PyErr TStub := do
  let p := groupP (rows.map (·.z))
  let nc ← sumRows (j.flangeNcGroup p) 0 pos
  let cp ← sumRows (j.flangeCpGroup p) 0 pos
  pure
    { cp := cp
      nc := nc
      tf := j.col.tf
      fy := j.col.fy
      m := j.colM
      n := min j.eminFlange (125 / 100 * j.colM)
      Ft := groupFt rows }

/-- `TStubGroupEndPlate`, en1993_1_8.py 1956-2037: thickness, strength and distances are those of the first row. -/
def Joint.plateStubGroup (j : Joint) (r0 : Row) (rows : List Row) (pos : List PlatePos) : Except PyErr TStub := do
  let p := groupP (rows.map (·.z))
  let nc ← sumRows (fun i (a : Row × PlatePos) => j.plateNcGroup p i a.1 a.2) 0 (rows.zip pos)
  let cp ← sumRows (fun i (a : Row × PlatePos) => j.plateCpGroup p i a.1 a.2) 0 (rows.zip pos)
  pure
    { cp := cp
      nc := nc
      tf := j.tp
      fy := j.fyp
      m := j.plateM r0
      n := min (j.eminPlate r0) (125 / 100 * j.plateM r0)
      Ft := groupFt rows }

/-- The smaller of two resistances, `none` being infinity. -/
def minOpt : Option ℝ → Option ℝ → Option ℝ
  | none, b => b
  | a, none => a
  | some a, some b => some (min a b)

/-- `BoltRowGroup.tension_resistance`, en1993_1_8.py 1121-1171: `none` is infinity. -/
def Joint.groupTension (j : Joint) (g : Group) : Except PyErr (Option ℝ) := do
  let rows ← j.groupRows g
  match rows, g.flange with
  | r0 :: l, f0 :: _ =>
    let flange ← if f0 = .endAdjacent ∨ (f0 = .adjacent ∧ g.plate = none) then pure none
      else do
        let s ← j.flangeStubGroup (r0 :: l) g.flange
        pure (some (min s.FT (colWebTension j.col s.govLeff j.β)))
    let plate ← match g.plate with
      | none => pure none
      | some pos => do
        let s ← j.plateStubGroup r0 (r0 :: l) pos
        pure (some (min s.FT (beamWebTension j.beam s.govLeff)))
    pure (minOpt flange plate)
  | _, _ => .error .indexError

/-- `Mpl_fc_Rd`, end_plate_joint.py 316-322. -/
def Joint.mplFlange (j : Joint) : ℝ := 25 / 100 * j.col.b * j.col.tf ^ 2 * j.col.fy / gammaM0

/-- `Mpl_st_Rd`, end_plate_joint.py 324-330. -/
def Joint.mplStiffener (j : Joint) (s : ℝ × ℝ) : ℝ := 25 / 100 * j.col.b * s.1 ^ 2 * s.2 / gammaM0

/-- `V_wp_Rd`, end_plate_joint.py 395-412. -/
def Joint.vwp (j : Joint) : ℝ := match j.top, j.bottom with
  | some t, some b =>
    let ds := j.beam.h - j.beam.tf
    colWebShear j.col + min (4 * j.mplFlange) ((2 * j.mplFlange + j.mplStiffener t + j.mplStiffener b) / ds)
  | _, _ => colWebShear j.col + 0

/-- `Fc_wc_Rd`, end_plate_joint.py 422-433: with a stiffener the plate has no attribute `khp` (component_method.py 237). -/
def Joint.fcWeb (j : Joint) : Except PyErr ℝ := match j.bottom with
  | none => .ok (colWebComp j.col j.beam j.tp j.ebottom j.weldF j.β j.σ)
  | some _ => .error .attributeError

/-- `Fcom_Rd`, end_plate_joint.py 484-488. -/
def Joint.fcom (j : Joint) : Except PyErr ℝ := do
  let c ← j.fcWeb
  if j.β = 0 then .error .zeroDivision
  else pure (min (min (j.vwp / j.β) c) (beamWebCompression j.MRd j.beam))

/-- The smaller of a force and what is left of a resistance, end_plate_joint.py 545, 587; `none` is infinity. -/
def capped (cap : Option ℝ) (f tot : ℝ) : ℝ := match cap with
  | none => f
  | some c => min f (c - tot)

/-- The loops that bound the forces of rows one after the other by what is left of a resistance, end_plate_joint.py 543-546 and 584-588. -/
def capLoop (cap : Option ℝ) : List ℕ → ℝ → (ℕ → ℝ) → ℕ → ℝ
  | [], _, F => F
  | i :: l, tot, F => capLoop cap l (tot + capped cap (F i) tot) (Function.update F i (capped cap (F i) tot))

/-- The loop over the groups, end_plate_joint.py 528-546. -/
def Joint.groupLoop (j : Joint) : List Group → (ℕ → ℝ) → Except PyErr (ℕ → ℝ)
  | [], F => .ok F
  | g :: l, F => do
    let cap ← j.groupTension g
    j.groupLoop l (capLoop cap g.rows 0 F)

/-- Resistance of a row, end_plate_joint.py 503-507: a shear row keeps the value it has. -/
def Joint.rowForce (j : Joint) (r : Row) (f0 : ℝ) : Except PyErr ℝ := if r.shear then .ok f0 else j.rowTension r

/-- Resistances of the rows, end_plate_joint.py 502-507. -/
def Joint.rowForces (j : Joint) : List Row → List ℝ → Except PyErr (List ℝ)
  | [], _ => .ok []
  | r :: l, F => do
    let x ← j.rowForce r (F.headD (-1))
    let y ← j.rowForces l F.tail
    pure (x :: y)

/-- Indices of the rows that are not shear rows, end_plate_joint.py 585-586. -/
def Joint.tensionRows (j : Joint) : List ℕ := (List.range j.rows.length).filter (fun i => match j.rows[i]? with
  | some r => !r.shear
  | none => false)

/-- `MjRd` of given row forces, end_plate_joint.py 596-598: the sum runs over all rows. -/
def Joint.moment (j : Joint) (F : ℕ → ℝ) : ℝ := (j.rows.mapIdx (fun i r => F i * j.arm r)).sum

/-- `bending_resistance`, end_plate_joint.py 479-605, from the values `FtRd` the rows have: forces of the rows and moment. -/
def Joint.bending (j : Joint) (F0 : List ℝ) : Except PyErr ((ℕ → ℝ) × ℝ) := do
  let fc ← j.fcom
  let l ← j.rowForces j.rows F0
  let F1 ← j.groupLoop j.groups (fun i => l.getD i 0)
  let F2 := capLoop (some fc) j.tensionRows 0 F1
  pure (F2, j.moment F2)

/-- The rows the constructor makes, end_plate_joint.py 103-131, from positions, locations and row types (`true` for SHEAR_ROW; the default is the empty list). -/
def mkRows (bolt : Bolt) (ys : List ℝ) (pos : List (RowPos × RowPos)) (types : List Bool) : List Row :=
  ((ys.zip pos).zip types).map (fun a =>
    { bolt := bolt
      z := a.1.1
      shear := a.2
      flange := a.1.2.1
      plate := a.1.2.2 })

/-- `FtRd` of new rows, en1993_1_8.py 406. -/
def Joint.initial (j : Joint) : List ℝ := j.rows.map (fun _ => -1)

/-- Contribution of a row to `shear_resistance`, end_plate_joint.py 740-777; the bearing resistances of lines 746-772 are computed and not used. -/
def rowShear (r : Row) (F : ℝ) : Except PyErr ℝ :=
  if 0 < F then do
    let v ← r.bolt.shear true
    pure (2 * (286 / 1000) * v)
  else if |F| < 1 / 1000 ∨ r.shear = true then do
    let v ← r.bolt.shear true
    pure (2 * v)
  else pure 0

/-- `shear_resistance`, end_plate_joint.py 732-784, from the values `FtRd` the rows have. -/
def Joint.shear (j : Joint) (F : ℕ → ℝ) : Except PyErr ℝ := sumRows (fun i r => rowShear r (F i)) 0 j.rows

/-- `keff` of a row from its stiffness factors, en1993_1_8.py 925-946. -/
def keff (k3 k4 k5 k10 : ℝ) : ℝ := 1 / (1 / k3 + 1 / k4 + 1 / k5 + 1 / k10)

/-- A row as the stiffness of the joint sees it: `keff`, lever arm, shear row. -/
structure Spring where
  k : ℝ
  h : ℝ
  shear : Bool

/-- `zeq`, end_plate_joint.py 626-635. -/
def zeq (l : List Spring) : ℝ :=
  let t := l.filter (fun s => !s.shear)
  (t.map (fun s => s.k * s.h ^ 2)).sum / (t.map (fun s => s.k * s.h)).sum

/-- `keq`, end_plate_joint.py 618-624: over all rows, divided by the `zeq` of the rows that are not shear rows. -/
def keqAll (l : List Spring) : ℝ := (l.map (fun s => s.k * s.h)).sum / zeq l

/-- Second value of `zeq_and_keq`, end_plate_joint.py 637-655. -/
def keq (l : List Spring) : ℝ := ((l.filter (fun s => !s.shear)).map (fun s => s.k * s.h)).sum / zeq l

/-- Inverse of a stiffness; `none` is infinity. -/
def flexibility : Option ℝ → ℝ
  | some k => 1 / k
  | none => 0

/-- `Sj_ini`, end_plate_joint.py 680-712; `k2 = none` is infinity (466-473). With one row in tension `k_eq` is unbound; with none `zeq` divides by zero. -/
def sjIni (E : ℝ) (c : Sec) (β : ℝ) (k2 : Option ℝ) (l : List Spring) : Except PyErr ℝ :=
  match (l.filter (fun s => !s.shear)).length with
  | 0 => .error .zeroDivision
  | 1 => .error .unboundLocal
  | _ =>
    let z := zeq l
    let kcomp := 1 / (1 / colWebShearK c β z + flexibility k2)
    .ok (E * z ^ 2 / (1 / kcomp + 1 / keq l))

/-- `rotational_stiffness`, end_plate_joint.py 714-730, in terms of the ratio of moments. -/
def rotational (Sini ratio : ℝ) : ℝ := Sini / stiffnessRatio ratio (27 / 10)

end

end Metku.Bolts
