import Verif.Model.EndPlate

/-!
Model of the stiffness of a bolt row of an end-plate joint from its parts (`metku/eurocodes/en1993/en1993_1_8/en1993_1_8.py` 460-462, 593-749, 925-946) and of the column web in
compression (`metku/structures/steel/end_plate_joint.py` 466-473).

Simplifications: floats are exact; the smallest effective lengths of the T-stubs, alone and in each group that has the row, are given (their rules are those of
`Verif.Model.EndPlate`); divisions by dimensions are total and the theorems assume them positive.
-/
namespace Metku.Bolts

noncomputable section

/-- `leff_flange_group` and `leff_plate_group`, en1993_1_8.py 593-650, from the smaller of the two effective lengths of the row in each group; `none` is a group without
    T-stub of the end plate (645-646). -/
def groupLeff (gs : List (Option ℝ)) : ℝ :=
  gs.foldl (fun leff g => let lg := g.getD leff; if 0 < lg then min leff lg else leff) (10 ^ 5)

/-- What the stiffness of a row is computed from. -/
structure RowParts where
  col : Sec
  tp : ℝ
  As : ℝ
  washer : ℝ
  head : ℝ
  nut : ℝ
  cpF : ℝ
  ncF : ℝ
  mF : ℝ
  groupsF : List (Option ℝ)
  cpP : ℝ
  ncP : ℝ
  mP : ℝ
  groupsP : List (Option ℝ)

/-- `Lb`, en1993_1_8.py 459-462. -/
def RowParts.Lb (r : RowParts) : ℝ := r.tp + r.col.tf + 2 * r.washer + 1 / 2 * (r.head + r.nut)

/-- Effective length in `k3` and `k4`, en1993_1_8.py 669-674, 697-700. -/
def RowParts.leffF (r : RowParts) : ℝ := min (min r.cpF r.ncF) (groupLeff r.groupsF)

/-- Effective length in `k5`, en1993_1_8.py 728-737. -/
def RowParts.leffP (r : RowParts) : ℝ := min (min r.cpP r.ncP) (groupLeff r.groupsP)

/-- `k3`, en1993_1_8.py 652-680. -/
def RowParts.k3 (r : RowParts) : ℝ := colWebTensionK r.col r.leffF

/-- `k4`, en1993_1_8.py 683-705. -/
def RowParts.k4 (r : RowParts) : ℝ := bendingK r.col.tf r.leffF r.mF

/-- `k5`, en1993_1_8.py 707-742. -/
def RowParts.k5 (r : RowParts) : ℝ := bendingK r.tp r.leffP r.mP

/-- `k10`, en1993_1_8.py 744-749. -/
def RowParts.k10 (r : RowParts) : ℝ := boltRowK r.As r.Lb

/-- `EndPlateJoint.k2`, end_plate_joint.py 466-473: column, beam, plate thickness, lower overhang, weld of the flange; `none` is infinity. -/
def webCompK (stiffened : Bool) (c b : Sec) (tp ebottom ap : ℝ) : Option ℝ :=
  if stiffened then none else some (colWebCompK c (beffComp c b tp ebottom ap))

/-- `BoltRow.keff`, en1993_1_8.py 925-946. -/
def RowParts.stiffness (r : RowParts) : ℝ := keff r.k3 r.k4 r.k5 r.k10

end

end Metku.Bolts
