import Verif.Model.Workshop

/-!
Costs of joints: `EndPlateJoint.cost` (metku/structures/steel/end_plate_joint.py 787-845), `FinPlateJoint.cost` (metku/structures/steel/fin_plate_joint.py 432-491) and plates with a pattern of holes
(metku/structures/steel/plates.py 155-239).

Simplifications: those of `Model/Workshop`; the price tables of bolts are an argument of the functions (`Prices`), the tables of nuts and washers are constants. An exception leaves the joint without a new state.
-/
namespace Metku.Shop

open Metku.Steel

noncomputable section

/-- `bolt_type`. -/
inductive Thread
  | full | part

/-- The tables `bolt_unit_cost_full_thread` and `bolt_unit_cost_part_thread`, cost_data.py 126-187: lengths and sizes in whole millimetres; a missing key is a `KeyError`, the entry
    `"N/A"` a string, which cannot be added to a number. -/
abbrev Prices := Thread → ℕ → ℕ → Except PyErr ℝ

/-- `nut_unit_cost`, cost_data.py 192. -/
def nutCost : ℕ → Except PyErr ℝ
  | 12 => .ok (10 / 100)
  | 16 => .ok (27 / 100)
  | 20 => .ok (54 / 100)
  | 24 => .ok (98 / 100)
  | 30 => .ok (213 / 100)
  | 36 => .ok (445 / 100)
  | _ => .error .keyError

/-- `washer_unit_cost`, cost_data.py 197. -/
def washerCost : ℕ → Except PyErr ℝ
  | 12 => .ok (30 / 100)
  | 16 => .ok (46 / 100)
  | 20 => .ok (65 / 100)
  | 24 => .ok (82 / 100)
  | 30 => .ok (141 / 100)
  | 36 => .ok (176 / 100)
  | _ => .error .keyError

/-- The bolt of a row or joint: thread, length, size and hole diameter. -/
structure JBolt where
  thread : Thread
  length : ℕ
  d : ℕ
  d0 : ℝ

/-- Parts of the beam section used in the costs of an end plate joint. -/
structure JBeam where
  h : ℝ
  b : ℝ
  tf : ℝ
  tw : ℝ
  r : ℝ

/-- `hw` of an I-section, the straight part of the web, ISection.py 135-138. -/
def JBeam.hw (b : JBeam) : ℝ := b.h - 2 * b.tf - 2 * b.r

/-- An end plate joint: plate, bolt rows of two bolts, beam, weld sizes of flanges and web, stiffeners and the workshop (`None` if not given to the constructor), end_plate_joint.py 40-148. -/
structure EPJ where
  plate : Plate
  rows : List JBolt
  beam : JBeam
  weldF : ℝ
  weldW : ℝ
  stiffeners : List (Option Plate)
  workshop : Option Workshop

/-- The loop over bolt rows, end_plate_joint.py 802-814: costs of bolts and length of cuts. -/
def rowCosts (P : Prices) : List JBolt → ℝ × ℝ → Except PyErr (ℝ × ℝ)
  | [], p => .ok p
  | r :: rs, (c, l) => do
    let b ← P r.thread r.length r.d
    let n ← nutCost r.d
    let w ← washerCost r.d
    rowCosts P rs (c + 2 * b + n + w, l + 2 * r.d0 * Real.pi)

/-- The loop over stiffeners, end_plate_joint.py 830-832. -/
def stiffenerCosts (price : ℝ) : List (Option Plate) → Workshop → Except PyErr (List (Option Plate) × ℝ × Workshop)
  | [], w => .ok ([], 0, w)
  | none :: ps, w => do
    let (qs, c, w) ← stiffenerCosts price ps w
    .ok (none :: qs, c, w)
  | some p :: ps, w => match p.cost w price with
    | (_, .error e) => .error e
    | (w, .ok (q, c)) => do
      let (qs, d, w) ← stiffenerCosts price ps w
      .ok (some q :: qs, c + d, w)

/-- `flange_weld_length`, end_plate_joint.py 821. -/
def JBeam.flangeWeld (b : JBeam) : ℝ := 2 * (b.b + b.tf) - 2 * b.r - b.tw + b.r * Real.pi

/-- A job of the workshop of a joint. -/
def runJob (w : Workshop) (j : Job) : Except PyErr (Workshop × ℝ) := match w.run j with
  | (_, .error e) => .error e
  | (w, .ok c) => .ok (w, c)

/-- `EndPlateJoint.cost(workshop, material_cost)`, end_plate_joint.py 787-845; `material_cost` is not used. -/
def EPJ.cost (P : Prices) (j : EPJ) (workshop : Option Workshop) (_materialCost : ℝ) : Except PyErr (EPJ × ℝ) := do
  let w ← match workshop.or j.workshop with
    | some w => .ok w
    | none => .error .attributeError
  let price := w.platePrice
  let (w, plate, cp) ← match j.plate.cost w price with
    | (_, .error e) => .error e
    | (w, .ok (q, c)) => .ok (w, q, c)
  let (cb, l) ← rowCosts P j.rows (0, 0)
  let (w, ch) ← runJob w (.cut j.plate.t l)
  let (w, c1) ← runJob w (.weld j.weldF (2 * j.beam.flangeWeld) .fillet)
  let (w, c2) ← runJob w (.weld j.weldW (2 * j.beam.hw) .fillet)
  let (st, cs, w) ← stiffenerCosts price j.stiffeners w
  .ok ({ j with plate := plate, stiffeners := st, workshop := some w }, cp + (c1 + c2) + ch + cb + cs)

/-! ### Fin plates -/

/-- `RectPlateWithHoles`: a plate with `n1` times `n2` holes of diameter `d0`, plates.py 155-205. -/
structure HolePlate where
  p : Plate
  d0 : ℝ
  n1 : ℕ
  n2 : ℕ

/-- `n`, plates.py 202-205. -/
def HolePlate.n (q : HolePlate) : ℕ := q.n1 * q.n2

/-- `RectPlateWithHoles.cost(workshop, material_cost)`, plates.py 233-239. -/
def HolePlate.cost (q : HolePlate) (w : Workshop) (price : ℝ) : Workshop × Except PyErr (HolePlate × ℝ) :=
  match ({ q.p with holes := List.replicate q.n q.d0 } : Plate).cost w price with
  | (w, .error e) => (w, .error e)
  | (w, .ok (p, c)) => (w, .ok ({ q with p := p }, c))

/-- A fin plate joint, fin_plate_joint.py 31-65: `tw` is the web thickness of the beam. -/
structure FPJ where
  plate : HolePlate
  bolt : JBolt
  tw : ℝ
  weldSize : ℝ
  workshop : Option Workshop

/-- `FinPlateJoint.cost(workshop, material_cost)`, fin_plate_joint.py 432-491; `material_cost` is not used. -/
def FPJ.cost (P : Prices) (j : FPJ) (workshop : Option Workshop) (_materialCost : ℝ) : Except PyErr (FPJ × ℝ) := do
  let w ← match workshop.or j.workshop with
    | some w => .ok w
    | none => .error .attributeError
  let price := w.platePrice
  let (w, plate, cp) ← match j.plate.cost w price with
    | (_, .error e) => .error e
    | (w, .ok (q, c)) => .ok (w, q, c)
  let n : ℝ := j.plate.n
  let b ← P j.bolt.thread j.bolt.length j.bolt.d
  let nut ← nutCost j.bolt.d
  let washer ← washerCost j.bolt.d
  let (w, ch) ← runJob w (.cut j.tw (n * j.bolt.d0 * Real.pi))
  let (w, cw) ← runJob w (.weld j.weldSize (2 * j.plate.p.h) .fillet)
  .ok ({ j with plate := plate, workshop := some w }, cp + cw + ch + (n * b + n * nut + n * washer))

end

end Metku.Shop
