import Verif.Model.SteelMember

/-!
Model of the cost of fabrication: `metku/cost/workshop.py`, and the plates of `metku/structures/steel/plates.py`. The costs of joints are in `Model/JointCost`.

Simplifications: floats are real numbers, the lives of equipment and real estate are whole years, dictionaries with fixed keys are structures. Printing is not modelled, nor are
`BeamWeldingCost`, whose methods refer to attributes that are never set, and `DrillingCost`, which repeats the formulas of cutting.
-/
namespace Metku.Shop

open Metku.Steel

noncomputable section

/-- `work_minutes_per_year`, workshop.py 39-41. -/
def workMinutes : ℝ := 252 * 8 * 60

/-- `overhead`, workshop.py 50. -/
def overhead : ℝ := 7 / 10

/-- `wage_per_minute["machine"]`, workshop.py 43-56: every cost centre uses this one. -/
def machineWage : ℝ := 1976 / 100 * (1 + overhead) / 60

/-- `construction_cost`, workshop.py 64. -/
def constructionCost : ℝ := 1000

/-- `land_cost`, workshop.py 69-71. -/
def landCost : ℝ := 6 / (1 / 2)

/-- `real_estate_maintenance_cost`, workshop.py 77-85. -/
def maintenanceCost : ℝ := 8 * (6385 / 1000) * 181 / 100

/-- `cost_energy_min`, workshop.py 90-91. -/
def energyMin : ℝ := 1 / 10 / 60

/-- `annual_cost(P, I, n)`, workshop.py 223-228. -/
def annualCost (P I : ℝ) (n : ℕ) : Except PyErr ℝ := do
  let f ← pyDiv (I * (1 + I) ^ n) ((1 + I) ^ n - 1)
  .ok (P * f)

/-- Attributes of a `CostCentre`, workshop.py 234-258: `times`, `costs`, `productive_costs` (dictionaries), `consumables_cost`, `utility`. -/
structure Centre where
  productive : ℝ
  nonProductive : ℝ
  labour : ℝ
  equipment : ℝ
  equipMaintenance : ℝ
  realEstate : ℝ
  realMaintenance : ℝ
  consumables : ℝ
  energy : ℝ
  consumablesCost : ℝ
  utility : ℝ

/-- `CostCentre(length, width, workers, eq_invest, eq_resale, eq_maint, eq_year)`, workshop.py 234-282; the interest rates are 5 % and the life of real estate 50 years (lines 100-103). -/
def Centre.new (length width invest resale maint : ℝ) (years : ℕ) : Except PyErr Centre := do
  let area := length * width
  let r ← annualCost (area * constructionCost - area * landCost) (5 / 100) 50
  let e ← annualCost (invest - resale) (5 / 100) years
  .ok { productive := 0, nonProductive := 0, labour := 0, equipment := e / workMinutes, equipMaintenance := maint / workMinutes, realEstate := r / workMinutes,
        realMaintenance := area * maintenanceCost / workMinutes, consumables := 0, energy := 0, consumablesCost := 0, utility := 1 }

/-- `sum(self.costs.values())`. -/
def Centre.rate (c : Centre) : ℝ := c.labour + c.equipment + c.equipMaintenance + c.realEstate + c.realMaintenance

/-- `CostCentre.cost()`, workshop.py 289-292. -/
def Centre.cost (c : Centre) : Except PyErr ℝ := do
  let a ← pyDiv ((c.productive + c.nonProductive) * c.rate) c.utility
  .ok (a + c.productive * (c.consumables + c.energy) + c.consumablesCost)

/-! ### Blasting -/

/-- `BlastingCost`, workshop.py 397-441. -/
structure Blasting where
  c : Centre
  vc : ℝ

/-- `BlastingCost()`, workshop.py 399-426. -/
def Blasting.new : Except PyErr Blasting := do
  let c ← Centre.new 40 10 200000 0 1000 20
  .ok ⟨{ c with labour := machineWage, consumables := 42 / 1000 * (75 / 100), energy := 40 * energyMin }, 3000⟩

/-- `BlastingCost.cost(Lb)`, workshop.py 428-441. -/
def Blasting.cost (b : Blasting) (L : ℝ) : Blasting × Except PyErr ℝ :=
  match pyDiv L b.vc with
  | .error e => (b, .error e)
  | .ok tp =>
    let b := { b with c := { b.c with productive := tp } }
    (b, b.c.cost)

/-! ### Cutting -/

/-- `CuttingCost()`, workshop.py 446-457. -/
def cuttingNew : Except PyErr Centre := do
  let c ← Centre.new 20 10 280000 0 1000 20
  .ok { c with nonProductive := 3, labour := 2 * machineWage }

/-- The cutting speed, workshop.py 466-470. -/
def cutSpeed (t : ℝ) : ℝ :=
  if t ≤ 30 then 89212 / 10000 * t ^ 2 - 48687 / 100 * t + 81558 / 10 else -(41939 / 10000) * t + 65867 / 100

/-- `Consumables(t_p)`, workshop.py 476-498. -/
def cutConsumables (t : ℝ) : ℝ :=
  if t ≤ 30 then 71 / 1000 * (3 / 10) + 40 / 480
  else 63 / 10000 * (184 / 10) + (25 / 1000 + (1 / 10 ^ 5 * t ^ 2 + 1 / 1000 * t + 224 / 10000)) * (418 / 100)

/-- `Energy(t_p)`, workshop.py 500-511. -/
def cutEnergy (t : ℝ) : ℝ := (if t ≤ 30 then 72 else 0) * energyMin

/-- `CuttingCost.cost(t_p, cut_length)`, workshop.py 513-520. -/
def cuttingCost (c : Centre) (t l : ℝ) : Centre × Except PyErr ℝ :=
  match pyDiv l (cutSpeed t) with
  | .error e => (c, .error e)
  | .ok tp =>
    let c := { c with productive := tp, consumables := cutConsumables t, energy := cutEnergy t }
    (c, c.cost)

/-! ### Painting -/

/-- `tip_flow`, workshop.py 110. -/
def tipFlow : ℝ := 900000

/-- One film of paint: volume of solids, dry film thickness in micrometres, price per litre. -/
structure Film where
  solid : ℝ
  dft : ℝ
  price : ℝ

/-- The keys of `paints`. -/
inductive Paint
  | alkyd | epoxy | polyurethane | acryl

/-- `paints`, workshop.py 112-116. -/
def films : Paint → List Film
  | .alkyd => [⟨48 / 100, 80, 28 / 10⟩, ⟨45 / 100, 40, 36 / 10⟩, ⟨45 / 100, 40, 36 / 10⟩]
  | .epoxy => [⟨50 / 100, 60, 42 / 10⟩, ⟨50 / 100, 60, 42 / 10⟩, ⟨48 / 100, 40, 49 / 10⟩]
  | .polyurethane => [⟨50 / 100, 60, 42 / 10⟩, ⟨50 / 100, 60, 59 / 10⟩]
  | .acryl => [⟨48 / 100, 60, 64 / 10⟩, ⟨48 / 100, 60, 64 / 10⟩, ⟨40 / 100, 40, 64 / 10⟩]

/-- `P0`, workshop.py 124-125. -/
def Film.wet (f : Film) : ℝ := 1 / f.solid * (f.dft * (1 / 1000) + (1 / 100 + 3 / 10 * f.dft * (1 / 1000)))

/-- `paints[paint]["TPP"]`, workshop.py 119-131. -/
def paintTime (p : Paint) : ℝ := (films p).foldl (fun s f => s + f.wet) 0 / tipFlow

/-- `paints[paint]["CP"]`, workshop.py 119-131. -/
def paintPrice (p : Paint) : ℝ := (films p).foldl (fun s f => s + f.price * (1 / 10 ^ 6) * f.wet) 0

/-- `PaintingCost`, workshop.py 522-567. -/
structure Painting where
  c : Centre
  paint : Paint

/-- `PaintingCost(paint=...)`, workshop.py 524-538. -/
def Painting.new (p : Paint) : Except PyErr Painting := do
  let c ← Centre.new 15 5 0 0 0 20
  .ok ⟨{ c with labour := machineWage }, p⟩

/-- `PaintingCost.cost(Ap)`, workshop.py 541-567. -/
def Painting.cost (p : Painting) (A : ℝ) : Painting × Except PyErr ℝ :=
  let p := { p with c := { p.c with productive := paintTime p.paint * A, consumablesCost := paintPrice p.paint * A } }
  (p, p.c.cost)

/-! ### Welding -/

/-- The argument `weld_type`; any other string is `other`. -/
inductive WeldType
  | fillet | butt | other

/-- Keys of `wire_prices`, workshop.py 136-139. -/
inductive WireGrade
  | S355 | S420 | S550 | S690

/-- `wire_prices`. -/
def wirePrice : WireGrade → ℝ
  | .S355 => 166 / 100
  | .S420 => 166 / 100
  | .S550 => 35 / 10
  | .S690 => 234 / 100

/-- `AssemblingCostWeld`, workshop.py 569-670. -/
structure Welding where
  c : Centre
  type : WeldType
  length : ℝ
  size : ℝ
  wire : ℝ
  tacking : ℝ

/-- `welding_time()`, workshop.py 621-635. -/
def weldTime (a l : ℝ) : WeldType → Except PyErr ℝ
  | .fillet => .ok (l * (1 / 1000) * (4988 / 10000 * a ^ 2 - 5 / 10000 * a + 21 / 10000))
  | .butt => .ok (l * (1 / 1000) * (249 / 1000 * a ^ 2 + 96 / 10000 * a - 506 / 10000))
  | .other => .error .unboundLocal

/-- `weld_weight` of `consumables()`, workshop.py 649-654. -/
def weldWeight (a l : ℝ) : WeldType → Except PyErr ℝ
  | .fillet => .ok (l * a ^ 2 * (7850 / 10 ^ 9))
  | .butt => .ok (l * a ^ 2 / 2 * (7850 / 10 ^ 9))
  | .other => .error .unboundLocal

/-- `consumables()`, workshop.py 645-658: gas consumption 0.4 m3/kg, price 3.79. -/
def Welding.consume (w : Welding) : Welding × Except PyErr Unit := match weldWeight w.size w.length w.type with
  | .error e => (w, .error e)
  | .ok v => ({ w with c := { w.c with consumablesCost := v * (w.wire + 4 / 10 * (379 / 100)) } }, .ok ())

/-- `productive_time()`, workshop.py 637-642. -/
def Welding.work (w : Welding) : Welding × Except PyErr Unit := match weldTime w.size w.length w.type with
  | .error e => (w, .error e)
  | .ok t => ({ w with c := { w.c with productive := t + w.tacking } }, .ok ())

/-- `tacking_time`, workshop.py 601-606, 615. -/
def tackingTime : ℝ := 5 / 10 + 5 / 10 + 27 / 100 + (9 / 100 * 3 + 5 / 100)

/-- `AssemblingCostWeld(steel_grade=...)`, workshop.py 572-619: fillet weld of 4 mm, 250 mm. -/
def Welding.new (g : WireGrade) : Except PyErr Welding := do
  let c ← Centre.new 15 5 5000 0 0 10
  let w : Welding := ⟨{ c with energy := 200 * 30 * (1 / 1000) * energyMin, labour := machineWage }, .fillet, 250, 4, wirePrice g, tackingTime⟩
  let w ← match w.work with
    | (w, .ok ()) => .ok w
    | (_, .error e) => .error e
  match w.consume with
    | (w, .ok ()) => .ok w
    | (_, .error e) => .error e

/-- `AssemblingCostWeld.cost(weld_size, weld_length, weld_type)`, workshop.py 660-670. -/
def Welding.cost (w : Welding) (size length : ℝ) (type : WeldType) : Welding × Except PyErr ℝ :=
  match ({ w with size := size, length := length, type := type } : Welding).consume with
  | (w, .error e) => (w, .error e)
  | (w, .ok ()) => match w.work with
    | (w, .error e) => (w, .error e)
    | (w, .ok ()) => (w, w.c.cost)

/-! ### Sawing -/

/-- Steel grades: those of `sawing_parameters` (workshop.py 153-159) and the others. -/
inductive SawGrade
  | S235 | S355 | S420 | S500 | S550 | S690 | S700 | other

/-- `sawing_parameters[grade]`, the pair `(Sm, Q)`. -/
def sawParameters : SawGrade → Except PyErr (ℝ × ℝ)
  | .other => .error .keyError
  | _ => .ok (2, 1800)

/-- `feeding_speed(t)`, workshop.py 757-780. -/
def feedingSpeed (t : ℝ) : ℝ :=
  if t ≤ 5 then 120 else if t ≤ 10 then 100 else if t ≤ 15 then 90 else if t ≤ 20 then 80 else if t ≤ 25 then 70 else if t ≤ 30 then 60 else if t ≤ 35 then 50 else 40

/-- `Fsp(t)`, workshop.py 782-805. -/
def sawFsp (t : ℝ) : ℝ :=
  if t ≤ 5 then 4 / 10 else if t ≤ 10 then 45 / 100 else if t ≤ 15 then 5 / 10 else if t ≤ 20 then 55 / 100 else if t ≤ 25 then 6 / 10 else if t ≤ 30 then 65 / 100
  else if t ≤ 35 then 7 / 10 else 8 / 10

/-- `sawing_base_time`, workshop.py 141-149. -/
def sawBase : ℝ := 2 + 2 * (25 / 100 + 5 / 10 + 5 / 10)

/-- `SawingCost`, workshop.py 672-861. -/
structure Sawing where
  c : Centre
  conveyor : ℝ
  blade : ℝ
  fs : ℝ

/-- `SawingCost()`, workshop.py 675-704. -/
def Sawing.new : Except PyErr Sawing := do
  let c ← Centre.new 35 15 310000 0 1000 20
  .ok ⟨{ c with nonProductive := sawBase, energy := 10 * energyMin, labour := machineWage }, 20000, 170, 1350⟩

/-- One end of a sawn member: wall thickness `T`, height `H`, area `AH` of the horizontal parts, area `AT` of the profile. -/
structure SawEnd where
  t : ℝ
  h : ℝ
  ah : ℝ
  at' : ℝ

/-- `productive_time(steel_grade, h, t, Ah)`, workshop.py 718-735. -/
def sawTime (g : SawGrade) (e : SawEnd) : Except PyErr ℝ := do
  let (sm, q) ← sawParameters g
  .ok (e.h / sm / feedingSpeed e.t + e.ah / q)

/-- `consumables(At, t, TP, steel_grade)`, workshop.py 738-753, with `blade_durability`, 807-816. -/
def Sawing.consume (s : Sawing) (g : SawGrade) (e : SawEnd) (tp : ℝ) : Except PyErr ℝ := do
  let (_, q) ← sawParameters g
  let x ← pyDiv e.at' (q * s.fs * sawFsp e.t)
  let y ← pyDiv x tp
  .ok (y * s.blade)

/-- The loop over both ends, workshop.py 849-856: productive time and cost of consumables. -/
def Sawing.ends (s : Sawing) (g : SawGrade) : List SawEnd → ℝ × ℝ → Except PyErr (ℝ × ℝ)
  | [], p => .ok p
  | e :: es, (tp, cs) => do
    let t ← sawTime g e
    let k ← s.consume g e t
    s.ends g es (tp + t, cs + k)

/-- `SawingCost.cost(L, bevels, steel_grade, H, T, AH, AT)`, workshop.py 818-861, with `non_productive_time`, 708-716. -/
def Sawing.cost (s : Sawing) (L bevels : ℝ) (g : SawGrade) (es : List SawEnd) : Sawing × Except PyErr ℝ :=
  match pyDiv L s.conveyor with
  | .error e => (s, .error e)
  | .ok x =>
    let s := { s with c := { s.c with nonProductive := sawBase + 1 * bevels + x } }
    match s.ends g es (0, 0) with
    | .error e => (s, .error e)
    | .ok (tp, cs) =>
      let s := { s with c := { s.c with productive := tp, consumablesCost := cs } }
      (s, s.c.cost)

/-! ### Workshop -/

/-- `Workshop`, workshop.py 961-989: its cost centres and the price of plates. -/
structure Workshop where
  blasting : Blasting
  cutting : Centre
  welding : Welding
  sawing : Sawing
  painting : Painting
  platePrice : ℝ

/-- `Workshop()`, workshop.py 970-989, with `BASIC_STEEL_PRICE` of cost_data.py 18. -/
def Workshop.new : Except PyErr Workshop := do
  let b ← Blasting.new
  let c ← cuttingNew
  let w ← Welding.new .S355
  let s ← Sawing.new
  let p ← Painting.new .alkyd
  .ok ⟨b, c, w, s, p, 1169⟩

/-- A call of `cost` of one of the cost centres. -/
inductive Job
  | blast (L : ℝ)
  | cut (t l : ℝ)
  | weld (size length : ℝ) (type : WeldType)
  | saw (L bevels : ℝ) (g : SawGrade) (es : List SawEnd)
  | paint (A : ℝ)

/-- `workshop.cost_centres[...].cost(...)`. -/
def Workshop.run (w : Workshop) : Job → Workshop × Except PyErr ℝ
  | .blast L => let r := w.blasting.cost L; ({ w with blasting := r.1 }, r.2)
  | .cut t l => let r := cuttingCost w.cutting t l; ({ w with cutting := r.1 }, r.2)
  | .weld a l ty => let r := w.welding.cost a l ty; ({ w with welding := r.1 }, r.2)
  | .saw L b g es => let r := w.sawing.cost L b g es; ({ w with sawing := r.1 }, r.2)
  | .paint A => let r := w.painting.cost A; ({ w with painting := r.1 }, r.2)

/-! ### Plates -/

/-- Steel grades as `steel_grade_add_on` distinguishes them, cost_data.py 21-27. -/
inductive PlateGrade
  | S235 | other

/-- `steel_grade_add_on`, cost_data.py 21-27. -/
def gradeAddOn : PlateGrade → ℝ
  | .S235 => 0
  | .other => 35

/-- `thickness_add_on`, cost_data.py 32-56. -/
def thicknessAddOn (t : ℝ) : ℝ :=
  if 5 ≤ t ∧ t < 6 then 140 else if 6 ≤ t ∧ t < 7 then 82 else if 7 ≤ t ∧ t < 8 then 35 else if 8 ≤ t ∧ t < 10 then 23 else if 10 ≤ t ∧ t < 12 then 12
  else if 12 ≤ t ∧ t < 15 then 0 else if 15 ≤ t ∧ t < 20 then 0 else if 20 ≤ t ∧ t < 40 then 12 else if 40 ≤ t ∧ t < 50 then 12 else if 50 ≤ t ∧ t < 60 then 47
  else if 60 ≤ t ∧ t < 80 then 58 else 140

/-- The dictionary `_cost` of a plate, plates.py 44-49 and 103. -/
structure PlateCosts where
  material : ℝ
  cutting : ℝ
  painting : ℝ
  drilling : ℝ
  welding : ℝ
  holes : ℝ
  blasting : ℝ

/-- `RectPlate`, plates.py 25-49; the density of every grade is 7850e-9. -/
structure Plate where
  b : ℝ
  h : ℝ
  t : ℝ
  grade : PlateGrade
  weldSize : ℝ
  holes : List ℝ
  costs : PlateCosts

/-- `RectPlate(width, depth, thickness, material)`, plates.py 28-49. -/
def Plate.new (b h t : ℝ) (g : PlateGrade) : Plate := ⟨b, h, t, g, 0, [], ⟨0, 0, 0, 0, 0, 0, 0⟩⟩

/-- `circumference`, plates.py 78-79. -/
def Plate.circumference (p : Plate) : ℝ := 2 * (p.h + p.b)

/-- `paint_area`, plates.py 81-86. -/
def Plate.paintArea (p : Plate) : ℝ := 2 * (p.h * p.b) + p.t * p.circumference

/-- `weight`, plates.py 88-90. -/
def Plate.weight (p : Plate) : ℝ := 7850 / 10 ^ 9 * (p.h * p.b * p.t)

/-- `total_cost`, plates.py 112-114. -/
def PlateCosts.total (c : PlateCosts) : ℝ := c.material + c.cutting + c.painting + c.drilling + c.welding + c.holes + c.blasting

/-- A result of a computation that may have changed the workshop before it failed. -/
abbrev Run (α : Type) := Workshop × Except PyErr α

/-- `RectPlate.cost(workshop, material_cost)`, plates.py 92-121; the plate as it is afterwards. -/
def Plate.cost (p : Plate) (w : Workshop) (price : ℝ) : Workshop × Except PyErr (Plate × ℝ) :=
  let m := p.weight * (price + gradeAddOn p.grade + thicknessAddOn p.t) * (1 / 1000)
  match w.run (.cut p.t p.circumference) with
  | (w, .error e) => (w, .error e)
  | (w, .ok cut) => match w.run (.paint p.paintArea) with
    | (w, .error e) => (w, .error e)
    | (w, .ok paint) => match w.run (.blast (max p.b p.h)) with
      | (w, .error e) => (w, .error e)
      | (w, .ok blast) =>
        match (if p.weldSize > 0 then w.run (.weld p.weldSize p.circumference .fillet) else (w, .ok p.costs.welding)) with
        | (w, .error e) => (w, .error e)
        | (w, .ok weld) =>
          match (if p.holes.length > 0 then w.run (.cut p.t (p.holes.map (fun d => d * Real.pi)).sum) else (w, .ok p.costs.holes)) with
          | (w, .error e) => (w, .error e)
          | (w, .ok holes) =>
            let c : PlateCosts := ⟨m, cut, paint, p.costs.drilling, weld, holes, blast⟩
            (w, .ok ({ p with costs := c }, c.total))

end

end Metku.Shop
