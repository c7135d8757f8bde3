import Mathlib.Analysis.Real.Sqrt
import Verif.Model.PyErr

/-!
Model of the benchmark trusses in `metku/optimization/benchmarks/` and of adding variables to a problem (`metku/optimization/structopt.py`).

Simplifications: floats are real numbers; quotients have positive denominators in the theorems. The structural analysis is not part of this model: the constraint functions read axial force, area, strength, resistance, modulus, length and nodal displacements of a bar, which are arbitrary here.
Variables are numbers (object identity) with the flag `locked`.
-/
noncomputable section

namespace Metku.Bench

open Metku

/-! ### Variables of a problem -/

/-- A variable: its identity and whether it is locked. -/
structure PVar where
  id : ℕ
  locked : Bool
  deriving DecidableEq

/-- `OptimizationProblem` as far as its variables are concerned: the private list `__vars`. -/
structure Problem where
  all : List PVar

/-- `vars` (getter), structopt.py 164-171: a new list with the unlocked variables. -/
def Problem.vars (p : Problem) : List PVar := p.all.filter fun v => !v.locked

/-- `add` for a variable, structopt.py 119-128. -/
def Problem.add (p : Problem) (v : PVar) : Problem := if v ∈ p.all then p else ⟨p.all ++ [v]⟩

/-- `vars` (setter), structopt.py 173-180. -/
def Problem.setVars (_p : Problem) (l : List PVar) : Problem := l.foldl Problem.add ⟨[]⟩

/-- `add_variable`, structopt.py 658-660: `self.vars.append(var)` extends the list made by the getter, which is dropped. -/
def Problem.addVariable (p : Problem) (v : PVar) : Problem :=
  let _dropped := p.vars ++ [v]
  p

/-- `add_variables`, structopt.py 662-665. -/
def Problem.addVariables (p : Problem) (l : List PVar) : Problem := l.foldl Problem.addVariable p

/-- Clipping of the values in `substitute_variables`, structopt.py 728, for variables with the given bounds; `None` cannot be compared with a number. -/
def clip : List ℝ → List (Option ℝ × Option ℝ) → Except PyErr (List ℝ)
  | [], _ => .ok []
  | _, [] => .ok []
  | x :: xs, (lb, ub) :: bs =>
    match ub, lb with
    | some u, some l => do
      let r ← clip xs bs
      return max l (min x u) :: r
    | _, _ => .error .typeError

/-- Bounds of a `DiscreteVariable`, variables.py 360-370: without `values` there are none. -/
def discreteBounds : Option (List ℝ) → Option ℝ × Option ℝ
  | none => (none, none)
  | some [] => (none, none)
  | some (a :: l) => (some (l.foldl min a), some (l.foldl max a))

/-- `DiscreteVariable('A1', profiles=...)`, three_bar_truss.py 100-105: the argument `values` is not given. -/
def threeBarDiscrete : List (Option ℝ × Option ℝ) := [discreteBounds none, discreteBounds none]

/-! ### Bars and their constraints -/

/-- A point of the plane. -/
abbrev Pt := ℝ × ℝ

/-- `FrameMember.length`, frame2d.py 2039-2041. -/
def dist (a b : Pt) : ℝ := Real.sqrt ((b.1 - a.1) ^ 2 + (b.2 - a.2) ^ 2)

/-- Displacements of a node: `[dx, dy, rz]`. -/
structure Disp where
  dx : ℝ
  dy : ℝ
  rz : ℝ

/-- What the constraint functions read of a member; it has at least one node. -/
structure Bar where
  n : ℝ
  a : ℝ
  fy : ℝ
  nrd : ℝ
  e : ℝ
  len : ℝ
  d0 : Disp
  ds : List Disp

/-- Python `max` of a list with at least one entry. -/
def pyMax (a : ℝ) (l : List ℝ) : ℝ := l.foldl max a
/-- Python `min` of a list with at least one entry. -/
def pyMin (a : ℝ) (l : List ℝ) : ℝ := l.foldl min a

/-- `compression_fun` of ten_bar_truss.py 154-157 (likewise simple_ten_bar_truss.py 141-142, fifty_two_bar_truss.py 59-60). -/
def tenCompression (b : Bar) : ℝ := -b.n / (b.a * b.fy) - 1
/-- `tension_fun` of ten_bar_truss.py 159-162. -/
def tenTension (b : Bar) : ℝ := b.n / (b.a * b.fy) - 1
/-- `disp_fun` of ten_bar_truss.py 164-176: vertical displacements only. -/
def tenDisp (delta : ℝ) (b : Bar) : ℝ :=
  let vals := b.ds.map Disp.dy
  max (pyMax b.d0.dy vals) |pyMin b.d0.dy vals| / delta - 1
/-- The three constraints of each bar, ten_bar_truss.py 180-207. -/
def tenCons (delta : ℝ) (bars : List Bar) : List ℝ :=
  bars.flatMap fun b => [tenCompression b, tenTension b, tenDisp delta b]

/-- `max(array)` of a displacement vector. -/
def Disp.top (d : Disp) : ℝ := max (max d.dx d.dy) d.rz
/-- `min(array)` of a displacement vector. -/
def Disp.bot (d : Disp) : ℝ := min (min d.dx d.dy) d.rz
/-- `disp_fun` of simple_ten_bar_truss.py 147-158: all components. -/
def simpleDisp (delta : ℝ) (b : Bar) : ℝ :=
  max (pyMax b.d0.top (b.ds.map Disp.top)) |pyMin b.d0.bot (b.ds.map Disp.bot)| / delta - 1
/-- The constraints of simple_ten_bar_truss.py 162-188. -/
def simpleCons (delta : ℝ) (bars : List Bar) : List ℝ :=
  bars.flatMap fun b => [tenCompression b, tenTension b, simpleDisp delta b]

/-- `constraint_generator` of three_bar_truss.py 175-188 and fifteen_bar_truss.py 207-220: the functions are returned in the order tension, compression, buckling. -/
def threeGen (b : Bar) : ℝ × ℝ × ℝ :=
  let cr := 100 * b.e * b.a / (8 * b.len ^ 2)
  (b.n / b.nrd - 1, -b.n / b.nrd - 1, -b.n / b.a / cr - 1)
/-- The constraints of one bar with their names, three_bar_truss.py 190-221: the result of the generator is unpacked as `compression_fun, tension_fun, buckling_fun`. -/
def threeNamed (b : Bar) : List (String × ℝ) :=
  let (compression, tension, buckling) := threeGen b
  [("Compression", compression), ("Tension", tension), ("Buckling", buckling)]
/-- The constraints of all bars, three_bar_truss.py 190-221. -/
def threeCons (bars : List Bar) : List ℝ := bars.flatMap fun b => (threeNamed b).map Prod.snd
/-- The constraints of fifteen_bar_truss.py 223-257: buckling is left out. -/
def fifteenCons (bars : List Bar) : List ℝ :=
  bars.flatMap fun b => ((threeNamed b).take 2).map Prod.snd

/-- Objective of three_bar_truss.py 56-62, fifteen_bar_truss.py 52-59, ten_bar_truss.py 211-216: areas and lengths of all members. -/
def weight (rho : ℝ) (mems : List (ℝ × ℝ)) : ℝ :=
  mems.foldl (fun w al => w + rho * al.1 * al.2) 0

/-! ### Ten bars -/

/-- Nodes `n1 ... n6`, ten_bar_truss.py 106-111. -/
def tenNodes (l : ℝ) : List Pt := [(2 * l, l), (2 * l, 0), (l, l), (l, 0), (0, 0), (0, l)]
/-- Bars as pairs of node numbers (from zero), ten_bar_truss.py 112-121. -/
def tenBars : List (ℕ × ℕ) :=
  [(5, 2), (2, 0), (4, 3), (3, 1), (2, 3), (0, 1), (5, 3), (4, 2), (2, 1), (3, 0)]
/-- `mems` of simple_ten_bar_truss.py 114, with the nodes of 106-112. -/
def simpleBars : List (ℕ × ℕ) :=
  [(4, 2), (2, 0), (5, 3), (3, 1), (2, 3), (0, 1), (4, 3), (5, 2), (2, 1), (3, 0)]
/-- Lengths of the bars. -/
def lengths (nodes : List Pt) (bars : List (ℕ × ℕ)) : List ℝ :=
  bars.map fun ij => dist (nodes.getD ij.1 (0, 0)) (nodes.getD ij.2 (0, 0))
/-- Objective of the ten bar problem with the given areas, ten_bar_truss.py 211-216. -/
def tenWeight (rho l : ℝ) (x : List ℝ) : ℝ := weight rho (x.zip (lengths (tenNodes l) tenBars))
/-- Objective of the problem in simple_ten_bar_truss.py 192-197 (`mem.weight`, frame2d.py 1815-1822). -/
def simpleWeight (rho l : ℝ) (x : List ℝ) : ℝ := weight rho (x.zip (lengths (tenNodes l) simpleBars))

/-! ### Three bars -/

/-- Nodes of the three bar truss, three_bar_truss.py 70-73. -/
def threeNodes (l : ℝ) : List Pt := [(0, 0), (l, 0), (2 * l, 0), (l, -l)]
/-- Bars, three_bar_truss.py 75-77. -/
def threeBars : List (ℕ × ℕ) := [(0, 3), (1, 3), (2, 3)]
/-- Objective of three_bar_truss.py 56-62: variable `A1` is the area of bars 1 and 3, `A2` of bar 2 (lines 107-115). -/
def threeWeight (rho l a1 a2 : ℝ) : ℝ :=
  weight rho ([a1, a2, a1].zip (lengths (threeNodes l) threeBars))
/-- Objective of benchmark_trusses.py 293-306 for areas as variables (the type "discrete" reads the area from a table first): variables and members are paired by `zip`. -/
def oldThreeWeight (rho l : ℝ) (x : List ℝ) : ℝ :=
  weight rho (x.zip (lengths (threeNodes l) threeBars))

/-- `stress_fun` and `buckling_fun` of benchmark_trusses.py 396-414 for areas as variables with the given bars. The functions read the local variable `mem` when they are called, after the loop: `mem` is then the last bar. The number `j` of the variable is bound when the function is made. -/
def oldThreeCons (groups : List (List Bar)) (x : List ℝ) : List ℝ :=
  match groups.flatten.getLast? with
  | none => []
  | some mem =>
    (groups.zip x).flatMap fun gx => gx.1.flatMap fun _ =>
      [mem.n / (gx.2 * mem.fy) - 1,
       -mem.n / gx.2 / (100 * mem.e * gx.2 / (8 * mem.len ^ 2)) - 1]

/-- A linear constraint `a·x = b`; `owner` says whether it knows its problem. `b` is a number or the number of a variable. -/
structure LinCon where
  a : List ℝ
  b : ℝ ⊕ ℕ
  owner : Bool

/-- Scalar product of two vectors. -/
def dot (a x : List ℝ) : ℝ := (List.zipWith (· * ·) a x).sum

/-- `LinearConstraint.__call__`, constraints.py 125-162, at the values `x` of all variables: it asks its problem for the variables. -/
def LinCon.call (c : LinCon) (x : List ℝ) : Except PyErr ℝ :=
  if c.owner then
    .ok (dot c.a x - match c.b with
      | .inl v => v
      | .inr i => x.getD i 0)
  else .error .attributeError

/-- The row with `vals` at the binary variables of area `i`: the variables are `A1`, `A2`, then the binary variables of `A1`, then those of `A2` (three_bar_truss.py 139-142). -/
def binRow (n : ℕ) (i : ℕ) (vals : List ℝ) : List ℝ :=
  [0, 0] ++ (if i = 0 then vals else List.replicate n 0) ++
    (if i = 0 then List.replicate n 0 else vals)

/-- `binary_constraints`, three_bar_truss.py 149-172, for the given list of areas. The constraints are appended to the list of constraints and do not learn their problem. -/
def binaryCons (areas : List ℝ) : List LinCon :=
  [0, 1].flatMap fun i =>
    [⟨binRow areas.length i (List.replicate areas.length 1), .inl 1, false⟩,
     ⟨binRow areas.length i areas, .inr i, false⟩]

/-! ### Fifty-two bars -/

/-- The loop over the nodes, fifty_two_bar_truss.py 117-132, from node `i` on. -/
def gridLoop (l h : ℝ) : ℕ → ℕ → ℝ → ℝ → List Pt
  | 0, _, _, _ => []
  | k + 1, i, x, y =>
    let x' := if i % 4 ≠ 0 then x + l else 0
    let y' := if i % 4 ≠ 0 then y else if i = 0 then 0 else y + h
    (x', y') :: gridLoop l h k (i + 1) x' y'

/-- Vertical bars of storey `j`, fifty_two_bar_truss.py 139-149. -/
def vertGroup (j : ℕ) : List (ℕ × ℕ) := (List.range 4).map fun k => (j * 4 + k, j * 4 + k + 4)
/-- Diagonal bars of storey `j`, fifty_two_bar_truss.py 150-166. -/
def diagGroup (j : ℕ) : List (ℕ × ℕ) :=
  (List.range 3).flatMap fun k => [(j * 4 + k + 1, j * 4 + k + 4), (j * 4 + k, j * 4 + k + 5)]
/-- Horizontal bars of storey `j`, fifty_two_bar_truss.py 168-179. -/
def horizGroup (j : ℕ) : List (ℕ × ℕ) :=
  (List.range 3).map fun k => (j * 4 + k + 4, j * 4 + k + 5)
/-- All bars of storey `j`. -/
def storey (j : ℕ) : List (ℕ × ℕ) := vertGroup j ++ diagGroup j ++ horizGroup j

/-- `create_variables`, fifty_two_bar_truss.py 207-237 (also benchmark_trusses.py 190-194): one variable for each group, added with `self.vars.append`. -/
def createVariables (groups : List (List (ℕ × ℕ))) : Problem :=
  (Problem.setVars ⟨[]⟩ []).addVariables (groups.zipIdx.map fun gi => ⟨gi.2, false⟩)

/-- `create_constraints`, fifty_two_bar_truss.py 76-108: compression and tension for each bar of each variable of the problem. -/
def createCons (p : Problem) (barsOf : PVar → List Bar) : List ℝ :=
  p.vars.flatMap fun v => (barsOf v).flatMap fun b => [tenCompression b, tenTension b]

end Metku.Bench
