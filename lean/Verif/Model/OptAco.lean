import Mathlib.Analysis.SpecialFunctions.Pow.Real
import Verif.Model.PyErr

/-!
Model of the ant colony solver, `metku/optimization/solvers/aco.py` (27-241).

Simplifications: floats are real numbers. `np.random.choice` is an unknown function of the iteration, the ant, the member and the probabilities, so statements quantify over all outcomes.
`problem.substitute_variables` followed by `problem.obj` and the penalty function is a function of the design vector; the solver calls both with the same vector.
Divisions by zero yield zero instead of `inf` (the theorems exclude vanishing masses and fitness values); a row of probabilities whose sum is zero is refused by `np.random.choice` (its quotients are `nan`).
The list `trace` of all evaluated design vectors, one list for each iteration, is recorded beside the state of the solver.
-/
noncomputable section

open Classical

namespace Metku.Aco

open Metku

/-- Parameters of `AntColonyOptimizer`, aco.py 28-59. -/
structure Params where
  ants : ℕ
  rho : ℝ
  alpha : ℝ
  beta : ℝ
  xi : ℝ
  top : ℕ
  factor : ℝ

/-- What the solver reads of the problem: `values` of its variables, length and density of the members of the structure, objective and penalty function. -/
structure Prob where
  values : List (List ℝ)
  members : List (ℝ × ℝ)
  obj : List ℝ → ℝ
  pen : List ℝ → ℝ

/-- `calculate_member_mass`, aco.py 70-71. -/
def mass (m : ℝ × ℝ) (a : ℝ) : ℝ := m.1 * a * m.2

/-- Python `min` of a list of numbers. -/
def pyMin : List ℝ → Except PyErr ℝ
  | [] => .error .valueError
  | a :: l => .ok (l.foldl min a)

/-- `get_min_f`, aco.py 61-68: the mass with the smallest area everywhere. -/
def minF (members : List (ℝ × ℝ)) (vals : List ℝ) : Except PyErr ℝ := do
  if members = [] then return 0
  let a ← pyMin vals
  return (members.map fun m => mass m a).sum

/-- `initialize_heuristic_matrix`, aco.py 73-79: one row for each variable, filled for the members. -/
def heuristic (nv : ℕ) (vals : List ℝ) (members : List (ℝ × ℝ)) : Except PyErr (List (List ℝ)) :=
  if vals ≠ [] ∧ nv < members.length then .error .indexError
  else .ok ((List.range nv).map fun i =>
    match members[i]? with
    | some m => vals.map fun a => 1 / mass m a
    | none => vals.map fun _ => 0)

/-- `update_probabilities`, aco.py 81-83. -/
def probs (p : Params) (ph he : List (List ℝ)) : List (List ℝ) :=
  List.zipWith (List.zipWith fun a h => a ^ p.alpha * h ^ p.beta) ph he

/-- The state of the solver: pheromones, heuristic, probabilities, best fitness and design (`none`: `np.inf` and `None`), the counter of iterations without improvement and the evaluated designs. -/
structure St where
  ph : List (List ℝ)
  he : List (List ℝ)
  pr : List (List ℝ)
  best : Option (ℝ × List ℝ)
  n : ℕ
  trace : List (List (List ℝ))

/-- A list entry of Python; a missing one raises `IndexError`. -/
def entry {α : Type} : Option α → Except PyErr α
  | some a => .ok a
  | none => .error .indexError

/-- `initial_pheromone`, aco.py 97; without members the mass is the integer `0`. -/
def firstPheromone (members : List (ℝ × ℝ)) (f : ℝ) : Except PyErr ℝ :=
  if members = [] then .error .zeroDivision else .ok (1 / f)

/-- `initialize`, aco.py 85-100. The best fitness is the one the solver object has. -/
def start (p : Params) (q : Prob) (best : Option (ℝ × List ℝ)) :
    Except PyErr (List ℝ × St) := do
  let vals ← entry q.values[0]?
  let f ← minF q.members vals
  let p0 ← firstPheromone q.members f
  let ph := List.replicate q.values.length (List.replicate vals.length p0)
  let he ← heuristic q.values.length vals q.members
  return (vals, { ph := ph, he := he, pr := probs p ph he, best := best, n := 0, trace := [] })

/-- `Ant.__choose_design_variable`, aco.py 215-223. -/
def chooseOne (pick : List ℝ → ℕ) (row vals : List ℝ) : Except PyErr (ℕ × ℝ) :=
  let s := row.sum
  if s = 0 then .error .valueError
  else
    let p := row.map (· / s)
    if ∃ x ∈ p, x < 0 then .error .valueError
    else
      let j := pick p
      match vals[j]? with
      | some v => .ok (j, v)
      | none => .error .indexError

/-- `Ant.choose_design_variables`, aco.py 225-230: one choice for each member. -/
def chooseAll (pick : ℕ → List ℝ → ℕ) (vals : List ℝ) (pr : List (List ℝ)) :
    List ℕ → Except PyErr (List (ℕ × ℝ))
  | [] => .ok []
  | i :: is => do
    let row ← entry pr[i]?
    let c ← chooseOne (pick i) row vals
    let cs ← chooseAll pick vals pr is
    return c :: cs

/-- All ants of one iteration, aco.py 177-182. -/
def makeAnts (pick : ℕ → ℕ → List ℝ → ℕ) (vals : List ℝ) (pr : List (List ℝ)) (m : ℕ) :
    List ℕ → Except PyErr (List (List (ℕ × ℝ)))
  | [] => .ok []
  | k :: ks => do
    let a ← chooseAll (pick k) vals pr (List.range m)
    let as ← makeAnts pick vals pr m ks
    return a :: as

/-- `Ant.get_x`, aco.py 232-238. -/
def getX (a : List (ℕ × ℝ)) : List ℝ := a.map (·.2)

/-- `eval_ant` and `Ant.get_fitness`, aco.py 102-119, 240-241. -/
def fitness (p : Params) (q : Prob) (a : List (ℕ × ℝ)) : ℝ :=
  q.obj (getX a) + q.pen (getX a) * p.factor

/-- Keep the better one: the strict comparison of aco.py 132 and 189. -/
def better (best : Option (ℝ × List ℝ)) (f : ℝ) (x : List ℝ) : Option (ℝ × List ℝ) :=
  match best with
  | none => some (f, x)
  | some (g, y) => if f < g then some (f, x) else some (g, y)

/-- `evaluate`, aco.py 121-137. -/
def evaluate (p : Params) (q : Prob) (ants : List (List (ℕ × ℝ))) : Option (ℝ × List ℝ) :=
  ants.foldl (fun b a => better b (fitness p q a) (getX a)) none

/-- `pheromone_matrix[i][j] = f(pheromone_matrix[i][j])` for the choices of one ant. -/
def touch (f : ℝ → ℝ) : List (List ℝ) → List (ℕ × ℝ) → List (List ℝ)
  | [], _ => []
  | r :: rs, [] => r :: rs
  | r :: rs, c :: cs => r.modify c.1 f :: touch f rs cs

/-- `local_pheromone_update`, aco.py 139-144. -/
def localUpdate (p : Params) (ph : List (List ℝ)) (a : List (ℕ × ℝ)) : List (List ℝ) :=
  touch (· * p.xi) ph a

/-- Ants ordered by fitness (`sorted` is stable), aco.py 158-159. -/
def ranked (p : Params) (q : Prob) (ants : List (List (ℕ × ℝ))) : List (List (ℕ × ℝ)) :=
  ants.mergeSort fun a b => decide (fitness p q a ≤ fitness p q b)

/-- The loop of `global_pheromone_update`, aco.py 161-167, over the given ranks. -/
def reinforce (p : Params) (q : Prob) (sorted : List (List (ℕ × ℝ))) :
    List ℕ → List (List ℝ) → Except PyErr (List (List ℝ))
  | [], ph => .ok ph
  | it :: its, ph =>
    match sorted[it]? with
    | none => .error .indexError
    | some a =>
      reinforce p q sorted its
        (touch (· + p.rho * ((p.top : ℝ) - it) / fitness p q a) ph a)

/-- `global_pheromone_update`, aco.py 153-167. -/
def globalUpdate (p : Params) (q : Prob) (ants : List (List (ℕ × ℝ))) (ph : List (List ℝ)) :
    Except PyErr (List (List ℝ)) :=
  reinforce p q (ranked p q ants) (List.range p.top) ph

/-- One iteration, aco.py 177-194. -/
def iterate (p : Params) (q : Prob) (vals : List ℝ) (pick : ℕ → ℕ → List ℝ → ℕ) (s : St) :
    Except PyErr St := do
  let ants ← makeAnts pick vals s.pr q.members.length (List.range p.ants)
  let ph := ants.foldl (localUpdate p) s.ph
  let b := evaluate p q ants
  let ph' ← globalUpdate p q ants ph
  let improved : Bool := match b, s.best with
    | none, _ => false
    | some _, none => true
    | some (f, _), some (g, _) => decide (f < g)
  return { ph := ph', he := s.he, pr := probs p ph' s.he,
           best := if improved then b else s.best,
           n := if improved then 0 else s.n + 1,
           trace := s.trace ++ [ants.map getX] }

/-- The loop over the iterations, aco.py 176-199: leave when more than `nmax` iterations in a row brought no improvement. -/
def loop (p : Params) (q : Prob) (vals : List ℝ) (nmax : ℕ) (pick : ℕ → ℕ → ℕ → List ℝ → ℕ) :
    List ℕ → St → Except PyErr St
  | [], s => .ok s
  | t :: ts, s => do
    let s' ← iterate p q vals (pick t) s
    if nmax < s'.n then return s'
    loop p q vals nmax pick ts s'

/-- `solve`, aco.py 169-199, of a solver object with the given best fitness and design. -/
def solve (p : Params) (q : Prob) (best : Option (ℝ × List ℝ)) (maxiter nmax : ℕ)
    (pick : ℕ → ℕ → ℕ → List ℝ → ℕ) : Except PyErr St := do
  let (vals, s) ← start p q best
  loop p q vals nmax pick (List.range maxiter) s

end Metku.Aco
