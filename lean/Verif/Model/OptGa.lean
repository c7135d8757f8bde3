import Mathlib.Analysis.SpecialFunctions.Pow.Real
import Verif.Model.OptSlp

/-!
Model of `metku/optimization/solvers/ga.py` (`GA`) and `metku/optimization/solvers/aco.py` (`AntColonyOptimizer`).

Simplifications: all variables are free, with numbers as values; objective and constraints are functions of the point they are called with; selection, crossover,
mutation and random numbers are arguments; the dictionary of evaluated individuals, printing, plotting and logs are left out. An ant is the list of positions it
chose in the list of values; its fitness is a function of these positions.
-/
namespace Metku.Opt

/-! ### Genetic algorithm -/

section Ga

variable {K : Type} [Field K] [LinearOrder K] [FloorRing K] {n : Nat}

/-- Problem with `n` free variables. -/
structure GaProb (K : Type) (n : Nat) where
  lb : Fin n → K
  ub : Fin n → K
  obj : (Fin n → K) → K
  cons : (Fin n → K) → List K

/-- `best_f`, `prev_best`, `best_x`, `counter`. -/
structure Ga (K : Type) (n : Nat) where
  bestF : K
  prevBest : K
  bestX : Option (Fin n → K)
  counter : Nat

/-- Values of the variables after `substitute_variables(x)`, structopt.py 728. -/
def GaProb.clip (p : GaProb K n) (x : Fin n → K) : Fin n → K := fun i => max (p.lb i) (min (x i) (p.ub i))

/-- Default penalty, ga.py 71-74. -/
def gaPenalty (c : List K) : K := 2000000 * (c.map fun g => (min (max g 0) 100) ^ 2).sum

/-- The point at which an individual is evaluated, ga.py 110-111. -/
def gaPoint (p : GaProb K n) (ind : Fin n → K) : Fin n → K := fun i => round3 (p.clip ind i)

/-- Fitness, ga.py 113-121. -/
def gaFitness (p : GaProb K n) (x : Fin n → K) : K := p.obj x + gaPenalty (p.cons x)

/-- `eval_individual`, ga.py 103-139: `best_x` are the values the variables have after the evaluation. -/
def gaEval (p : GaProb K n) (s : Ga K n) (ind : Fin n → K) : Ga K n :=
  let X := gaPoint p ind
  let val := gaFitness p X
  if val < s.bestF then ⟨val, s.bestF, some (p.clip X), 0⟩ else s

/-- The evaluations of a run, in the order in which they are made. -/
def gaRun (p : GaProb K n) (s : Ga K n) (inds : List (Fin n → K)) : Ga K n := inds.foldl (gaEval p) s

/-- `attribute_generator` with a starting point, ga.py 152-173: `c` is the counter, which belongs to the function and is shared by all objects. -/
def gaGene (x0 : List K) (nvars c : Nat) : Except PyErr K :=
  if nvars = 0 then .error .zeroDivision else valueAt x0 (c % nvars)

/-- `toolbox.individual()`, ga.py 185-187. -/
def gaIndividual (x0 : List K) (nvars c : Nat) : Except PyErr (List K) := (List.range nvars).mapM fun i => gaGene x0 nvars (c + i)

/-- `toolbox.population(n=pop)`, ga.py 206-207 and 257. -/
def gaPopulation (x0 : List K) (nvars c pop : Nat) : Except PyErr (List (List K)) :=
  (List.range pop).mapM fun k => gaIndividual x0 nvars (c + k * nvars)

/-- The counter after the population is created. -/
def gaCounter (nvars c pop : Nat) : Nat := c + pop * nvars

end Ga

section Population

variable {α : Type}

/-- `new_population`, ga.py 210-233; `best` stands for the values of `best_x`, `bestInd` for `best_ind`, `idx` for the random number. Shuffling a copy has no effect. -/
def gaNewPop (popSize idx : Nat) (best : α) (bestInd : Option α) (offspring : List α) : Except PyErr (List α) :=
  if offspring.length ≤ idx then .error .indexError
  else
    let o := offspring.set idx best
    .ok ((List.replicate (popSize / offspring.length + 1) o).flatten ++ bestInd.toList)

/-- Crossover of the `j`-th pair, ga.py 283-291; `f` changes both children, or none of them. -/
def mateAt (f : α → α → α × α) (j : Nat) (l : List α) : List α :=
  match l[2 * j]?, l[2 * j + 1]? with
  | some a, some b => (l.set (2 * j) (f a b).1).set (2 * j + 1) (f a b).2
  | _, _ => l

/-- Mutation of all individuals but the last one, ga.py 292-296. -/
def mutateInit (g : Nat → α → α) (l : List α) : List α := l.mapIdx fun i a => if i + 1 < l.length then g i a else a

/-- The first `k` rounds of the loop over pairs, ga.py 283-296. -/
def gaRounds (f : Nat → α → α → α × α) (g : Nat → Nat → α → α) (k : Nat) (l : List α) : List α :=
  (List.range k).foldl (fun l j => mutateInit (g j) (mateAt (f j) j l)) l

/-- The loop over pairs. -/
def gaGeneration (f : Nat → α → α → α × α) (g : Nat → Nat → α → α) (l : List α) : List α := gaRounds f g (l.length / 2) l

/-- `best_ind` after the loop if it was set to the first child of the pair `j`: the object is an element of `offspring`, ga.py 131 and 292-308. -/
def gaBestInd (f : Nat → α → α → α × α) (g : Nat → Nat → α → α) (l : List α) (j : Nat) : Option α := (gaGeneration f g l)[2 * j]?

end Population

/-! ### Ant colony -/

section Aco

variable {m v : Nat}

/-- `local_pheromone_update`, aco.py 139-144. -/
noncomputable def localUpdate (xi : ℝ) (tau : Fin m → Fin v → ℝ) (ant : Fin m → Fin v) : Fin m → Fin v → ℝ :=
  fun i j => if j = ant i then tau i j * xi else tau i j

/-- One ant of the global update, aco.py 146-151 and 162-167. -/
noncomputable def globalOne (rho : ℝ) (top rank : Nat) (fitness : ℝ) (tau : Fin m → Fin v → ℝ) (ant : Fin m → Fin v) : Fin m → Fin v → ℝ :=
  fun i j => if j = ant i then tau i j + rho * ((top : ℝ) - rank) / fitness else tau i j

/-- `global_pheromone_update`, aco.py 153-167: the ants ranked `rank`, `rank + 1`, ... of the sorted list. -/
noncomputable def globalFrom (rho : ℝ) (top : Nat) (F : (Fin m → Fin v) → ℝ) (sorted : List (Fin m → Fin v)) :
    Nat → Nat → (Fin m → Fin v → ℝ) → Except PyErr (Fin m → Fin v → ℝ)
  | 0, _, tau => .ok tau
  | k + 1, rank, tau =>
    match sorted[rank]? with
    | none => .error .indexError
    | some ant => globalFrom rho top F sorted k (rank + 1) (globalOne rho top rank (F ant) tau ant)

/-- `update_probabilities`, aco.py 81-83. -/
noncomputable def acoWeight (alpha beta : ℝ) (tau eta : Fin m → Fin v → ℝ) (i : Fin m) (j : Fin v) : ℝ := tau i j ^ alpha * eta i j ^ beta

/-- Probability with which an ant chooses the value `j` for the member `i`, aco.py 215-223. -/
noncomputable def acoProb (alpha beta : ℝ) (tau eta : Fin m → Fin v → ℝ) (i : Fin m) (j : Fin v) : ℝ :=
  acoWeight alpha beta tau eta i j / ∑ k, acoWeight alpha beta tau eta i k

/-- Insertion into a list sorted by fitness, after all that are not worse (`sorted` is stable). -/
noncomputable def insertAnt (F : (Fin m → Fin v) → ℝ) (a : Fin m → Fin v) : List (Fin m → Fin v) → List (Fin m → Fin v)
  | [] => [a]
  | b :: l => if F a ≤ F b then a :: b :: l else b :: insertAnt F a l

/-- `sorted(ants, key=get_fitness)`, aco.py 159. -/
noncomputable def sortAnts (F : (Fin m → Fin v) → ℝ) : List (Fin m → Fin v) → List (Fin m → Fin v)
  | [] => []
  | a :: l => insertAnt F a (sortAnts F l)

/-- Pheromone after one iteration with the given ants, aco.py 177-187. -/
noncomputable def acoIter (xi rho : ℝ) (top : Nat) (F : (Fin m → Fin v) → ℝ) (tau : Fin m → Fin v → ℝ) (ants : List (Fin m → Fin v)) :
    Except PyErr (Fin m → Fin v → ℝ) :=
  globalFrom rho top F (sortAnts F ants) top 0 (ants.foldl (localUpdate xi) tau)

/-- Pheromone after several iterations. -/
noncomputable def acoRun (xi rho : ℝ) (top : Nat) (F : (Fin m → Fin v) → ℝ) :
    (Fin m → Fin v → ℝ) → List (List (Fin m → Fin v)) → Except PyErr (Fin m → Fin v → ℝ)
  | tau, [] => .ok tau
  | tau, ants :: its =>
    match acoIter xi rho top F tau ants with
    | .error e => .error e
    | .ok tau => acoRun xi rho top F tau its

/-- `evaluate`, aco.py 121-137: `none` stands for infinite fitness. -/
noncomputable def acoEvaluate (F : (Fin m → Fin v) → ℝ) (ants : List (Fin m → Fin v)) : Option (ℝ × (Fin m → Fin v)) :=
  ants.foldl (fun b a => match b with
    | none => some (F a, a)
    | some (f, c) => if F a < f then some (F a, a) else some (f, c)) none

/-- The value is below the best one so far. -/
noncomputable def isBetter (new old : Option (ℝ × (Fin m → Fin v))) : Bool :=
  match new, old with
  | none, _ => false
  | some _, none => true
  | some (f, _), some (g, _) => decide (f < g)

/-- Best ant, aco.py 174-199, from a state of the object (`best_fitness`, `best_x` are not reset by `solve`); `N` counts the iterations without improvement. -/
noncomputable def acoBest (F : (Fin m → Fin v) → ℝ) (nmax : Nat) : Nat → Option (ℝ × (Fin m → Fin v)) → List (List (Fin m → Fin v)) →
    Option (ℝ × (Fin m → Fin v))
  | _, b, [] => b
  | N, b, ants :: its =>
    let r := acoEvaluate F ants
    if isBetter r b then acoBest F nmax 0 r its
    else if nmax < N + 1 then b else acoBest F nmax (N + 1) b its

end Aco

end Metku.Opt
