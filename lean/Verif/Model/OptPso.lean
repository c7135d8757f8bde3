import Mathlib.Data.List.OfFn
import Verif.Model.OptPenalty

/-!
Model of the particle swarm solver `metku/optimization/solvers/pso.py`.

Simplifications: vectors have one component per variable (`Fin n → K`); objective and constraints are functions of the point; the random
numbers of every step are arguments; the printing, plotting and storing of populations is left out (`elite_particle`, 181-203,
only rebinds a local name and is left out); the initial positions are an argument; infinite initial values are `none`.
-/
namespace Metku.Opt

variable {K : Type} [Field K] [LinearOrder K] {n : Nat}

/-- The problem as the swarm sees it. `disc` are the values (first, rest) of the first variable if that is discrete. -/
structure PsoProb (K : Type) (n : Nat) where
  lb : Fin n → K
  ub : Fin n → K
  disc : Option (K × List K)
  obj : (Fin n → K) → K
  cons : List (CType × ((Fin n → K) → K))

/-- `self.penalty(x)` with `problem.exact_penalty_fun()`, pso.py 266. -/
def PsoProb.scv (P : PsoProb K n) (x : Fin n → K) : K :=
  exactPenalty 1 (P.cons.map fun c => ⟨c.1, c.2 x, 0⟩) (List.ofFn fun i => ⟨P.lb i, P.ub i, x i, 0, 0⟩)

/-- `Particle`, pso.py 339-375. -/
structure Particle (K : Type) (n : Nat) where
  x : Fin n → K
  v : Fin n → K
  best : Fin n → K
  bestF : Option K
  bestScv : Option K
  scv : K
  fval : K

/-- `G_TOL`, constants.py. -/
def gTol : K := 1 / 10 ^ 8

/-- `a > tol` where `none` is infinite. -/
def infGt (a : Option K) (tol : K) : Bool :=
  match a with
  | none => true
  | some a => decide (a > tol)

/-- `y <= a` where `none` is infinite. -/
def leInf (y : K) (a : Option K) : Bool :=
  match a with
  | none => true
  | some a => decide (y ≤ a)

/-- `y < a` where `none` is infinite. -/
def ltInf (y : K) (a : Option K) : Bool :=
  match a with
  | none => true
  | some a => decide (y < a)

/-- `part.update_best()`, pso.py 396-400. -/
def Particle.updateBest (p : Particle K n) : Particle K n :=
  { p with
    bestScv := some p.scv
    bestF := some p.fval
    best := p.x }

/-- `eval_particle(part)`, pso.py 63-94. -/
def evalParticle (P : PsoProb K n) (p0 : Particle K n) : Particle K n :=
  let p := { p0 with
    fval := P.obj p0.x
    scv := P.scv p0.x }
  if infGt p.bestScv gTol then
    (if leInf p.scv p.bestScv then p.updateBest else p)
  else
    (if decide (p.scv ≤ gTol) && leInf p.fval p.bestF then p.updateBest else p)

/-- `min(values, key=lambda y: abs(y - x))`: the first of the nearest values, pso.py 393. -/
def nearest (v0 : K) (vs : List K) (x : K) : K :=
  vs.foldl (fun best y => if |y - x| < |best - x| then y else best) v0

/-- `part.move(xlb, xub, problem)`, pso.py 377-394. -/
def Particle.move (P : PsoProb K n) (p : Particle K n) : Particle K n :=
  let x1 := fun i => min (max (p.x i + p.v i) (P.lb i)) (P.ub i)
  match P.disc with
  | none => { p with x := x1 }
  | some d => { p with x := fun i => nearest d.1 d.2 (x1 i) }

/-- Random numbers of one particle in one iteration: two multipliers, whether the craziness operator strikes, and its numbers. -/
structure Draw (K : Type) (n : Nat) where
  r1 : K
  r2 : K
  crazy : Bool
  rv : Fin n → K

/-- The solver. -/
structure Swarm (K : Type) (n : Nat) where
  c1 : K
  c2 : K
  inertia : K
  vmin : Fin n → K
  vmax : Fin n → K
  parts : List (Particle K n)
  bestX : Fin n → K
  bestF : Option K
  bestScv : Option K
  counter : Nat
  inertiaCnt : Nat

/-- `update_velocity(part)`, pso.py 136-170. -/
def updateVelocity (s : Swarm K n) (d : Draw K n) (p : Particle K n) : Particle K n :=
  let v0 := fun i => s.inertia * p.v i + s.c1 * d.r1 * (p.best i - p.x i) + s.c2 * d.r2 * (s.bestX i - p.x i)
  { p with v := fun i => min (max (v0 i) (s.vmin i)) (s.vmax i) }

/-- `craziness(part)`, pso.py 172-179. -/
def craziness (s : Swarm K n) (d : Draw K n) (p : Particle K n) : Particle K n :=
  if d.crazy then { p with v := fun i => (s.vmax i - s.vmin i) * d.rv i + s.vmin i } else p

/-- One particle in one iteration, pso.py 294-304. -/
def advance (P : PsoProb K n) (s : Swarm K n) (d : Draw K n) (p : Particle K n) : Particle K n :=
  evalParticle P (Particle.move P (craziness s d (updateVelocity s d p)))

/-- Recorded best: point, value, sum of constraint violations, and whether it changed. -/
structure Record (K : Type) (n : Nat) where
  x : Fin n → K
  f : Option K
  scv : Option K
  changed : Bool

/-- Body of the loop in `update_best`, pso.py 108-127. -/
def recordPart (r : Record K n) (p : Particle K n) : Record K n :=
  if infGt r.scv gTol then
    (if p.scv ≤ gTol then ⟨p.x, some p.fval, some p.scv, true⟩ else r)
  else
    (if decide (p.scv ≤ gTol) && ltInf p.fval r.f then ⟨p.x, some p.fval, some p.scv, true⟩ else r)

/-- `update_best()` when a best point is already recorded, pso.py 100-127. -/
def updateBest (s : Swarm K n) : Swarm K n :=
  let r := s.parts.foldl recordPart ⟨s.bestX, s.bestF, s.bestScv, false⟩
  { s with
    bestX := r.x
    bestF := r.f
    bestScv := r.scv
    counter := if r.changed then 0 else s.counter + 1
    inertiaCnt := if r.changed then 0 else s.inertiaCnt + 1 }

/-- Point of the particle with the smallest sum of violations, the first one if there are several (`np.argmin`), pso.py 131-134. -/
def leastScv (p0 : Particle K n) (ps : List (Particle K n)) : Particle K n :=
  ps.foldl (fun b p => if p.scv < b.scv then p else b) p0

/-- A new particle, pso.py 341-375. -/
def newParticle (x v : Fin n → K) : Particle K n := ⟨x, v, x, none, none, 0, 0⟩

/-- `initizalize_population()`, pso.py 207-227, with positions `xs` and random numbers `rv` in `[0, 1)` for the velocities;
    an empty population makes `np.argmin` raise. -/
def initSwarm (P : PsoProb K n) (c1 c2 inertia : K) (pop : List ((Fin n → K) × (Fin n → K))) : Except PyErr (Swarm K n) :=
  let vmax := fun i => 2 / 10 * (P.ub i - P.lb i)
  let vmin := fun i => -vmax i
  let parts := pop.map fun xr => evalParticle P (newParticle xr.1 fun i => (vmax i - vmin i) * xr.2 i + vmin i)
  match parts with
  | [] => .error .valueError
  | p0 :: ps => .ok (updateBest ⟨c1, c2, inertia, vmin, vmax, parts, (leastScv p0 ps).x, none, none, 0, 0⟩)

/-- Particles in an iteration: one draw each. -/
def advanceAll (P : PsoProb K n) (s : Swarm K n) : List (Draw K n) → List (Particle K n) → List (Particle K n)
  | d :: ds, p :: ps => advance P s d p :: advanceAll P s ds ps
  | _, ps => ps

/-- One pass of the main loop up to the tests for stopping, pso.py 288-307. -/
def psoPass (P : PsoProb K n) (ds : List (Draw K n)) (s : Swarm K n) : Swarm K n :=
  updateBest { s with parts := advanceAll P s ds s.parts }

/-- Reduction of inertia and velocity limits, pso.py 321-325. -/
def reduceInertia (s : Swarm K n) : Swarm K n :=
  if s.inertiaCnt > 5 then
    { s with
      inertia := s.inertia * (9 / 10)
      vmax := fun i => s.vmax i * (95 / 100)
      vmin := fun i => s.vmin i * (95 / 100) }
  else s

/-- The main loop, pso.py 286-341: one list of draws for each of the at most `maxiter` iterations; stops after more than `NMAX = 10`
    iterations without improvement. The result is the state that is returned. -/
def psoLoop (P : PsoProb K n) : List (List (Draw K n)) → Swarm K n → Swarm K n
  | [], s => s
  | ds :: dss, s =>
    let s1 := psoPass P ds s
    if s1.counter > 10 then s1 else psoLoop P dss (reduceInertia s1)

end Metku.Opt
