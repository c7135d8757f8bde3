import Mathlib.Algebra.BigOperators.Group.Finset.Basic
import Mathlib.Algebra.Order.Field.Basic
import Mathlib.Algebra.Order.Group.Abs
import Mathlib.Data.Fintype.BigOperators

/-!
Model of the convex approximations in `metku/optimization/opt_functions.py` and of the asymptote rules in
`metku/optimization/solvers/mma.py` and `structopt.py`.

Simplifications: numpy vectors of length `n` are functions on `Fin n`; division by zero (numpy `inf`/`nan`) is excluded by the
hypotheses of the theorems; scalar arguments are vectors of length one.
-/
namespace Metku.Opt

variable {K : Type} [Field K] [LinearOrder K]

/-- Factor `a[i]` in `eval_conlin`, opt_functions.py 81-85. -/
def conlinFactor (d xk x : K) : K := if 0 ≤ d then 1 else xk / x

/-- `conlin_fun(xk, fk, dfk)(x)`, opt_functions.py 47-91. -/
def conlin {n : Nat} (xk : Fin n → K) (fk : K) (d : Fin n → K) (x : Fin n → K) : K :=
  fk + ∑ i, conlinFactor (d i) (xk i) (x i) * d i * (x i - xk i)

/-- `p[i]`, opt_functions.py 112-113 and 160-161. -/
def mmaP (xk d U : K) : K := if 0 ≤ d then (U - xk) ^ 2 * d else 0

/-- `q[i]`, opt_functions.py 114-115 and 162-163. -/
def mmaQ (xk d L : K) : K := if 0 ≤ d then 0 else -(xk - L) ^ 2 * d

/-- One summand `p/(U-x) + q/(x-L)`. -/
def mmaTerm (xk d L U x : K) : K := mmaP xk d U / (U - x) + mmaQ xk d L / (x - L)

/-- `mma_fun(xk, fk, dfk, L, U)(x)` and `MMAFunction(xk, fk, dfk, L, U)(x)`, opt_functions.py 94-124, 127-170. -/
def mma {n : Nat} (xk : Fin n → K) (fk : K) (d L U x : Fin n → K) : K :=
  (fk - ∑ i, mmaTerm (xk i) (d i) (L i) (U i) (xk i)) + ∑ i, mmaTerm (xk i) (d i) (L i) (U i) (x i)

/-- `MMAFunction.grad(x)`, opt_functions.py 172-173. -/
def mmaGrad {n : Nat} (xk d L U x : Fin n → K) (i : Fin n) : K :=
  mmaP (xk i) (d i) (U i) / (U i - x i) ^ 2 - mmaQ (xk i) (d i) (L i) / (x i - L i) ^ 2

/-- `MMA.gamma`, mma.py 96-104, one component; `xtol = 1e-6`. -/
def mmaGamma (xk xk1 xk2 : K) : K :=
  let x := (xk - xk1) * (xk1 - xk2)
  if x < -(1 / 10 ^ 6) then 7 / 10 else if x > 1 / 10 ^ 6 then 12 / 10 else 1

/-- State of the MMA solver used for the asymptotes, latest entry first (`self.xvals`, `self.L`, `self.U`),
    for one variable. -/
structure MmaState (K : Type) where
  xs : List K
  Ls : List K
  Us : List K

/-- Asymptotes chosen in `MMA.take_action`, mma.py 118-147, one component; `none` when a list is too short
    (`IndexError`). -/
def mmaAsymptotes (s : MmaState K) (lb ub : K) : Option (K × K) :=
  let Dx := ub - lb
  match s.xs with
  | [] => none
  | xk :: rest =>
    let raw : Option (K × K) :=
      if rest.length ≤ 1 then some (xk - 1 / 2 * Dx, xk + 1 / 2 * Dx)
      else
        match rest, s.Ls, s.Us with
        | xk1 :: xk2 :: _, L :: _, U :: _ =>
          let g := mmaGamma xk xk1 xk2
          some (xk - g * (xk1 - L), xk + g * (U - xk1))
        | _, _, _ => none
    raw.map fun LU =>
      (min (max (xk - 10 * Dx) LU.1) (xk - 1 / 10 * Dx), min (max (xk + 1 / 100 * Dx) LU.2) (xk + 10 * Dx))

/-- `take_action` followed by the arrival of the next iterate `x` (any point the sub-problem solver returns):
    mma.py 149-150, optsolver.py appends the new point to `xvals`. -/
def mmaIter (s : MmaState K) (lb ub x : K) : Option (MmaState K) :=
  (mmaAsymptotes s lb ub).map fun LU => ⟨x :: s.xs, LU.1 :: s.Ls, LU.2 :: s.Us⟩

/-- Bounds of one variable of the sub-problem of the MMA solver, mma.py 57-58. -/
def mmaBounds (lb ub L U x : K) : K × K :=
  (max (max lb (L + 1 / 10 * (x - |L|))) (x - 1 / 2 * (ub - lb)),
   min (min ub (U - 1 / 10 * (U - x))) (x + 1 / 2 * (ub - lb)))

/-- Bounds of one variable of `problem.mma(x, U, L, mu)`, structopt.py 498-500. -/
def mmaBoundsMu (mu lb ub L U x : K) : K × K :=
  (max lb (L + mu * (x - L)), min ub (U - mu * (U - x)))

end Metku.Opt
