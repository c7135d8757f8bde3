import Verif.Model.RaamiLoads

/-! What a user expects of loads and load combinations of a `Raami` frame. -/
namespace Metku.RaamiSpec

open Metku.Raami

variable {K : Type} [Field K]

/-- Is it the type of a variable action? -/
def Variable (t : LType) : Prop := t = .live ∨ t = .wind ∨ t = .snow

instance (t : LType) : Decidable (Variable t) := by unfold Variable; infer_instance

/-- The partial factor of an action: 1.5 for variable and 1.15 for permanent actions in the ultimate
limit state, 1 otherwise. -/
def gammaF (c : CombType) (t : LType) : K :=
  if c = .uls then (if Variable t then 3 / 2 else if t = .dead then 115 / 100 else 1) else 1

/-- The combination factor of a variable action that accompanies another one. -/
def psi0 (t : LType) : K := if t = .wind then 6 / 10 else if Variable t then 7 / 10 else 1

/-- What a load becomes in a combination. -/
def wanted (c : CombType) (leading : Bool) (l : Load K) : Action K × K :=
  (l.act, gammaF c l.ltype * (if leading then 1 else psi0 l.ltype) * l.f)

/-- The loads of a load case. -/
def loadsOf (w : World K) (c : ℕ) : List (Load K) :=
  ((w.cases[c]?.map Case.loads).getD []).filterMap (fun r => w.heap[r]?)

/-- The loads of a combination. -/
def combined (w : World K) (type : CombType) (cases : List ℕ) (lead : Option ℕ) : List (Action K × K) :=
  cases.flatMap (fun c => (loadsOf w c).map (wanted type (decide (lead = some c))))

/-- The load case that leads: the first one with a variable action. -/
def leader (w : World K) (cases : List ℕ) : Option ℕ :=
  cases.find? (fun c => (loadsOf w c).any (fun l => decide (Variable l.ltype)))

end Metku.RaamiSpec
