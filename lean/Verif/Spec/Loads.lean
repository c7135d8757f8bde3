import Mathlib.Algebra.BigOperators.Fin
import Verif.Model.Loads

/-!
Combinations of actions of EN 1990, written as sums over the actions and independent of how the code builds its lists. `w` is any linear effect of an action: its value, or its effect on one line load.
-/
namespace Metku.Loads

variable {K : Type} [Field K] [LinearOrder K] [IsStrictOrderedRing K]

/-- Effect of an action on the line `i` in direction `d`: its value as often as the line is listed. -/
def eff (d : Dir) (i : ℕ) (e : Entry K) : K := if e.dir = d then (e.ids.count i : K) * e.load.value else 0

/-- Value of an action. -/
def val (e : Entry K) : K := e.load.value

/-- Number of times actions act on the line `i` in direction `d`. -/
def hits (d : Dir) (i : ℕ) (l : List (Entry K)) : ℕ := (l.map (fun e => if e.dir = d then e.ids.count i else 0)).sum

/-- `γ ΣG + a Q_j + Σ_{i≠j} b_i Q_i`. -/
def combo (γ : K) (a b : Entry K → K) (G Q : List (Entry K)) (w : Entry K → K) (j : Fin Q.length) : K :=
  γ * (G.map w).sum + ∑ i : Fin Q.length, (if i = j then a (Q.get i) else b (Q.get i)) * w (Q.get i)

/-- EN 1990 (6.10a), (6.10b) with the Finnish factors: permanent actions alone, or one variable action leading. -/
def ulsCombo (k : K) (G Q : List (Entry K)) (w : Entry K → K) : Option (Fin Q.length) → K
  | none => 135 / 100 * k * (G.map w).sum
  | some j => combo (115 / 100 * k) (fun _ => 15 / 10 * k) (fun e => 15 / 10 * k * e.load.psi.1) G Q w j

/-- EN 1990 (6.14b), characteristic. -/
def charCombo (G Q : List (Entry K)) (w : Entry K → K) (j : Fin Q.length) : K := combo 1 (fun _ => 1) (fun e => e.load.psi.1) G Q w j

/-- EN 1990 (6.15b), frequent. -/
def freqCombo (G Q : List (Entry K)) (w : Entry K → K) (j : Fin Q.length) : K := combo 1 (fun e => e.load.psi.2.1) (fun e => e.load.psi.2.2) G Q w j

/-- EN 1990 (6.16b), quasi-permanent. -/
def quasiCombo (G Q : List (Entry K)) (w : Entry K → K) : K := (G.map w).sum + ∑ i : Fin Q.length, (Q.get i).load.psi.2.2 * w (Q.get i)

/-- EN 1990 (6.11b) for fire, Finnish annex: leading wind and snow with ψ1, any other leading action with ψ2; or permanent actions alone. -/
def accCombo (G Q : List (Entry K)) (w : Entry K → K) : Option (Fin Q.length) → K
  | none => (G.map w).sum
  | some j => combo 1 (fun e => match e.load.kind with
      | .wind => e.load.psi.2.1
      | .snow => e.load.psi.2.1
      | _ => e.load.psi.2.2) (fun e => e.load.psi.2.2) G Q w j

/-- The result `r` reports the combination `E` of the actions `used`: every line that one of them acts on has an entry that agrees with the combination of their effects on the line up to half a hundredth for each action, in
both directions; any other line has none. -/
def Reports (r : List (Option (K × K))) (used : List (Entry K)) (E : (Entry K → K) → K) : Prop :=
  ∀ i : ℕ, ((∃ e ∈ used, i ∈ e.ids) → ∃ x y, r[i]? = some (some (x, y)) ∧
      |x - E (eff .x i)| ≤ (hits .x i used : K) / 200 ∧ |y - E (eff .y i)| ≤ (hits .y i used : K) / 200) ∧
    ((¬∃ e ∈ used, i ∈ e.ids) → r[i]?.join = none)

/-- ψ factors of imposed loads, EN 1990 Table A1.1 with the Finnish annex. -/
def ec0Psi : Cls → Option (K × K × K)
  | .A => some (0.7, 0.5, 0.3)
  | .B => some (0.7, 0.5, 0.3)
  | .C => some (0.7, 0.7, 0.3)
  | .D => some (0.7, 0.7, 0.6)
  | .E => some (1, 0.9, 0.8)
  | .other => none

/-- Factor K_FI of the consequence class, EN 1990 Table B3. -/
def ec0KFI : ℕ → Option K
  | 1 => some 0.9
  | 2 => some 1
  | 3 => some 1.1
  | _ => none

/-- ψ factors of a load that do not depend on value or class of the building, EN 1990 Table A1.1. -/
def ec0Default : Kind → Option (K × K × K)
  | .wind => some (0.6, 0.2, 0)
  | _ => none

/-- What an entry given by the user contributes: line load of an area load on a strip of width `kk`, with the ψ factors of the kind of load. The ψ factors of snow follow from the ground value. -/
structure Contributes (cls : Cls) (kk : K) (e f : Entry K) : Prop where
  dir : f.dir = e.dir
  ids : f.ids = e.ids
  kind : f.load.kind = e.load.kind
  plain : e.load.kind = .load → f.load.value = e.load.value
  strip : e.load.kind ≠ .load → f.load.value = e.load.value * kk
  imposed : e.load.kind = .imposed → some f.load.psi = ec0Psi cls
  snowLight : e.load.kind = .snow → e.load.value < 2.75 → f.load.psi = (0.7, 0.4, 0.2)
  snowHeavy : e.load.kind = .snow → 2.75 ≤ e.load.value → f.load.psi = (0.7, 0.5, 0.2)
  wind : e.load.kind = .wind → f.load.psi = e.load.psi

/-- Permanent actions. -/
def permanent (e : Entry K) : Bool := match e.load.kind with
  | .load => true
  | .area => true
  | _ => false

end Metku.Loads
