import Mathlib.Algebra.Order.Field.Basic

/-!
Detection of symmetry in a `Raami` frame.

Source: metku/raami/raami.py 802-860 (`Raami.symmetry` with `axis='y'` and a given `sym_value`).

Simplifications: the nodes are numbered by their position in `frame.nodes`, the members by their position in `frame.members`; a member has two
nodes (single-span members); no symmetry was detected before.
-/
namespace Metku.Raami

variable {K : Type} [Field K] [LinearOrder K] [IsStrictOrderedRing K]

/-- The condition for symmetry nodes, raami.py 818. -/
def near (s : K) (p q : K × K) : Bool := decide (|q.2 - p.2| < 1 / 1000000) && decide (|(|q.1 - s| - |p.1 - s|)| < 1 / 1000000)

/-- The first node after the node `i` that lies symmetrically, raami.py 817-821. -/
def partner (s : K) (nodes : List (K × K)) (i : ℕ) : Option ℕ :=
  (List.range nodes.length).find? (fun j => decide (i < j) && (match nodes[i]?, nodes[j]? with
    | some p, some q => near s p q
    | _, _ => false))

/-- One step of the loop over the nodes, raami.py 814-821. -/
def nodeStep (s : K) (nodes : List (K × K)) (sym : ℕ → Option ℕ) (i : ℕ) : ℕ → Option ℕ :=
  match sym i with
  | some _ => sym
  | none =>
    match partner s nodes i with
    | none => sym
    | some j => fun k => if k = j then some i else if k = i then some j else sym k

/-- The loop over all nodes but the last one, raami.py 814-821. -/
def symNodes (s : K) (nodes : List (K × K)) : ℕ → Option ℕ := (List.range (nodes.length - 1)).foldl (nodeStep s nodes) (fun _ => none)

/-- The node that the mirror image of a member is to have, raami.py 847-851. -/
def image (sym : ℕ → Option ℕ) (u : ℕ) : ℕ := (sym u).getD u

/-- Members explored and symmetry pairs. -/
structure SymState where
  seen : List ℕ
  pair : ℕ → Option ℕ

/-- One step of the inner loop over the members, raami.py 854-859. -/
def pairStep (sym : ℕ → Option ℕ) (members : List (ℕ × ℕ)) (a : ℕ) (e : ℕ × ℕ) (t : SymState) (b : ℕ) : SymState :=
  if b ∈ t.seen then t
  else
    match members[b]? with
    | none => t
    | some f =>
      if (image sym e.1 = f.1 ∨ image sym e.1 = f.2) ∧ (image sym e.2 = f.1 ∨ image sym e.2 = f.2) then
        { seen := t.seen ++ [b], pair := fun k => if k = b then some a else if k = a then some b else t.pair k }
      else t

/-- One step of the loop over the members, raami.py 833-859. -/
def memStep (sym : ℕ → Option ℕ) (members : List (ℕ × ℕ)) (t : SymState) (a : ℕ) : SymState :=
  if a ∈ t.seen then t
  else
    match members[a]? with
    | none => t
    | some e =>
      let t1 : SymState := { t with seen := t.seen ++ [a] }
      if sym e.1 = none ∧ sym e.2 = none then t1
      else (List.range members.length).foldl (pairStep sym members a e) t1

/-- `Raami.symmetry`: the symmetry pairs of the members. -/
def symPairs (s : K) (nodes : List (K × K)) (members : List (ℕ × ℕ)) : ℕ → Option ℕ :=
  ((List.range members.length).foldl (memStep (symNodes s nodes) members) ⟨[], fun _ => none⟩).pair

end Metku.Raami
