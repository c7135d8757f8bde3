import Mathlib.Algebra.Order.Field.Basic
import Mathlib.Analysis.SpecialFunctions.Trigonometric.Basic
import Verif.Model.OptVars

/-!
Model of `metku/truss2d/truss2d.py`: the generator of simple trusses, joints of webs and chords, gap and eccentricity,
angles, forces of joints, deflection, heights.

Simplifications.  Coordinates of chords are not rounded (the code rounds them to full decimals).  A point of a chord is
the start plus a share of the vector to the end (the code multiplies length and unit vector).  Profiles, nodes and elements
of the analysis model are left out; forces and displacements are inputs.  In `addWeb` only the places of joints along one
chord are kept.
-/
namespace Metku.T2

open Metku

variable {K : Type} [Field K] [LinearOrder K] [IsStrictOrderedRing K]

/-! ### Simple trusses -/

/-- The dict `simple` with its defaults, lines 65-72. -/
structure Simple (K : Type) where
  (H0 H1 H2 H3 L1 L2 : K)
  n : ℕ
  dx : K

/-- Attributes of a truss, lines 23-98: zero `H3`, `L2`, `n` are replaced. -/
structure Truss (K : Type) where
  (x y H0 H1 H2 H3 L1 L2 dx : K)
  n : ℕ

/-- `Truss2D.__init__` with `simple`, lines 23-107; `q` asks for a load, whose class is not imported in the module. -/
def Truss.new (origin : K × K) (s : Simple K) (q : Option K) : Except PyErr (Truss K) :=
  match q with
  | none => .ok ⟨origin.1, origin.2, s.H0, s.H1, s.H2, if s.H3 = 0 then s.H1 else s.H3, s.L1, if s.L2 = 0 then s.L1 else s.L2,
      s.dx, if s.n = 0 then 10 else s.n⟩
  | some _ => .error .nameError

/-- `generate_chords`, lines 207-231: end points of the top chords. -/
def Truss.topChords (T : Truss K) : List ((K × K) × (K × K)) :=
  if T.H2 ≠ 0 then
    [((T.x, T.y + T.H0 + T.H1), (T.x + T.L1, T.y + T.H0 + T.H2)),
      ((T.x + T.L1, T.y + T.H0 + T.H2), (T.x + T.L1 + T.L2, T.y + T.H0 + T.H3))]
  else [((T.x, T.y + T.H0 + T.H1), (T.x + T.L1 * 2, T.y + T.H0 + T.H1))]

/-- The bottom chord, lines 230-231. -/
def Truss.bottomChord (T : Truss K) : (K × K) × (K × K) :=
  ((T.x + T.dx, T.y + T.H0), (T.x + T.L1 + T.L2 - T.dx, T.y + T.H0))

/-- `to_global`, frame2d.py 1592-1599. -/
def toGlobal (c : (K × K) × (K × K)) (loc : K) : K × K :=
  (c.1.1 + loc * (c.2.1 - c.1.1), c.1.2 + loc * (c.2.2 - c.1.2))

/-- Webs start at the bottom chord, line 244. -/
def Truss.flip (T : Truss K) : Bool := decide (T.n % 4 ≠ 0)

/-- `dc1`, lines 244-251. -/
def Truss.dc1 (T : Truss K) : K := if T.flip then 1 / ((T.n : K) / 2) else 1 / ((T.n : K) / 4)

/-- `dc2`, lines 244-251. -/
def Truss.dc2 (T : Truss K) : K := if T.flip then 1 / (((T.n / 4 : ℕ) : K) + 1) else 1 / (((T.n : K) - 2) / 2)

/-- One pass of the loop of `generate_webs`, lines 252-270. -/
def Truss.step (T : Truss K) (i : ℕ) (c : K × K) : K × K :=
  if i % 2 = 0 then
    let c1 := c.1 + T.dc1
    let c1 := if 1 < c1 then 1 else c1
    (if T.H2 ≠ 0 ∧ ¬ T.flip then min (99999 / 100000) c1 else c1, c.2)
  else if i = 1 ∧ T.dx ≠ 0 then c
  else
    let c2 := c.2 + T.dc2
    let c2 := if 1 < c2 then 1 else c2
    (c.1, if T.flip then min (99999 / 100000) c2 else c2)

/-- `c1`, `c2` after `i` passes. -/
def Truss.locs (T : Truss K) : ℕ → K × K
  | 0 => (0, 0)
  | i + 1 => T.step (i + 1) (T.locs i)

/-- Bottom and top location of the two webs made in pass `i`, lines 272-277. -/
def Truss.pair (T : Truss K) (i : ℕ) : (K × K) × (K × K) :=
  let c := T.locs i
  if T.flip then ((c.1, c.2), (1 - c.1, 2 - c.2)) else ((c.2, c.1), (1 - c.2, 2 - c.1))

/-- `generate_webs`, lines 233-277: locations of all webs in the order in which they are added. -/
def Truss.webs (T : Truss K) : List (K × K) :=
  (List.range (T.n / 2)).flatMap fun j => [(T.pair (j + 1)).1, (T.pair (j + 1)).2]

/-- The loop of `add` for a local top location, lines 314-322: index of the chord and location on it (locations up to 2). -/
def topIndex (nchords : ℕ) (loc : K) : ℕ × K :=
  let r : ℕ × K := if 1 < loc then (if 1 < loc - 1 then (2, loc - 2) else (1, loc - 1)) else (0, loc)
  (min r.1 (nchords - 1), r.2)

/-- Global coordinates of the ends of a web, lines 305-327: bottom and top. -/
def Truss.webCoords (T : Truss K) (w : K × K) : Except PyErr ((K × K) × (K × K)) :=
  let r := topIndex T.topChords.length w.2
  match T.topChords[r.1]? with
  | none => .error .indexError
  | some c => .ok (toGlobal T.bottomChord w.1, toGlobal c r.2)

/-! ### Heights -/

/-- Ends of the top chords of a generated truss: left eave, ridge, right eave (none for one top chord). -/
structure Ends (K : Type) where
  (left ridge : K × K)
  right : Option (K × K)

/-- End nodes after generation. -/
def Truss.ends (T : Truss K) : Ends K :=
  if T.H2 ≠ 0 then ⟨(T.x, T.y + T.H0 + T.H1), (T.x + T.L1, T.y + T.H0 + T.H2), some (T.x + T.L1 + T.L2, T.y + T.H0 + T.H3)⟩
  else ⟨(T.x, T.y + T.H0 + T.H1), (T.x + T.L1 * 2, T.y + T.H0 + T.H1), none⟩

/-- Setter of `H3`, lines 174-187: the second top chord is used. -/
def setH3 (T : Truss K) (e : Ends K) (v : K) : Except PyErr (Truss K × Ends K) :=
  match e.right with
  | none => .error .indexError
  | some _ => .ok ({ T with H3 := v }, { e with right := some (T.x + T.L1 + T.L2, T.y + (T.H0 + v)) })

/-- Setter of `H1`, lines 119-135. -/
def setH1 (T : Truss K) (e : Ends K) (v : K) : Except PyErr (Truss K × Ends K) := do
  let e := { e with left := (T.x, T.y + (T.H0 + v)) }
  let r ← if T.H1 = T.H3 then setH3 T e v else .ok (T, e)
  return ({ r.1 with H1 := v }, r.2)

/-- Setter of `H2`, lines 142-167. -/
def setH2 (T : Truss K) (e : Ends K) (v : K) : Except PyErr (Truss K × Ends K) :=
  match e.right with
  | none => .error .indexError
  | some _ => .ok ({ T with H2 := v }, { e with ridge := (T.x + T.L1, T.y + (T.H0 + v)) })

/-- `TrussColumn.__init__`, lines 1842-1853: the setter of `H1` takes the first top chord of an empty list. -/
def trussColumn (topChords : List ((K × K) × (K × K))) : Except PyErr Unit :=
  match topChords with
  | [] => .error .indexError
  | _ => .ok ()

/-- `TrussColumn(...)`: the base class is made without chords. -/
def trussColumnNew : Except PyErr Unit := trussColumn ([] : List ((K × K) × (K × K)))

/-! ### Joints along a chord -/

variable [FloorRing K]

/-- `round(x, 3)`. -/
def round3 (x : K) : K := (Opt.pyRound (1000 * x) : K) / 1000

/-- A joint: its location and the number of webs. -/
structure Joint (K : Type) where
  loc : K
  webs : ℕ

/-- Setter of `loc`, lines 1030-1066 (`reverse` is false). -/
def Joint.setLoc (j : Joint K) (v : K) : Joint K :=
  let v := round3 (min (max 0 v) 1)
  if v ≠ round3 j.loc then { j with loc := v } else j

/-- `calc_nodal_coordinates` of a joint with one web on a top chord, lines 1393-1398; `shift` is the gap over the length. -/
def Joint.moveY (j : Joint K) (top : Bool) (shift : K) : Joint K :=
  if j.webs = 1 ∧ top then
    let j := if round3 j.loc = 0 then j.setLoc shift else j
    if round3 j.loc = 1 then j.setLoc (1 - shift) else j
  else j

/-- A web is given to a joint, lines 1019-1023. -/
def Joint.addWeb (j : Joint K) (top : Bool) (shift : K) : Joint K := { j with webs := j.webs + 1 }.moveY top shift

/-- The search for a joint at the location of a web, lines 346-368: the first one within 0.03, or a new one. -/
def addWeb (top : Bool) (shift : K) : List (Joint K) → K → List (Joint K)
  | [], w => [(⟨w, 0⟩ : Joint K).addWeb top shift]
  | j :: js, w =>
    if |round3 j.loc - w| ≤ 3 / 100 then j.addWeb top shift :: js
    else j :: addWeb top shift js w

/-- Joints after webs at all locations are added. -/
def addWebs (top : Bool) (shift : K) (ws : List K) : List (Joint K) := ws.foldl (addWeb top shift) []

/-! ### Forces and deflection -/

/-- Largest element of a list, `max`. -/
def pyMax : List K → Except PyErr K
  | [] => .error .valueError
  | a :: l => .ok (l.foldl max a)

/-- `get_deflection`, lines 474-496: vertical displacements of the nodes of each bottom chord. -/
def deflection (chords : List (List K)) : Except PyErr K :=
  match chords.getLast? with
  | none => .error .unboundLocal
  | some l => pyMax (l.map fun d => |d|)

/-- Kinds of joints by the number of webs, lines 1392-1518. -/
inductive Kind | Y | K | KT
  deriving DecidableEq

/-- Axial forces in the chord of a joint for each load: at `c0`, `c01`, `c02`. -/
structure ChordForces (K : Type) where
  (c0 c01 c02 : K)

/-- `N0`, lines 1232-1252. -/
def n0 (k : Kind) (f : ChordForces K) : K :=
  match k with
  | .Y => f.c0
  | .K => max (|f.c01|) (|f.c02|)
  | .KT => 0

/-- `M0`, lines 1266-1277. -/
def m0 (k : Kind) (f : ChordForces K) : Except PyErr K :=
  match k with
  | .Y => .ok (|f.c0|)
  | .K => .ok (max (|f.c01|) (|f.c02|))
  | .KT => .error .unboundLocal

/-- Names of loads: the enumeration `LoadIDs` (frame2d.py 31-37) has ULS and others; numbers are other names. -/
inductive LoadId
  | uls
  | other (k : ℕ)
  deriving DecidableEq

/-- Forces handed to the design of the joint, `update_forces`, lines 1819-1838, within `calculate(load_id)`, lines 392-399:
    the load is always `LoadIDs.ULS`.  `N`, `M` give the forces for each load that was calculated. -/
def jointForces (k : Kind) (_loadId : LoadId) (N M : LoadId → Option (ChordForces K)) : Except PyErr (K × K) :=
  match M .uls, N .uls with
  | some m, some n => do
    let m ← m0 k m
    return (m, n0 k n)
  | _, _ => .error .keyError

/-- `check_cross_section` of a chord or web, lines 660-663: the method that is called needs a load. -/
def checkCrossSection : Except PyErr Unit := .error .typeError

/-- `local`, lines 665-679: the module does not import `math`; the test for the range is never true. -/
def localCoord (value : K) : Except PyErr (List K) :=
  if 0 ≥ value ∧ value ≥ 1 then .error .valueError else .error .nameError

/-! ### Members of a chord between joints -/

/-- `update_steel_members_lengths`, lines 634-657: lengths of the members between neighbouring joints on a chord of length `L`;
    `locs` are the sorted locations. -/
def memberLengths (L : K) : List K → List K
  | a :: b :: l => |L * a - L * b| :: memberLengths L (b :: l)
  | _ => []

/-! ### Angles, gap and eccentricity -/

open Real in
/-- Angle of a web to the chord, lines 1089-1111 and in other places: `w`, `c` are the angles of web and chord in `[0, pi)`. -/
noncomputable def theta (w c : ℝ) : ℝ := min |w - c| |π - w - c|

/-- Heights of chord and two webs and their angles: what gap and eccentricity of a K joint depend on. -/
structure KData where
  (h0 h1 h2 t1 t2 : ℝ)

/-- State of a K joint, lines 986-1012: stored gap, stored eccentricity, which of the two was set last. -/
structure KState where
  (g e : ℝ)
  gset : Bool

open Real in
/-- Getter of `e`, lines 1114-1143. -/
noncomputable def KState.getE (s : KState) (d : KData) : ℝ :=
  if s.gset then
    (d.h1 / (2 * sin d.t1) + d.h2 / (2 * sin d.t2) + s.g) * (sin d.t1 * sin d.t2 / sin (d.t1 + d.t2)) - d.h0 / 2
  else s.e

open Real in
/-- Getter of `g1`, lines 1183-1203. -/
noncomputable def KState.getG (s : KState) (d : KData) : ℝ :=
  (s.getE d + d.h0 / 2) * (sin (d.t1 + d.t2) / (sin d.t1 * sin d.t2)) - d.h1 / (2 * sin d.t1) - d.h2 / (2 * sin d.t2)

/-- Setter of `g1`, lines 1206-1221. -/
def KState.setG (s : KState) (v : ℝ) : KState := { s with g := v, gset := true }

/-- Setter of `e`, lines 1146-1180; `g'` is the gap that it stores. -/
def KState.setE (_ : KState) (v g' : ℝ) : KState := ⟨g', v, false⟩

end Metku.T2
