import Verif.Model.RhsJoint
import Mathlib.Analysis.SpecialFunctions.Trigonometric.Arctan

/-!
Model of the roof trusses of `raami`: `SlopedTruss` (metku/raami/raami_plane_truss.py 447-1135) with the parts of `PlaneTruss` it uses (44-275).

Simplifications: floats are real numbers. The origin is `(0, 0)`, as `SlopedTruss` passes to `PlaneTruss` (508). A node is named by its chord and its index in the list of nodes of that chord. `ndiv` is a
natural number (`np.linspace` raises for a negative one). Truss members are pairs of nodes; their sections, numbers of elements, identifiers and groups are left out. A horizontal chord direction of length zero,
which numpy turns into `nan`, ends in `linAlgError` here. `generate_topology` is modelled for a truss without nodes and members.
-/
namespace Metku.Truss

open Metku.Steel Metku.Rhs

noncomputable section

/-- A truss before its nodes are generated: `L1`, `L2`, `slope` (degrees), `_dx_left`, `_dx_right`, and the heights at the left end, midspan and the right end, raami_plane_truss.py 472-519. -/
structure Sloped where
  L1 : ℝ
  L2 : ℝ
  slope : ℝ
  dx1 : ℝ
  dx2 : ℝ
  left : ℝ
  mid : ℝ
  right : ℝ

/-- `height_of_slope_left`, raami_plane_truss.py 521-523. -/
def slopeHeight (L1 slope : ℝ) : ℝ := L1 * Real.tan (slope * Real.pi / 180)

/-- The checks of `PlaneTruss.__init__`, raami_plane_truss.py 106-110. -/
def Sloped.check (T : Sloped) : Except PyErr Sloped :=
  if T.mid < T.left then .error .valueError else if T.mid < T.right then .error .valueError else .ok T

/-- `SlopedTruss(L1, L2, dx1, dx2, h1, h2, slope)`, raami_plane_truss.py 450-519: a dimension that is not given is zero. -/
def Sloped.new (L1 L2 dx1 dx2 h1 h2 slope : ℝ) : Except PyErr Sloped :=
  if h1 = 0 then
    Sloped.check ⟨L1, L2, slope, dx1, dx2, h2 - slopeHeight L1 slope, h2, h2 - slopeHeight L1 slope⟩
  else if h2 = 0 then
    Sloped.check ⟨L1, L2, slope, dx1, dx2, h1, h1 + slopeHeight L1 slope, h1⟩
  else do
    let q ← pyDiv (h2 - h1) L1
    Sloped.check ⟨L1, L2, Real.arctan q * 180 / Real.pi, dx1, dx2, h1, h2, h1⟩

namespace Sloped

variable (T : Sloped)

/-- `span`, raami_plane_truss.py 475. -/
def span : ℝ := T.L1 + T.L2

/-- `xmid`, raami_plane_truss.py 183-185. -/
def xmid : Pt := (1 / 2 * T.span, T.mid - T.left)

/-- `xend`, raami_plane_truss.py 187-189. -/
def xend : Pt := (T.span, T.right - T.left)

/-- `ycoord`, raami_plane_truss.py 573, 731, 867. -/
def ycoord : ℝ := -T.left

end Sloped

/-- `np.linspace(0, 1, n)`. -/
def linspace (n : ℕ) : List ℝ := (List.range n).map fun i : ℕ => (i : ℝ) / (n - 1)

/-- `[FrameNode(A + s*v) for s in S]`. -/
def along (A v : Pt) (S : List ℝ) : List Pt := S.map fun s => (A.1 + s * v.1, A.2 + s * v.2)

/-- The vector from `A` to `B`. -/
def vec (A B : Pt) : Pt := (B.1 - A.1, B.2 - A.2)

/-- Intersection of the line through `p` in the direction `v` (normalised) with the vertical line through `X`, raami_plane_truss.py 640-648 and alike. -/
def topPoint (p v X : Pt) : Except PyErr Pt := do
  let r ← (Line.ofDir p (v.1 / √(v.1 ^ 2 + v.2 ^ 2), v.2 / √(v.1 ^ 2 + v.2 ^ 2))).intersect (Line.ofDir X (0, 1))
  .ok r.2

/-- The loops that append such points. -/
def topPoints (p v : Pt) : List Pt → Except PyErr (List Pt)
  | [] => .ok []
  | X :: Xs => do
    let Y ← topPoint p v X
    let Ys ← topPoints p v Xs
    .ok (Y :: Ys)

/-- `np.array([0.5*(Xb2.x+Xb1.x),Xb2.y])` for the pairs of a zip, raami_plane_truss.py 644-645, 654-655, 680-681, 691-692. All nodes of the bottom chord have the same y-coordinate. -/
def mids (A B : List Pt) : List Pt := (A.zip B).map fun p => (1 / 2 * (p.1.1 + p.2.1), p.1.2)

/-- `Xtop[-1].coords` after nodes were appended to `[FrameNode(X0)]`. -/
def lastOf (X0 : Pt) (A : List Pt) : Pt := (X0 :: A).getLast (List.cons_ne_nil _ _)

/-- A node by chord and index. -/
inductive Ref
  | top (i : ℕ)
  | bot (i : ℕ)
  deriving DecidableEq

/-- Nodes and members of a truss. -/
structure Gen where
  top : List Pt
  bot : List Pt
  topChord : List (Ref × Ref)
  botChord : List (Ref × Ref)
  braces : List (Ref × Ref)

/-- The nodes of a chord as references. -/
def refs (f : ℕ → Ref) (l : List Pt) : List Ref := (List.range l.length).map f

/-- `for i in range(len(X)-1): TopChord([X[i],X[i+1]])`, raami_plane_truss.py 710-716, 812-818, 986-992. -/
def chord (l : List Ref) : List (Ref × Ref) := l.zip l.tail

/-- `X[i]`. -/
def idx (l : List Ref) (i : ℕ) : Except PyErr Ref := match l[i]? with
  | some r => .ok r
  | none => .error .indexError

/-- `X[-1]`. -/
def lastIdx (l : List Ref) : Except PyErr Ref := match l.getLast? with
  | some r => .ok r
  | none => .error .indexError

/-- A loop that adds members. -/
def loop (f : ℕ → Except PyErr (List (Ref × Ref))) : List ℕ → Except PyErr (List (Ref × Ref))
  | [] => .ok []
  | i :: is => do
    let a ← f i
    let b ← loop f is
    .ok (a ++ b)

/-- Braces at both ends of a truss with vertical ends, raami_plane_truss.py 738-740, 1019-1021. -/
def edges (t b : List Ref) (edge : Bool) : Except PyErr (List (Ref × Ref)) :=
  if edge then do
    let b0 ← idx b 0
    let t0 ← idx t 0
    let bl ← lastIdx b
    let tl ← lastIdx t
    .ok [(b0, t0), (bl, tl)]
  else .ok []

/-! ### K trusses -/

/-- `Dx` of K trusses, raami_plane_truss.py 575-596. -/
def kDx (T : Sloped) (n : ℕ) (up : Bool) : Except PyErr ℝ :=
  if 0 < T.dx1 then .ok ((T.L1 - T.dx1) / (n - 1 / 2))
  else if up then pyDiv T.L1 n else .ok (T.L1 / (n - 1 / 2))

/-- The numbers `S` of K and KT trusses, raami_plane_truss.py 583-591, 877-894. -/
def kS (T : Sloped) (n : ℕ) (up : Bool) : List ℝ := if 0 < T.dx1 then linspace n else if up then linspace (n + 1) else linspace n

/-- Bottom nodes of K and KT trusses with a given `Dx`, raami_plane_truss.py 598-616, 902-924. -/
def kBot (T : Sloped) (n : ℕ) (up : Bool) (Dx : ℝ) : List Pt :=
  let inner := T.dx1 = 0 ∧ up = false
  let y := T.ycoord
  let X0 : Pt := if T.dx1 = 0 ∧ up = false then (1 / 2 * Dx, y) else (T.dx1, y)
  let X2 : Pt := if T.dx1 = 0 ∧ up = false then (T.span - 1 / 2 * Dx, y) else (T.span - T.dx2, y)
  let X1 : Pt := (T.L1 - 1 / 2 * Dx, y)
  let X1' : Pt := (X1.1 + Dx, y)
  let l := along X0 (vec X0 X1) (kS T n up) ++ along X1' (vec X1' X2) (kS T n up)
  have : Decidable inner := inferInstanceAs (Decidable (_ ∧ _))
  if inner then (0, y) :: l ++ [(T.span, y)] else l

/-- Top nodes of K trusses, raami_plane_truss.py 618-699. -/
def kTop (T : Sloped) (n : ℕ) (up : Bool) (bot : List Pt) : Except PyErr (List Pt) :=
  let X0 : Pt := (0, 0)
  let X1 := T.xmid
  let X2 : Pt := (T.span, 0)
  let v1 := vec X0 X1
  let v2 := vec X1 X2
  if T.dx1 = 0 then
    if up then do
      let A ← topPoints X0 v1 (mids (bot.take (n + 1)) ((bot.drop 1).take (n + 1)))
      let B ← topPoints (lastOf X0 A) v2 (mids (bot.drop (n + 1)) (bot.drop (n + 2)))
      .ok (X0 :: A ++ B ++ [X2])
    else .ok (along X0 v1 (linspace (n + 1)) ++ along X1 v2 (linspace (n + 1)).tail)
  else do
    let A ← topPoints X0 v1 (mids (bot.take n) ((bot.drop 1).take n))
    let B ← topPoints (lastOf X0 A) v2 (mids (bot.drop n) (bot.drop (n + 1)))
    .ok (X0 :: A ++ B ++ [X2])

/-- Braces of K trusses, raami_plane_truss.py 718-749. -/
def kBraces (T : Sloped) (n : ℕ) (up edge : Bool) (t b : List Ref) : Except PyErr (List (Ref × Ref)) :=
  if T.dx1 = 0 then do
    let d ← if up then
        loop (fun i => do
          let a ← idx t i
          let c ← idx b (i - 1)
          let e ← idx b i
          .ok [(a, c), (a, e)]) (List.range' 1 (2 * n + 1))
      else
        loop (fun i => do
          let a ← idx b i
          let c ← idx t (i - 1)
          let e ← idx t i
          .ok [(a, c), (a, e)]) (List.range' 1 (2 * n))
    let e ← edges t b edge
    .ok (d ++ e)
  else
    loop (fun i => do
      let a ← idx b i
      let c ← idx t i
      let e ← idx t (i + 1)
      .ok [(a, c), (a, e)]) (List.range (2 * n))

/-! ### N trusses -/

/-- Bottom nodes of N trusses, raami_plane_truss.py 753-776. -/
def nBot (T : Sloped) (n : ℕ) : List Pt :=
  let S := if 0 < T.dx1 then linspace n else linspace (n + 1)
  let y := T.ycoord
  let X0 : Pt := (T.dx1, y)
  let X1 : Pt := (1 / 2 * T.span, y)
  let X2 : Pt := (T.span - T.dx2, y)
  along X0 (vec X0 X1) S ++ along X1 (vec X1 X2) S.tail

/-- Top nodes of N trusses, raami_plane_truss.py 779-802. -/
def nTop (T : Sloped) (n : ℕ) (bot : List Pt) : Except PyErr (List Pt) :=
  let X0 : Pt := (0, 0)
  let X1 := T.xmid
  let X2 := T.xend
  let v1 := vec X0 X1
  let v2 := vec X1 X2
  if T.dx1 = 0 then .ok (along X0 v1 (linspace (n + 1)) ++ along X1 v2 (linspace (n + 1)).tail)
  else do
    let A ← topPoints X0 v1 (bot.take n)
    let B ← topPoints (lastOf X0 A) v2 (bot.drop n)
    .ok (X0 :: A ++ B ++ [X2])

/-- Braces of N trusses, raami_plane_truss.py 820-858. -/
def nBraces (T : Sloped) (n : ℕ) (up edge : Bool) (t b : List Ref) : List (Ref × Ref) :=
  if T.dx1 = 0 then
    (if edge then t.zip b else t.tail.dropLast.zip b.tail.dropLast) ++
    (if up then (t.tail.take n).zip (b.take n) ++ (t.drop n).dropLast.zip (b.drop (n + 1))
      else (t.take n).zip (b.tail.take n) ++ (t.drop (n + 1)).zip (b.drop n).dropLast)
  else
    t.tail.dropLast.zip b ++ (t.take n).zip (b.take n) ++ (t.drop (n + 1)).zip (b.drop (n - 1))

/-! ### KT trusses -/

/-- `Dx` of KT trusses, raami_plane_truss.py 869-900. -/
def ktDx (T : Sloped) (n : ℕ) (up : Bool) : Except PyErr ℝ :=
  if 0 < T.dx1 then .ok ((T.L1 - T.dx1) / (n - 1 / 2))
  else if up then .ok (2 * T.L1 / (2 * n + 1)) else pyDiv T.L1 n

/-- The points `X.coords` and `X.coords + [0.5*Dx, 0]` of the loops, raami_plane_truss.py 948-975. -/
def pairs (Dx : ℝ) (l : List Pt) : List Pt := l.flatMap fun X => [X, (X.1 + 1 / 2 * Dx, X.2)]

/-- Top nodes of KT trusses, raami_plane_truss.py 926-981. -/
def ktTop (T : Sloped) (n : ℕ) (up : Bool) (Dx : ℝ) (bot : List Pt) : Except PyErr (List Pt) :=
  let X0 : Pt := (0, 0)
  let X1 := T.xmid
  let X2 := T.xend
  let v1 := vec X0 X1
  let v2 := vec X1 X2
  if T.dx1 = 0 then
    let S := if up then linspace (2 * n + 2) else linspace (2 * n + 1)
    .ok (along X0 v1 S ++ along X1 v2 S.tail)
  else do
    let A ← topPoints X0 v1 (pairs Dx (bot.take n))
    let p := lastOf X0 A
    let B ← topPoints p v2 (pairs Dx (bot.drop n).dropLast)
    match bot.getLast? with
    | none => .error .indexError
    | some X => do
      let Y ← topPoint p v2 X
      .ok (X0 :: A ++ B ++ [Y, X2])

/-- `X[::2]`. -/
def everySecond : List Ref → List Ref
  | [] => []
  | [r] => [r]
  | r :: _ :: l => r :: everySecond l

/-- Braces of KT trusses, raami_plane_truss.py 994-1058. -/
def ktBraces (T : Sloped) (up edge : Bool) (t b : List Ref) : Except PyErr (List (Ref × Ref)) :=
  if T.dx1 = 0 then
    if up then do
      let v := if edge then (everySecond t).zip b else (everySecond (t.drop 2)).zip b.tail.dropLast
      let b0 ← idx b 0
      let t1 ← idx t 1
      let d ← loop (fun i => do
        let a ← idx t (2 * i - 1)
        let c ← idx b i
        let e ← idx t (2 * i + 1)
        .ok [(a, c), (e, c)]) (List.range' 1 (b.length - 2))
      let bl ← lastIdx b
      let tl ← lastIdx t.dropLast
      .ok (v ++ [(b0, t1)] ++ d ++ [(bl, tl)])
    else do
      let e ← edges t b edge
      let d ← loop (fun i => do
        let a ← idx t (2 * i - 2)
        let c ← idx b i
        let e ← idx t (2 * i - 1)
        let f ← idx t (2 * i)
        .ok [(a, c), (e, c), (f, c)]) (List.range' 1 (b.length - 2))
      .ok (e ++ d)
  else
    loop (fun i => do
      let a ← idx t (2 * i)
      let c ← idx b i
      let e ← idx t (2 * i + 1)
      let f ← idx t (2 * i + 2)
      .ok [(a, c), (e, c), (f, c)]) (List.range b.length)

/-- The argument `topology`. -/
inductive Topology
  | K | N | KT | other

/-- `generate_topology(topology, ndiv, first_diagonal_up, edge_verticals)`, raami_plane_truss.py 554-1065: with another topology the names `Xtop` and `Xbot` are unbound. -/
def Sloped.generate (T : Sloped) (top : Topology) (n : ℕ) (up edge : Bool) : Except PyErr Gen := match top with
  | .K => do
    let Dx ← kDx T n up
    let bot := kBot T n up Dx
    let top ← kTop T n up bot
    let t := refs .top top
    let b := refs .bot bot
    let braces ← kBraces T n up edge t b
    .ok ⟨top, bot, chord t, chord b, braces⟩
  | .N => do
    let bot := nBot T n
    let top ← nTop T n bot
    let t := refs .top top
    let b := refs .bot bot
    .ok ⟨top, bot, chord t, chord b, nBraces T n up edge t b⟩
  | .KT => do
    let Dx ← ktDx T n up
    let bot := kBot T n up Dx
    let top ← ktTop T n up Dx bot
    let t := refs .top top
    let b := refs .bot bot
    let braces ← ktBraces T up edge t b
    .ok ⟨top, bot, chord t, chord b, braces⟩
  | .other => .error .unboundLocal

/-- A support: node, whether horizontal and whether vertical displacement is prevented. -/
structure Sup where
  node : Ref
  x : Bool
  y : Bool

/-- `generate_supports`, raami_plane_truss.py 1066-1080. -/
def Sloped.supports (T : Sloped) (g : Gen) : Except PyErr (List Sup) := do
  let l ← if 0 < T.dx1 then idx (refs .top g.top) 0 else idx (refs .bot g.bot) 0
  let r ← if 0 < T.dx2 then lastIdx (refs .top g.top) else lastIdx (refs .bot g.bot)
  .ok [⟨l, true, true⟩, ⟨r, false, true⟩]

end

end Metku.Truss
