import Mathlib.Analysis.Real.Pi.Bounds
import Verif.Model.Ec3Fire

/-!
Model of `metku/sandwich/sandwich.py` (sandwich panels with steel faces) and `metku/structures/timber/clt_slab.py`
(slabs of cross laminated timber).

Simplifications.  A sandwich panel has exactly two faces.  Materials are given by their numbers.  Layers of a slab are kept in a heap,
as slabs share the objects they are given; drawing is left out.
-/
namespace Metku.Panels

open Metku Metku.Fire

/-! ### Sandwich panels -/

/-- `Face`, sandwich.py 59-84. -/
structure Face where
  (t fy fu E tcoat : ℝ)

/-- `Face.tcor`, lines 96-99. -/
def Face.tcor (f : Face) : ℝ := f.t - f.tcoat

/-- `Face.A`, lines 101-106. -/
def Face.A (f : Face) (b : ℝ) : ℝ := f.t * b

/-- `Face.I`, lines 108-113. -/
noncomputable def Face.I (f : Face) (b : ℝ) : ℝ := 1 / 12 * b * f.t ^ 3

/-- `Face.EI`, lines 115-118. -/
noncomputable def Face.EI (f : Face) (b : ℝ) : ℝ := f.E * f.I b

/-- `Face.EA`, lines 120-122. -/
def Face.EA (f : Face) (b : ℝ) : ℝ := f.E * f.A b

/-- `Core`, lines 124-131. -/
structure Core where
  (t G density : ℝ)

/-- `SandwichScrew`, lines 32-56. -/
structure Screw where
  (d dS d1 : ℝ)

/-- `SandwichPanel`, lines 135-163. -/
structure Panel where
  (top bottom : Face)
  core : Core
  (width length : ℝ)
  c : List ℝ
  fastener : Screw

/-- `thickness`, lines 165-168. -/
def Panel.thickness (P : Panel) : ℝ := P.top.t + P.bottom.t + P.core.t

/-- `d`, lines 170-173. -/
noncomputable def Panel.d (P : Panel) : ℝ := 0.5 * P.top.t + 0.5 * P.bottom.t + P.core.t

/-- `S`, lines 183-186. -/
noncomputable def Panel.S (P : Panel) : Except PyErr ℝ := pdiv (P.core.G * P.width * P.d ^ 2) P.core.t

/-- `EIo`, lines 188-192. -/
noncomputable def Panel.EIo (P : Panel) : ℝ := P.top.EI P.width + P.bottom.EI P.width

/-- `EIs`, lines 194-199. -/
noncomputable def Panel.EIs (P : Panel) : Except PyErr ℝ := do
  let q ← pdiv (P.top.EA P.width * P.bottom.EA P.width) (P.top.EA P.width + P.bottom.EA P.width)
  return q * P.d ^ 2

/-- `kF2` in `fastener_transverse_stiffness`, lines 227-231. -/
noncomputable def faceStiffness (f : Face) (d1 : ℝ) : Except PyErr ℝ := do
  if f.tcor < 0.7 then
    let r ← psqrt (f.tcor ^ 3 * d1)
    pdiv (6.93 * f.fu * r) (0.26 + 0.8 * f.t)
  else
    let r ← psqrt (f.tcor ^ 3 * d1)
    pdiv (4.2 * f.fu * r) 0.373

/-- `fastener_transverse_stiffness`, lines 212-249. -/
noncomputable def Panel.fastenerStiffness (P : Panel) (tsup : ℝ) : Except PyErr ℝ := do
  let d1 := P.fastener.d1
  let dS := P.fastener.dS
  let EI := 200000 * Real.pi * dS ^ 4 / 64
  let r ← psqrt (tsup * d1 ^ 5)
  let Csup := 2400 * r
  let kF2 ← faceStiffness P.bottom d1
  let D := P.thickness
  let p ← pdiv 1 kF2
  let a1 ← pdiv (0.5 * D * tsup) Csup
  let a2 ← pdiv (D * tsup ^ 2 / 8) EI
  let b1 ← pdiv (D ^ 2) Csup
  let b2 ← pdiv (D ^ 2 * (2 * D + 3 * tsup) / 6) EI
  let q ← pdiv (p - a1 - a2) (p + b1 + b2)
  let xF := 1 - q
  let s1 ← pdiv xF kF2
  let s2 ← pdiv ((tsup ^ 2 + 2 * (1 - xF) * D * tsup) / 4) Csup
  let s3 ← pdiv ((3 * (1 - xF) * D * tsup ^ 2 + tsup ^ 3) / 24) EI
  pdiv 1 (s1 + s2 + s3)

/-- `shear_stiffness_for_support`, lines 251-264. -/
noncomputable def Panel.supportStiffness (P : Panel) (tsup L n : ℝ) : Except PyErr ℝ := do
  let kv ← P.fastenerStiffness tsup
  let q ← pdiv (0.5 * kv * n) L
  return q * (P.c.map fun ci => ci ^ 2).sum

/-- `fastener_shear_resistance`, lines 266-277; `gammaM2` is 1.25. -/
noncomputable def Panel.shearResistance (P : Panel) : Except PyErr ℝ := do
  let r ← psqrt (P.bottom.tcor ^ 3 * P.fastener.d1)
  return 4.2 * r * P.bottom.fu / 1.25

/-- `ruukki_panel`, lines 19-30; `c` is the default list of screw distances. -/
noncomputable def ruukkiPanel (name : String) (thickness length : ℝ) (c : List ℝ) : Except PyErr Panel :=
  if name = "SPA E" then
    .ok ⟨⟨0.6, 280, 360, 210000, 0.04⟩, ⟨0.5, 280, 360, 210000, 0.04⟩, ⟨thickness - 0.6 - 0.5, 3.7, 110e-9⟩, 1200, length, c,
      ⟨5.5, 5.1, 4.59⟩⟩
  else .error .unboundLocal

/-- The list of screw distances of a panel: the default list of the constructor, which all panels made without one share, or its own
    (lines 138-139 and 162). -/
inductive Screws
  | shared
  | own (l : List ℝ)

/-- The list that a panel sees; `dflt` is the present content of the default list. -/
def Screws.get (dflt : List ℝ) : Screws → List ℝ
  | .shared => dflt
  | .own l => l

/-- A distance is appended to the list of a panel: the default list and that of the panel afterwards. -/
def Screws.append (dflt : List ℝ) (x : ℝ) : Screws → List ℝ × Screws
  | .shared => (dflt ++ [x], .shared)
  | .own l => (dflt, .own (l ++ [x]))

/-! ### Slabs of cross laminated timber -/

/-- `CLTLayer`, clt_slab.py 18-46. -/
structure Layer where
  (t E0 E90 orientation bx byy : ℝ)

/-- `CLTLayer(...)`: width and length of a new layer are 1000. -/
def Layer.new (t E0 E90 orientation : ℝ) : Layer := ⟨t, E0, E90, orientation, 1000, 1000⟩

/-- `Iy`, lines 62-68. -/
noncomputable def Layer.Iy (l : Layer) : ℝ := l.bx * l.t ^ 3 / 12

/-- `Iz`, lines 70-76. -/
noncomputable def Layer.Iz (l : Layer) : ℝ := l.byy * l.t ^ 3 / 12

/-- `EIy`, lines 78-88. -/
noncomputable def Layer.EIy (l : Layer) : ℝ := (if l.orientation = 0 then l.E0 else l.E90) * l.Iy

/-- `EIz`, lines 90-100. -/
noncomputable def Layer.EIz (l : Layer) : ℝ := (if l.orientation = 0 then l.E90 else l.E0) * l.Iz

/-- Layer objects by address. -/
abbrev Heap := ℕ → Layer

/-- `CLTSlab`, lines 103-144: width, length, addresses of the layers. -/
structure Slab where
  (b L : ℝ)
  layers : List ℕ

/-- `CLTSlab(layers, width, length)` with a list of layers, lines 125-144: all layers are given its width and length. -/
def newSlab (h : Heap) (layers : List ℕ) (b L : ℝ) : Heap × Slab :=
  (fun i => if i ∈ layers then { h i with bx := b, byy := L } else h i, ⟨b, L, layers⟩)

/-- Layers from a dict of lists, lines 130-139: as many as the shortest list has entries. -/
def layersOfDict (ts : List ℝ) (mats : List (ℝ × ℝ)) (ors : List ℝ) : List Layer :=
  (ts.zip (mats.zip ors)).map fun x => Layer.new x.1 x.2.1.1 x.2.1.2 x.2.2

/-- `hclt`, lines 158-162. -/
def Slab.hclt (h : Heap) (s : Slab) : ℝ := (s.layers.map fun i => (h i).t).sum

/-- `zgc`, lines 164-167. -/
noncomputable def Slab.zgc (h : Heap) (s : Slab) : ℝ := 0.5 * s.hclt h

/-- `Ay`, lines 169-173: the attribute `width` does not exist. -/
def Slab.Ay (_ : Heap) (_ : Slab) : Except PyErr ℝ := .error .attributeError

/-- `Az`, lines 175-179: the attribute `length` does not exist. -/
def Slab.Az (_ : Heap) (_ : Slab) : Except PyErr ℝ := .error .attributeError

/-- `EIy`, lines 181-184: the sum is not returned. -/
def Slab.EIy (_ : Heap) (_ : Slab) : Option ℝ := none

end Metku.Panels
