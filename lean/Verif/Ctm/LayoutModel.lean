import Verif.Ctm.GridModel
import Verif.Geom.GridModel
import Verif.Basic.SmallModel
/-!
The chip thermal model generated from a layout: src/utility/ELayout2CtmUtility.cpp, with the selection of the polygons of a layer and the
mapping to tiles in src/utility/EMetalFractionMapping.cpp.

Simplifications: numbers are exact; the polygons are those after merging (src/utility/EMetalFractionMapping.cpp:106-111); writing the
file is in Verif/Ctm/HeaderModel.lean; the number of tiles and the part of a tile covered by a polygon come from a library and are
parameters.
-/
namespace Ecad.L2C
open Ecad.Ctm Ecad.Units

variable {S : Type}

/-- A primitive: its layer (`none`: `noLayer`), its net and its shape (`none`: there is no geometry or no shape) with an outline and
holes. -/
structure Prim (S : Type) where
  layer : Option Nat
  net : Nat
  shape : Option (S × List S)

/-- A stackup layer: number, name, thickness in user units, and whether it is conducting -/
structure Layer where
  id : Nat
  name : String
  thick : ℚ
  metal : Bool

/-- A box: lower left and upper right corner -/
structure Box where
  x0 : Int
  y0 : Int
  x1 : Int
  y1 : Int
  deriving DecidableEq

/-- One primitive in the loop over primitives (src/utility/EMetalFractionMapping.cpp:38-60) -/
def selectStep (nets : List Nat) (layer : Nat) (r : List S × List S) (p : Prim S) : List S × List S :=
  if p.layer = none then r
  else if p.layer ≠ some layer then r
  else if nets.length > 0 && !nets.contains p.net then r
  else match p.shape with
    | none => r
    | some (o, hs) => (r.1 ++ [o], r.2 ++ hs)

/-- `m_solids` and `m_holes` (src/utility/EMetalFractionMapping.cpp:30-62) -/
def select (nets : List Nat) (layer : Nat) (ps : List (Prim S)) : List S × List S :=
  ps.foldl (selectStep nets layer) ([], [])

/-- The box of a tile (src/utility/EMetalFractionMapping.cpp:122-132: `MapCtrl` with region and strides) -/
def tile (x y : Geom.Axis) (i j : Nat) : Box :=
  ⟨x.rlo + i * x.stride, y.rlo + j * y.stride, x.rlo + (i + 1) * x.stride, y.rlo + (j + 1) * y.stride⟩

/-- The result for one layer (src/utility/EMetalFractionMapping.cpp:65-87, 134-143): `part b s` is the part of the box `b` covered by
the polygon `s`. -/
def layerFraction (part : Box → S → ℚ) (nets : List Nat) (ps : List (Prim S)) (x y : Geom.Axis) (layer : Nat) : Frac ℚ :=
  ⟨x.grid, y.grid, fun i j =>
    Geom.clampFraction ((select nets layer ps).1.map (part (tile x y i j))) ((select nets layer ps).2.map (part (tile x y i j)))⟩

/-- One direction of the layout and of the settings: the box of the layout, the extensions in user units
(src/utility/ELayout2CtmUtility.cpp:35-38, 41-48) -/
structure Side where
  lo : Int
  hi : Int
  extLo : ℚ
  extHi : ℚ

/-- The axis of the mapper (src/utility/EMetalFractionMapping.cpp:118-123); the region is the one of
src/utility/ELayout2CtmUtility.cpp:45-48. -/
def Side.axis (u : CoordUnits) (s : Side) (n : Nat) : Geom.Axis := ⟨s.lo, s.hi, toCoord u s.extLo, toCoord u s.extHi, n⟩

/-- length of the region in one direction -/
def Side.len (u : CoordUnits) (s : Side) : Int := (s.hi + toCoord u s.extHi) - (s.lo - toCoord u s.extLo)

/-- The settings and the layout -/
structure Input (S : Type) where
  units : CoordUnits
  x : Side
  y : Side
  resolution : ℚ
  nets : List Nat
  prims : List (Prim S)
  layers : List Layer

/-- `stride` (src/utility/ELayout2CtmUtility.cpp:50), from micrometres -/
def Input.stride (a : Input S) : Int := toCoordIn a.units a.resolution (1 / 1000000)

/-- The layer appended for a stackup layer (src/utility/ELayout2CtmUtility.cpp:73-81): the thickness goes through `toUnit`. -/
def gridLayer (part : Box → S → ℚ) (a : Input S) (x y : Geom.Axis) (l : Layer) : GLay ℚ Empty :=
  { name := l.name, isMetal := l.metal, thick := toUnitIn a.units l.thick 1, top := "", bot := "",
    mf := some (layerFraction part a.nets a.prims x y l.id), powers := [] }

/-- The grid model (src/utility/ELayout2CtmUtility.cpp:65-83); the mapper and the utility go through the same stackup layers
(src/utility/EMetalFractionMapping.cpp:134-147, src/collection/ELayerCollection.cpp). -/
def gridModel (part : Box → S → ℚ) (a : Input S) (nx ny : Nat) : Grid ℚ Empty :=
  let r := toUnitIn a.units a.stride 1
  { size := (nx, ny)
    scale := 1
    res := if r < 0 then (0, 0) else (r, r)
    layers := (a.layers.map (gridLayer part a (a.x.axis a.units nx) (a.y.axis a.units ny))).foldl (appendLayer (nx, ny)) [] }

/-- `GenerateCTMv1File` up to the writing of the file (src/utility/ELayout2CtmUtility.cpp:27-85); `size` is `GetGridMapSize` of the
library in one direction (51).  Without tiles the conversion of an infinite stride is undefined. -/
def chip (size : Int → Int → Nat) (part : Box → S → ℚ) (a : Input S) : Res (Option (Chip ℚ (Table ℚ))) :=
  let nx := size (a.x.len a.units) a.stride
  let ny := size (a.y.len a.units) a.stride
  if nx = 0 ∨ ny = 0 then .ub
  else .ok (toChip (fun (p : Empty) _ _ _ => p.elim) (gridModel part a nx ny))

end Ecad.L2C
