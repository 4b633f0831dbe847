import Verif.Thermal.GridPowerModel
import Verif.Thermal.PrismModel
import Verif.Ctm.LayoutModel
/-!
The grid thermal model of a layout: `GenerateGridThermalModel`, src/extraction/thermal/EThermalModelExtraction.cpp, lines 34-160.

Simplifications: numbers are exact; `dist` (the distance of two points) and `pi` are parameters; the axes are those of the mapping
(Verif/Geom/GridModel.lean) and the metal fractions those of Verif/Ctm/LayoutModel.lean; assertions and dumps are left out.  In the code a
bond wire without length has an infinite `alpha`, here it has 0; no network shows it, as its ends are the same cell.
-/
namespace Ecad.GridExt
open Ecad.GridT Ecad.Geom Ecad.Units Ecad.L2C

variable {S : Type}

/-- A bond wire: its ends and its radius in user units -/
structure Wire where
  s : Int × Int
  e : Int × Int
  radius : ℚ

/-- A box in user units with a boundary condition (src/basic/ECadSettings.h:259-297: `topBlockBC`, `botBlockBC`) -/
abbrev Block := ((ℚ × ℚ) × (ℚ × ℚ)) × BC ℚ

/-- What the extraction reads of layout and settings -/
structure In (S : Type) where
  units : CoordUnits
  x : Axis
  y : Axis
  nets : List Nat
  prims : List (Prim S)
  layers : List Layer
  wires : List Wire
  comps : List (GridPower.Comp ℚ)
  topBC : BC ℚ
  botBC : BC ℚ
  topBlocks : List Block
  botBlocks : List Block

/-- `ESize2D` of `GetIndex` (src/utility/EMetalFractionMapping.h:58-65) -/
def cellOf (x y : Axis) (p : Int × Int) : Res Size2 :=
  (getIndex x y p).bind fun r => .ok ⟨r.1.getD invalidIndex, r.2.getD invalidIndex⟩

/-- The thickness in metres (src/extraction/thermal/EThermalModelExtraction.cpp:67-68, src/basic/ECadUnits.h:216-219, 232-236) -/
def thickness (u : CoordUnits) (t : ℚ) : ℚ := toUnitIn u (t * scale2Coord u) 1

/-- The layer for a stackup layer (src/extraction/thermal/EThermalModelExtraction.cpp:65-71) -/
def tlayer (part : Box → S → ℚ) (a : In S) (l : Layer) : TLayer ℚ :=
  ⟨thickness a.units l.thick, (layerFraction part a.nets a.prims a.x a.y l.id).val, []⟩

/-- `AppendLayer` and `lyrMap` (src/extraction/thermal/EThermalModelExtraction.cpp:63-74, src/model/thermal/EGridThermalModel.cpp:316-327): a
layer of negative thickness is not appended and has an invalid index. -/
def addLayer (part : Box → S → ℚ) (a : In S) (r : List (TLayer ℚ) × List (Int × Nat)) (l : Layer) : List (TLayer ℚ) × List (Int × Nat) :=
  if thickness a.units l.thick < 0 then (r.1, (UMap.emplace r.2 (l.id : Int) invalidIndex).1)
  else (r.1 ++ [tlayer part a l], (UMap.emplace r.2 (l.id : Int) r.1.length).1)

/-- All layers, and `lyrMap` -/
def addLayers (part : Box → S → ℚ) (a : In S) : List (TLayer ℚ) × List (Int × Nat) := a.layers.foldl (addLayer part a) ([], [])

/-- One bond wire (src/extraction/thermal/EThermalModelExtraction.cpp:79-89) -/
def jump (dist : Int × Int → Int × Int → ℚ) (pi : ℚ) (a : In S) (w : Wire) : Res (Size3 × Size3 × ℚ) :=
  let l := toUnitIn a.units (dist w.s w.e) 1
  let r := toUnitIn a.units (w.radius * scale2Coord a.units) 1
  (cellOf a.x a.y w.s).bind fun i =>
  (cellOf a.x a.y w.e).bind fun j =>
  .ok (⟨i.x, i.y, 0⟩, ⟨j.x, j.y, 0⟩, pi * r * r / l)

/-- The corners of a block as cells (src/extraction/thermal/EThermalModelExtraction.cpp:144-150, 152-158) -/
def block (a : In S) (b : Block) : Res ((Size2 × Size2) × BC ℚ) :=
  (cellOf a.x a.y (toCoord a.units b.1.1.1, toCoord a.units b.1.1.2)).bind fun ll =>
  (cellOf a.x a.y (toCoord a.units b.1.2.1, toCoord a.units b.1.2.2)).bind fun ur =>
  .ok ((ll, ur), b.2)

/-- The blocks whose condition is valid (src/extraction/thermal/EThermalModelExtraction.cpp:145, 153) -/
def blocks (a : In S) (bs : List Block) : Res (List ((Size2 × Size2) × BC ℚ)) :=
  PrismT.mapRes (block a) (bs.filter fun b => b.2.value.isSome)

/-- A uniform condition, if valid (src/extraction/thermal/EThermalModelExtraction.cpp:140-143) -/
def uniform (b : BC ℚ) : Option (BC ℚ) := if b.value.isSome then some b else none

/-- `AddPowerModel` for each layer with power (src/extraction/thermal/EThermalModelExtraction.cpp:132-137,
src/model/thermal/EGridThermalModel.cpp:349-353): an index outside throws. -/
def addPowers (ls : List (TLayer ℚ)) (pm : List (Nat × Table ℚ)) : Res (List (TLayer ℚ)) :=
  if pm.all fun e => e.1 < ls.length then
    .ok (ls.zipIdx.map fun p => { p.1 with powers := p.1.powers ++ (UMap.find? pm p.2).toList.map Power.grid })
  else .exn

/-- `GenerateGridThermalModel` (src/extraction/thermal/EThermalModelExtraction.cpp:34-160) -/
def extract (dist : Int × Int → Int × Int → ℚ) (pi : ℚ) (part : Box → S → ℚ) (a : In S) : Res (GModel ℚ) :=
  let ls := addLayers part a
  let rx := toUnitIn a.units a.x.stride 1
  let ry := toUnitIn a.units a.y.stride 1
  let r := if rx < 0 ∨ ry < 0 then (0, 0) else (rx, ry)
  (PrismT.mapRes (jump dist pi a) a.wires).bind fun js =>
  (GridPower.powerModels a.x a.y ls.2 a.comps).bind fun pm =>
  (addPowers ls.1 pm).bind fun layers =>
  (blocks a a.topBlocks).bind fun tb =>
  (blocks a a.botBlocks).bind fun bb =>
  .ok { size := ⟨a.x.grid, a.y.grid⟩, resX := r.1, resY := r.2, scaleH := 1, layers := layers, jumps := js,
        topBC := uniform a.topBC, botBC := uniform a.botBC, topBlocks := tb, botBlocks := bb }

end Ecad.GridExt
