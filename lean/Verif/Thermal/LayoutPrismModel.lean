import Verif.Geom.CutExModel
import Verif.Thermal.PrismPowerModel
import Verif.Basic.LookupModel
/-!
From the layer cut model of a layout to what the extraction of prism models reads of it
(src/extraction/thermal/EThermalModelExtraction.cpp:183-254, 343-424, src/model/thermal/EPrismThermalModel.cpp:152-188): the accessors of the layer
cut model, tied to the vectors that `CutEx.generate` fills.

Simplifications: numbers are rational; what the geometry library says is a parameter.
-/
namespace Ecad.LayoutPrism
open CutEx

/-- An `EMaterialId` (src/basic/ECadDef.h:74, an enumeration of integers, `noMaterial` is -1) as an unsigned number of 32 bits -/
def matNo (x : Int) : Nat := (x % 4294967296).toNat

/-- The loss power of a block at a temperature: `powerLut->Lookup` (src/solver/thermal/utils/EPrismThermalNetworkBuilder.cpp:62-67,
src/basic/ELookupTable.h:98-107) for a table with these samples -/
def lossOf (s : List (ℚ × ℚ)) (T : ℚ) : ℚ :=
  match Lookup.lookup (Lookup.build [] s) T with
  | .ok v => v
  | _ => 0

/-- What `buildOnePrismLayer` reads (src/extraction/thermal/EThermalModelExtraction.cpp:217-251, 380-421) by `GetMaterialId`, `GetAllPolygonData`
and `GetAllPowerBlocks` (src/model/geometry/ELayerCutModel.h:100-107); `fluid` are the ids of the fluid materials, `area` is the area of a polygon -/
def readCut (m : Model) (c : Geom.Cut) (fluid : List Int) (area : Polygon → ℚ) : PrismT.CutM where
  cut := c
  mat := fun i => matNo ((m.mats[i]?).getD noId)
  fluid := fun k => decide (k ∈ fluid.map matNo)
  noMat := matNo noId
  area := fun i => ((m.polygons[i]?).map area).getD 0
  blocks := m.blocks.map fun e => (e.1, ⟨e.2.range, e.2.scen, lossOf e.2.power⟩)

/-- Radius and points of a wire -/
abbrev Path := ℚ × List ((Int × Int) × ℚ)

/-- What the library says of radius and points of a wire: length of its segments, cross section, and the prisms next to its ends. -/
structure WireLib where
  len : Path → Nat → ℚ
  cross : Path → ℚ
  first : Path → List Nat
  last : Path → List Nat

/-- A wire as `AddBondWiresFromLayerCutModel` reads it (src/model/thermal/EPrismThermalModel.cpp:155-185): material, scenario and current are handed on -/
def readWire (L : WireLib) (w : WireOut) : PrismT.Wire ℚ :=
  let p : Path := (w.radius, w.points)
  ⟨w.points.length, matNo w.mat, w.scen, w.current, L.len p, L.cross p, L.first p, L.last p⟩

end Ecad.LayoutPrism
