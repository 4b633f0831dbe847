import Verif.Thermal.StackPrismModel
import Verif.Geom.CutModel
/-!
Materials and powers of prisms: what `buildOnePrismLayer` finds for a triangle in the layer cut model
(src/extraction/thermal/EThermalModelExtraction.cpp:217-254 for prism models, 380-424 for stackup prism models, which are the same).

Simplifications: numbers are rational; net ids are left out; polygons have an area (the division at 247 and 417 by zero would give an infinite
ratio).  The geometry library is a parameter: `View`.
-/
namespace Ecad.PrismT

/-- `PowerBlock` (src/model/geometry/ELayerCutModel.h:38-60): scenario, range and loss power by temperature -/
structure Block where
  range : Geom.Range
  scen : Nat
  lut : ℚ → ℚ

/-- The layer cut model as the extraction reads it: layers, materials and areas of polygons by index, power blocks by the index of a polygon
(`GetAllPowerBlocks`, src/model/geometry/ELayerCutModel.h:116-128), and the materials of the database that are fluid
(src/extraction/thermal/EThermalModelExtraction.cpp:217-222, 380-385) -/
structure CutM where
  cut : Geom.Cut
  mat : Nat → Nat
  fluid : Nat → Bool
  noMat : Nat
  area : Nat → ℚ
  blocks : List (Nat × Block)

/-- What the geometry library says, by layer and triangle: whether the centre, cut to integers, is in a polygon; the polygons the spatial index of the
layer finds there; the area of the triangle -/
structure View where
  contains : Nat → Nat → Nat → Bool
  hits : Nat → Nat → List Nat
  area : Nat → Nat → ℚ

/-- `SearchPolygon` (src/model/geometry/utils/ELayerCutModelQuery.cpp:24-40) at the centre of a triangle
(src/extraction/thermal/EThermalModelExtraction.cpp:234-235, 404-405) -/
def search (c : CutM) (v : View) (l t : Nat) : Option Nat :=
  match c.cut.lut l with
  | none => none
  | some _ => Geom.searchPolygon (v.contains l t) c.area (v.hits l t)

/-- the power of an element of polygon `pid` (src/extraction/thermal/EThermalModelExtraction.cpp:244-251, 414-421) -/
def cellPower (c : CutM) (v : View) (l t pid : Nat) : Option (ℚ × Nat × (ℚ → ℚ)) :=
  match UMap.find? c.blocks pid with
  | none => none
  | some b =>
    if c.cut.layerByHeight b.range.high = some l then some (v.area l t / c.area pid, b.scen, b.lut) else none

/-- What is found for a triangle (src/extraction/thermal/EThermalModelExtraction.cpp:233-251, 403-421) -/
def infoOf (c : CutM) (v : View) (l t : Nat) : Option (Cell ℚ) :=
  match search c v l t with
  | none => none
  | some pid =>
    if c.fluid (c.mat pid) then none
    else if c.noMat = c.mat pid then none
    else some ⟨c.mat pid, cellPower c v l t pid⟩

end Ecad.PrismT
