import Mathlib.Analysis.Real.Pi.Bounds
import Verif.Basic.SmallModel
import Verif.Thermal.PrismGeoModel
/-!
The two factors with which a prism thermal model turns coordinates and user units into metres, the geometry of its wires,
and the places where coordinates of monitors and blocks are made. Numbers are exact.
-/
namespace Ecad.PrismS

open Units PrismT

/-- `scaleH2Unit` (src/extraction/thermal/EThermalModelExtraction.cpp:287 and 449, `Scale2Unit` src/basic/ECadUnits.h:196-199) -/
def scaleHUnit (u : CoordUnits) : ℚ := u.unit

/-- `scale2Meter` (src/extraction/thermal/EThermalModelExtraction.cpp:288 and 450): `toCoord(1)` is an integer. The scale of a metre is 1. -/
def scaleMeter (u : CoordUnits) : ℚ := toUnitIn u (toCoord u 1) 1

/-- `CoordScale2Meter` (src/model/thermal/EPrismThermalModel.h:235-238) -/
def coordScale (u : CoordUnits) (order : Nat) : ℚ := (scaleHUnit u * scaleMeter u) ^ order

/-- `UnitScale2Meter` (src/model/thermal/EPrismThermalModel.h:240-243) -/
def unitScale (u : CoordUnits) (order : Nat) : ℚ := scaleMeter u ^ order

/-- The geometry of a model built with these factors (src/model/thermal/EPrismThermalModel.cpp:88-91) -/
noncomputable def geoOf (u : CoordUnits) (pts : Nat → ℤ × ℤ) (verts : Nat → Fin 3 → Nat) (thickness : Nat → ℝ) : Geo :=
  ⟨pts, verts, (scaleHUnit u : ℚ), (scaleMeter u : ℚ), thickness⟩

/-- A bond wire of a layer cut model: its points in coordinates, the heights and the radius in user units
(src/model/geometry/ELayerCutModel.h:60-84 and src/model/thermal/EPrismThermalModel.cpp:155-163) -/
structure WireGeo where
  pts : List (ℤ × ℤ)
  heights : List ℝ
  radius : ℝ

/-- A point of a wire in space (src/model/thermal/EPrismThermalModel.cpp:161-162) -/
noncomputable def WireGeo.point (u : CoordUnits) (w : WireGeo) (i : Nat) : ℝ × ℝ × ℝ :=
  let p := w.pts.getD i (0, 0)
  (p.1 * (scaleHUnit u : ℚ), p.2 * (scaleHUnit u : ℚ), w.heights.getD i 0)

/-- `Distance` of two points in space of the library -/
noncomputable def dist3 (a b : ℝ × ℝ × ℝ) : ℝ := √((b.1 - a.1) ^ 2 + (b.2.1 - a.2.1) ^ 2 + (b.2.2 - a.2.2) ^ 2)

/-- `GetLineLength` (src/solver/thermal/utils/EPrismThermalNetworkBuilder.cpp:333-340) of a segment -/
noncomputable def WireGeo.length (u : CoordUnits) (w : WireGeo) (i : Nat) : ℝ :=
  dist3 (w.point u i) (w.point u (i + 1)) * (unitScale u 1 : ℚ)

/-- `GetLineArea` (src/solver/thermal/utils/EPrismThermalNetworkBuilder.cpp:342-347) -/
noncomputable def WireGeo.area (u : CoordUnits) (w : WireGeo) : ℝ := Real.pi * (w.radius * (unitScale u 1 : ℚ)) ^ 2

/-- `GetLineVolume` (src/solver/thermal/utils/EPrismThermalNetworkBuilder.cpp:327-331) -/
noncomputable def WireGeo.volume (u : CoordUnits) (w : WireGeo) (i : Nat) : ℝ := w.area u * w.length u i

/-- The wire as the model of networks takes it (src/model/thermal/EPrismThermalModel.cpp:152-185) -/
noncomputable def WireGeo.wire (u : CoordUnits) (w : WireGeo) (mat scen : Nat) (current : ℝ) (start fin : List Nat) : Wire ℝ :=
  ⟨w.pts.length, mat, scen, current, w.length u, w.area u, start, fin⟩

/-- The coordinates of a monitor (src/model/thermal/EPrismThermalModel.cpp:215) -/
def monitorCoord (u : CoordUnits) (x y : ℚ) : ℤ × ℤ := (trunc (x / scaleHUnit u), trunc (y / scaleHUnit u))

/-- A box with integer corners -/
structure IBox where
  x0 : ℤ
  y0 : ℤ
  x1 : ℤ
  y1 : ℤ

/-- `Area` of a box of the library -/
def IBox.area (b : IBox) : ℤ := (b.x1 - b.x0) * (b.y1 - b.y0)

/-- The box of a block boundary condition (src/extraction/thermal/EThermalModelExtraction.cpp:301-308 and 464-471,
src/basic/ECadUnits.h:243-246) -/
def blockBox (u : CoordUnits) (x0 y0 x1 y1 : ℚ) : IBox := ⟨toCoord u x0, toCoord u y0, toCoord u x1, toCoord u y1⟩

/-- The heat flow of a block condition on a prism of given area (src/solver/thermal/utils/EStackupPrismThermalNetworkBuilder.cpp:189-190 and 201-203) -/
noncomputable def blockFlow (u : CoordUnits) (value : ℝ) (b : IBox) (area : ℝ) : ℝ :=
  value / ((b.area : ℝ) * (coordScale u 2 : ℚ)) * area

end Ecad.PrismS
