import Mathlib.Analysis.Real.Sqrt
import Verif.Thermal.PrismModel
/-!
The geometry from which the builder of prism networks takes areas, lengths and distances. Coordinates are exact real numbers and
the square root is exact.
-/
namespace Ecad.PrismT

/-- A mesh with coordinates: the points of the template (integers, src/model/thermal/EPrismThermalModel.cpp:195), the
three points of a triangle, the factor of lengths in the plane `m_scaleH2Unit`, the factor to metres `m_scale2Meter`
(src/model/thermal/EPrismThermalModel.h:216-217), and the thickness of layers. -/
structure Geo where
  pts : Nat → ℤ × ℤ
  verts : Nat → Fin 3 → Nat
  scaleH : ℝ
  scale : ℝ
  thickness : Nat → ℝ

/-- `GetPrismVertexPoint2D` (src/solver/thermal/utils/EPrismThermalNetworkBuilder.cpp:245-256) of a point stored by `GetPoint`
(src/model/thermal/EPrismThermalModel.cpp:203-204) -/
noncomputable def Geo.vertex (g : Geo) (t : Nat) (v : Fin 3) : ℝ × ℝ :=
  ((g.pts (g.verts t v)).1 * g.scaleH, (g.pts (g.verts t v)).2 * g.scaleH)

/-- `GetPrismCenterPoint2D` (src/solver/thermal/utils/EPrismThermalNetworkBuilder.cpp:258-265): `Center` of the library is
taken to be the centroid. -/
noncomputable def Geo.center (g : Geo) (t : Nat) : ℝ × ℝ :=
  (((g.vertex t 0).1 + (g.vertex t 1).1 + (g.vertex t 2).1) / 3, ((g.vertex t 0).2 + (g.vertex t 1).2 + (g.vertex t 2).2) / 3)

/-- the cross product of `b - a` and `c - a` -/
def cross (a b c : ℝ × ℝ) : ℝ := (b.1 - a.1) * (c.2 - a.2) - (b.2 - a.2) * (c.1 - a.1)

/-- the square of the distance of two points -/
def distSq (a b : ℝ × ℝ) : ℝ := (b.1 - a.1) ^ 2 + (b.2 - a.2) ^ 2

/-- `PointLineDistanceSq` of the library, as called at src/solver/thermal/utils/EPrismThermalNetworkBuilder.cpp:274 -/
noncomputable def pointLineDistSq (c a b : ℝ × ℝ) : ℝ := cross a b c ^ 2 / distSq a b

/-- `GetPrismCenterDist2Side` (src/solver/thermal/utils/EPrismThermalNetworkBuilder.cpp:267-276) -/
noncomputable def Geo.toSide (g : Geo) (t : Nat) (e : Fin 3) : ℝ :=
  √(pointLineDistSq (g.center t) (g.vertex t e) (g.vertex t (e + 1))) * g.scale

/-- `GetPrismEdgeLength` (src/solver/thermal/utils/EPrismThermalNetworkBuilder.cpp:278-286) -/
noncomputable def Geo.edgeLen (g : Geo) (t : Nat) (e : Fin 3) : ℝ :=
  √(distSq (g.vertex t e) (g.vertex t (e + 1))) * g.scale

/-- The distance of two centres (src/solver/thermal/utils/EPrismThermalNetworkBuilder.cpp:89-91) -/
noncomputable def Geo.dist (g : Geo) (t t' : Nat) : ℝ := √(distSq (g.center t) (g.center t')) * g.scale

/-- `GetPrismTopBotArea` (src/solver/thermal/utils/EPrismThermalNetworkBuilder.cpp:296-303): the three upper points
of a prism have the height of its layer, so the area in space is that in the plane. -/
noncomputable def Geo.area (g : Geo) (t : Nat) : ℝ :=
  |cross (g.vertex t 0) (g.vertex t 1) (g.vertex t 2)| / 2 * g.scale ^ 2

/-- `GetPrismHeight` (src/solver/thermal/utils/EPrismThermalNetworkBuilder.cpp:311-316) -/
def Geo.height (g : Geo) (l : Nat) : ℝ := g.thickness l * g.scale

/-- The model with the geometry of a mesh -/
noncomputable def Geo.model (g : Geo) (m : PModel ℝ) : PModel ℝ :=
  { m with area := g.area, edgeLen := g.edgeLen, toSide := g.toSide, dist := g.dist, height := g.height }

end Ecad.PrismT
