import Verif.Thermal.LayoutPrismModel
import Verif.Thermal.MatModel
/-!
A layout whose objects name their materials: the lookups by name when the layer cut model is made
(src/extraction/geometry/EGeometryModelExtraction.cpp, src/model/geometry/utils/ELayerCutModelBuilder.cpp), over the materials of a database
(`Verif.Thermal.MatModel`).

Simplifications: as in `Verif.Geom.CutExModel`.
-/
namespace Ecad.Named
open CutEx Ecad.Mat Ecad.Db Ecad.Material

/-- a layer with the names of its two materials (src/design/ELayer.h:65-66) -/
structure NLayer where
  slab : Util.Slab ℚ
  cond : String
  diel : String

/-- a component with the names of its material and of its solder (src/design/EComponentDef.h:59-60) -/
structure NComp where
  part : Util.Part ℚ
  outline : Option Polygon
  mat : String
  solder : String
  power : List (ℚ × ℚ)
  scen : Nat

/-- a solder joint with the name the retriever gives (src/utility/ELayoutRetriever.cpp:178-202) -/
structure NJoint where
  place : Option (CutEx.Shape × (ℚ × ℚ))
  mat : String

/-- a bond wire with the name of its material (src/design/EPrimitive.h:129) -/
structure NWire where
  mat : String
  net : Int
  radius : ℚ
  current : ℚ
  scen : Nat
  points : List ((Int × Int) × ℚ)
  top : Option NJoint
  bot : Option NJoint

/-- a primitive: a bond wire, a shape, or something else -/
inductive NPrim where
  | wire (w : NWire)
  | geom (s : Option CutEx.Shape) (net lyr : Int)
  | other

/-- a padstack instance with the name of the material of its definition (src/design/EPadstackDefData.h:96) -/
structure NPad where
  net : Int
  data : Bool
  mat : String
  top : Int
  bot : Int
  shape : Int → Option CutEx.Shape

/-- a layout and the imprint boxes of the settings -/
structure NLayout where
  layers : List NLayer
  boundary : Option CutEx.Shape
  comps : List NComp
  prims : List NPrim
  pads : List NPad
  imprints : List Polygon

/-- `FindMaterialDefByName(name)->GetMaterialId()` (src/extraction/geometry/EGeometryModelExtraction.cpp:28-30, 49-51, 62, 76, 95-98, 118-119,
src/model/geometry/utils/ELayerCutModelBuilder.cpp:59, 71); `none` is a null pointer. -/
def idOf (l : Lib ℚ) (n : String) : Option Int := (findByName l.db .materialDef n).map fun x => (x.matId : Int)

/-- The resistivity of a solder joint with a current: `GetProperty(EMaterialPropId::Resistivity)->GetSimpleProperty(25, resistivity)`
(src/extraction/geometry/EGeometryModelExtraction.cpp:62-65, 76-79). The variable is not initialised. -/
def jointRes (l : Lib ℚ) (n : String) : Res ℚ :=
  match findByName l.db .materialDef n with
  | none => .ub
  | some x =>
    match UMap.find? l.props x.obj with
    | none => .ub
    | some m =>
      match getProperty m pidRes with
      | none => .ub
      | some p => (p.simpleAt 25).bind initialised

/-- a layer with the ids of its materials (src/extraction/geometry/EGeometryModelExtraction.cpp:28-30, 95-98) -/
def NLayer.resolve (l : Lib ℚ) (x : NLayer) : LayerIn := ⟨x.slab, idOf l x.cond, idOf l x.diel⟩

/-- a component with the ids of its materials (src/model/geometry/utils/ELayerCutModelBuilder.cpp:59, 71) -/
def NComp.resolve (l : Lib ℚ) (c : NComp) : CompIn := ⟨c.part, c.outline, idOf l c.mat, idOf l c.solder, c.power, c.scen⟩

/-- a solder joint with id and resistivity of its material (src/extraction/geometry/EGeometryModelExtraction.cpp:62-65, 76-79) -/
def NJoint.resolve (l : Lib ℚ) (j : NJoint) : Joint := ⟨j.place, idOf l j.mat, valueOf (jointRes l j.mat)⟩

/-- a bond wire with the id of its material (src/extraction/geometry/EGeometryModelExtraction.cpp:49-55) -/
def NWire.resolve (l : Lib ℚ) (w : NWire) : WireIn :=
  ⟨idOf l w.mat, w.net, w.radius, w.current, w.scen, w.points, w.top.map (NJoint.resolve l), w.bot.map (NJoint.resolve l)⟩

/-- a primitive (src/extraction/geometry/EGeometryModelExtraction.cpp:46-111) -/
def NPrim.resolve (l : Lib ℚ) : NPrim → Prim
  | .wire w => .wire (w.resolve l)
  | .geom s net lyr => .geom s net lyr
  | .other => .other

/-- a padstack instance with the id of its material (src/extraction/geometry/EGeometryModelExtraction.cpp:118-119) -/
def NPad.resolve (l : Lib ℚ) (p : NPad) : PadIn := ⟨p.net, p.data, idOf l p.mat, p.top, p.bot, p.shape⟩

/-- a layout with ids instead of names -/
def NLayout.resolve (l : Lib ℚ) (I : NLayout) : Input :=
  ⟨I.layers.map (NLayer.resolve l), I.boundary, I.comps.map (NComp.resolve l), I.prims.map (NPrim.resolve l), I.pads.map (NPad.resolve l), I.imprints⟩

/-- the resistivities a primitive reads: those of the joints of a wire with a current (src/extraction/geometry/EGeometryModelExtraction.cpp:63-65,
77-79) -/
def NPrim.reads (l : Lib ℚ) : NPrim → List (Res Unit)
  | .wire w => if w.current > 0 then (w.top.toList ++ w.bot.toList).map fun j => (jointRes l j.mat).bind fun _ => .ok () else []
  | _ => []

/-- `GenerateLayerCutModel` (src/extraction/geometry/EGeometryModelExtraction.cpp:15-144) with names looked up in the database. The resistivities, which
are read wire by wire, are read first here: whether one of them goes wrong does not depend on the model. -/
def extractN (l : Lib ℚ) (E : Env) (ratio : ℚ) (fuel : Nat) (I : NLayout) : Res (Model × Option (Res Geom.Cut)) :=
  (allOk (I.prims.flatMap (NPrim.reads l))).bind fun _ => CutEx.extract E ratio fuel (I.resolve l)

/-- the fluid materials as ids of the model (src/extraction/thermal/EThermalModelExtraction.cpp:217-222, 387-392) -/
def fluidIds (l : Lib ℚ) : List Int := l.fluids.map fun (i : Nat) => (i : Int)

end Ecad.Named
