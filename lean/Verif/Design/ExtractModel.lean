import Verif.Base.UMap
/-!
Extraction settings, their comparison, and the cache of extracted models of a layout.
Floating point values are an arbitrary type `F` with exact comparison (the code compares some of
them with a tolerance, `math::NE`).
-/
namespace Ecad.Extract

/-- `ELayoutPolygonMergeSettings` (src/basic/ECadSettings.h:51-57).  Net id sets are lists without
regard to order: the model takes them in a canonical form. -/
structure MergeS where
  threads : Nat
  outFile : String
  mtByLayer : Bool
  includePadstackInst : Bool
  includeDielectricLayer : Bool
  skipTopBotDielectricLayers : Bool
  selectNets : List Int
  deriving DecidableEq

/-- `operator==` (src/basic/ECadSettings.h:62-71). -/
def MergeS.eq (a b : MergeS) : Bool :=
  !(a.includePadstackInst != b.includePadstackInst ||
    a.includeDielectricLayer != b.includeDielectricLayer ||
    a.skipTopBotDielectricLayers != b.skipTopBotDielectricLayers ||
    a.selectNets != b.selectNets)

/-- `EMetalFractionMappingSettings` (src/basic/ECadSettings.h:95-104). -/
structure FractionS (F : Type) where
  threads : Nat
  outFile : String
  regionExt : F × F × F × F
  mergeGeomBeforeMapping : Bool
  grid : Nat × Nat
  selectNets : List Int
  polygonMergeSettings : MergeS
  deriving DecidableEq

variable {F : Type} [DecidableEq F]

/-- `operator==` (src/basic/ECadSettings.h:108-121).  Lines 118 and 119 compare the members
`selectNets` and `polygonMergeSettings` with themselves. -/
def FractionS.eq (a b : FractionS F) : Bool :=
  !(a.regionExt != b.regionExt || a.mergeGeomBeforeMapping != b.mergeGeomBeforeMapping ||
    a.grid != b.grid || a.selectNets != a.selectNets ||
    !(a.polygonMergeSettings.eq a.polygonMergeSettings))

/-- `EMeshSettings` and `EPrismMeshSettings` (src/basic/ECadSettings.h:140-143, 173-176). -/
structure MeshS (F : Type) where
  minAlpha : F
  minLen : F
  maxLen : F
  tolerance : F
  iteration : Nat
  dumpMeshFile : Bool
  genMeshByLayer : Bool
  imprintUpperLayer : Bool
  deriving DecidableEq

/-- `operator==` (src/basic/ECadSettings.h:145-154, 178-188). -/
def MeshS.eq (a b : MeshS F) : Bool :=
  !(a.minAlpha != b.minAlpha || a.minLen != b.minLen || a.maxLen != b.maxLen ||
    a.tolerance != b.tolerance) &&
  !(a.iteration != b.iteration || a.genMeshByLayer != b.genMeshByLayer ||
    a.imprintUpperLayer != b.imprintUpperLayer)

/-- `ELayerCutModelExtractionSettings` (src/basic/ECadSettings.h:208-212). -/
structure CutS (F : Type) where
  dumpSketchImg : Bool
  layerCutPrecision : Nat
  layerTransitionRatio : F
  addCircleCenterAsSteinerPoint : Bool
  imprintBox : List (F × F × F × F)
  deriving DecidableEq

/-- `operator==` (src/basic/ECadSettings.h:214-223). -/
def CutS.eq (a b : CutS F) : Bool :=
  !(a.layerCutPrecision != b.layerCutPrecision ||
    a.layerTransitionRatio != b.layerTransitionRatio ||
    a.addCircleCenterAsSteinerPoint != b.addCircleCenterAsSteinerPoint ||
    a.imprintBox != b.imprintBox)

/-- `EThermalBoundaryCondition` (src/basic/ECadSettings.h:241-256); its comparison is the one of
pairs. -/
abbrev BC (F : Type) := Nat × F

/-- Base class `EThermalModelExtractionSettings` (src/basic/ECadSettings.h:281-288). -/
structure ThermalS (F : Type) where
  forceRebuild : Bool
  threads : Nat
  workDir : String
  topUniformBC : BC F
  botUniformBC : BC F
  topBlockBC : List ((F × F × F × F) × BC F)
  botBlockBC : List ((F × F × F × F) × BC F)
  envTemperature : F
  deriving DecidableEq

/-- `operator==` (src/basic/ECadSettings.h:300-310). -/
def ThermalS.eq (a b : ThermalS F) : Bool :=
  !(a.topUniformBC != b.topUniformBC || a.botUniformBC != b.botUniformBC ||
    a.topBlockBC != b.topBlockBC || a.botBlockBC != b.botBlockBC ||
    a.envTemperature != b.envTemperature)

/-- The two derived classes (src/basic/ECadSettings.h:337-340, 372-374). -/
inductive Settings (F : Type) where
  | grid (base : ThermalS F) (dumpHotmaps dumpDensityFile dumpTemperatureFile : Bool)
      (fraction : FractionS F)
  | prism (base : ThermalS F) (mesh : MeshS F) (merge : MergeS) (cut : CutS F)
  deriving DecidableEq

/-- model types (src/basic/ECadCommon.h, `EModelType`) -/
inductive ModelType where
  | layerCut | thermalGrid | thermalPrism | thermalStackupPrism
  deriving DecidableEq

def Settings.base : Settings F → ThermalS F
  | .grid b _ _ _ _ => b
  | .prism b _ _ _ => b

/-- `GetModelType` (src/basic/ECadSettings.h:342, 379-382). -/
def Settings.modelType : Settings F → ModelType
  | .grid _ _ _ _ _ => .thermalGrid
  | .prism _ m _ _ => if m.genMeshByLayer then .thermalStackupPrism else .thermalPrism

/-- `operator==` (src/basic/ECadSettings.h:344-352, 390-400); the dynamic cast fails for the other
kind. -/
def Settings.eq : Settings F → Settings F → Bool
  | .grid b _ _ _ f, .grid b' _ _ _ f' => b.eq b' && f.eq f'
  | .prism b m g c, .prism b' m' g' c' => b.eq b' && (m.eq m' && g.eq g' && c.eq c')
  | _, _ => false

/-- A model in the cache: the settings it stores (`m_settings`, set by the constructors,
src/model/thermal/EGridThermalModel.cpp:236, src/model/thermal/EPrismThermalModel.cpp:42) and its
content `C`. -/
structure Model (F C : Type) where
  settings : Settings F
  content : C

variable {C L : Type}

/-- `EModelCollection` (src/collection/EModelCollection.h): keyed by model type. -/
abbrev Cache (F C : Type) := List (ModelType × Model F C)

/-- `AddModel` (src/collection/EModelCollection.cpp:45-49): null is refused, an existing model of
the type is replaced (`Insert(..., true)`, src/basic/ECollection.h). -/
def addModel (c : Cache F C) (t : ModelType) : Option (Model F C) → Cache F C
  | none => c
  | some m => UMap.erase c t ++ [(t, m)]

/-- `ExtractThermalModel` (src/design/ELayoutView.cpp:340-351).  `gen` is
`EThermalModelExtraction::GenerateThermalModel` for the current layout `l`; `none` is a failed
generation.  A generated model has the type asked for
(src/extraction/thermal/EThermalModelExtraction.cpp:22-32).  The generation of prism models also
reads the layer cut model the layout keeps (185, 320), so for them `l` is the layout together with
that model; `Cache2.c148_refines` (Verif/Design/CacheProps.lean) shows that the code then is this
function. -/
def extract (gen : L → Settings F → Option C) (l : L) (c : Cache F C) (s : Settings F) :
    Cache F C × Option (Model F C) :=
  match UMap.find? c s.modelType with
  | some m =>
    if !s.base.forceRebuild && m.settings.eq s then (c, some m)
    else
      let c' := addModel c s.modelType ((gen l s).map fun x => ⟨s, x⟩)
      (c', UMap.find? c' s.modelType)
  | none =>
    let c' := addModel c s.modelType ((gen l s).map fun x => ⟨s, x⟩)
    (c', UMap.find? c' s.modelType)

/-- A history: the layout changes arbitrarily between the extractions. -/
def run (gen : L → Settings F → Option C) (c : Cache F C) : List (L × Settings F) → Cache F C
  | [] => c
  | (l, s) :: h => run gen (extract gen l c s).1 h

end Ecad.Extract
