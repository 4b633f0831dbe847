import Verif.Base.UMap
import Verif.Geom.CutModel
import Verif.Util.UtilModel
/-!
The layer cut model made from a layout: src/extraction/geometry/EGeometryModelExtraction.cpp and
src/model/geometry/utils/ELayerCutModelBuilder.cpp.

Simplifications: numbers are rationals; assertions are left out (the code goes on after them); what is
read from other objects is given with the input: the shapes after placement, the ids of the
materials (`none`: there is no such material, a null pointer), the points of a bond wire.
-/
namespace Ecad.CutEx
open Geom Util

/-- `EPolygonData`: the points. -/
abbrev Polygon := List (Int × Int)

/-- A shape with what the builder looks at: outline, holes, centre if it is a circle. -/
structure Shape where
  outline : Polygon
  holes : List Polygon
  centre : Option (Int × Int)
  deriving DecidableEq

/-- `PowerBlock` (src/model/geometry/ELayerCutModel.h:38-58) -/
structure Block where
  polygon : Nat
  range : Range
  scen : Nat
  power : List (ℚ × ℚ)
  deriving DecidableEq

/-- `Bondwire` (src/model/geometry/ELayerCutModel.h:60-83) -/
structure WireOut where
  net : Int
  radius : ℚ
  mat : Int
  current : ℚ
  scen : Nat
  points : List ((Int × Int) × ℚ)
  deriving DecidableEq

/-- The vectors of `ELayerCutModel` (src/model/geometry/ELayerCutModel.h:122-128) -/
structure Model where
  ranges : List Range
  polygons : List Polygon
  mats : List Int
  nets : List Int
  blocks : List (Nat × Block)
  steiner : List (Int × Int)
  wires : List WireOut
  deriving DecidableEq

/-- A new model -/
def Model.new : Model := ⟨[], [], [], [], [], [], []⟩

/-- `EMaterialId::noMaterial`, `ENetId::noNet` (src/basic/ECadCommon.h) -/
def noId : Int := -1

/-- What the builder uses besides the model: `m_vScale2Int`
(src/model/geometry/utils/ELayerCutModelBuilder.cpp:12), `addCircleCenterAsSteinerPoint`, whether a polygon
is counterclockwise (library), the area of a polygon times the factors at
src/extraction/geometry/EGeometryModelExtraction.cpp:65. -/
structure Env where
  scale : ℚ
  circles : Bool
  ccw : Polygon → Bool
  area : Polygon → ℚ

/-- `AddPolygon` (src/model/geometry/utils/ELayerCutModelBuilder.cpp:33-43); `none` is `invalidIndex`. -/
def addPolygon (E : Env) (m : Model) (net mat : Int) (p : Polygon) (isHole : Bool) (elev thick : ℚ) :
    Model × Option Nat :=
  let r := layerRange E.scale elev thick
  if r.isValid then
    let p := if isHole = E.ccw p then p.reverse else p
    ({ m with ranges := m.ranges ++ [r], polygons := m.polygons ++ [p], mats := m.mats ++ [mat],
              nets := m.nets ++ [net] }, some m.polygons.length)
  else (m, none)

/-- The loop over the holes (src/model/geometry/utils/ELayerCutModelBuilder.cpp:27-28) -/
def addHoles (E : Env) (net mat : Int) (elev thick : ℚ) (m : Model) : List Polygon → Model
  | [] => m
  | h :: hs => addHoles E net mat elev thick (addPolygon E m net mat h true elev thick).1 hs

/-- `AddShape` (src/model/geometry/utils/ELayerCutModelBuilder.cpp:16-31); a null shape is dereferenced. -/
def addShape (E : Env) (m : Model) (net solid hole : Int) (s : Option Shape) (elev thick : ℚ) : Res Model :=
  match s with
  | none => .ub
  | some s =>
    let m := match E.circles, s.centre with
      | true, some o => { m with steiner := m.steiner ++ [o] }
      | _, _ => m
    let m := (addPolygon E m net solid s.outline false elev thick).1
    .ok (addHoles E net hole elev thick m s.holes)

/-- `AddPowerBlock` (src/model/geometry/utils/ELayerCutModelBuilder.cpp:45-53) -/
def addPowerBlock (E : Env) (m : Model) (mat : Int) (p : Polygon) (scen : Nat) (power : List (ℚ × ℚ))
    (elev thick pos pt : ℚ) : Model :=
  match addPolygon E m noId mat p false elev thick with
  | (m, none) => m
  | (m, some i) =>
    { m with blocks := (UMap.emplace m.blocks i ⟨i, powerRange E.scale elev thick pos pt, scen, power⟩).1 }

/-- A component: placement, outline (`none`: null), material, solder material, loss power table (empty:
none) and scenario. -/
structure CompIn where
  part : Part ℚ
  outline : Option Polygon
  mat : Option Int
  solderMat : Option Int
  power : List (ℚ × ℚ)
  scen : Nat

/-- `AddComponent` (src/model/geometry/utils/ELayerCutModelBuilder.cpp:55-75).  Elevation and thickness
are not initialised if the placement layer is unknown. -/
def addComponent (E : Env) (layers : List (Slab ℚ)) (m : Model) (c : CompIn) : Res Model :=
  match c.outline, c.mat, partHeight layers c.part with
  | some b, some mat, some (elev, thick) =>
    let m := if !c.power.isEmpty then addPowerBlock E m mat b c.scen c.power elev thick (1 / 10) (1 / 10)
      else (addPolygon E m noId mat b false elev thick).1
    match solderHeight layers c.part with
    | none => .ub
    | some (e2, t2) =>
      if t2 > 0 then
        match c.solderMat with
        | none => .ub
        | some sm => .ok (addPolygon E m noId sm b false e2 t2).1
      else .ok m
  | _, _, _ => .ub

/-- `AddImprintBox` (src/model/geometry/utils/ELayerCutModelBuilder.cpp:82-88); the default range is not
valid (src/model/geometry/ELayerCutModel.h:30-31). -/
def addImprint (m : Model) (p : Polygon) : Model :=
  { m with ranges := m.ranges ++ [⟨-2147483647, 2147483647⟩], polygons := m.polygons ++ [p],
           mats := m.mats ++ [noId], nets := m.nets ++ [noId] }

/-- A solder joint: the shape after placement with elevation and thickness (`none`: the retriever returns
null), material, and resistivity. -/
structure Joint where
  place : Option (Shape × (ℚ × ℚ))
  mat : Option Int
  resist : ℚ

/-- A bond wire: what is put into the model, and its solder joints if there are any. -/
structure WireIn where
  mat : Option Int
  net : Int
  radius : ℚ
  current : ℚ
  scen : Nat
  points : List ((Int × Int) × ℚ)
  top : Option Joint
  bot : Option Joint

/-- The table of a heated solder joint
(src/extraction/geometry/EGeometryModelExtraction.cpp:65-66, 79-80) -/
def jointTable (E : Env) (w : WireIn) (j : Joint) (s : Shape) (thick : ℚ) : List (ℚ × ℚ) :=
  [(29815 / 100, w.current * w.current * (j.resist * thick / E.area s.outline))]

/-- Elevation and thickness last read (src/extraction/geometry/EGeometryModelExtraction.cpp:24), and the
two tables at 41-42. -/
structure St where
  m : Model
  cur : Option (ℚ × ℚ)
  heights : List (Int × (ℚ × ℚ))
  mats : List (Int × (Int × Int))

/-- The joint at the start (src/extraction/geometry/EGeometryModelExtraction.cpp:58-70) -/
def addTop (E : Env) (st : St) (w : WireIn) : Res St :=
  match w.top with
  | none => .ok st
  | some j =>
    match j.place, j.mat with
    | some (s, (elev, thick)), some mat =>
      if w.current > 0 then
        .ok { st with
          m := addPowerBlock E st.m mat s.outline w.scen (jointTable E w j s thick) elev thick (1 / 2) (1 / 10),
          cur := some (elev, thick) }
      else (addShape E st.m w.net mat noId (some s) elev thick).bind fun m =>
        .ok { st with m := m, cur := some (elev, thick) }
    | _, _ => .ub

/-- The joint at the end (src/extraction/geometry/EGeometryModelExtraction.cpp:72-84): without the `else`
of the other one. -/
def addBot (E : Env) (st : St) (w : WireIn) : Res St :=
  match w.bot with
  | none => .ok st
  | some j =>
    match j.place, j.mat with
    | some (s, (elev, thick)), some mat =>
      let m := if w.current > 0 then
          addPowerBlock E st.m mat s.outline w.scen (jointTable E w j s thick) elev thick (1 / 2) (1 / 10)
        else st.m
      (addShape E m w.net mat noId (some s) elev thick).bind fun m =>
        .ok { st with m := m, cur := some (elev, thick) }
    | _, _ => .ub

/-- A bond wire (src/extraction/geometry/EGeometryModelExtraction.cpp:46-84) -/
def addWire (E : Env) (st : St) (w : WireIn) : Res St :=
  match w.mat with
  | none => .ub
  | some mat =>
    let st := { st with m := { st.m with
      wires := st.m.wires ++ [⟨w.net, w.radius, mat, w.current, w.scen, w.points⟩] } }
    (addTop E st w).bind fun st => addBot E st w

/-- A layer: its place in the stack and the ids of its two materials. -/
structure LayerIn where
  slab : Slab ℚ
  cond : Option Int
  diel : Option Int

/-- Elevation and thickness of a layer by way of the table
(src/extraction/geometry/EGeometryModelExtraction.cpp:102-108, 126-132): an unknown layer gets what was
read last. -/
def readHeight (layers : List LayerIn) (st : St) (lyr : Int) : Res (St × (ℚ × ℚ)) :=
  match UMap.find? st.heights lyr with
  | some e => .ok ({ st with cur := some e }, e)
  | none =>
    match layerHeight (layers.map LayerIn.slab) lyr with
    | some e => .ok ({ st with cur := some e, heights := (UMap.emplace st.heights lyr e).1 }, e)
    | none =>
      match st.cur with
      | some e => .ok ({ st with heights := (UMap.emplace st.heights lyr e).1 }, e)
      | none => .ub

/-- `FindLayerByLayerId` (src/collection/ELayerCollection.cpp:111-116) -/
def findLayer (layers : List LayerIn) (lyr : Int) : Option LayerIn :=
  if lyr < 0 then none else layers[lyr.toNat]?

/-- The materials of a layer (src/extraction/geometry/EGeometryModelExtraction.cpp:90-101); `none` is
`continue`.  A layer that is not a stackup layer and missing materials are null pointers. -/
def readMats (layers : List LayerIn) (st : St) (lyr : Int) : Res (Option (St × (Int × Int))) :=
  match UMap.find? st.mats lyr with
  | some e => .ok (some (st, e))
  | none =>
    match findLayer layers lyr with
    | none => .ok none
    | some l =>
      match l.slab.stackup, l.cond, l.diel with
      | true, some c, some d =>
        .ok (some ({ st with mats := (UMap.emplace st.mats lyr (c, d)).1 }, (c, d)))
      | _, _, _ => .ub

/-- A primitive: a bond wire, a shape, or something else. -/
inductive Prim where
  | wire (w : WireIn)
  | geom (s : Option Shape) (net lyr : Int)
  | other

/-- One primitive (src/extraction/geometry/EGeometryModelExtraction.cpp:44-111) -/
def addPrim (E : Env) (layers : List LayerIn) (st : St) : Prim → Res St
  | .other => .ok st
  | .wire w => addWire E st w
  | .geom s net lyr =>
    (readMats layers st lyr).bind fun
    | none => .ok st
    | some (st, (c, d)) =>
      (readHeight layers st lyr).bind fun (st, (elev, thick)) =>
      (addShape E st.m net c d s elev thick).bind fun m => .ok { st with m := m }

/-- All primitives -/
def addPrims (E : Env) (layers : List LayerIn) (st : St) : List Prim → Res St
  | [] => .ok st
  | p :: ps => (addPrim E layers st p).bind fun st => addPrims E layers st ps

/-- A padstack instance: net, whether its definition has data, the material, the layer range, and its
shape on each layer (`none`: null). -/
structure PadIn where
  net : Int
  data : Bool
  mat : Option Int
  top : Int
  bot : Int
  shape : Int → Option Shape

/-- One layer of an instance (src/extraction/geometry/EGeometryModelExtraction.cpp:124-133) -/
def addPadLayer (E : Env) (layers : List LayerIn) (net mat : Int) (shape : Int → Option Shape) (st : St)
    (lyr : Int) : Res St :=
  (readHeight layers st lyr).bind fun (st, (elev, thick)) =>
  (addShape E st.m net mat mat (shape lyr) elev thick).bind fun m => .ok { st with m := m }

/-- The layers of an instance (src/extraction/geometry/EGeometryModelExtraction.cpp:123-134): `n` of them
from `lyr` on -/
def addPadLayers (E : Env) (layers : List LayerIn) (net mat : Int) (shape : Int → Option Shape) (st : St)
    (lyr : Int) : Nat → Res St
  | 0 => .ok st
  | n + 1 => (addPadLayer E layers net mat shape st lyr).bind fun st =>
    addPadLayers E layers net mat shape st (lyr + 1) n

/-- A padstack instance (src/extraction/geometry/EGeometryModelExtraction.cpp:113-135).  The material is
only dereferenced in the loop, which has at least one turn. -/
def addPad (E : Env) (layers : List LayerIn) (st : St) (p : PadIn) : Res St :=
  if !p.data then .ok st
  else match p.mat with
    | none => .ub
    | some mat => addPadLayers E layers p.net mat p.shape st (min p.top p.bot)
        (max p.top p.bot - min p.top p.bot + 1).toNat

/-- All instances -/
def addPads (E : Env) (layers : List LayerIn) (st : St) : List PadIn → Res St
  | [] => .ok st
  | p :: ps => (addPad E layers st p).bind fun st => addPads E layers st ps

/-- All components (src/extraction/geometry/EGeometryModelExtraction.cpp:33-36) -/
def addComponents (E : Env) (layers : List (Slab ℚ)) (m : Model) : List CompIn → Res Model
  | [] => .ok m
  | c :: cs => (addComponent E layers m c).bind fun m => addComponents E layers m cs

/-- The stackup layers (src/extraction/geometry/EGeometryModelExtraction.cpp:24-31); `all` are all
layers. -/
def addStack (E : Env) (all : List LayerIn) (boundary : Option Shape) (st : St) : List LayerIn → Res St
  | [] => .ok st
  | l :: ls =>
    match l.diel with
    | none => .ub
    | some mat =>
      match layerHeight (all.map LayerIn.slab) l.slab.id with
      | none => .ub
      | some (elev, thick) =>
        (addShape E st.m noId mat noId boundary elev thick).bind fun m =>
        addStack E all boundary { st with m := m, cur := some (elev, thick) } ls

/-- A layout and the imprint boxes of the settings -/
structure Input where
  layers : List LayerIn
  boundary : Option Shape
  comps : List CompIn
  prims : List Prim
  pads : List PadIn
  imprints : List Polygon

/-- `GenerateLayerCutModel` up to the tables of layers
(src/extraction/geometry/EGeometryModelExtraction.cpp:15-140) -/
def generate (E : Env) (I : Input) : Res Model :=
  (addStack E I.layers I.boundary ⟨Model.new, none, [], []⟩ (I.layers.filter (·.slab.stackup))).bind fun st =>
  (addComponents E (I.layers.map LayerIn.slab) st.m I.comps).bind fun m =>
  (addPrims E I.layers { st with m := m } I.prims).bind fun st =>
  (addPads E I.layers st I.pads).bind fun st =>
  .ok (I.imprints.foldl addImprint st.m)

/-- What `BuildLayerPolygonLUT` looks at (src/model/geometry/ELayerCutModel.cpp:50-60): the polygon with
index `i` -/
def Model.polyAt (m : Model) (i : Nat) : Option Poly :=
  match m.ranges[i]?, m.mats[i]? with
  | some r, some mat => some ⟨r, decide (mat ≠ noId), (UMap.find? m.blocks i).map Block.range⟩
  | _, _ => none

/-- All of them -/
def Model.polys (m : Model) : List Poly := (List.range m.polygons.length).filterMap m.polyAt

/-- `GenerateLayerCutModel` (src/extraction/geometry/EGeometryModelExtraction.cpp:15-144), with the
tables of `Verif.Geom.CutModel` -/
def extract (E : Env) (ratio : ℚ) (fuel : Nat) (I : Input) : Res (Model × Option (Res Cut)) :=
  (generate E I).bind fun m => .ok (m, build ratio fuel m.polys)

end Ecad.CutEx
