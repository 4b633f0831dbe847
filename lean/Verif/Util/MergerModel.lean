import Verif.Shape.PadInst
import Verif.Util.UtilModel
/-!
The merger of polygons: `ELayoutPolygonMerger` (src/utility/ELayoutPolygonMerger.cpp:21-198), as called by
`ELayoutView::MergeLayerPolygons` (src/design/ELayoutView.cpp:320-326): constructed with the layout, then given its settings,
then run once.

The merger of the library (`PolygonMerger`, one per layer) enters as a function on lists of polygons with nets.  Pictures and
threads are left out: each layer has a merger of its own.  Iteration orders of unordered containers are arguments.
-/
namespace Ecad.PMerge

open Ecad.Shp

variable {K : Type} [Field K] [LinearOrder K]

/-- A stackup layer: id and whether its type is dielectric (src/design/ELayer.h) -/
structure Layer where
  id : Int
  dielectric : Bool

/-- `ELayoutPolygonMergeSettings` (src/basic/ECadSettings.h:51-60) without threads and file -/
structure Settings where
  padstacks : Bool
  dielectric : Bool
  skipTopBot : Bool
  nets : List Int

/-- `m_settings(1, {})` (src/utility/ELayoutPolygonMerger.cpp:22) with the initial values at src/basic/ECadSettings.h:51-57 -/
def Settings.initial : Settings := ⟨true, true, false, []⟩

/-- A primitive with layer, net, what `GetGeometry2DFromPrimitive` gives (`none`: null, for texts and bond wires;
`some none`: a geometry whose shape is null), and a number for the rest of the object. -/
structure Prim (K : Type) where
  layer : Int
  net : Int
  geom : Option (Option (Shape K))
  tag : Nat

/-- A padstack instance: net, whether it has a definition, and what its shapes come from -/
structure Inst (K : Type) where
  net : Int
  hasDef : Bool
  inst : PInst K

/-- One merger: polygons with their nets -/
abbrev Objs (K : Type) := List (Int × Pwh K)

/-- `m_mergers`: an unordered map from layers -/
abbrev Mergers (K : Type) := List (Int × Objs K)

/-- The loop of the constructor (src/utility/ELayoutPolygonMerger.cpp:27-35) from position `i` of `n`, with the settings
the object has at that time; `insert` keeps what is there. -/
def mergersFrom (set : Settings) (n : Nat) : Nat → List Layer → Mergers K → Mergers K
  | _, [], ms => ms
  | i, l :: ls, ms =>
    if !set.dielectric && l.dielectric then mergersFrom set n (i + 1) ls ms
    else if set.skipTopBot && l.dielectric && (i == 0 || i == n - 1) then mergersFrom set n (i + 1) ls ms
    else mergersFrom set n (i + 1) ls (if ms.any (·.1 == l.id) then ms else ms ++ [(l.id, [])])

/-- The constructor (src/utility/ELayoutPolygonMerger.cpp:21-36): with the initial settings -/
def construct (layers : List Layer) : Mergers K := mergersFrom .initial layers.length 0 layers []

/-- `AddObject` on the merger of a layer -/
def addTo (ms : Mergers K) (layer : Int) (o : Int × Pwh K) : Mergers K :=
  ms.map fun m => if m.1 = layer then (m.1, m.2 ++ [o]) else m

/-- The switch of `FillOneShape` (src/utility/ELayoutPolygonMerger.cpp:163-196): what is added for a shape -/
def object (L : Lib K) : Shape K → Pwh K
  | .rect b => ⟨b.corners, []⟩
  | .path pts w => ⟨(Shape.path pts w).contour L, []⟩
  | .circle o r d => ⟨(Shape.circle o r d).contour L, []⟩
  | .polygon pts => ⟨pts, []⟩
  | .holes o hs => ⟨o, hs⟩
  | .templ m s => if (Shape.templ m s).hasHole then (Shape.templ m s).pwh L else ⟨(Shape.templ m s).contour L, []⟩
  | .noTempl m => ⟨(Shape.noTempl m).contour L, []⟩

/-- `FillOneShape` (src/utility/ELayoutPolygonMerger.cpp:155-198) -/
def fillOne (L : Lib K) (set : Settings) (ms : Mergers K) (net layer : Int) (shape : Option (Shape K)) : Mergers K × Bool :=
  match shape with
  | none => (ms, false)
  | some s =>
    if !s.isValid then (ms, false)
    else if !ms.any (·.1 == layer) then (ms, false)
    else if !set.nets.isEmpty && !set.nets.contains net then (ms, false)
    else (addTo ms layer (net, object L s), true)

/-- The first loop of `FillPolygonsFromLayout` (src/utility/ELayoutPolygonMerger.cpp:63-75) from position `i`: the mergers and
the positions to be removed -/
def fillPrims (L : Lib K) (set : Settings) : Nat → List (Prim K) → Mergers K → Mergers K × List Nat
  | _, [], ms => (ms, [])
  | i, q :: qs, ms =>
    match q.geom with
    | none => fillPrims L set (i + 1) qs ms
    | some shape =>
      let r := fillOne L set ms q.net q.layer shape
      let t := fillPrims L set (i + 1) qs r.1
      (t.1, if r.2 then i :: t.2 else t.2)

/-- The loop over the layers of an instance (src/utility/ELayoutPolygonMerger.cpp:91-94), `n` layers from `lyr` -/
def fillLayers (R : Int → K × K) (L : Lib K) (set : Settings) (i : Inst K) : Nat → Int → Mergers K → Res (Mergers K)
  | 0, _, ms => .ok ms
  | n + 1, lyr, ms =>
    (i.inst.layerShape R lyr).bind fun shape =>
      fillLayers R L set i n (lyr + 1) (fillOne L set ms i.net lyr shape).1

/-- The loop over the instances (src/utility/ELayoutPolygonMerger.cpp:81-95).  The definition is dereferenced without check. -/
def fillInsts (R : Int → K × K) (L : Lib K) (set : Settings) : List (Inst K) → Mergers K → Res (Mergers K)
  | [], ms => .ok ms
  | i :: is, ms =>
    if !set.nets.isEmpty && !set.nets.contains i.net then fillInsts R L set is ms
    else if !i.hasDef then .ub
    else match i.inst.data with
    | none => fillInsts R L set is ms
    | some _ =>
      (fillLayers R L set i ((max i.inst.top i.inst.bot - min i.inst.top i.inst.bot).toNat + 1) (min i.inst.top i.inst.bot)
        ms).bind fun ms => fillInsts R L set is ms

/-- The shape made for a merged polygon (src/utility/ELayoutPolygonMerger.cpp:131-142) -/
def shapeOf (o : Pwh K) : Shape K := if o.holes.isEmpty then .polygon o.outline else .holes o.outline o.holes

/-- The primitives made for a layer (src/utility/ELayoutPolygonMerger.cpp:127-146) -/
def primsOf (m : Int × Objs K) : List (Prim K) := m.2.map fun o => ⟨m.1, o.1, some (some (shapeOf o.2)), 0⟩

/-- `Merge` (src/utility/ELayoutPolygonMerger.cpp:47-59): `run` is the library, `ord` and `del` turn what was inserted into the
unordered map of mergers and the unordered set of positions into the order in which they are gone through. -/
def merge (R : Int → K × K) (L : Lib K) (run : Objs K → Objs K) (ord : Mergers K → Mergers K) (del : List Nat → List Nat)
    (layers : List Layer) (set : Settings) (prims : List (Prim K)) (insts : List (Inst K)) : Res (List (Prim K)) :=
  let f := fillPrims L set 0 prims (construct layers)
  (if set.padstacks then fillInsts R L set insts f.1 else .ok f.1).bind fun ms =>
    .ok (Util.fillBack prims ((ord (ms.map fun m => (m.1, run m.2))).flatMap primsOf) (del f.2))

end Ecad.PMerge
