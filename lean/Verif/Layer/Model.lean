import Verif.Base.Res
import Verif.Naming.Model
import Verif.Layer.MapModel
/-!
The layer stack (`ELayerCollection`) and the objects that refer to its layers.
-/
namespace Ecad
namespace Layer
open LayerMap

/-- `ELayerType` (src/basic/ECadDef.h): only the distinctions the modelled code makes. -/
inductive LType | conducting | dielectric | other
  deriving DecidableEq, Repr

/-- A layer (src/design/ELayer.h).  `payload` stands for everything else a layer stores
(elevation, thickness, materials), which the modelled functions neither read nor write. -/
structure Lyr where
  name : String
  type : LType
  id : Int
  payload : Nat
  deriving DecidableEq, Repr

/-- `ELayerCollection::AppendLayer` (src/collection/ELayerCollection.cpp:41-47). -/
def append (l : List Lyr) (y : Lyr) : List Lyr × Int :=
  (l ++ [{ y with id := (l.length : Int) }], (l.length : Int))

/-- `ELayerCollection::AppendLayers` (src/collection/ELayerCollection.cpp:49-55). -/
def appendAll (l : List Lyr) : List Lyr → List Lyr × List Int
  | [] => (l, [])
  | y :: ys => let r := append l y
    let s := appendAll r.1 ys
    (s.1, r.2 :: s.2)

/-- The layer made by `CreateStackupLayer(name, DielectricLayer, 0, 0)`
(src/collection/ELayerCollection.cpp:64): a new layer has id `noLayer`
(src/design/ELayer.cpp:28-33, src/design/ELayer.h default argument).  The payload of a new
layer is written `0`. -/
def newDielectric (name : String) : Lyr := ⟨name, .dielectric, noLayer, 0⟩

/-- The loop of `AddDefaultDielectricLayers` (src/collection/ELayerCollection.cpp:61-69).  The
vector is `pre ++ curr :: rest`; `next` points to the head of `rest`.  After an insertion both
iterators are moved so that the former `next` becomes `curr`.  `GetNextLayerName`
(src/collection/ELayerCollection.cpp:127-137) runs the same search as `NextKey` over the names of
all layers. -/
def insertLoop (pre : List Lyr) (curr : Lyr) : List Lyr → List Lyr
  | [] => pre ++ [curr]
  | n :: rest =>
    if curr.type = .conducting ∧ n.type = .conducting then
      let name := Naming.nextName ((pre ++ curr :: n :: rest).map Lyr.name) "Dielectric"
      insertLoop (pre ++ [curr, newDielectric name]) n rest
    else insertLoop (pre ++ [curr]) n rest

/-- `MakeLayerIdOrdered` (src/collection/ELayerCollection.cpp:144-156), layers from index `i` on. -/
def makeOrdered (i : Nat) (m : BiMap) : List Lyr → List Lyr × BiMap
  | [] => ([], m)
  | y :: ys =>
    let m' := if y.id ≠ noLayer then setMapping m y.id (i : Int) else m
    let r := makeOrdered (i + 1) m' ys
    ({ y with id := (i : Int) } :: r.1, r.2)

/-- `ELayerCollection::AddDefaultDielectricLayers` (src/collection/ELayerCollection.cpp:57-71).
On an empty vector `next` is moved past the end: undefined behaviour. -/
def addDefaultDielectric : List Lyr → Res (List Lyr × BiMap)
  | [] => .ub
  | c :: rest => .ok (makeOrdered 0 LayerMap.new (insertLoop [] c rest))

/-- `static_cast<size_t>(ELayerId)`: a negative id becomes a huge number (64-bit `size_t`). -/
def toSize (i : Int) : Nat := (i % (2 ^ 64 : Int)).toNat

/-- `FindLayerByLayerId` (src/collection/ELayerCollection.cpp:111-116). -/
def findById (l : List Lyr) (i : Int) : Option Lyr := l[toSize i]?

/-- `FindLayerByName` (src/collection/ELayerCollection.cpp:118-125). -/
def findByName (l : List Lyr) (s : String) : Option Lyr := l.find? (fun y => s = y.name)

/-- `GetDefaultLayerMap` (src/collection/ELayerCollection.cpp:73-81). -/
def defaultLayerMap (l : List Lyr) : BiMap := l.foldl (fun m y => setMapping m y.id y.id) LayerMap.new

/-- the calls that edit a layer stack -/
inductive Op
  | append (y : Lyr)
  | appendAll (ys : List Lyr)
  | addDielectric

/-- one call -/
def step (l : List Lyr) : Op → Res (List Lyr)
  | .append y => .ok (append l y).1
  | .appendAll ys => .ok (appendAll l ys).1
  | .addDielectric => (addDefaultDielectric l).bind (fun r => .ok r.1)

/-- a history of calls -/
def run (l : List Lyr) : List Op → Res (List Lyr)
  | [] => .ok l
  | o :: os => (step l o).bind (fun l' => run l' os)

/-! ### objects referring to layers -/

/-- A primitive (src/design/EPrimitive.h): its layer, and for a bondwire also the layer of its end
(`m_endLayer`). -/
structure Prim where
  layer : Int
  endLayer : Option Int
  deriving DecidableEq, Repr

/-- A padstack instance (src/design/EPadstackInst.h): its layer range and the layer map it points
to, as an index into the layer maps of the database (`none` is a null pointer). -/
structure PsInst where
  top : Int
  bot : Int
  lmap : Option Nat
  deriving DecidableEq, Repr

/-- The part of a layout (and of its database) which refers to layers: the stack, the primitives,
the padstack instances, the placement layers of the components (`EComponent::m_placement`,
src/design/EComponent.h:51), and the layer maps of the database in order of creation. -/
structure Layout where
  layers : List Lyr
  prims : List Prim
  psInsts : List PsInst
  comps : List Int
  maps : List (String × BiMap)
  deriving DecidableEq, Repr

/-- `EPrimitiveCollection::Map` (src/collection/EPrimitiveCollection.cpp:78-84);
`SetLayer`/`GetLayer` access only the (start) layer (src/design/EPrimitive.h). -/
def mapPrims (m : BiMap) (ps : List Prim) : List Prim :=
  ps.map (fun p => { p with layer := forward m p.layer })

/-- `EPadstackInstCollection::Map` (src/collection/EPadstackInstCollection.cpp:62-85).  `cache` is
the local `lyrMaps`.  The copy is stored under the next free name, so that `AddLayerMap`
succeeds.  Using a null layer map is undefined behaviour. -/
def mapInsts (m : BiMap) (maps : List (String × BiMap)) (cache : List (Nat × Nat)) :
    List PsInst → Res (List PsInst × List (String × BiMap))
  | [] => .ok ([], maps)
  | p :: ps =>
    match p.lmap with
    | none => .ub
    | some o =>
      match cache.lookup o with
      | some o' =>
        (mapInsts m maps cache ps).bind fun r =>
          .ok (⟨forward m p.top, forward m p.bot, some o'⟩ :: r.1, r.2)
      | none =>
        match maps[o]? with
        | none => .ub
        | some (name, om) =>
          let name' := Naming.nextName (maps.map Prod.fst) name
          (mapInsts m (maps ++ [(name', mappingLeft om m)]) ((o, maps.length) :: cache) ps).bind
            fun r => .ok (⟨forward m p.top, forward m p.bot, some maps.length⟩ :: r.1, r.2)

/-- `ELayoutView::AddDefaultDielectricLayers` (src/design/ELayoutView.cpp:175-181): the primitives
and the padstack instances are remapped, nothing else is. -/
def layoutAddDielectric (v : Layout) : Res (Layout × BiMap) :=
  (addDefaultDielectric v.layers).bind fun r =>
    (mapInsts r.2 v.maps [] v.psInsts).bind fun s =>
      .ok ({ v with layers := r.1, prims := mapPrims r.2 v.prims, psInsts := s.1, maps := s.2 }, r.2)

end Layer
end Ecad
