import Verif.Basic.SmallModel

/-!
# Saving a database into an archive and loading it again

Model of `EDatabase::Save` / `EDatabase::Load` (src/design/EDatabase.cpp:75-131),
`EDataMgr::LoadDatabase` (src/EDataMgr.cpp:88-94) and of the `serialize` functions of all classes of
which a database holds objects: which members they pass to the archive, and in which order.

What is simplified:
* the three archive formats (text, XML, binary) are one stream of tokens.  The archive itself is a
  library (Boost.Serialization, not part of the repository); modelled is what it documents: a
  pointer to an object that was not met before is written as the class of the object followed by the
  members its `serialize` names, a pointer to an object met before as the number of that object, and
  saving through a pointer an object whose class was not exported throws;
* an object is its class and its members; the value of a member is the flat list of the numbers and
  pointers in it (sizes of containers and characters of strings are numbers, members which are
  objects themselves are named with a dot).  Owning, shared and plain pointers are all pointers;
* members that an archive does not hold have, in the loaded object, the value the default
  constructor gives them, which is the empty list here: an empty string, an empty or missing
  container, and a new random identifier where the member is `uuid`;
* `m_database` of a definition is the flag `db`: whether it points to the database in question.

Archives other than those written by `Save` are not modelled.
-/

namespace Ecad.Arc

/-- The name of a member. -/
abbrev Mem := String

/-- The classes of the objects a database owns through pointers (the classes of the directories
src/design, src/collection, src/basic/EShape.h and src/model).  `LookupTable`, `SizeVec` and
`PrismTemplate` are what the shared pointers of models point to (src/model/geometry/ELayerCutModel.h:54,
128 and src/model/thermal/EPrismThermalModel.h:232). -/
inductive Cls
  | ECircuitCell | ELayoutView | EComponentDef | EPadstackDef | EMaterialDef | ELayerMap
  | ECellCollection | EComponentDefCollection | EPadstackDefCollection | EMaterialDefCollection
  | ELayerMapCollection | ENetCollection | ELayerCollection | EConnObjCollection
  | EHierarchyObjCollection | EPrimitiveCollection | EPadstackInstCollection | ECellInstCollection
  | EComponentCollection | EComponentDefPinCollection | EModelCollection
  | ENet | EStackupLayer | EViaLayer | EGeometry2D | EBondwire | EText | EPadstackInst
  | ECellInst | EComponent | EComponentDefPin | EPadstackDefData
  | EMaterialPropValue | EMaterialPropTable | EMaterialPropPolynomial
  | ERectangle | EPath | ECircle | EPolygon | EPolygonWithHoles | EShapeFromTemplate
  | ELayerCutModel | EPrismThermalModel | EStackupPrismThermalModel | EGridThermalModel
  | LookupTable | SizeVec | PrismTemplate
  deriving DecidableEq, Repr

/-! ### What the `serialize` functions name -/

/-- `EObject::serialize` (src/design/EObject.cpp:8-16); the build defines
`ECAD_BOOST_SERIALIZATION_INCLUDE_UUID` (CMakeLists.txt:172). -/
def serObject : List Mem := ["name", "uuid"]

/-- `EDefinition::serialize` (src/design/EDefinition.cpp:9-16): the line of `m_database` is a
comment. -/
def serDefinition : List Mem := serObject

/-- `ECollectionCollection::serialize` (src/collection/ECollectionCollection.cpp:25-30) and
`EUnorderedMapCollection::serialize`, `EVectorCollection::serialize` (src/basic/ECollection.h:45-51,
241-247). -/
def serCollection : List Mem := ["collection"]

/-- `ETransform2D::serialize` (src/basic/ETransform.h:55-61): the sequence, not the matrix. -/
def serTransform : List Mem := ["transform.sequence"]

/-- `ECell::serialize` (src/design/ECell.cpp:11-19). -/
def serCell : List Mem := serDefinition ++ ["cell_type", "layout_view"]

/-- `EHierarchyObj::serialize` (src/design/EHierarchyObj.cpp:11-19). -/
def serHierarchyObj : List Mem := serObject ++ ["ref_layout"] ++ serTransform

/-- `EConnObj::serialize` (src/design/EConnObj.cpp:10-17). -/
def serConnObj : List Mem := serObject ++ ["net"]

/-- `EPrimitive::serialize` (src/design/EPrimitive.cpp:19-27). -/
def serPrimitive : List Mem := serConnObj ++ ["layer", "type"]

/-- `ELayer::serialize` (src/design/ELayer.cpp:10-18). -/
def serLayer : List Mem := serObject ++ ["layer_id", "layer_type"]

/-- `EThermalModel::serialize` (src/model/thermal/EThermalModel.cpp:9-15). -/
def serThermalModel : List Mem := ["uniform_BC"]

/-- `EPrismThermalModel::serialize` (src/model/thermal/EPrismThermalModel.cpp:15-31). -/
def serPrismModel : List Mem :=
  serThermalModel ++ ["layers", "scale_h_to_unit", "scale_to_meter", "layout", "settings", "points",
    "lines", "prisms", "index_offset", "block_BCs", "prism_template"]

/-- The `serialize` function of each class: the members in the order in which they are passed to the
archive; `none` for a class that is not exported (`ECAD_SERIALIZATION_CLASS_EXPORT_KEY` is given for
every class but `EGridThermalModel`, src/model/thermal/EGridThermalModel.h:62-122, which has no
`serialize` of its own either).
src/design/ECell.cpp:84-89 (ECircuitCell), src/design/ELayoutView.cpp:40-48,
src/design/EComponentDef.cpp:11-24, src/design/EPadstackDef.cpp:9-16, src/design/EMaterialDef.cpp:8-17,
src/design/ELayerMap.cpp:9-16, the collections of src/collection (ECellCollection.cpp:10-16,
EComponentDefCollection.cpp:11-18, EPadstackDefCollection.cpp:10-17, EMaterialDefCollection.cpp:11-19,
ELayerMapCollection.cpp:11-18, ENetCollection.cpp:9-16, ELayerCollection.cpp:11-17,
EConnObjCollection.cpp:15-21, EHierarchyObjCollection.cpp:14-20, EPrimitiveCollection.cpp:11-17,
EPadstackInstCollection.cpp:13-19, ECellInstCollection.cpp:10-16, EComponentCollection.cpp:9-15,
EComponentDefPinCollection.cpp:9-15, EModelCollection.cpp:9-15), src/design/ENet.cpp:8-15,
src/design/ELayer.cpp:66-76 and 157-165, src/design/EPrimitive.cpp:120-127, 189-207 and 419-427,
src/design/EPadstackInst.cpp:12-24, src/design/ECellInst.cpp:11-19, src/design/EComponent.cpp:12-23,
src/design/EComponentDefPin.cpp:9-19, src/design/EPadstackDefData.cpp:12-55,
src/design/EMaterialProp.cpp:11-52, src/basic/EShape.cpp:18-79,
src/model/geometry/ELayerCutModel.cpp:10-27, src/model/thermal/EStackupPrismThermalModel.cpp:11-16.
The lookup table is src/basic/ELookupTable.h:65-70; vectors and triangulations are archived by
libraries. -/
def serialize : Cls → Option (List Mem)
  | .ECircuitCell => some serCell
  | .ELayoutView => some (serCollection ++ ["boundary", "cell"])
  | .EComponentDef => some (serCollection ++ serDefinition ++
      ["type", "boundary", "height", "solder_height", "material", "solder_filling_material"])
  | .EPadstackDef => some (serDefinition ++ ["data"])
  | .EMaterialDef => some (serDefinition ++ ["id", "type", "properties"])
  | .ELayerMap => some (serDefinition ++ ["layer_map"])
  | .EMaterialDefCollection => some (serCollection ++ ["id_lut"])
  | .ENetCollection => some (serCollection ++ ["uid_gen"])
  | .ECellCollection | .EComponentDefCollection | .EPadstackDefCollection | .ELayerMapCollection
  | .ELayerCollection | .EConnObjCollection | .EHierarchyObjCollection | .EPrimitiveCollection
  | .EPadstackInstCollection | .ECellInstCollection | .EComponentCollection
  | .EComponentDefPinCollection | .EModelCollection => some serCollection
  | .ENet => some (serObject ++ ["net_id"])
  | .EStackupLayer => some (serLayer ++ ["elevation", "thickness", "conducting_mat", "dielectric_mat"])
  | .EViaLayer => some (serLayer ++ ["upper_ref_layer", "lower_ref_layer"])
  | .EGeometry2D => some (serPrimitive ++ ["shape"])
  | .EBondwire => some (serPrimitive ++ ["material", "end_layer", "mount_component", "connected_pin",
      "location", "flipped", "radius", "height", "current", "scenario", "solder_joints",
      "bondwire_type"])
  | .EText => some (serPrimitive ++ ["text"] ++ serTransform)
  | .EPadstackInst => some (serConnObj ++ ["padstack_def", "layer_map", "top_layer", "bot_layer"] ++
      serTransform ++ ["is_layout_pin"])
  | .ECellInst => some (serHierarchyObj ++ ["def_layout", "layer_map"])
  | .EComponent => some (serHierarchyObj ++
      ["component_def", "placement", "loss_power", "flipped", "scenario"])
  | .EComponentDefPin => some (serObject ++ ["type", "location", "padstack_def", "layer"])
  | .EPadstackDefData => some ["material", "bump_ball", "pads", "via"]
  | .EMaterialPropValue => some ["value"]
  | .EMaterialPropTable => some ["denpdency", "value"]
  | .EMaterialPropPolynomial => some ["coefficients"]
  | .ERectangle | .EPolygon | .EPolygonWithHoles => some ["shape"]
  | .EPath => some ["shape", "type", "width"]
  | .ECircle => some ["o", "r", "div"]
  | .EShapeFromTemplate => some (["template"] ++ serTransform)
  | .ELayerCutModel => some ["settings", "nets", "ranges", "bondwires", "materials", "polygons",
      "steiner_points", "power_blocks", "layer_polygons", "height_to_index", "layer_order",
      "vertical_scale_to_int"]
  | .EPrismThermalModel | .EStackupPrismThermalModel => some serPrismModel
  | .LookupTable => some ["data"]
  | .SizeVec | .PrismTemplate => some ["all"]
  | .EGridThermalModel => none

/-- What `EDatabase::serialize` names (src/design/EDatabase.cpp:22-36). -/
def serDatabase : List Mem := serCollection ++ serObject ++ ["coord_units"]

/-! ### Objects -/

/-- What the value of a member consists of. -/
inductive Item
  | atom (v : Int)
  | ptr (p : Option Nat)
  deriving DecidableEq, Repr

/-- An object. -/
structure Obj where
  cls : Cls
  mem : Mem → List Item
  /-- `m_database` (src/design/EDefinition.h:29) points to the database -/
  db : Bool

/-- The objects of a program state; addresses are positions. -/
abbrev Heap := List Obj

/-- A database: its own members and `m_version` (src/design/EDatabase.h:75-76). -/
structure Db where
  mem : Mem → List Item
  version : Nat × Nat

/-! ### Writing -/

/-- What an archive consists of. -/
inductive Tok
  | len (n : Nat)
  | atom (v : Int)
  | null
  | new (c : Cls)
  | ref (k : Nat)
  deriving DecidableEq, Repr

/-- What becomes of writing: done, a pointer to no object is followed, an exception leaves the
function, or the calls nest deeper than the program has room for. -/
inductive Out (α : Type)
  | ok (a : α)
  | ub
  | exn
  | deep
  deriving DecidableEq, Repr

/-- one after the other -/
def Out.bind {α β : Type} : Out α → (α → Out β) → Out β
  | .ok a, f => f a
  | .ub, _ => .ub
  | .exn, _ => .exn
  | .deep, _ => .deep

/-- Writing the object at an address; the second argument are the objects met, in order. -/
abbrev SaveF := Nat → List Nat → Out (List Tok × List Nat)

/-- One number or pointer of a member (the archive's operator for the members named in
src/design and the other `serialize` functions cited at `serialize`). -/
def saveItem (f : SaveF) : Item → List Nat → Out (List Tok × List Nat)
  | .atom v, vis => .ok ([.atom v], vis)
  | .ptr none, vis => .ok ([.null], vis)
  | .ptr (some p), vis => if p ∈ vis then .ok ([.ref (vis.idxOf p)], vis) else f p vis

/-- The value of a member, without its size. -/
def saveItems (f : SaveF) : List Item → List Nat → Out (List Tok × List Nat)
  | [], vis => .ok ([], vis)
  | i :: r, vis => (saveItem f i vis).bind fun x =>
      (saveItems f r x.2).bind fun y => .ok (x.1 ++ y.1, y.2)

/-- The lines `ar & make_nvp(…)` of a `serialize` function, one after the other. -/
def saveMems (f : SaveF) (o : Mem → List Item) : List Mem → List Nat → Out (List Tok × List Nat)
  | [], vis => .ok ([], vis)
  | m :: r, vis => (saveItems f (o m) vis).bind fun x =>
      (saveMems f o r x.2).bind fun y => .ok (.len (o m).length :: (x.1 ++ y.1), y.2)

/-- Writing an object that was not met before; the first argument is the room for nested calls. -/
def saveObj (h : Heap) : Nat → SaveF
  | 0, _, _ => .deep
  | n + 1, p, vis =>
    match h[p]? with
    | none => .ub
    | some o =>
      match serialize o.cls with
      | none => .exn
      | some ms => (saveMems (saveObj h n) o.mem ms (vis ++ [p])).bind fun x =>
          .ok (.new o.cls :: x.1, x.2)

/-- `toInt(CURRENT_VERSION)` (src/basic/ECadVersion.h:7-13): always 0. -/
def toInt (v : Nat × Nat) : Nat := v.1 % 100 * 100 + v.2 % 100

/-- `fromInt` (src/basic/ECadVersion.h:15-21). -/
def fromInt (n : Nat) : Nat × Nat := (n / 100 % 100, n % 100)

/-- `CURRENT_VERSION` (src/basic/ECadVersion.h:8). -/
def current : Nat × Nat := (0, 0)

/-- What is under a name in the file system: nothing, an archive, or a file that is none. -/
inductive File
  | absent
  | archive (t : List Tok)
  | broken

/-- A path of the file system: whether its directory can be made and the file be opened for
writing, and what the file holds. -/
structure Path where
  dir : Bool
  writable : Bool
  content : File

/-- `EDatabase::Save` (src/design/EDatabase.cpp:76-104): the value returned and the file after the
call.  The file is emptied before anything is written; an interrupted call leaves the beginning of an
archive. -/
def save (room : Nat) (h : Heap) (d : Db) (f : Path) : Out Bool × Path :=
  if !f.dir then (.ok false, f)
  else if !f.writable then (.ok false, f)
  else
    match saveMems (saveObj h room) d.mem serDatabase [] with
    | .ok x => (.ok true, { f with content := .archive (.atom (toInt current) :: x.1) })
    | .ub => (.ub, { f with content := .broken })
    | .exn => (.exn, { f with content := .broken })
    | .deep => (.deep, { f with content := .broken })

/-! ### Reading -/

/-- The objects read so far; `none` is one that is being read. -/
abbrev LHeap := List (Option Obj)

/-- Reading an object of a class, after its class was read: its address, the rest of the archive,
the objects. -/
abbrev LoadF := Cls → List Tok → LHeap → Option (Nat × List Tok × LHeap)

/-- One number or pointer. -/
def loadItem (f : LoadF) : List Tok → LHeap → Option (Item × List Tok × LHeap)
  | .atom v :: r, h => some (.atom v, r, h)
  | .null :: r, h => some (.ptr none, r, h)
  | .ref k :: r, h => if k < h.length then some (.ptr (some k), r, h) else none
  | .new c :: r, h => (f c r h).map fun x => (.ptr (some x.1), x.2)
  | _, _ => none

/-- The value of a member of a given size. -/
def loadItems (f : LoadF) : Nat → List Tok → LHeap → Option (List Item × List Tok × LHeap)
  | 0, t, h => some ([], t, h)
  | n + 1, t, h => (loadItem f t h).bind fun x =>
      (loadItems f n x.2.1 x.2.2).map fun y => (x.1 :: y.1, y.2)

/-- The lines of a `serialize` function when reading, for an object the default constructor made. -/
def loadMems (f : LoadF) : List Mem → List Tok → LHeap → Option ((Mem → List Item) × List Tok × LHeap)
  | [], t, h => some (fun _ => [], t, h)
  | m :: r, .len n :: t, h => (loadItems f n t h).bind fun x =>
      (loadMems f r x.2.1 x.2.2).map fun y => (fun k => if k = m then x.1 else y.1 k, y.2)
  | _, _, _ => none

/-- Reading an object; it gets its number before its members are read. -/
def loadObj : Nat → LoadF
  | 0, _, _, _ => none
  | n + 1, c, t, h =>
    match serialize c with
    | none => none
    | some ms => (loadMems (loadObj n) ms t (h ++ [none])).map fun x =>
        (h.length, x.2.1, x.2.2.set h.length (some ⟨c, x.1, false⟩))

/-- The objects a list of items points to, up to the first null pointer, where the iterators of the
collections stop (src/basic/ECollection.h:136-142). -/
def walk : List Item → List Nat
  | [] => []
  | .atom _ :: r => walk r
  | .ptr none :: _ => []
  | .ptr (some p) :: r => p :: walk r

/-- `EDefinition::SetDatabase` (src/design/EDefinition.cpp:34-37, through
`ECell::SetDatabase` etc.) on the object at an address. -/
def markOne (h : Heap) (p : Nat) : Heap :=
  match h[p]? with
  | none => h
  | some o => h.set p { o with db := true }

/-- The loops `while (auto x = iter->Next()) x->SetDatabase(database);` of a collection of
definitions (src/collection/ECellCollection.cpp:63-69, EComponentDefCollection.cpp:65-71,
EPadstackDefCollection.cpp:64-70, ELayerMapCollection.cpp:65-71, EMaterialDefCollection.cpp:75-81). -/
def markAll (h : Heap) (c : Nat) : Heap :=
  match h[c]? with
  | none => h
  | some o => (walk (o.mem "collection")).foldl markOne h

/-- `EDefinitionCollection::SetDatabase` (src/collection/EDefinitionCollection.cpp:105-109).
Simplification: the collections of a database are never null. -/
def setDatabase (h : Heap) (d : Mem → List Item) : Heap :=
  (walk (d "collection")).foldl markAll h

/-- All objects are read. -/
def finished : LHeap → Option Heap
  | [] => some []
  | none :: _ => none
  | some o :: r => (finished r).map (o :: ·)

/-- The body of `EDatabase::Load` for a file with these contents (src/design/EDatabase.cpp:106-131
and 22-36): the old contents are dropped (`Clear`), what the archive holds is read, and the
definitions are told their database.  `none`: an exception leaves the function. -/
def readDb (room : Nat) : List Tok → Option (Heap × Db)
  | .atom v :: t =>
    (loadMems (loadObj room) serDatabase t []).bind fun x =>
      (finished x.2.2).map fun h => (setDatabase h x.1, ⟨x.1, fromInt v.toNat⟩)
  | _ => none

/-- What becomes of `EDatabase::Load`. -/
inductive Loaded
  | no
  | exn
  | ok (h : Heap) (d : Db)

/-- `EDatabase::Load` (src/design/EDatabase.cpp:106-131). -/
def load (room : Nat) (f : Path) : Loaded :=
  match f.content with
  | .absent => .no
  | .broken => .exn
  | .archive t =>
    match readDb room t with
    | none => .exn
    | some x => .ok x.1 x.2

/-- `EDataMgr::LoadDatabase` (src/EDataMgr.cpp:88-94): a database is made, read, and entered under
the name it has then, unless there is one of that name.  The registered names and the result. -/
def loadDatabase (room : Nat) (names : List (List Item)) (f : Path) :
    List (List Item) × Loaded :=
  match load room f with
  | .ok h d => if d.mem "name" ∈ names then (names, .no) else (d.mem "name" :: names, .ok h d)
  | .no => (names, .no)
  | .exn => (names, .exn)

/-- What comes back of a transformation: its sequence, without the matrix it may have computed
before (src/basic/ETransform.h:55-61 and 117-120). -/
def reloadT {F M : Type} (t : Trans.T F M) : Trans.T F M := ⟨none, t.seq⟩

/-! ### What the classes hold -/

/-- The members of `EObject` (src/design/EObject.h:40-41). -/
def memObject : List Mem := ["name", "uuid"]

/-- The members of `ETransform2D` (src/basic/ETransform.h:118-119). -/
def memTransform : List Mem := ["transform.matrix", "transform.sequence"]

/-- The members of each class, those of its base classes included, as the headers declare them.
`m_database` of the definitions is `Obj.db`.
src/design/ECell.h:37-38, ELayoutView.h:10 and 134-135, EComponentDef.h:10 and 55-60,
EPadstackDef.h:32, EMaterialDef.h:34-36, ELayerMap.h:36, src/collection/EMaterialDefCollection.h:42,
ENetCollection.h:44-45, src/basic/ECollection.h:95 and 291, src/design/ENet.h:24, ELayer.h:25-26,
63-66 and 81-82, EConnObj.h:22, EPrimitive.h:38-39, 65, 129-140 and 162-163, EPadstackInst.h:48-52,
EHierarchyObj.h:26-27, ECellInst.h:38-39, EComponent.h:50-54, EComponentDefPin.h:34-37,
EPadstackDefData.h:96-99, EMaterialProp.h:58, 85-86 and 113, src/basic/EShape.h:36, 60-62, 87-89,
112, 138 and 160-161, src/model/geometry/ELayerCutModel.h:119-131,
src/model/thermal/EThermalModel.h:31, EPrismThermalModel.h:221-232, EGridThermalModel.h:111-121,
src/basic/ELookupTable.h:90. -/
def members : Cls → List Mem
  | .ECircuitCell => memObject ++ ["cell_type", "layout_view"]
  | .ELayoutView => ["collection"] ++ memObject ++ ["boundary", "cell"]
  | .EComponentDef => memObject ++ ["collection", "type", "boundary", "height", "solder_height",
      "material", "solder_filling_material"]
  | .EPadstackDef => memObject ++ ["data"]
  | .EMaterialDef => memObject ++ ["id", "type", "properties"]
  | .ELayerMap => memObject ++ ["layer_map"]
  | .EMaterialDefCollection => ["collection", "id_lut"]
  | .ENetCollection => ["collection", "uid_gen", "net_id_name_map"]
  | .ECellCollection | .EComponentDefCollection | .EPadstackDefCollection | .ELayerMapCollection
  | .ELayerCollection | .EConnObjCollection | .EHierarchyObjCollection | .EPrimitiveCollection
  | .EPadstackInstCollection | .ECellInstCollection | .EComponentCollection
  | .EComponentDefPinCollection | .EModelCollection => ["collection"]
  | .ENet => memObject ++ ["net_id"]
  | .EStackupLayer => memObject ++ ["layer_id", "layer_type", "elevation", "thickness",
      "conducting_mat", "dielectric_mat"]
  | .EViaLayer => memObject ++ ["layer_id", "layer_type", "upper_ref_layer", "lower_ref_layer"]
  | .EGeometry2D => memObject ++ ["net", "layer", "type", "shape"]
  | .EBondwire => memObject ++ ["net", "layer", "type", "material", "end_layer", "mount_component",
      "connected_pin", "location", "flipped", "radius", "height", "current", "scenario",
      "solder_joints", "bondwire_type"]
  | .EText => memObject ++ ["net", "layer", "type", "text"] ++ memTransform
  | .EPadstackInst => memObject ++ ["net", "padstack_def", "layer_map", "top_layer", "bot_layer"] ++
      memTransform ++ ["is_layout_pin"]
  | .ECellInst => memObject ++ ["ref_layout"] ++ memTransform ++ ["def_layout", "layer_map"]
  | .EComponent => memObject ++ ["ref_layout"] ++ memTransform ++
      ["component_def", "placement", "loss_power", "scenario", "flipped"]
  | .EComponentDefPin => memObject ++ ["type", "location", "padstack_def", "layer"]
  | .EPadstackDefData => ["material", "bump_ball", "pads", "via"]
  | .EMaterialPropValue => ["value"]
  | .EMaterialPropTable => ["denpdency", "value"]
  | .EMaterialPropPolynomial => ["coefficients"]
  | .ERectangle | .EPolygon | .EPolygonWithHoles => ["shape"]
  | .EPath => ["type", "width", "shape"]
  | .ECircle => ["r", "o", "div"]
  | .EShapeFromTemplate => memTransform ++ ["template"]
  | .ELayerCutModel => ["settings", "nets", "ranges", "bondwires", "materials", "polygons",
      "steiner_points", "power_blocks", "layer_polygons", "height_to_index", "layer_order",
      "vertical_scale_to_int"]
  | .EPrismThermalModel | .EStackupPrismThermalModel => ["uniform_BC", "layers", "scale_h_to_unit",
      "scale_to_meter", "layout", "settings", "points", "lines", "prisms", "index_offset",
      "block_BCs", "prism_template"]
  | .EGridThermalModel => ["uniform_BC", "size", "ref", "elevation", "scale_h", "resolution",
      "stackup_layers", "jump_connects", "top_block_BCs", "bot_block_BCs", "settings"]
  | .LookupTable => ["data"]
  | .SizeVec | .PrismTemplate => ["all"]

end Ecad.Arc
