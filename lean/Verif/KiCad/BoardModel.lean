import Verif.KiCad.ParserModel
import Verif.Base.Res
import Verif.Base.UMap
import Verif.Net.Model
import Mathlib.Algebra.Order.Field.Basic
/-!
KiCad import (src/extension/kicad/ECadExtKiCadHandler.cpp, EKiCadObjects.cpp): what becomes of the layers and the nets.

Segments, zones, vias, footprints and drawings are collected by the handler (`ObjModel.lean`), but nothing of them is put into the
database (335-349).
-/
namespace Ecad.KiCad

/-- conversion of texts: `std::stoi` (`none`: it throws), `>>` into an unsigned integer, a number and a string (first word) -/
structure Conv (K : Type) where
  stoi : List Char → Option Int
  index : List Char → Nat
  num : List Char → K
  word : List Char → List Char

/-- `Layer::Type` (src/extension/kicad/EKiCadObjects.h:85), as far as the import distinguishes -/
inductive LType where
  | unknown
  | conducting
  | other
  deriving DecidableEq, Repr

/-- `Layer` (src/extension/kicad/EKiCadObjects.h:82-100) -/
structure KLayer (K : Type) where
  id : Nat
  type : LType
  thickness : K
  material : List Char
  deriving DecidableEq

/-- `Database` (src/extension/kicad/EKiCadObjects.h:182-201): layers by name and nets by id, both unordered maps -/
structure KDb (K : Type) where
  layers : List (List Char × KLayer K) := []
  nets : List (Nat × List Char) := []

variable {K : Type} [Field K]

def Tree.value : Tree → List Char
  | .mk v _ => v

def Tree.branches : Tree → List Tree
  | .mk _ b => b

/-- `Layer::SetType` (src/extension/kicad/EKiCadObjects.cpp:48-62): an unknown text changes nothing -/
def setType (t : LType) (s : List Char) : LType :=
  if s = "Top Silk Screen".toList ∨ s = "Bottom Silk Screen".toList ∨ s = "Top Solder Paste".toList ∨ s = "Bottom Solder Paste".toList ∨
    s = "Top Solder Mask".toList ∨ s = "Bottom Solder Mask".toList then .other
  else if s = "copper".toList then .conducting
  else if s = "core".toList ∨ s = "mixed".toList then .other
  else t

/-- One entry of `ExtractLayer` (src/extension/kicad/ECadExtKiCadHandler.cpp:66-73) with `AddLayer`
(src/extension/kicad/EKiCadObjects.cpp:74-78); the group is not used later, but its `at` may throw -/
def extractLayer (cv : Conv K) (db : KDb K) (sub : Tree) : Res (KDb K) :=
  match cv.stoi sub.value with
  | none => .exn
  | some id =>
    (Res.at_ sub.branches 0).bind fun n => (Res.at_ sub.branches 1).bind fun _ =>
      .ok { db with layers := (UMap.emplace db.layers n.value ⟨(id % (2 ^ 64 : Int)).toNat, .unknown, 0, []⟩).1 }

/-- `ExtractLayer` (src/extension/kicad/ECadExtKiCadHandler.cpp:64-74) -/
def extractLayers (cv : Conv K) : KDb K → List Tree → Res (KDb K)
  | db, [] => .ok db
  | db, t :: ts => (extractLayer cv db t).bind fun db => extractLayers cv db ts

/-- the first value of a list of branches; reading from an empty list is undefined -/
def front (b : List Tree) : Res (List Char) := (Res.index b 0).bind fun t => .ok t.value

/-- One attribute of a stackup layer (src/extension/kicad/ECadExtKiCadHandler.cpp:89-98); permittivity and loss tangent are not used later -/
def layerAttr (cv : Conv K) (l : KLayer K) (a : Tree) : Res (KLayer K) :=
  if a.value = "type".toList then (front a.branches).bind fun v => .ok { l with type := setType l.type v }
  else if a.value = "thickness".toList then (front a.branches).bind fun v => .ok { l with thickness := cv.num v }
  else if a.value = "material".toList then (front a.branches).bind fun v => .ok { l with material := cv.word v }
  else if a.value = "epsilon_r".toList ∨ a.value = "loss_tangent".toList then (front a.branches).bind fun _ => .ok l
  else .ok l

/-- the loop over the attributes (src/extension/kicad/ECadExtKiCadHandler.cpp:88-99) -/
def layerAttrs (cv : Conv K) : KLayer K → List Tree → Res (KLayer K)
  | l, [] => .ok l
  | l, a :: as => (layerAttr cv l a).bind fun l => layerAttrs cv l as

/-- the layer found by name is changed in place -/
def updLayer (ls : List (List Char × KLayer K)) (name : List Char) (l : KLayer K) : List (List Char × KLayer K) :=
  ls.map fun e => if e.1 = name then (e.1, l) else e

/-- One entry of `ExtractStackup` (src/extension/kicad/ECadExtKiCadHandler.cpp:84-102) -/
def stackupEntry (cv : Conv K) (db : KDb K) (sub : Tree) : Res (KDb K) :=
  if sub.value = "layer".toList then
    (front sub.branches).bind fun name =>
      match UMap.find? db.layers name with
      | none => .ok db
      | some l => (layerAttrs cv l (sub.branches.drop 1)).bind fun l => .ok { db with layers := updLayer db.layers name l }
  else .ok db

/-- `ExtractStackup` (src/extension/kicad/ECadExtKiCadHandler.cpp:82-103) -/
def stackupEntries (cv : Conv K) : KDb K → List Tree → Res (KDb K)
  | db, [] => .ok db
  | db, t :: ts => (stackupEntry cv db t).bind fun db => stackupEntries cv db ts

/-- `ExtractNet` (src/extension/kicad/ECadExtKiCadHandler.cpp:106-112) with `AddNet` (src/extension/kicad/EKiCadObjects.cpp:80-85) -/
def extractNet (cv : Conv K) (db : KDb K) (t : Tree) : Res (KDb K) :=
  (Res.at_ t.branches 1).bind fun n => (front t.branches).bind fun i =>
    .ok { db with nets := (UMap.emplace db.nets (cv.index i) n.value).1 }

/-- `ExtractNode` (src/extension/kicad/ECadExtKiCadHandler.cpp:57-62) and `ExtractSetup` (76-80) of a node up to a depth of `setup` nodes;
other kinds of nodes do not change layers and nets -/
def extractNode (cv : Conv K) : Nat → KDb K → Tree → Res (KDb K)
  | 0, db, _ => .ok db
  | n + 1, db, t =>
    if t.value = "layers".toList then extractLayers cv db t.branches
    else if t.value = "stackup".toList then stackupEntries cv db t.branches
    else if t.value = "net".toList then extractNet cv db t
    else if t.value = "setup".toList then
      t.branches.foldl (fun r s => r.bind fun db => extractNode cv n db s) (.ok db)
    else .ok db

/-- `ExtractKiCadObjects` (src/extension/kicad/ECadExtKiCadHandler.cpp:41-55) -/
def extractBoard (cv : Conv K) (depth : Nat) (t : Tree) : Res (KDb K) :=
  t.branches.foldl (fun r s => r.bind fun db => extractNode cv depth db s) (.ok {})

/-- a stackup layer of the database -/
structure Row (K : Type) where
  name : List Char
  conducting : Bool
  elevation : K
  thickness : K
  deriving DecidableEq

/-- `CreateEcadLayers` (src/extension/kicad/ECadExtKiCadHandler.cpp:351-374); the list is the map of the layers in the order in which it
is walked through, `el` the elevation reached -/
def createLayers : K → List (List Char × KLayer K) → List (Row K)
  | _, [] => []
  | el, e :: ls =>
    if e.2.id > 32 then createLayers el ls
    else ⟨e.1, e.2.type == .conducting, el, e.2.thickness⟩ :: createLayers (el - e.2.thickness) ls

/-- `CreateEcadNets` (src/extension/kicad/ECadExtKiCadHandler.cpp:376-387): the nets and the table from the ids of the file to the nets -/
def createNets : Net.Coll × List (Nat × Int) → List (Nat × List Char) → Net.Coll × List (Nat × Int)
  | s, [] => s
  | (c, lut), e :: es =>
    match Net.createNet c (String.ofList e.2) with
    | (c, none) => createNets (c, lut) es
    | (c, some n) => createNets (c, (UMap.emplace lut e.1 n.id).1) es

end Ecad.KiCad
