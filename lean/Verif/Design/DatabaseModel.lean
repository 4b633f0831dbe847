import Verif.Base.UMap
import Verif.Base.Res
import Verif.Naming.Model
/-!
The definitions held by a database: created, found, copied and cleared.

Objects are numbered: two pointers are equal exactly when the numbers are.  A number stands for an
address that is never used again (the model does not reuse freed addresses).
-/
namespace Ecad.Db

/-- `EDefinitionType` (src/basic/ECadCommon.h) without `Invalid`; the collections of a database are
keyed by the `ECollectionType` of the same name (src/collection/EDefinitionCollection.cpp:63-87). -/
inductive Kind where
  | cell | layerMap | materialDef | padstackDef | componentDef
  deriving DecidableEq, Repr

/-- A definition: `EDefinition` (src/design/EDefinition.cpp:26-43) with the members used here; for a
material `matId` is `m_id` (src/design/EMaterialDef.cpp:27-30). Everything else a definition holds is
left out. -/
structure Defn where
  obj : Nat
  kind : Kind
  name : String
  owner : Nat
  matId : Nat
  deriving DecidableEq, Repr

/-- One collection of definitions: `m_collection`, and `m_idLut` of
`EMaterialDefCollection` (src/collection/EMaterialDefCollection.h), which stays empty in the other
collections.  The table holds pointers. -/
structure Coll where
  defs : List (String × Defn)
  lut : List (Nat × Nat)
  deriving DecidableEq, Repr

/-- A database: itself and its collections (`ECollectionCollection::m_collection`). -/
structure Database where
  self : Nat
  colls : List (Kind × Coll)
  deriving DecidableEq, Repr

/-- `AddCollection` (src/collection/ECollectionCollection.cpp:54-131) for the five kinds of
definitions. -/
def addCollection (d : Database) (k : Kind) : Database :=
  { d with colls := (UMap.emplace d.colls k ⟨[], []⟩).1 }

/-- The constructor (src/design/EDatabase.cpp:46-54). -/
def new (self : Nat) : Database :=
  addCollection (addCollection (addCollection (addCollection (addCollection ⟨self, []⟩
    .componentDef) .padstackDef) .materialDef) .layerMap) .cell

/-- `GetDefinitionCollection` (src/collection/EDefinitionCollection.cpp:63-87) and `GetCollection`
(src/collection/ECollectionCollection.cpp:133-137). -/
def getColl (d : Database) (k : Kind) : Option Coll := UMap.find? d.colls k

/-- `GetDefinition` (src/collection/EDefinitionCollection.cpp:96-101), in the collection
src/collection/EMaterialDefCollection.cpp:54-59, src/collection/ELayerMapCollection.cpp:52-57 and
alike. -/
def getDefinition (d : Database) (name : String) (k : Kind) : Option Defn :=
  match getColl d k with
  | some c => UMap.find? c.defs name
  | none => none

/-- Replacing the collection of one kind. (The code changes it in place.) -/
def setColl (d : Database) (k : Kind) (c : Coll) : Database :=
  { d with colls := d.colls.map (fun e => (e.1, if e.1 = k then c else e.2)) }

/-- `AddDefinition` of a collection (src/collection/EMaterialDefCollection.cpp:43-52,
src/collection/ELayerMapCollection.cpp:42-50): `Insert` without force, and for materials
`m_idLut.emplace` with the pointer, whether or not it was inserted. -/
def Coll.add (c : Coll) (name : String) (x : Defn) : Coll :=
  ⟨(UMap.emplace c.defs name x).1,
    if x.kind = .materialDef then (UMap.emplace c.lut x.matId x.obj).1 else c.lut⟩

/-- `AddDefinition` (src/collection/EDefinitionCollection.cpp:89-94). -/
def addDefinition (d : Database) (name : String) (x : Defn) : Database × Option Defn :=
  match getColl d x.kind with
  | some c =>
    let d' := setColl d x.kind (c.add name x)
    (d', getDefinition d' name x.kind)
  | none => (d, none)

/-- The id given to a new material: `Size()` of the collection (src/design/EDatabase.cpp:194), which
dereferences a null pointer if there is no such collection; other definitions have no id. -/
def nextMatId (d : Database) (k : Kind) : Res Nat :=
  if k = .materialDef then
    match getColl d k with
    | some c => .ok c.defs.length
    | none => .ub
  else .ok 0

/-- `CreateCircuitCell`, `CreateMaterialDef`, `CreateComponentDef`, `CreateLayerMap`,
`CreatePadstackDef` (src/design/EDatabase.cpp:150-156, 190-196, 216-222, 235-241, 264-270); `obj` is
the new object. -/
def create (d : Database) (k : Kind) (name : String) (obj : Nat) : Res (Database × Option Defn) :=
  match getDefinition d name k with
  | some _ => .ok (d, none)
  | none => (nextMatId d k).bind fun id => .ok (addDefinition d name ⟨obj, k, name, d.self, id⟩)

/-- `FindCellByName`, `FindMaterialDefByName`, … (src/design/EDatabase.cpp:158-161, 198-202, 224-228,
243-247, 272-276). -/
def findByName (d : Database) (k : Kind) (name : String) : Option Defn := getDefinition d name k

/-- `FindMaterialDefById` (src/design/EDatabase.cpp:204-209,
src/collection/EMaterialDefCollection.cpp:67-73): a pointer. -/
def findById (d : Database) (id : Nat) : Option Nat :=
  match getColl d .materialDef with
  | some c => UMap.find? c.lut id
  | none => none

/-- `AddLayerMap` (src/design/EDatabase.cpp:249-257): the given layer map keeps its database. -/
def addLayerMap (d : Database) (x : Defn) : Database × Bool :=
  match getDefinition d x.name .layerMap with
  | some _ => (d, false)
  | none =>
    let r := addDefinition d x.name { x with kind := .layerMap }
    (r.1, r.2.isSome)

/-- `GetNextDefName` (src/collection/EDefinitionCollection.cpp:103-108, in the collection
src/collection/EMaterialDefCollection.cpp:61-65). -/
def getNextDefName (d : Database) (base : String) (k : Kind) : String :=
  match getColl d k with
  | some c => Naming.nextName (UMap.keys c.defs) base
  | none => ""

/-- Copying a definition: a new object with the same name, database and id
(src/design/EMaterialDef.cpp:41-51, src/design/EObject.cpp:42-46).  The new object of `o` is
`o + base`, where all objects so far are below `base`. -/
def Defn.clone (base : Nat) (x : Defn) : Defn := { x with obj := x.obj + base }

/-- Copying a collection of definitions: `m_collection` is cloned (src/basic/ECollection.h:61-70),
`m_idLut` of the new collection is empty (src/collection/EMaterialDefCollection.cpp:32-41). -/
def Coll.clone (base : Nat) (c : Coll) : Coll :=
  ⟨c.defs.map (fun e => (e.1, e.2.clone base)), []⟩

/-- `SetDatabase` of a collection (src/collection/EMaterialDefCollection.cpp:75-81,
src/collection/ELayerMapCollection.cpp:65-71). -/
def Coll.setDatabase (c : Coll) (o : Nat) : Coll :=
  { c with defs := c.defs.map (fun e => (e.1, { e.2 with owner := o })) }

/-- `EDatabase::operator=` from another database (src/design/EDatabase.cpp:65-73): all collections
are replaced by copies (src/collection/ECollectionCollection.cpp:48-52,
src/basic/ECollection.h:62-70), then `SetDatabase(this)`
(src/collection/EDefinitionCollection.cpp:110-114).  The copy constructor
(src/design/EDatabase.cpp:60-63) is the same on a new object. -/
def assign (self : Nat) (other : Database) (base : Nat) : Database :=
  ⟨self, other.colls.map (fun e => (e.1, (e.2.clone base).setDatabase self))⟩

/-- `EDatabase::operator=` from itself: `m_collection.clear()` comes first
(src/basic/ECollection.h:65), after which there is nothing to copy. -/
def assignSelf (d : Database) : Database := ⟨d.self, []⟩

/-- `Clear` (src/design/EDatabase.cpp:298-301, src/collection/ECollectionCollection.cpp:244-248,
src/collection/EMaterialDefCollection.cpp:94-98). -/
def clear (d : Database) : Database :=
  { d with colls := d.colls.map (fun e => (e.1, ⟨[], []⟩)) }

/-- A call on one of several databases. In `addMap` the layer map given has name `name` and database
`owner`. -/
inductive Op where
  | new
  | create (i : Nat) (k : Kind) (name : String)
  | addMap (i : Nat) (name : String) (owner : Nat)
  | copy (i : Nat)
  | assign (i j : Nat)
  | clear (i : Nat)
  deriving DecidableEq, Repr

/-- All databases, and a bound of the objects in existence. -/
structure World where
  dbs : List Database
  next : Nat
  deriving DecidableEq, Repr

/-- A call that changes database `i`; nothing happens if there is none. -/
def World.upd (w : World) (i : Nat) (f : Database → Res Database) (next : Nat) : Res World :=
  match w.dbs[i]? with
  | some d => (f d).bind fun d' => .ok ⟨w.dbs.set i d', next⟩
  | none => .ok w

/-- One call (a call on a database that does not exist does nothing).  A copy uses new numbers below
`2 * next + 1` for its definitions and `2 * next + 1` for itself. -/
def step (w : World) : Op → Res World
  | .new => .ok ⟨w.dbs ++ [Db.new w.next], w.next + 1⟩
  | .create i k name =>
    w.upd i (fun d => (Db.create d k name w.next).bind fun r => .ok r.1) (w.next + 1)
  | .addMap i name owner =>
    w.upd i (fun d => .ok (addLayerMap d ⟨w.next, .layerMap, name, owner, 0⟩).1) (w.next + 1)
  | .copy i =>
    match w.dbs[i]? with
    | some d => .ok ⟨w.dbs ++ [Db.assign (2 * w.next + 1) d (w.next + 1)], 2 * w.next + 2⟩
    | none => .ok w
  | .assign i j =>
    match w.dbs[j]? with
    | some d =>
      w.upd i (fun e => .ok (if i = j then assignSelf e else Db.assign e.self d (w.next + 1)))
        (2 * w.next + 2)
    | none => .ok w
  | .clear i => w.upd i (fun d => .ok (Db.clear d)) (w.next + 1)

/-- A history of calls. -/
def run (w : World) : List Op → Res World
  | [] => .ok w
  | op :: ops => (step w op).bind fun w' => run w' ops

end Ecad.Db
