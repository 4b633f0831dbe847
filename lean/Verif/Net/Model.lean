import Verif.Base.UMap
import Verif.Naming.Lemmas
import Mathlib.Algebra.Order.Group.Int
/-!
The net collection of a layout.
-/
namespace Ecad
namespace Net

/-- `ENet` reduced to name and id (src/design/ENet.h). -/
structure Net where
  name : String
  id : Int
  deriving Repr, DecidableEq

/-- `static_cast<ENetId>(m_uidGen.GetNextUid())`: the `n`-th value handed out by the 32 bit
counter (src/basic/EUidGenerator.h:22, 25; `std::atomic_int32_t::operator++` wraps around). -/
def uidValue (n : Nat) : Int := Int.bmod n (2 ^ 32)

/-- `ENetCollection` (src/collection/ENetCollection.h): the map name -> net, the number of ids
handed out so far, and the lazily built map id -> name (`none` is the null pointer).
The nets hold unique pointers in the code; the model holds the nets themselves. -/
structure Coll where
  nets : List (String × Net) := []
  uid : Nat := 0
  lut : Option (List (Int × String)) := none
  deriving Repr, DecidableEq

/-- `FindNetByName` (src/collection/ENetCollection.cpp:45-49). -/
def findByName (c : Coll) (name : String) : Option Net :=
  if !UMap.count c.nets name then none else UMap.find? c.nets name

/-- `BuildNetIdLUT` (src/collection/ENetCollection.cpp:103-112), iterating over the map in its
iteration order. -/
def buildLUT (c : Coll) : Coll :=
  match c.lut with
  | some _ => c
  | none =>
    { c with lut := some (c.nets.foldl (fun l e => (UMap.emplace l e.2.id e.2.name).1) []) }

/-- `FindNetByNetId` (src/collection/ENetCollection.cpp:51-57); returns the collection too, since
the cached index changes. -/
def findById (c : Coll) (id : Int) : Coll × Option Net :=
  let c := buildLUT c
  match UMap.find? (c.lut.getD []) id with
  | none => (c, none)
  | some name => (c, findByName c name)

/-- `CreateNet` (src/collection/ENetCollection.cpp:59-68); `none` is the null pointer. -/
def createNet (c : Coll) (name : String) : Coll × Option Net :=
  if UMap.count c.nets name then (c, none)
  else
    let net : Net := { name := name, id := uidValue c.uid }
    ({ nets := (UMap.emplace c.nets name net).1, uid := c.uid + 1, lut := none }, some net)

/-- `AddNet` (src/collection/ENetCollection.cpp:70-78) for a net with the given name. -/
def addNet (c : Coll) (name : String) : Coll × Option Net :=
  let name := Naming.nextName (UMap.keys c.nets) name
  let net : Net := { name := name, id := uidValue c.uid }
  let nets := (UMap.emplace c.nets name net).1
  ({ nets := nets, uid := c.uid + 1, lut := none }, UMap.find? nets name)

/-- `Clear` (src/collection/ENetCollection.cpp:91-96). -/
def clear (_c : Coll) : Coll := { nets := [], uid := 0, lut := none }

/-- `operator=` (src/collection/ENetCollection.cpp:34-38): only the base collection is copied;
the counter and the index of the receiver stay as they are. -/
def assign (self other : Coll) : Coll := { self with nets := other.nets }

/-- Copy constructor (src/collection/ENetCollection.cpp:29-32), also used by `CloneImp` (98-101). -/
def copy (other : Coll) : Coll := assign {} other

/-- Calls on a net collection. -/
inductive Op where
  | create (name : String)
  | add (name : String)
  | byId (id : Int)
  | byName (name : String)
  | clear
  deriving Repr, DecidableEq

/-- One call: new state and returned net. -/
def step (c : Coll) : Op → Coll × Option Net
  | .create n => createNet c n
  | .add n => addNet c n
  | .byId i => findById c i
  | .byName n => (c, findByName c n)
  | .clear => (clear c, none)

/-- State after a history of calls. -/
def run (c : Coll) (os : List Op) : Coll := os.foldl (fun c o => (step c o).1) c

end Net
end Ecad
