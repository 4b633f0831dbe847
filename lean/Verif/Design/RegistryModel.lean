import Verif.Base.UMap
/-!
The registry of databases held by the data manager.
-/
namespace Ecad.Registry

/-- `m_databases` (src/EDataMgr.h): an unordered map from names to shared pointers.  A database
object is represented by the number of the call that made it, so that two objects are equal
exactly when they are the same object. -/
abbrev Reg := List (String × Nat)

/-- A call of the data manager.  For `load` the argument is what reading the archive gives: the name
stored in it, or nothing when the file cannot be read (serialization itself is not modelled). -/
inductive Op where
  | create (name : String)
  | load (archive : Option String)
  | remove (name : String)
  | shutDown
  deriving Repr

/-- What a call returns: a database (or null), or a truth value. -/
inductive Ret where
  | db (d : Option Nat)
  | flag (b : Bool)
  | unit
  deriving DecidableEq, Repr

/-- `OpenDatabase` (src/EDataMgr.cpp:46-51). -/
def openDb (r : Reg) (name : String) : Option Nat := UMap.find? r name

/-- The final lines of `CreateDatabase` and `LoadDatabase` (src/EDataMgr.cpp:42-43, 92-93):
`emplace(name, database).first->second.get()`. -/
def register (r : Reg) (name : String) (d : Nat) : Reg × Option Nat :=
  ((UMap.emplace r name d).1, UMap.find? (UMap.emplace r name d).1 name)

/-- `CreateDatabase` (src/EDataMgr.cpp:38-44); `d` is the new object. -/
def create (r : Reg) (name : String) (d : Nat) : Reg × Option Nat :=
  if UMap.count r name then (r, none) else register r name d

/-- `LoadDatabase` (src/EDataMgr.cpp:88-94). -/
def load (r : Reg) (archive : Option String) (d : Nat) : Reg × Option Nat :=
  match archive with
  | none => (r, none)
  | some name => if UMap.count r name then (r, none) else register r name d

/-- `RemoveDatabase` (src/EDataMgr.cpp:53-56). -/
def remove (r : Reg) (name : String) : Reg × Bool := (UMap.erase r name, UMap.count r name)

/-- One call; `ShutDown` is src/EDataMgr.cpp:58-64. -/
def step (r : Reg) (d : Nat) : Op → Reg × Ret
  | .create name => let x := create r name d; (x.1, .db x.2)
  | .load a => let x := load r a d; (x.1, .db x.2)
  | .remove name => let x := remove r name; (x.1, .flag x.2)
  | .shutDown => ([], .unit)

/-- A history of calls, the `n`-th call making object `n` if it makes one. -/
def run (r : Reg) (n : Nat) : List Op → Reg
  | [] => r
  | op :: ops => run (step r n op).1 (n + 1) ops

end Ecad.Registry
