import Verif.Base.UMap
import Verif.Base.Res
/-!
Keyed collections: `EUnorderedMapCollection` and `EModelCollection`.
-/
namespace Ecad
namespace Coll

variable {K V : Type _} [DecidableEq K]

/-- `EUnorderedMapCollection::Insert` (src/basic/ECollection.h:80-85). -/
def insert (m : List (K × V)) (k : K) (v : V) (force : Bool) : List (K × V) × Bool :=
  let m := if force && UMap.count m k then UMap.erase m k else m
  UMap.emplace m k v

/-- `operator[](key) = v` (src/basic/ECollection.h:72-73): the entry is created when missing and
then assigned.  The position of the entry in the iteration order is immaterial. -/
def assign (m : List (K × V)) (k : K) (v : V) : List (K × V) :=
  UMap.erase m k ++ [(k, v)]

/-- `Count` (src/basic/ECollection.h:78). -/
def count (m : List (K × V)) (k : K) : Bool := UMap.count m k

/-- `At` (src/basic/ECollection.h:87-88): `unordered_map::at` throws for a missing key. -/
def at_ (m : List (K × V)) (k : K) : Res V :=
  match UMap.find? m k with
  | some v => .ok v
  | none => .exn

/-- `Size` (src/basic/ECollection.h:76). -/
def size (m : List (K × V)) : Nat := m.length

/-- copy assignment (src/basic/ECollection.h:62-70): cleared, then every entry of the other
collection is inserted as a clone; `clone` stands for `CloneHelper`. -/
def copyFrom (clone : V → V) (other : List (K × V)) : List (K × V) :=
  other.foldl (fun acc e => (UMap.emplace acc e.1 (clone e.2)).1) []

/-- Operations of the public interface. -/
inductive Op (K V : Type _) where
  | insert (k : K) (v : V) (force : Bool)
  | assign (k : K) (v : V)
  | clear
  | count (k : K)
  | at_ (k : K)
  | size
  deriving Repr

/-- Answers of the operations. -/
inductive Ans (V : Type _) where
  | bool (b : Bool)
  | val (r : Res V)
  | nat (n : Nat)
  | unit
  deriving Repr, DecidableEq

/-- One call on the collection (src/basic/ECollection.h:72-88). -/
def step (m : List (K × V)) : Op K V → List (K × V) × Ans V
  | .insert k v f => let r := insert m k v f; (r.1, .bool r.2)
  | .assign k v => (assign m k v, .unit)
  | .clear => ([], .unit)
  | .count k => (m, .bool (count m k))
  | .at_ k => (m, .val (at_ m k))
  | .size => (m, .nat (size m))

/-- A history of calls on one collection: final state and all answers. -/
def run (m : List (K × V)) : List (Op K V) → List (K × V) × List (Ans V)
  | [] => (m, [])
  | o :: os => let r := step m o; let rs := run r.1 os; (rs.1, r.2 :: rs.2)

/-- `EModelCollection::AddModel` (src/collection/EModelCollection.cpp:45-49); `none` is the null
pointer, a model is given with its type. -/
def addModel (m : List (K × V)) (model : Option (K × V)) : List (K × V) × Bool :=
  match model with
  | none => (m, false)
  | some (ty, md) => insert m ty md true

/-- `EModelCollection::FindModel` (src/collection/EModelCollection.cpp:39-43). -/
def findModel (m : List (K × V)) (ty : K) : Option V :=
  if !count m ty then none else UMap.find? m ty

end Coll
end Ecad
