import Verif.Base.UMap
/-!
Name suggestion: `NextKey` for string keys.
-/
namespace Ecad
namespace Naming

/-- The loop of `NextKey` (src/basic/ECollection.h:117-122): tries `key + to_string(index)` for
growing `index`.  `fuel` bounds the number of iterations executed; `none` means the loop has not
returned within this many iterations.  Simplification: `index` is a natural number, so the
wrap-around of `size_t` after 2^64 iterations is not modelled. -/
def nextKeyLoop (count : String → Bool) (key : String) : Nat → Nat → Option String
  | 0, _ => none
  | fuel + 1, index =>
    let name := key ++ toString index
    if !count name then some name else nextKeyLoop count key fuel (index + 1)

/-- `NextKey(collection, key)` (src/basic/ECollection.h:113-124), run for at most `fuel` loop
iterations; `keys` are the keys of the collection. -/
def nextKey (keys : List String) (key : String) (fuel : Nat) : Option String :=
  if !keys.contains key then some key
  else nextKeyLoop (fun k => keys.contains k) key fuel 1

/-- `NextKey` as a total function: the loop is given one iteration more than there are keys
(`nextKey_terminates` shows that this is always enough, and `nextKey_fuel_mono` that more
iterations change nothing).  Used by the callers
`ENetCollection::NextNetName` (src/collection/ENetCollection.cpp:40-43) and
`EDatabase::GetNextDefName`. The empty string in the unreachable case is the `return ""` of
src/basic/ECollection.h:123. -/
def nextName (keys : List String) (key : String) : String :=
  (nextKey keys key (keys.length + 1)).getD ""

end Naming
end Ecad
