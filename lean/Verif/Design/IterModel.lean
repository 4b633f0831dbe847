import Mathlib.Data.List.Basic
/-!
Collection iterators as state machines.  The elements are the non-null pointers the collections
hold; `none` is the null pointer.
-/
namespace Ecad.Iter

/-- `EUnorderedMapCollectionIterator` / `EVectorCollectionIterator`
(src/basic/ECollection.h:126-168, 293-329): the elements from the current position to the end. -/
structure Simple (A : Type) where
  rest : List A

namespace Simple
variable {A : Type}
/-- constructor (src/basic/ECollection.h:136-140, 300-304) -/
def new (l : List A) : Simple A := ⟨l⟩
/-- `Next` (src/basic/ECollection.h:144-150, 308-314) -/
def next (it : Simple A) : Option A × Simple A :=
  match it.rest with
  | [] => (none, it)
  | a :: r => (some a, ⟨r⟩)
/-- `Current` (src/basic/ECollection.h:152-156, 316-320) -/
def current (it : Simple A) : Option A :=
  match it.rest with
  | [] => none
  | a :: _ => some a
end Simple

/-- `EUnorderedMapComplexCollectionIterator` (src/basic/ECollection.h:170-233): the sub-containers
from the current one on, and what is left of the current one. -/
structure Complex (A : Type) where
  outer : List (List A)
  inner : List A

namespace Complex
variable {A : Type}
/-- `UpdateIterator2` (src/basic/ECollection.h:220-226): at the end the inner iterators keep their
value. -/
def update (it : Complex A) : Complex A :=
  match it.outer with
  | [] => it
  | g :: _ => ⟨it.outer, g⟩
/-- constructor (src/basic/ECollection.h:183-188) -/
def new (gs : List (List A)) : Complex A := update ⟨gs, []⟩
/-- `Next` (src/basic/ECollection.h:192-203) -/
def next (it : Complex A) : Option A × Complex A :=
  match it.outer with
  | [] => (none, it)
  | _ :: gs =>
    match it.inner with
    | [] => (none, it)
    | a :: r => (some a, if r.isEmpty then update ⟨gs, r⟩ else ⟨it.outer, r⟩)
/-- `Current` (src/basic/ECollection.h:205-210) -/
def current (it : Complex A) : Option A :=
  match it.outer with
  | [] => none
  | _ :: _ =>
    match it.inner with
    | [] => none
    | a :: _ => some a
end Complex

/-- `EConnObjIterator` (src/collection/EConnObjCollection.cpp:70-74) and `EHierarchyObjIterator`
(src/collection/EHierarchyObjCollection.cpp:69-73): two iterators, primitives and padstack
instances or cell instances and components.  Every element of both collections is of the type cast
to, so the casts succeed (src/design/EPrimitive.h:8, EPadstackInst.h:9, ECellInst.h:9,
EComponent.h:7). -/
structure Pair (A : Type) where
  first : Simple A
  second : Simple A

namespace Pair
variable {A : Type}
/-- constructors -/
def new (l1 l2 : List A) : Pair A := ⟨Simple.new l1, Simple.new l2⟩
/-- `Next` (src/collection/EConnObjCollection.cpp:103-108,
src/collection/EHierarchyObjCollection.cpp:102-107) -/
def next (it : Pair A) : Option A × Pair A :=
  match it.first.next with
  | (some a, f) => (some a, ⟨f, it.second⟩)
  | (none, f) => (it.second.next.1, ⟨f, it.second.next.2⟩)
/-- `EConnObjIterator::Current` (src/collection/EConnObjCollection.cpp:110-115) -/
def connCurrent (it : Pair A) : Option A :=
  match it.first.current with
  | some a => some a
  | none => it.second.current
/-- `EHierarchyObjIterator::Current` (src/collection/EHierarchyObjCollection.cpp:109-114): the
components are not looked at. -/
def hierCurrent (it : Pair A) : Option A :=
  match it.first.current with
  | some a => some a
  | none => none
end Pair

/-- The iterator after `n` calls of `Next`. -/
def advance {S A : Type} (next : S → Option A × S) : Nat → S → S
  | 0, s => s
  | n + 1, s => advance next n (next s).2

/-- What call number `n` (from zero) of `Next` returns. -/
def call {S A : Type} (next : S → Option A × S) (s : S) (n : Nat) : Option A :=
  (next (advance next n s)).1

end Ecad.Iter
