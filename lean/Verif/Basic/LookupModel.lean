import Verif.Base.Res
import Mathlib.Algebra.Order.Field.Basic
/-!
`ELookupTable1D` over exact arithmetic (an arbitrary linearly ordered field).
-/
namespace Ecad
namespace Lookup

variable {K : Type} [Field K] [LinearOrder K] [IsStrictOrderedRing K]

/-- `std::map<EFloat, EFloat>` (src/basic/ELookupTable.h:73): samples in the order of their keys.
Simplification: keys are elements of an ordered field (no NaN, no rounding). -/
abbrev Table (K : Type) := List (K × K)

/-- `AddSample` (src/basic/ELookupTable.h:93-96): `emplace` does nothing when the key is present. -/
def addSample (t : Table K) (key value : K) : Table K :=
  match t with
  | [] => [(key, value)]
  | e :: r =>
    if key < e.1 then (key, value) :: e :: r
    else if e.1 < key then e :: addSample r key value
    else e :: r

/-- The interpolation formula (src/basic/ELookupTable.h:106). -/
def interp (l h : K × K) (key : K) : K :=
  l.2 + (key - l.1) * (h.2 - l.2) / (h.1 - l.1)

/-- `lower_bound` and the step back to the previous entry (src/basic/ELookupTable.h:104-106);
`l` is the entry before the rest of the map.  Dereferencing `end()` is undefined behaviour. -/
def seek (key : K) (l : K × K) : Table K → Res K
  | [] => .ub
  | h :: r => if h.1 < key then seek key h r else .ok (interp l h key)

/-- `Lookup` (src/basic/ELookupTable.h:98-107). -/
def lookup (t : Table K) (key : K) : Res K :=
  match t with
  | [] => .ok 0
  | [e] => .ok e.2
  | e :: e' :: r =>
    let last := (e' :: r).getLast (by simp)
    if key < e.1 then .ok e.2
    else if last.1 < key then .ok last.2
    else if ¬ e.1 < key then .ok e.2
    else seek key e (e' :: r)

/-- a table filled by a history of `AddSample` calls -/
def build (t : Table K) (s : List (K × K)) : Table K :=
  s.foldl (fun t e => addSample t e.1 e.2) t

end Lookup
end Ecad
