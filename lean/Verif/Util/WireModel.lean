import Verif.Util.UtilModel
/-!
The polyline of a bond wire: `GetBondwireSegments` and what it calls in
src/utility/ELayoutRetriever.cpp.

Simplifications: heights are rationals; the product of an integer vector with a number is
`rnd (factor * coordinate)` for a rounding `rnd` of the geometry library, which is not in the
repository; assertions are left out (the code goes on after them).
-/
namespace Ecad.Wire
open Util

/-- `EBondwireType` (src/basic/ECadDef.h:148-154); `other` is `Invalid` and any further value the field may hold. -/
inductive Kind | simple | jedec4 | other
  deriving DecidableEq

/-- A bond wire as far as its polyline depends on it: type, loop height, plane positions and ends
(`GetBondwireType`, `GetHeight`, `GetStartPt`, `GetEndPt`, src/design/EPrimitive.cpp:248-264, 336-344). -/
structure Wire where
  kind : Kind
  height : ℚ
  startPt : Int × Int
  endPt : Int × Int
  startEnd : WireEnd ℚ
  endEnd : WireEnd ℚ

/-- `GetBondwireHeight` (src/utility/ELayoutRetriever.cpp:66-94) on heights that are zero before: the
return value, both heights, both orientations.  The end is looked at only if the start has a height; an
orientation that was not looked at is not used afterwards. -/
def heights (l : List (Slab ℚ)) (w : Wire) : Res (Bool × (ℚ × ℚ) × (Bool × Bool)) :=
  (wireHeight l w.startEnd).bind fun
    | none => .ok (false, (0, 0), (false, false))
    | some (h0, f0) => (wireHeight l w.endEnd).bind fun
      | none => .ok (false, (h0, 0), (f0, false))
      | some (h3, f3) => .ok (true, (h0, h3), (f0, f3))

/-- `pt2ds.at(0) + (pt2ds.at(3) - pt2ds.at(0)) * c` (src/utility/ELayoutRetriever.cpp:239-240, 256) -/
def along (rnd : ℚ → Int) (c : ℚ) (p q : Int × Int) : Int × Int :=
  (p.1 + rnd (((q.1 - p.1 : Int) : ℚ) * c), p.2 + rnd (((q.2 - p.2 : Int) : ℚ) * c))

/-- a height away from a surface (src/utility/ELayoutRetriever.cpp:243-244, 259) -/
def off (flipped : Bool) (h d : ℚ) : ℚ := if flipped then h - d else h + d

/-- point and height -/
def pt (p : Int × Int) (h : ℚ) : Pt := ⟨p.1, p.2, h⟩

/-- `GetSimpleBondwireSegments` (src/utility/ELayoutRetriever.cpp:232-246) on empty vectors: the return
value and what is in the vectors afterwards. -/
def simple (rnd : ℚ → Int) (l : List (Slab ℚ)) (w : Wire) : Res (Bool × List Pt) :=
  (heights l w).bind fun r =>
    let p1 := along rnd (1 / 8) w.startPt w.endPt
    let p2 := along rnd (7 / 8) w.startPt w.endPt
    let h0 := r.2.1.1
    let h3 := r.2.1.2
    if r.1 then
      .ok (true, [pt w.startPt h0, pt p1 (off r.2.2.1 h0 w.height), pt p2 (off r.2.2.2 h3 w.height),
        pt w.endPt h3])
    else .ok (false, [pt w.startPt h0, pt p1 0, pt p2 0, pt w.endPt h3])

/-- `GetJedec4BondwireSegments` (src/utility/ELayoutRetriever.cpp:248-261) on empty vectors. -/
def jedec4 (rnd : ℚ → Int) (l : List (Slab ℚ)) (w : Wire) : Res (Bool × List Pt) :=
  (heights l w).bind fun r =>
    let p2 := along rnd (1 / 8) w.startPt w.endPt
    let h0 := r.2.1.1
    let h3 := r.2.1.2
    if r.1 then
      .ok (true, [pt w.startPt h0, pt w.startPt (off r.2.2.1 h0 w.height),
        pt p2 (off r.2.2.1 h0 w.height), pt w.endPt h3])
    else .ok (false, [pt w.startPt h0, pt w.startPt 0, pt p2 0, pt w.endPt h3])

/-- `GetBondwireSegments` (src/utility/ELayoutRetriever.cpp:96-108) -/
def segments (rnd : ℚ → Int) (l : List (Slab ℚ)) (w : Wire) : Res (Bool × List Pt) :=
  match w.kind with
  | .simple => simple rnd l w
  | .jedec4 => jedec4 rnd l w
  | .other => .ok (false, [])

/-- `GetBondwireSegmentsWithMinSeg` (src/utility/ELayoutRetriever.cpp:110-134) on empty vectors; `none`:
not ended after `fuel` calls of the refinement. -/
def segmentsMin (rnd : ℚ → Int) (l : List (Slab ℚ)) (m fuel : Nat) (w : Wire) :
    Option (Res (Bool × List Pt)) :=
  match segments rnd l w with
  | .ok (true, ps) => (minSeg midPt m fuel ps).map fun r => r.bind fun qs => .ok (true, qs)
  | r => some r

/-- The points of the wire in the layer cut model
(src/extraction/geometry/EGeometryModelExtraction.cpp:47-48, 56): the return value is only looked at by
an assertion. -/
def cutPoints (rnd : ℚ → Int) (l : List (Slab ℚ)) (fuel : Nat) (w : Wire) : Option (Res (List Pt)) :=
  (segmentsMin rnd l 10 fuel w).map fun r => r.bind fun x => .ok x.2

end Ecad.Wire
