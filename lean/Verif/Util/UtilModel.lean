import Verif.Base.Res
import Verif.Base.UMap
import Verif.Basic.SmallModel
import Mathlib.Algebra.Order.Ring.Rat
import Mathlib.Algebra.Order.Field.Basic
/-!
Layout utilities: writing merged polygons back, editing a layer thickness, vertical extents of
components and bond wires, refinement of bond wires.
-/
namespace Ecad.Util

/-! ### polygon merger -/

/-- One turn of the last loop of `FillPolygonsBackToLayout`
(src/utility/ELayoutPolygonMerger.cpp:149-152): `PopBack` (src/collection/EPrimitiveCollection.cpp:91-97)
takes the last primitive, `SetPrimitive` (53-58) overwrites position `i` with it if that is still
inside, and drops it otherwise. -/
def popInto {P : Type} (l : List P) (i : Nat) : List P :=
  match l.getLast? with
  | none => l
  | some x => if i < l.dropLast.length then l.dropLast.set i x else l.dropLast

/-- `FillPolygonsBackToLayout` (src/utility/ELayoutPolygonMerger.cpp:124-153): the merged polygons are
appended, then the positions to be removed are processed in the order in which the unordered set
yields them. -/
def fillBack {P : Type} (prims merged : List P) (order : List Nat) : List P :=
  order.foldl popInto (prims ++ merged)

/-! ### layer thickness -/

/-- A layer with what the modelled functions look at: name, id, whether it is a stackup layer (else a
via layer), elevation of its top and thickness. -/
structure Slab (F : Type) where
  name : String
  id : Int
  stackup : Bool
  elev : F
  thick : F

section
variable {F : Type} [Field F]

/-- The loop of `UpdateLayerStackupElevation` (src/utility/ELayoutModifier.cpp:18-29): `up` is the
stackup layer before. -/
def updateElev (up : Option (Slab F)) : List (Slab F) → List (Slab F)
  | [] => []
  | y :: ys =>
    if y.stackup then
      let y' := match up with
        | none => y
        | some u => { y with elev := u.elev - u.thick }
      y' :: updateElev (some y') ys
    else y :: updateElev up ys

/-- `FindLayerByName` followed by `SetThickness` on the layer found, if that is a stackup layer
(src/collection/ELayerCollection.cpp:118-125, src/utility/ELayoutModifier.cpp:8-13); `none` when
there is no such layer. -/
def setThick (name : String) (th : F) : List (Slab F) → Option (List (Slab F))
  | [] => none
  | y :: ys =>
    if name = y.name then (if y.stackup then some ({ y with thick := th } :: ys) else none)
    else (setThick name th ys).map (y :: ·)

/-- `ModifyStackupLayerThickness` (src/utility/ELayoutModifier.cpp:6-16): result and layers
afterwards. -/
def modifyThickness (l : List (Slab F)) (name : String) (th : F) : Bool × List (Slab F) :=
  match setThick name th l with
  | none => (false, l)
  | some l' => (true, updateElev none l')

/-- `GetStackupLayers` (src/collection/ELayerCollection.cpp:83-90). -/
def stackupLayers (l : List (Slab F)) : List (Slab F) := l.filter (·.stackup)

/-! ### heights -/

/-- `BuildLayerHeightsMap` (src/utility/ELayoutRetriever.cpp:322-334). -/
def heightsMap (l : List (Slab F)) : List (Int × (F × F)) :=
  (stackupLayers l).foldl (fun m y => (UMap.emplace m y.id (y.elev, y.thick)).1) []

/-- `GetLayerHeightThickness` (src/utility/ELayoutRetriever.cpp:27-35), for a retriever made for the
present state of the layout (the map is cached in the retriever). -/
def layerHeight (l : List (Slab F)) (id : Int) : Option (F × F) := UMap.find? (heightsMap l) id

/-- `GetLayerStackupHeightThickness` (src/utility/ELayoutRetriever.cpp:14-25). -/
def stackHeight (l : List (Slab F)) : Res (F × F) :=
  match (stackupLayers l).head?, (stackupLayers l).getLast? with
  | some t, some b =>
    match layerHeight l t.id, layerHeight l b.id with
    | some (te, _), some (be, bt) => .ok (te, te - be + bt)
    | _, _ => .ub
  | _, _ => .ub

/-- A component: placement layer, orientation, height and solder height of its definition. -/
structure Part (F : Type) where
  layer : Int
  flipped : Bool
  height : F
  solder : F

/-- `GetComponentHeightThickness` (src/utility/ELayoutRetriever.cpp:42-52): elevation of the top and
thickness. -/
def partHeight (l : List (Slab F)) (c : Part F) : Option (F × F) :=
  match layerHeight l c.layer with
  | none => none
  | some (e, t) => some (if c.flipped then e - t - c.solder else e + c.solder + c.height, c.height)

/-- `GetComponentBallBumpThickness` (src/utility/ELayoutRetriever.cpp:54-64). -/
def solderHeight (l : List (Slab F)) (c : Part F) : Option (F × F) :=
  match layerHeight l c.layer with
  | none => none
  | some (e, t) => some (if c.flipped then e - t else e + c.solder, c.solder)

/-- One end of a bondwire: its layer (`GetStartLayer` / `GetEndLayer`), the component it is mounted on,
the orientation stored in the wire, and the thickness of its solder joint if there is one
(`GetBondwireStartSolderJointShape`, src/utility/ELayoutRetriever.cpp:202-230). -/
structure WireEnd (F : Type) where
  layer : Int
  comp : Option (Part F)
  flipped : Bool
  joint : Option F

/-- The orientation of the end (src/design/EPrimitive.cpp:291-295, 310-314): that of the component on
the component layer (null pointer: undefined behaviour), else the stored one. -/
def WireEnd.isFlipped (w : WireEnd F) : Res Bool :=
  if w.layer = -10 then
    match w.comp with
    | some c => .ok c.flipped
    | none => .ub
  else .ok w.flipped

/-- `getHeight` in `GetBondwireHeight` (src/utility/ELayoutRetriever.cpp:69-90): height and
orientation of a wire end; `none` is `return false`. -/
def wireHeight (l : List (Slab F)) (w : WireEnd F) : Res (Option (F × Bool)) :=
  w.isFlipped.bind fun fl =>
    let surface : Option (F × F) :=
      if w.layer = -10 then
        match w.comp with
        | some c => partHeight l c
        | none => none
      else if w.layer ≠ -1 then layerHeight l w.layer
      else none
    match surface with
    | none => .ok none
    | some (e, t) =>
      let h := if fl then e - t else e
      let h := match w.joint with
        | some j => if fl then h - j else h + j
        | none => h
      .ok (some (h, fl))

/-- `GetBondwireStartSolderJointParameters` / `GetBondwireEndSolderJointParameters`
(src/utility/ELayoutRetriever.cpp:178-200): elevation and thickness of the solder joint. -/
def jointHeight (l : List (Slab F)) (w : WireEnd F) : Res (Option (F × F)) :=
  match w.joint with
  | none => .ok none
  | some j => (wireHeight l w).bind fun
    | none => .ok none
    | some (h, fl) => .ok (some (if fl then h + j else h, j))

end

/-! ### bond wire refinement -/

/-- The loop of `GetBondwireSegmentsWithMinSeg` (src/utility/ELayoutRetriever.cpp:124-130); `prev` is
the last point put out. -/
def insertMids {P : Type} (mid : P → P → P) (prev : P) : List P → List P
  | [] => []
  | b :: bs => mid prev b :: b :: insertMids mid b bs

/-- `GetBondwireSegmentsWithMinSeg` (src/utility/ELayoutRetriever.cpp:117-133) for given points (with
their heights); `none`: the recursion has not ended after `fuel` calls.  `front()` of an empty vector
is undefined behaviour. -/
def minSeg {P : Type} (mid : P → P → P) (m : Nat) : Nat → List P → Option (Res (List P))
  | 0, _ => none
  | n + 1, l =>
    if l.length ≥ m then some (.ok l)
    else match l with
      | [] => some .ub
      | a :: rest => minSeg mid m n (a :: insertMids mid a rest)

/-- A point of a bondwire: integer coordinates and height. -/
structure Pt where
  x : Int
  y : Int
  h : ℚ
  deriving DecidableEq

/-- the height in integer coordinates (src/utility/ELayoutRetriever.cpp:142, 148: conversion to
`ECoord`) -/
def Pt.z (s : ℚ) (p : Pt) : Int := Units.trunc (p.h * s)

/-- `midPoint` (src/utility/ELayoutRetriever.cpp:144-146): integer division of the coordinates
truncates. -/
def midPt (p q : Pt) : Pt := ⟨(p.x + q.x).tdiv 2, (p.y + q.y).tdiv 2, (p.h + q.h) / 2⟩

/-- `distanceSq` (src/utility/ELayoutRetriever.cpp:141-143), without overflow. -/
def distSq (s : ℚ) (p q : Pt) : Int :=
  (p.x - q.x) * (p.x - q.x) + (p.y - q.y) * (p.y - q.y) + (p.z s - q.z s) * (p.z s - q.z s)

/-- `equal` (src/utility/ELayoutRetriever.cpp:147-149). -/
def equalPt (s : ℚ) (p q : Pt) : Bool := p.x = q.x ∧ p.y = q.y ∧ p.z s = q.z s

/-- The loop of `GetBondwireSegmentsWithMaxLen` (src/utility/ELayoutRetriever.cpp:155-172): `b` is the
last point put out, `cur` the current one, `t` the point number `i`, `ts` the points after it.  The
result is the points put out from now on; `none`: not ended after `fuel` turns. -/
def maxLenLoop (s : ℚ) (len : Int) : Nat → Pt → Pt → Pt → List Pt → Option (List Pt)
  | 0, _, _, _, _ => none
  | n + 1, b, cur, t, ts =>
    if distSq s b cur > len * len then maxLenLoop s len n b (midPt b cur) t ts
    else if equalPt s cur t then
      match ts with
      | [] => some [cur, t]
      | t' :: ts' => (maxLenLoop s len n cur t' t' ts').map (cur :: ·)
    else (maxLenLoop s len n cur t t ts).map (cur :: ·)

/-- `GetBondwireSegmentsWithMaxLen` (src/utility/ELayoutRetriever.cpp:136-176) for the points of the
wire; fewer than two points make `at(1)` throw. -/
def maxLen (s : ℚ) (len : Int) (fuel : Nat) : List Pt → Option (Res (List Pt))
  | a :: t :: ts => (maxLenLoop s len fuel a t t ts).map fun l => .ok (a :: l)
  | _ => some .exn

end Ecad.Util
