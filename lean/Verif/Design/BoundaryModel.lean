import Verif.Shape.Model
import Verif.Base.UMap
/-!
The boundary of a layout: `GetBoundary` and `SetBoundary` (src/design/ELayoutView.cpp:290-300) with
`CalculateLayoutBoundaryShape` (src/utility/ELayoutRetriever.cpp:279-320), and the picture of a layout drawn by
src/utility/ELayoutViewRenderer.cpp.

Simplifications: coordinates as in `Verif/Shape/Model.lean` (no rounding, no overflow).  `EBox2D{}` is the empty box,
which is neutral for `|=` (library type); what `toPolygon` makes of it is a parameter (`far`).  All layouts that
refer to each other are one list, pointers to layouts are positions in it.
-/
namespace Ecad.Bdy
open Ecad.Shp

variable {K : Type} [Field K] [LinearOrder K]

/-- what a primitive is (src/design/EPrimitive.h: `EGeometry2D`, `EBondwire`, `EText`); the shape of a geometry
may be a null pointer -/
inductive Kind (K : Type)
  | geom (s : Option (Shape K))
  | wire (start end_ : K × K)
  | text
  deriving DecidableEq

/-- a primitive with its net and layer (src/design/EPrimitive.h) -/
structure Prim (K : Type) where
  net : Int
  layer : Int
  kind : Kind K
  deriving DecidableEq

/-- `ECellInst` (src/design/ECellInst.h): the layout instantiated (`none`: null pointer) and the transform -/
structure Inst (K : Type) where
  defn : Option Nat
  m : Aff K
  deriving DecidableEq

/-- a component: placement layer and the shape `GetBoundary` returns, which may be null
(src/design/EComponent.cpp:107-119) -/
structure Comp (K : Type) where
  layer : Int
  bond : Option (Shape K)
  deriving DecidableEq

/-- `ELayoutView` (src/design/ELayoutView.h): ids of its layers, its objects and `m_boundary`.  Of padstack
instances only the outlines of the pads are kept. -/
structure Layout (K : Type) where
  layers : List Int
  prims : List (Prim K)
  insts : List (Inst K)
  comps : List (Comp K) := []
  pads : List (List (K × K)) := []
  boundary : Option (Shape K) := none
  deriving DecidableEq

/-- `operator|=` of boxes (library function); `none` is the empty box `EBox2D{}` -/
def joinB : Option (Box K) → Option (Box K) → Option (Box K)
  | none, b => b
  | some a, none => some a
  | some a, some b => some ⟨(min a.lo.1 b.lo.1, min a.lo.2 b.lo.2), (max a.hi.1 b.hi.1, max a.hi.2 b.hi.2)⟩

/-- one empty box for each layer (src/utility/ELayoutRetriever.cpp:283-286) -/
def bounds0 (ids : List Int) : List (Int × Option (Box K)) := ids.foldl (fun m k => (UMap.emplace m k none).1) []

/-- `bounds[layer] |= …` for a layer of the map (src/utility/ELayoutRetriever.cpp:297) -/
def grow (m : List (Int × Option (Box K))) (k : Int) (b : Box K) : List (Int × Option (Box K)) :=
  m.map fun e => if e.1 = k then (e.1, joinB e.2 (some b)) else e

/-- the loop over the primitives (src/utility/ELayoutRetriever.cpp:289-305) -/
def addPrim (L : Lib K) (m : List (Int × Option (Box K))) (p : Prim K) : List (Int × Option (Box K)) :=
  if !UMap.count m p.layer then m
  else match p.kind with
    | .geom (some s) => grow m p.layer (s.bbox L)
    | _ => m

/-- the union of the boxes of the layers (src/utility/ELayoutRetriever.cpp:307-308) -/
def ownBox (L : Lib K) (l : Layout K) : Option (Box K) :=
  (l.prims.foldl (addPrim L) (bounds0 l.layers)).foldl (fun b e => joinB b e.2) none

/-- `toPolygon(bbox)` (src/utility/ELayoutRetriever.cpp:317-318): the corners of the box; `far` are those of the
empty box -/
def toPoly (far : List (K × K)) : Option (Box K) → List (K × K)
  | none => far
  | some b => b.corners

/-- `m_boundary` of one layout set (src/design/ELayoutView.cpp:290-293) -/
def setB (W : List (Layout K)) (i : Nat) (s : Option (Shape K)) : List (Layout K) :=
  W.modify i fun l => { l with boundary := s }

/-- The loop over the cell instances (src/utility/ELayoutRetriever.cpp:310-315): `get` is `GetBoundary`, which may
fill the boundaries of the layouts instantiated; `none`: never comes back. -/
def instLoop (L : Lib K) (get : List (Layout K) → Nat → Option (Res (List (Layout K) × Shape K))) :
    List (Inst K) → List (Layout K) → Option (Box K) → Option (Res (List (Layout K) × Option (Box K)))
  | [], W, b => some (.ok (W, b))
  | c :: cs, W, b =>
    match c.defn with
    | none => some .ub
    | some j =>
      match get W j with
      | none => none
      | some .ub => some .ub
      | some .exn => some .exn
      | some (.ok r) => instLoop L get cs r.1 (joinB b (some ((r.2.transform c.m).bbox L)))

/-- the end of `GetBoundary` and of the function it calls (src/utility/ELayoutRetriever.cpp:317-319,
src/design/ELayoutView.cpp:298-299) -/
def finish (far : List (K × K)) (i : Nat) : Option (Res (List (Layout K) × Option (Box K))) → Option (Res (List (Layout K) × Shape K))
  | none => none
  | some .ub => some .ub
  | some .exn => some .exn
  | some (.ok r) => some (.ok (setB r.1 i (some (.polygon (toPoly far r.2))), .polygon (toPoly far r.2)))

/-- `GetBoundary` (src/design/ELayoutView.cpp:295-300) with `CalculateLayoutBoundaryShape`
(src/utility/ELayoutRetriever.cpp:279-320); `none`: the depth of calls does not suffice. -/
def getB (L : Lib K) (far : List (K × K)) : Nat → List (Layout K) → Nat → Option (Res (List (Layout K) × Shape K))
  | 0, _, _ => none
  | n + 1, W, i =>
    match W[i]? with
    | none => some .ub
    | some l =>
      match l.boundary with
      | some s => some (.ok (W, s))
      | none => finish far i (instLoop L (getB L far n) l.insts W (ownBox L l))

/-! ## what is done to a layout between two readings -/

/-- objects added to a layout (src/design/ELayoutView.cpp:205-243); none of these functions touches
`m_boundary` -/
inductive Op (K : Type)
  | prim (p : Prim K)
  | inst (c : Inst K)
  | comp (c : Comp K)
  | pad (o : List (K × K))
  | layer (id : Int)

/-- one object added -/
def Op.on (l : Layout K) : Op K → Layout K
  | .prim p => { l with prims := l.prims ++ [p] }
  | .inst c => { l with insts := l.insts ++ [c] }
  | .comp c => { l with comps := l.comps ++ [c] }
  | .pad o => { l with pads := l.pads ++ [o] }
  | .layer k => { l with layers := l.layers ++ [k] }

/-- an object added to the layout at a position -/
def addTo (W : List (Layout K)) (e : Nat × Op K) : List (Layout K) := W.modify e.1 fun l => e.2.on l

/-! ## the picture -/

/-- outline and holes of a shape (src/utility/ELayoutViewRenderer.cpp:45-48, 71-74) -/
def parts (L : Lib K) (s : Shape K) : List (List (K × K)) := (s.pwh L).outline :: (s.pwh L).holes

/-- `not select.empty()` and `select.count(x)`: passed over (src/utility/ELayoutViewRenderer.cpp:40-44, 54-63) -/
def passed (sel : List Int) (x : Int) : Bool := !sel.isEmpty && sel.contains x

/-- what a component draws (src/utility/ELayoutViewRenderer.cpp:38-48) -/
def compOut (L : Lib K) (selL : List Int) (c : Comp K) : List (List (K × K)) :=
  match c.bond with
  | none => []
  | some s => if passed selL c.layer then [] else parts L s

/-- what a primitive draws (src/utility/ELayoutViewRenderer.cpp:53-76): a geometry without a shape is read through
a null pointer -/
def primOut (L : Lib K) (selN selL : List Int) (p : Prim K) : Res (List (List (K × K))) :=
  if passed selN p.net then .ok []
  else if passed selL p.layer then .ok []
  else match p.kind with
    | .wire a b => .ok [[a, b]]
    | .geom (some s) => .ok (parts L s)
    | .geom none => .ub
    | .text => .ok []

/-- the loop over the primitives (src/utility/ELayoutViewRenderer.cpp:52-77) -/
def primOuts (L : Lib K) (selN selL : List Int) : List (Prim K) → Res (List (List (K × K)))
  | [] => .ok []
  | p :: ps => (primOut L selN selL p).bind fun a => (primOuts L selN selL ps).bind fun b => .ok (a ++ b)

/-- the polygons handed to the image writer (src/utility/ELayoutViewRenderer.cpp:30-77) for a layout with the
boundary `bd` -/
def outs (L : Lib K) (selN selL : List Int) (bd : Shape K) (l : Layout K) : Res (List (List (K × K))) :=
  (primOuts L selN selL l.prims).bind fun ps => .ok (bd.contour L :: l.comps.flatMap (compOut L selL) ++ ps)

end Ecad.Bdy
