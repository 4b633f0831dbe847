import Mathlib.Algebra.Order.Field.Basic
import Verif.Base.Res
/-!
Shapes (src/basic/EShape.h, src/basic/EShape.cpp) over exact coordinates.

Simplifications: coordinates are elements of an ordered field instead of 64 bit integers, so that the
rounding of transformed points is left out.  A transform is the matrix `GetTransform()` reports
(src/basic/ETransform.h:104-116, see property C13 for the object behind it).
-/
namespace Ecad.Shp

variable {K : Type} [Field K] [LinearOrder K]

/-- `Transform2D` (library type, not part of the repository): an affine map of the plane. -/
structure Aff (K : Type) where
  a : K
  b : K
  c : K
  d : K
  tx : K
  ty : K
  deriving DecidableEq, Repr

/-- a transform applied to a point -/
def Aff.act (m : Aff K) (p : K × K) : K × K := (m.a * p.1 + m.b * p.2 + m.tx, m.c * p.1 + m.d * p.2 + m.ty)

/-- product of transforms: `n` after `m` -/
def Aff.comp (n m : Aff K) : Aff K :=
  ⟨n.a * m.a + n.b * m.c, n.a * m.b + n.b * m.d, n.c * m.a + n.d * m.c, n.c * m.b + n.d * m.d,
   n.a * m.tx + n.b * m.ty + n.tx, n.c * m.tx + n.d * m.ty + n.ty⟩

/-- the transform that does nothing -/
def Aff.one : Aff K := ⟨1, 0, 0, 1, 0, 0⟩

/-- `Box2D` (library type): lower left and upper right corner. -/
structure Box (K : Type) where
  lo : K × K
  hi : K × K
  deriving DecidableEq, Repr

/-- `toPolygon(Box2D)` and the corners of `Transform2D * Box2D` (library functions). -/
def Box.corners (b : Box K) : List (K × K) := [b.lo, (b.hi.1, b.lo.2), b.hi, (b.lo.1, b.hi.2)]

/-- a box made to contain one more point (library function `operator|=` of boxes) -/
def Box.add (b : Box K) (p : K × K) : Box K := ⟨(min b.lo.1 p.1, min b.lo.2 p.2), (max b.hi.1 p.1, max b.hi.2 p.2)⟩

/-- `Extent` of a polygon (library function).  The extent of no points is left unspecified by the
library; it is written as a fixed box here and no theorem uses it. -/
def extent : List (K × K) → Box K
  | [] => ⟨(0, 0), (0, 0)⟩
  | p :: ps => ps.foldl Box.add ⟨p, p⟩

/-- Library functions that are not modelled: `InscribedPolygon` of a circle and `toPolygon` of a
polyline with a width. -/
structure Lib (K : Type) where
  inscribed : K × K → K → Nat → List (K × K)
  stroke : List (K × K) → K → List (K × K)

/-- The shape classes (src/basic/EShape.h:36-190).  A template shape with a null template is
`noTempl`. -/
inductive Shape (K : Type)
  /-- `ERectangle` (src/basic/EShape.h:36-57) -/
  | rect (b : Box K)
  /-- `EPath` (src/basic/EShape.h:59-86) -/
  | path (pts : List (K × K)) (width : K)
  /-- `ECircle` (src/basic/EShape.h:88-111) -/
  | circle (o : K × K) (r : K) (div : Nat)
  /-- `EPolygon` (src/basic/EShape.h:113-136) -/
  | polygon (pts : List (K × K))
  /-- `EPolygonWithHoles` (src/basic/EShape.h:138-158) -/
  | holes (outline : List (K × K)) (hs : List (List (K × K)))
  /-- `EShapeFromTemplate` (src/basic/EShape.h:160-184) -/
  | templ (m : Aff K) (s : Shape K)
  | noTempl (m : Aff K)
  deriving DecidableEq

/-- `PolygonWithHoles2D` (library type): outline and holes. -/
structure Pwh (K : Type) where
  outline : List (K × K)
  holes : List (List (K × K))
  deriving DecidableEq, Repr

/-- `geometry::Transform` of a polygon with holes (library function). -/
def Pwh.map (f : K × K → K × K) (p : Pwh K) : Pwh K := ⟨p.outline.map f, p.holes.map (·.map f)⟩

namespace Shape

/-- `isValid` (src/basic/EShape.cpp:126-129, 164-167, 222-225, 270-273, 320-323, 370-374). -/
def isValid : Shape K → Bool
  | rect b => b.lo.1 ≤ b.hi.1 && b.lo.2 ≤ b.hi.2
  | path pts w => !pts.isEmpty && w ≠ 0
  | circle _ r div => 0 < r && 3 ≤ div
  | polygon pts => 3 ≤ pts.length
  | holes o _ => 3 ≤ o.length
  | templ _ s => s.isValid
  | noTempl _ => false

/-- `hasHole` (src/basic/EShape.cpp:83-86, 132-135, 190-193, 238-241, 290-293, 333-337). -/
def hasHole : Shape K → Bool
  | holes _ hs => !hs.isEmpty
  | templ _ s => s.isValid && s.hasHole
  | _ => false

/-- `GetContour` (src/basic/EShape.cpp:93-96, 142-145, 201-204, 248-251, 300-303, 346-352). -/
def contour (L : Lib K) : Shape K → List (K × K)
  | rect b => b.corners
  | path pts w => L.stroke pts w
  | circle o r div => L.inscribed o r div
  | polygon pts => pts
  | holes o _ => o
  | templ m s => if !s.isValid then [] else (s.contour L).map m.act
  | noTempl _ => []

/-- `GetPolygonWithHoles` (src/basic/EShape.cpp:98-103, 147-152, 206-211, 253-258, 305-308, 354-360). -/
def pwh (L : Lib K) : Shape K → Pwh K
  | rect b => ⟨(rect b).contour L, []⟩
  | path pts w => ⟨(path pts w).contour L, []⟩
  | circle o r div => ⟨(circle o r div).contour L, []⟩
  | polygon pts => ⟨(polygon pts).contour L, []⟩
  | holes o hs => ⟨o, hs⟩
  | templ m s => if !s.isValid then ⟨[], []⟩ else (s.pwh L).map m.act
  | noTempl _ => ⟨[], []⟩

/-- `GetBBox` (src/basic/EShape.cpp:88-91, 137-140, 195-199, 243-246, 295-298, 339-344).  The extent of a
polygon with holes is that of its outline. -/
def bbox (L : Lib K) : Shape K → Box K
  | rect b => b
  | path pts w => extent ((path pts w).contour L)
  | circle o r _ => ⟨(o.1 - r, o.2 - r), (o.1 + r, o.2 + r)⟩
  | polygon pts => extent pts
  | holes o _ => extent o
  | templ m s => if !s.isValid then ⟨(0, 0), (0, 0)⟩ else extent ((s.bbox L).corners.map m.act)
  | noTempl _ => ⟨(0, 0), (0, 0)⟩

/-- `Transform` (src/basic/EShape.cpp:116-119, 154-157, 213-216, 260-263, 310-313, 362-365). -/
def transform (m : Aff K) : Shape K → Shape K
  | rect b => rect (extent (b.corners.map m.act))
  | path pts w => path (pts.map m.act) w
  | circle o r div => circle (m.act o) r div
  | polygon pts => polygon (pts.map m.act)
  | holes o hs => holes (o.map m.act) (hs.map (·.map m.act))
  | templ m0 s => templ (m.comp m0) s
  | noTempl m0 => noTempl (m.comp m0)

end Shape
end Ecad.Shp
