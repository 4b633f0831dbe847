import Verif.Shape.Model
import Verif.Design.MountModel
/-!
Objects created in user units through the data manager (src/EDataMgr.cpp).

Simplifications: floating point numbers are exact rationals; shapes over integer coordinates are those of `Verif.Shape.Model` with whole
rational coordinates.
-/
namespace Ecad.User
open Units Shp Trans

/-- `toCoord` of a point (src/basic/ECadUnits.h:238-241). -/
def pt (u : CoordUnits) (p : ℚ × ℚ) : Int × Int := (toCoord u p.1, toCoord u p.2)

/-- a point with whole coordinates -/
def whole (p : Int × Int) : ℚ × ℚ := (p.1, p.2)

/-- `toCoord` of several points (src/basic/ECadUnits.h:248-253). -/
def pts (u : CoordUnits) (l : List (ℚ × ℚ)) : List (ℚ × ℚ) := l.map fun p => whole (pt u p)

/-- `toUnit` of a point (src/basic/ECadUnits.h:255-259). -/
def back (u : CoordUnits) (p : Int × Int) : ℚ × ℚ := (toUnit u p.1, toUnit u p.2)

/-- Settings and library: `CircleDiv()` (src/EDataMgr.cpp:380-383), `RoundCorners` (library), and how the library makes whole
coordinates of a transformed point. -/
structure Env where
  circleDiv : Nat
  roundCorners : List (ℚ × ℚ) → ℚ → Nat → List (ℚ × ℚ)
  round : ℚ → Int

/-- `CreateShapeRectangle` (src/EDataMgr.cpp:248-251, 282-286). -/
def rectangle (u : CoordUnits) (ll ur : ℚ × ℚ) : Shape ℚ := .rect ⟨whole (pt u ll), whole (pt u ur)⟩

/-- `CreateShapeCircle` (src/EDataMgr.cpp:253-256, 288-292). -/
def circle (e : Env) (u : CoordUnits) (o : ℚ × ℚ) (r : ℚ) : Shape ℚ := .circle (whole (pt u o)) (toCoord u r) e.circleDiv

/-- `CreateShapePath` (src/EDataMgr.cpp:258-261, 294-300). -/
def path (u : CoordUnits) (l : List (ℚ × ℚ)) (w : ℚ) : Shape ℚ := .path (pts u l) (toCoord u w)

/-- `CreateShapePolygon` of points (src/EDataMgr.cpp:263-271, 302-314). -/
def polygon (e : Env) (u : CoordUnits) (l : List (ℚ × ℚ)) (r : ℚ) : Shape ℚ :=
  if r > 0 then .polygon (pts u (e.roundCorners l r e.circleDiv)) else .polygon (pts u l)

/-- the loop over the coordinates (src/EDataMgr.cpp:276-277): `i` counts up to `n`, `at` throws beyond the end -/
def pairs (coords : List ℚ) : Nat → Nat → Res (List (ℚ × ℚ))
  | _, 0 => .ok []
  | i, n + 1 => (Res.at_ coords (i * 2)).bind fun x => (Res.at_ coords (i * 2 + 1)).bind fun y =>
    (pairs coords (i + 1) n).bind fun r => .ok ((x, y) :: r)

/-- `CreateShapePolygon` of coordinates (src/EDataMgr.cpp:273-279). -/
def polygonOf (e : Env) (u : CoordUnits) (coords : List ℚ) (r : ℚ) : Res (Shape ℚ) :=
  (pairs coords 0 (coords.length / 2)).bind fun l => .ok (polygon e u l r)

/-- `CreatePolygon` (src/EDataMgr.cpp:330-335). -/
def plainPolygon (u : CoordUnits) (l : List (ℚ × ℚ)) : Shape ℚ := .polygon (pts u l)

/-- `CreateBox` (src/EDataMgr.cpp:337-340). -/
def box (u : CoordUnits) (ll ur : ℚ × ℚ) : Box ℚ := ⟨whole (pt u ll), whole (pt u ur)⟩

/-- `CreateTransform2D` (src/EDataMgr.cpp:342-345) with `makeETransform2D` (src/basic/ETransform.h:122-130). -/
def transform (M : Type) (u : CoordUnits) (scale rotation : ℚ) (offset : ℚ × ℚ) (mirror : Option (Fin 3)) : Res (T ℚ M) :=
  ((T.new ℚ M).set fun d => { d with scale := scale }).bind fun t =>
  (t.set fun d => { d with rotation := rotation }).bind fun t =>
  (t.set fun d => { d with offset := whole (pt u offset) }).bind fun t =>
  t.set fun d => { d with mirror := mirror }

/-- `CreateComponentDefPin` (src/EDataMgr.cpp:354-358). -/
def createPin (u : CoordUnits) (d : Mount.CompDef (ℚ × ℚ)) (name : String) (loc : ℚ × ℚ) : Mount.CompDef (ℚ × ℚ) :=
  d.createPin name (whole (pt u loc))

/-- `GetComponentPinLocation` (src/EDataMgr.cpp:228-234) with `GetPinLocation` (src/design/EComponent.cpp:136-146); `none` is the result
`false`. -/
def pinLocation {M : Type} [Kit ℚ M] [MulAction M (ℚ × ℚ)] (e : Env) (u : CoordUnits) (c : Mount.Comp ℚ M) (d : Mount.CompDef (ℚ × ℚ))
    (name : String) : Res (Option (ℚ × ℚ)) :=
  (c.pinLocation d name).bind fun o => .ok (o.map fun p => back u (e.round p.1, e.round p.2))

end Ecad.User
