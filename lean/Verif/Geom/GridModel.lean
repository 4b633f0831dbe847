import Verif.Base.Res
import Verif.Geom.Round
/-!
The grid of the metal fraction mapping: src/utility/EMetalFractionMapping.{h,cpp}.

Coordinates are unbounded integers; the region extensions are already converted to coordinates.
-/
namespace Ecad.Geom

/-- One direction of the settings: lower and upper bound of the layout box, the extensions on both
sides and the number of tiles (src/utility/EMetalFractionMapping.cpp:114-123). -/
structure Axis where
  lo : Int
  hi : Int
  extLo : Int
  extHi : Int
  grid : Nat

/-- Lower bound of the region (src/utility/EMetalFractionMapping.cpp:118-119) -/
def Axis.rlo (a : Axis) : Int := a.lo - a.extLo

/-- Upper bound of the region before it is adjusted (src/utility/EMetalFractionMapping.cpp:120-121) -/
def Axis.rhi (a : Axis) : Int := a.hi + a.extHi

/-- `stride` (src/utility/EMetalFractionMapping.cpp:122-123); the length of a box is the difference of
its bounds.  With no tiles the quotient is infinite and its conversion undefined; `Axis` is
used with `0 < grid`. -/
def Axis.stride (a : Axis) : Int := round (((a.rhi - a.rlo : Int) : ℚ) / (a.grid : ℚ))

/-- Upper bound of the stored `extension` (src/utility/EMetalFractionMapping.cpp:126-128) -/
def Axis.ehi (a : Axis) : Int := a.rlo + a.stride * a.grid

/-- One component of `EMetalFractionInfo::GetIndex` (src/utility/EMetalFractionMapping.h:58-65); `none`
is `invalidIndex`.  Division by a zero stride is undefined behaviour. -/
def Axis.index (a : Axis) (p : Int) : Res (Option Nat) :=
  if a.rlo ≤ p ∧ p ≤ a.ehi then
    if a.stride = 0 then .ub else .ok (some ((p - a.rlo).tdiv a.stride).toNat)
  else .ok none

/-- `GetIndex` (src/utility/EMetalFractionMapping.h:58-65) -/
def getIndex (x y : Axis) (p : Int × Int) : Res (Option Nat × Option Nat) :=
  (x.index p.1).bind fun i => (y.index p.2).bind fun j => .ok (i, j)

/-- One result of the mapping: the sum over solids less the sum over holes, limited to [0, 1]
(src/utility/EMetalFractionMapping.cpp:66-86) -/
def clampFraction (solids holes : List ℚ) : ℚ :=
  let r := solids.sum - holes.sum
  let r := if r < 0 then 0 else r
  if r > 1 then 1 else r

end Ecad.Geom
