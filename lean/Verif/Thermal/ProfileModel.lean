import Verif.Dmc.WriteModel
import Verif.Basic.SmallModel
import Mathlib.Data.Int.Log
import Mathlib.Algebra.Order.Archimedean.Basic
import Mathlib.Data.Rat.Floor
/-!
The text files of metal fractions, as bytes: `WriteResult2File` and `WriteThermalProfile` (src/utility/EMetalFractionMapping.cpp:182-310) and
`GenerateTxtProfile` (src/model/thermal/io/EGridThermalModelIO.cpp:16-74).

`double` is exact (so there is no negative zero, no infinity); `rnd` is the rounding of the last printed digit.  The pictures written beside the
first file are not modelled.  A line ends with a line feed.  The id of a tile is an `int` in the second file and may not overflow.
-/
namespace Ecad.Profile
open Ctm (Bytes digs)
open Dmc (joinSp eol)
open Units (CoordUnits toUnitIn)

/-- the bytes of a text -/
def asc (s : String) : Bytes := s.toList.map Char.toNat

/-! ## numbers -/

/-- the last `d` decimal digits of a number -/
def digN : Nat → Nat → Bytes
  | 0, _ => []
  | d + 1, n => digN d (n / 10) ++ [48 + n % 10]

/-- a number of units of the digit `d` after the point as text -/
def fixText (d : Nat) (k : Int) : Bytes :=
  (if k < 0 then [45] else []) ++ (digs (k.natAbs / 10 ^ d) ++ 46 :: digN d (k.natAbs % 10 ^ d))

/-- at least `w` characters, filled with blanks at the left -/
def padL (w : Nat) (t : Bytes) : Bytes := List.replicate (w - t.length) 32 ++ t

variable (rnd : ℚ → Int)

/-- `<<` with `fixed` and precision `d` -/
def fixed (d : Nat) (x : ℚ) : Bytes := fixText d (rnd (x * 10 ^ d))

/-- `%12.9f` (src/utility/EMetalFractionMapping.cpp:204, 208, 212, 216) -/
def f12 (x : ℚ) : Bytes := padL 12 (fixed rnd 9 x)

/-- six digits and the exponent of the first one, for a positive number -/
def sigParts (x : ℚ) : Nat × Int :=
  let e := Int.log 10 x
  let m := (rnd (x / 10 ^ (e - 5))).toNat
  if m = 1000000 then (100000, e + 1) else (m, e)

/-- digits without the zeros at the end -/
def strip (t : Bytes) : Bytes := (t.reverse.dropWhile fun c => c == 48).reverse

/-- an exponent: sign and at least two digits -/
def expText (e : Int) : Bytes := (if e < 0 then 45 else 43) :: (if e.natAbs < 10 then 48 :: digs e.natAbs else digs e.natAbs)

/-- digits `s`, the first of exponent `e` -/
def gPos (s : Bytes) (e : Int) : Bytes :=
  if e < -4 ∨ 6 ≤ e then s.take 1 ++ ((if s.drop 1 = [] then [] else 46 :: s.drop 1) ++ 101 :: expText e)
  else if 0 ≤ e then
    (if s.length ≤ e.toNat + 1 then s ++ List.replicate (e.toNat + 1 - s.length) 48 else s.take (e.toNat + 1) ++ 46 :: s.drop (e.toNat + 1))
  else 48 :: 46 :: (List.replicate ((-e).toNat - 1) 48 ++ s)

/-- `<<` of a `double` without manipulators: six significant digits -/
def gText (x : ℚ) : Bytes :=
  if x = 0 then [48]
  else
    let p := sigParts rnd |x|
    (if x < 0 then [45] else []) ++ gPos (strip (digN 6 p.1)) p.2

/-! ## the result of the mapper -/

/-- `EStackupLayerInfo` (src/utility/EMetalFractionMapping.h:42-48) -/
structure LInfo where
  metal : Bool
  elev : ℚ
  thick : ℚ
  name : Bytes

/-- `EBox2D`: lower left and upper right corner -/
structure Box where
  lx : Int
  ly : Int
  ux : Int
  uy : Int

/-- `EMetalFractionInfo` (src/utility/EMetalFractionMapping.h:50-57) -/
structure Info where
  grid : Nat × Nat
  origin : Box
  ext : Box
  units : CoordUnits
  stride : Int × Int
  layers : List LInfo

/-- `ELayerMetalFraction`: a value for each tile -/
abbrev Frac := Nat → Nat → ℚ

/-- the tiles, column after column (src/utility/EMetalFractionMapping.cpp:220-221, 290-291, src/model/thermal/io/EGridThermalModelIO.cpp:63-64) -/
def cells (w h : Nat) : List (Nat × Nat) := (List.range w).flatMap fun i => (List.range h).map fun j => (i, j)

/-- a line of a layer (src/utility/EMetalFractionMapping.cpp:203-204) -/
def layerLine (scale : ℚ) (l : LInfo) : Bytes :=
  joinSp [asc "LAYER", l.name, digs (if l.metal then 1 else 0), f12 rnd (l.elev * scale), f12 rnd (l.thick * scale)]

/-- a line of a box (src/utility/EMetalFractionMapping.cpp:207-214) -/
def boxLine (key : Bytes) (scale : ℚ) (b : Box) : Bytes :=
  joinSp [key, f12 rnd ((b.lx : ℚ) * scale), f12 rnd ((b.ly : ℚ) * scale), f12 rnd ((b.ux : ℚ) * scale), f12 rnd ((b.uy : ℚ) * scale)]

/-- the line of the resolution: no blank after the word (src/utility/EMetalFractionMapping.cpp:216) -/
def resLine (scale : ℚ) (s : Int × Int) : Bytes :=
  asc "RESOLUTION" ++ joinSp [f12 rnd ((s.1 : ℚ) * scale), f12 rnd ((s.2 : ℚ) * scale)]

/-- a line of a tile (src/utility/EMetalFractionMapping.cpp:222-226) -/
def tileLine (mf : List Frac) (c : Nat × Nat) : Bytes :=
  joinSp ([digs c.1, digs c.2] ++ mf.map fun f => fixed rnd 6 (f c.1 c.2))

/-- the lines (src/utility/EMetalFractionMapping.cpp:199-228) -/
def resultLines (scale : ℚ) (a : Info) (mf : List Frac) : List Bytes :=
  joinSp [asc "LAYERS", digs a.layers.length] :: [] :: (a.layers.map (layerLine rnd scale) ++
    ([] :: boxLine rnd (asc "ORIGIN") scale a.origin :: boxLine rnd (asc "EXTENSION") scale a.ext ::
      joinSp [asc "TILE", digs a.grid.1, digs a.grid.2] :: resLine rnd scale a.stride :: [] ::
      (cells a.grid.1 a.grid.2).map (tileLine rnd mf)))

/-- `WriteResult2File` (src/utility/EMetalFractionMapping.cpp:182-248): `info` is null before the mapping, `opened` says if the file can be opened -/
def writeResult (scale : ℚ) (info : Option Info) (mf : List Frac) (opened : Bool) : Option Bytes × Bool :=
  match info with
  | none => (none, false)
  | some a => if opened then (some (eol (resultLines rnd scale a mf)), true) else (none, false)

/-! ## the profile of the mapper -/

/-- the name of a layer (src/utility/EMetalFractionMapping.cpp:279-280) -/
def profName (i : Nat) (n : Bytes) : Bytes := if n = [] then asc "LAYER" ++ digs i else n

/-- a coordinate in micrometres (src/utility/EMetalFractionMapping.cpp:267-270, 297-300) -/
def um (u : CoordUnits) (c : Int) : ℚ := toUnitIn u (c : ℚ) (1 / 1000000)

/-- a line of a tile (src/utility/EMetalFractionMapping.cpp:292-306); `n` counts the tiles from zero -/
def profTile (a : Info) (mf : List Frac) (n : Nat) (c : Nat × Nat) : Bytes :=
  let x := a.ext.lx + a.stride.1 * (c.1 : Int)
  let y := a.ext.ly + a.stride.2 * (c.2 : Int)
  joinSp ([digs (n + 1), gText rnd (um a.units x), gText rnd (um a.units y), gText rnd (um a.units (x + a.stride.1)),
    gText rnd (um a.units (y + a.stride.2))] ++ mf.map fun f => gText rnd (f c.1 c.2))

/-- the words after the sign of the line of the boxes -/
def tileKeys : List Bytes := [asc "#", asc "TileID", asc "X1(um)", asc "Y1(um)", asc "X2(um)", asc "Y2(um)"]

/-- the lines (src/utility/EMetalFractionMapping.cpp:265-308) -/
def profLines (a : Info) (mf : List Frac) : List Bytes :=
  let names := a.layers.zipIdx.map fun l => profName l.2 l.1.name
  joinSp [asc "#", asc "Version", asc "3.0"] ::
    joinSp [asc "#", asc "DIE", gText rnd (um a.units a.ext.lx), gText rnd (um a.units a.ext.ly), gText rnd (um a.units a.ext.ux),
      gText rnd (um a.units a.ext.uy)] ::
    joinSp [asc "#", asc "TILE", digs a.grid.1, digs a.grid.2] ::
    joinSp ([asc "#", asc "LAYER", digs a.layers.length] ++ names) ::
    joinSp (tileKeys ++ names) ::
    (cells a.grid.1 a.grid.2).zipIdx.map fun c => profTile rnd a mf c.2 c.1

/-- `WriteThermalProfile` (src/utility/EMetalFractionMapping.cpp:250-310); `dir` and `opened` say if the directory can be made and the file be opened -/
def writeProfile (a : Info) (mf : List Frac) (dir opened : Bool) : Option Bytes × Bool :=
  if a.layers.length = mf.length then
    if dir then (if opened then (some (eol (profLines rnd a mf)), true) else (none, false)) else (none, false)
  else (none, false)

/-! ## the profile of a grid model -/

/-- what is read of `EGridThermalModel` (src/model/thermal/EGridThermalModel.h:113-124) and its layers: name and metal fraction, if there is one -/
structure GModel where
  ref : ℚ × ℚ
  res : ℚ × ℚ
  size : Nat × Nat
  scaleH : ℚ
  layers : List (Bytes × Option Frac)

/-- `GetRegion(false)` in micrometres (src/model/thermal/EGridThermalModel.cpp:253-259, src/model/thermal/io/EGridThermalModelIO.cpp:30) -/
def GModel.upper (m : GModel) : ℚ × ℚ := ((m.ref.1 + m.res.1 * m.size.1) * 1000000, (m.ref.2 + m.res.2 * m.size.2) * 1000000)

/-- the name of a layer (src/model/thermal/io/EGridThermalModelIO.cpp:44-45) -/
def txtName (n : Bytes) : Bytes := if n = [] then asc "Unknown" else n

/-- a line of a tile (src/model/thermal/io/EGridThermalModelIO.cpp:50-68): the box is printed by another stream, which is not `fixed`; `n` counts the
tiles from zero -/
def txtTile (m : GModel) (mf : List Frac) (n : Nat) (c : Nat × Nat) : Bytes :=
  let x := m.ref.1 * 1000000 + (c.1 : ℚ) * (m.res.1 * 1000000)
  let y := m.ref.2 * 1000000 + (c.2 : ℚ) * (m.res.2 * 1000000)
  joinSp ([digs (n + 1), gText rnd x, gText rnd y, gText rnd (x + m.res.1 * 1000000), gText rnd (y + m.res.2 * 1000000)] ++
    mf.map fun f => fixed rnd 6 (f c.1 c.2))

/-- the lines before the layers are looked at (src/model/thermal/io/EGridThermalModelIO.cpp:25-33) -/
def txtHead (m : GModel) : List Bytes :=
  [joinSp [asc "#", asc "Version", asc "3.0"],
    joinSp [asc "#", asc "DIE", fixed rnd 6 (m.ref.1 * 1000000), fixed rnd 6 (m.ref.2 * 1000000), fixed rnd 6 m.upper.1, fixed rnd 6 m.upper.2],
    joinSp [asc "#", asc "TILE", digs m.size.1, digs m.size.2],
    joinSp [asc "#", asc "SCALE_FACTOR", fixed rnd 6 m.scaleH]]

/-- the lines after them (src/model/thermal/io/EGridThermalModelIO.cpp:47-70) -/
def txtBody (m : GModel) (mf : List Frac) : List Bytes :=
  let names := m.layers.map fun l => txtName l.1
  joinSp ([asc "#", asc "LAYER", digs m.layers.length] ++ names) ::
    joinSp (tileKeys ++ names) ::
    (cells m.size.1 m.size.2).zipIdx.map fun c => txtTile rnd m mf c.2 c.1

/-- the metal fractions; `none` if one is missing (src/model/thermal/io/EGridThermalModelIO.cpp:37-43) -/
def fracs : List (Bytes × Option Frac) → Option (List Frac)
  | [] => some []
  | l :: ls =>
    match l.2 with
    | none => none
    | some f => (fracs ls).map fun fs => f :: fs

/-- `GenerateTxtProfile` (src/model/thermal/io/EGridThermalModelIO.cpp:16-74) -/
def writeTxt (m : GModel) (opened : Bool) : Option Bytes × Bool :=
  if opened then
    match fracs m.layers with
    | none => (some (eol (txtHead rnd m)), false)
    | some mf => (some (eol (txtHead rnd m ++ txtBody rnd m mf)), true)
  else (none, false)

end Ecad.Profile
