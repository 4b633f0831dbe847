import Verif.Ctm.HeaderModel
import Verif.Base.UMap
import Mathlib.Algebra.Field.Rat
/-!
The power and density files of a chip thermal model and its package (src/model/thermal/io/EChipThermalModelIO.cpp:15-109, 334-381,
454-514), as bytes.

`float` and `int` are four bytes; how a number becomes bytes and bytes a number is a parameter (`Flt`), so rounding and byte order are
arbitrary.  Arithmetic before the rounding to `float` is exact.  `OccupancyGridMap` of the library `generic` is a list of cells; where
the cell of column x and row y is in the list is a parameter `lin`.  Packing and unpacking with `tar` are taken to work and to keep the
files of a directory; a directory is a list of names and contents, and files can be opened.
-/
namespace Ecad.Ctm

/-- how numbers are stored in files -/
structure Flt (K : Type) where
  enc : K → Bytes
  dec : Bytes → K
  encId : Nat → Bytes
  len : ∀ v, (enc v).length = 4
  lenId : ∀ n, (encId n).length = 4

/-- a number after it went through a `float` -/
def Flt.narrow {K : Type} (f : Flt K) (v : K) : K := f.dec (f.enc v)

/-- an input stream: the bytes that remain, and whether a `read` was cut short, after which `eof()` holds and nothing is read any more -/
structure Bin where
  rest : Bytes
  bad : Bool

/-- a variable of four bytes; `none` is a byte that has no value yet -/
abbrev Cell := List (Option Nat)

/-- a variable without initial value -/
def Cell.new : Cell := [none, none, none, none]

/-- `fp.read(&c, 4)`: at the end of the file the bytes that are there are stored -/
def Bin.read (s : Bin) (c : Cell) : Bin × Cell :=
  if s.bad then (s, c)
  else if 4 ≤ s.rest.length then (⟨s.rest.drop 4, false⟩, (s.rest.take 4).map some)
  else (⟨[], true⟩, s.rest.map some ++ c.drop s.rest.length)

/-- the value of a variable; reading one without a value is undefined -/
def Cell.get {K : Type} (dec : Bytes → K) (c : Cell) : Res K :=
  if c.all Option.isSome then .ok (dec (c.filterMap id)) else .ub

/-- `EGridData` (src/model/thermal/EThermalModel.h:34) -/
structure Grid2 (K : Type) where
  w : Nat
  h : Nat
  cells : List K

variable {K : Type}

/-- `OccupancyGridMap::operator()`; outside the cells it is undefined -/
def Grid2.at (lin : Nat → Nat → Nat → Nat → Nat) (g : Grid2 K) (x y : Nat) : Res K := Res.index g.cells (lin g.w g.h x y)

/-- The loop of `ParseCTMv1PowerFile` (src/model/thermal/io/EChipThermalModelIO.cpp:342-344) on the cells not yet read -/
def fillPower (f : Flt K) : List K → Bytes → List K
  | [], _ => []
  | v :: vs, b => if 4 ≤ b.length then f.dec (b.take 4) :: fillPower f vs (b.drop 4) else v :: vs

/-- `ParseCTMv1PowerFile` (src/model/thermal/io/EChipThermalModelIO.cpp:334-348) for a file that can be opened; it returns true -/
def parsePower (f : Flt K) (b : Bytes) (g : Grid2 K) : Grid2 K := { g with cells := fillPower f g.cells b }

/-- the densities of a tile (src/model/thermal/io/EChipThermalModelIO.cpp:371-374) -/
def layersRow (f : Flt K) (i : Nat) : Bin → Cell → List (Grid2 K) → Res (Bin × Cell × List (Grid2 K))
  | s, c, [] => .ok (s, c, [])
  | s, c, g :: gs =>
    (Cell.get f.dec (s.read c).2).bind fun v =>
      if i < g.cells.length then
        (layersRow f i (s.read c).1 (s.read c).2 gs).bind fun r => .ok (r.1, r.2.1, { g with cells := g.cells.set i v } :: r.2.2)
      else .ub

/-- `n` times `read` into the same variable -/
def readTimes : Nat → Bin → Cell → Bin × Cell
  | 0, s, c => (s, c)
  | n + 1, s, c => readTimes n (s.read c).1 (s.read c).2

/-- The loop of `ParseCTMv1DensityFile` (src/model/thermal/io/EChipThermalModelIO.cpp:359-377); `k` is `size - i` -/
def fillDensity (f : Flt K) : Nat → Nat → Bin → Cell → List (Grid2 K) → Res (List (Grid2 K))
  | 0, _, _, _, gs => .ok gs
  | k + 1, i, s, c, gs =>
    if s.bad then .ok gs
    else
      let r := readTimes 4 (s.read Cell.new).1 c
      (layersRow f i r.1 r.2 gs).bind fun r => fillDensity f k (i + 1) r.1 r.2.1 r.2.2

/-- `ParseCTMv1DensityFile` (src/model/thermal/io/EChipThermalModelIO.cpp:350-381) for a file that can be opened; it returns true -/
def parseDensity (f : Flt K) (size : Nat) (b : Bytes) (gs : List (Grid2 K)) : Res (List (Grid2 K)) :=
  fillDensity f size 0 ⟨b, false⟩ Cell.new gs

/-- `WriteCTMv1PowerFile` (src/model/thermal/io/EChipThermalModelIO.cpp:454-469) -/
def writePower (f : Flt K) (g : Grid2 K) : Bytes := g.cells.flatMap f.enc

/-- the values of all layers at a tile (src/model/thermal/io/EChipThermalModelIO.cpp:505-508) -/
def tileVals (f : Flt K) (lin : Nat → Nat → Nat → Nat → Nat) (x y : Nat) : List (Grid2 K) → Res Bytes
  | [] => .ok []
  | g :: gs => (g.at lin x y).bind fun v => (tileVals f lin x y gs).bind fun b => .ok (f.enc v ++ b)

/-- a tile (src/model/thermal/io/EChipThermalModelIO.cpp:496-508) -/
def tile [Field K] (f : Flt K) (lin : Nat → Nat → Nat → Nat → Nat) (res : K) (ref : K × K) (gs : List (Grid2 K)) (id x y : Nat) : Res Bytes :=
  (tileVals f lin x y gs).bind fun b =>
    let x0 := f.narrow (ref.1 + x * res)
    let y0 := f.narrow (ref.2 + y * res)
    .ok (f.encId id ++ (f.enc (ref.1 + x * res) ++ (f.enc (ref.2 + y * res) ++ (f.enc (x0 + res) ++ (f.enc (y0 + res) ++ b)))))

/-- the tiles of a list, the first with number `id` -/
def tiles [Field K] (f : Flt K) (lin : Nat → Nat → Nat → Nat → Nat) (res : K) (ref : K × K) (gs : List (Grid2 K)) : Nat → List (Nat × Nat) → Res Bytes
  | _, [] => .ok []
  | id, p :: ps => (tile f lin res ref gs id p.1 p.2).bind fun a => (tiles f lin res ref gs (id + 1) ps).bind fun b => .ok (a ++ b)

/-- the order of the loops (src/model/thermal/io/EChipThermalModelIO.cpp:494-497): columns, in a column rows -/
def order (w h : Nat) : List (Nat × Nat) := (List.range w).flatMap fun x => (List.range h).map fun y => (x, y)

/-- `WriteCTMv1DensityFile` (src/model/thermal/io/EChipThermalModelIO.cpp:472-514); `none`: false is returned and no file written -/
def writeDensity [Field K] (f : Flt K) (lin : Nat → Nat → Nat → Nat → Nat) (size : Nat) (res : K) (ref : K × K) (gs : List (Grid2 K)) : Res (Option Bytes) :=
  match gs with
  | [] => .ok none
  | g :: _ =>
    if gs.any fun l => decide (l.cells.length ≠ size) then .ok none
    else (tiles f lin res ref gs 1 (order g.w g.h)).bind fun b => .ok (some b)

/-! ### packages -/

/-- `EChipThermalModelV1` (src/model/thermal/EChipThermalModel.h:50-57): the power model is its table of grids by temperature
(src/model/thermal/EThermalModel.h:60-64) -/
structure Model where
  header : Header
  powers : Option (List (ℚ × Grid2 ℚ))
  densities : List (Bytes × Option (Grid2 ℚ))

/-- names of files (src/model/thermal/io/EChipThermalModelIO.cpp:27, 36, 47) -/
def fHeader : Bytes := [67, 84, 77, 95, 104, 101, 97, 100, 101, 114, 46, 116, 120, 116]
def fPower (n : Nat) : Bytes := [112, 111, 119, 101, 114, 95, 84, 91] ++ digs n ++ [93, 46, 99, 116, 109]
def fDensity : Bytes := [109, 101, 116, 97, 108, 95, 100, 101, 110, 115, 105, 116, 121, 46, 99, 116, 109]

/-- a directory -/
abbrev Dir := List (Bytes × Bytes)

/-- writing a file -/
def Dir.put (d : Dir) (n b : Bytes) : Dir := UMap.erase d n ++ [(n, b)]

/-- the files of powers (src/model/thermal/io/EChipThermalModelIO.cpp:78-87), `i` is the index of the first temperature; the second part of the
result says if all went well -/
def genPowers (f : Flt ℚ) (table : List (ℚ × Grid2 ℚ)) : Nat → List ℚ → Dir → Dir × Bool
  | _, [], d => (d, true)
  | i, t :: ts, d =>
    match UMap.find? table t with
    | none => (d, false)
    | some g => genPowers f table (i + 1) ts (d.put (fPower (i + 1)) (writePower f g))

/-- the densities of the layers (src/model/thermal/io/EChipThermalModelIO.cpp:90-98) -/
def genDensities (m : Model) : List (Bytes × ℚ) → Option (List (Grid2 ℚ))
  | [] => some []
  | l :: ls =>
    match UMap.find? m.densities l.1 with
    | some (some g) => (genDensities m ls).map (g :: ·)
    | _ => none

/-- `GenerateCTMv1FileFromChipThermalModelV1` (src/model/thermal/io/EChipThermalModelIO.cpp:54-109) into the directory `d`, without messages -/
def generate (rnd : ℚ → Int) (f : Flt ℚ) (lin : Nat → Nat → Nat → Nat → Nat) (m : Model) (d : Dir) : Res (Dir × Bool) :=
  if m.header.temps.length < 5 then .ok (d, false)
  else
    let d := d.put fHeader (write rnd m.header)
    match m.powers with
    | none => .ok (d, false)
    | some table =>
      match genPowers f table 0 m.header.temps d with
      | (d, false) => .ok (d, false)
      | (d, true) =>
        match genDensities m m.header.layers with
        | none => .ok (d, false)
        | some gs =>
          (writeDensity f lin (m.header.tiles.1 * m.header.tiles.2) m.header.resolution (m.header.size.getD 0 0, m.header.size.getD 1 0) gs).bind fun
            | none => .ok (d, false)
            | some b => .ok (d.put fDensity b, true)

/-- a new grid, of zeros (src/model/thermal/io/EChipThermalModelIO.cpp:37, 45) -/
def newGrid (s : Nat × Nat) : Grid2 ℚ := ⟨s.1, s.2, List.replicate (s.1 * s.2) 0⟩

/-- reading the files of powers (src/model/thermal/io/EChipThermalModelIO.cpp:34-40), `i` is the index of the first temperature -/
def readPowers (f : Flt ℚ) (d : Dir) (s : Nat × Nat) : Nat → List ℚ → List (ℚ × Grid2 ℚ) → Option (List (ℚ × Grid2 ℚ))
  | _, [], table => some table
  | i, t :: ts, table =>
    match UMap.find? d (fPower (i + 1)) with
    | none => none
    | some b => readPowers f d s (i + 1) ts (UMap.emplace table t (parsePower f b (newGrid s))).1

/-- the densities by the names of layers (src/model/thermal/io/EChipThermalModelIO.cpp:49-50) -/
def byName (ls : List (Bytes × ℚ)) (gs : List (Grid2 ℚ)) : List (Bytes × Option (Grid2 ℚ)) :=
  (ls.zip gs).foldl (fun m e => (UMap.emplace m e.1.1 (some e.2)).1) []

/-- `makeChipThermalModelFromCTMv1File` (src/model/thermal/io/EChipThermalModelIO.cpp:15-52) from the unpacked directory; `none`: a null pointer -/
def make (sep : Nat → Bool) (f : Flt ℚ) (d : Dir) : Res (Option Model) :=
  match UMap.find? d fHeader with
  | none => .ok none
  | some hb =>
    (read sep hb).bind fun
      | none => .ok none
      | some h =>
        match readPowers f d h.tiles 0 h.temps [] with
        | none => .ok none
        | some table =>
          match UMap.find? d fDensity with
          | none => .ok none
          | some b =>
            (parseDensity f (h.tiles.1 * h.tiles.2) b (h.layers.map fun _ => newGrid h.tiles)).bind fun gs =>
              .ok (some ⟨h, some table, byName h.layers gs⟩)

end Ecad.Ctm
