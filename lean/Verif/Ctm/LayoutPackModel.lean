import Verif.Ctm.LayoutModel
import Verif.Ctm.DataModel
import Verif.Thermal.ProfileModel
/-!
From a layout to the files of a chip thermal model: src/utility/ELayout2CtmUtility.cpp:27-92.

Simplifications: those of Verif/Ctm/LayoutModel.lean and Verif/Ctm/DataModel.lean; cells of grid data lie column by column; names are ASCII texts, one byte for each character.
The names of directory and file are given (30), and packing the files is left to the library (`tar`).
-/
namespace Ecad.L2C
open Ecad.Ctm Ecad.Units Ecad.Profile

variable {S P : Type}

/-- `EGridData` with its cells -/
def gridData (f : Frac ℚ) : Grid2 ℚ := ⟨f.w, f.h, (order f.w f.h).map fun p => f.val p.1 p.2⟩

/-- The whole model of `makeChipThermalModelV1FromGridThermalModel` (src/model/thermal/io/EThermalModelIO.cpp:104-177) for a grid model and the part `c` that `toChip` makes of it:
the header with its texts and its default first line, powers and densities with their cells -/
def full (g : Grid ℚ P) (c : Chip ℚ (Table ℚ)) : Model where
  header :=
    { resolution := c.res
      scale := c.scale
      size := [0, 0, c.tiles.1 * c.res, c.tiles.2 * c.res]
      origin := [0, 0, c.tiles.1 * c.res, c.tiles.2 * c.res]
      tiles := c.tiles
      temps := [25, 50, 75, 100, 125]
      layers := (stackOf (totalThick g.layers * 1000000) g.layers).map fun p => (asc p.1.name, p.1.thick)
      tech := c.tech.map asc
      vias := c.vias.map fun v => (asc v.name, asc v.bot, asc v.top)
      metals := c.metals.map fun m => (asc m.name, m.thick, m.elev) }
  powers := c.powers.map fun t => t.map fun e => (e.1, gridData e.2)
  densities := c.densities.map fun e => (asc e.1, some (gridData e.2))

/-- `GenerateCTMv1File` (src/utility/ELayout2CtmUtility.cpp:27-92) into the directory `d` -/
def package (size : Int → Int → Nat) (part : Box → S → ℚ) (rnd : ℚ → Int) (f : Flt ℚ) (a : Input S) (d : Dir) : Res (Dir × Bool) :=
  (chip size part a).bind fun
    | none => .ok (d, false)
    | some c => generate rnd f (fun _ h x y => x * h + y) (full (gridModel part a (size (a.x.len a.units) a.stride) (size (a.y.len a.units) a.stride)) c) d

end Ecad.L2C
