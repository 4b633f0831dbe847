import Verif.Util.MergerModel
import Verif.Base.UMap
/-!
The files of the merger of polygons (src/utility/ELayoutPolygonMerger.cpp:200-260): one per layer.

The writers of the library (`GeometryIO::WritePNG`, `GeometryIO::WriteVTK`) are a function that says which files can be written; a file is the list of
polygons it shows, and one that cannot be written stays as it is.
-/
namespace Ecad.PMerge

open Ecad.Shp

variable {K : Type} [Field K] [LinearOrder K]

/-- files by name, each with the polygons that it shows -/
abbrev Files (K : Type) := List (String × List (List (K × K)))

/-- the polygons of one layer (src/utility/ELayoutPolygonMerger.cpp:217-227, 248-258): outlines and holes -/
def drawn (os : Objs K) : List (List (K × K)) := os.flatMap fun o => o.2.outline :: o.2.holes

/-- the name of the file of a layer (src/utility/ELayoutPolygonMerger.cpp:207, 238) -/
def fileOf (name ext : String) (layer : Int) : String := name ++ ("_" ++ (toString layer ++ ext))

/-- `WritePngFileForOneLayer`, `WriteVtkFileForOneLayer` (src/utility/ELayoutPolygonMerger.cpp:213-229, 244-260) -/
def writeOne (can : String → Bool) (file : String) (os : Objs K) (d : Files K) : Files K × Bool :=
  if can file then (UMap.erase d file ++ [(file, drawn os)], true) else (d, false)

/-- the loop of `WriteVtkFiles` (src/utility/ELayoutPolygonMerger.cpp:237-241): `res && …` does not write once something failed -/
def vtkLoop (can : String → Bool) (name : String) : Mergers K → Bool → Files K → Files K × Bool
  | [], res, d => (d, res)
  | m :: ms, res, d =>
    if res then
      let r := writeOne can (fileOf name ".vtk" m.1) m.2 d
      vtkLoop can name ms r.2 r.1
    else vtkLoop can name ms false d

/-- `WriteVtkFiles` (src/utility/ELayoutPolygonMerger.cpp:231-242); `dir` says if the directory can be created -/
def writeVtk (can : String → Bool) (dir : Bool) (name : String) (ms : Mergers K) (d : Files K) : Files K × Bool :=
  if dir then vtkLoop can name ms true d else (d, false)

/-- the loop of `WritePngFiles` (src/utility/ELayoutPolygonMerger.cpp:206-209): results are not looked at -/
def pngLoop (can : String → Bool) (name : String) : Mergers K → Files K → Files K
  | [], d => d
  | m :: ms, d => pngLoop can name ms (writeOne can (fileOf name ".png" m.1) m.2 d).1

/-- `WritePngFiles` (src/utility/ELayoutPolygonMerger.cpp:200-211) -/
def writePng (can : String → Bool) (dir : Bool) (name : String) (ms : Mergers K) (d : Files K) : Files K × Bool :=
  if dir then (pngLoop can name ms d, true) else (d, false)

/-- The pictures of `Merge` (src/utility/ELayoutPolygonMerger.cpp:47-59): after merging, before the polygons are put back; an empty name means none -/
def pictures (R : Int → K × K) (L : Lib K) (run : Objs K → Objs K) (ord : Mergers K → Mergers K) (can : String → Bool) (dir : Bool) (name : String)
    (layers : List Layer) (set : Settings) (prims : List (Prim K)) (insts : List (Inst K)) (d : Files K) : Res (Files K) :=
  let f := fillPrims L set 0 prims (construct layers)
  (if set.padstacks then fillInsts R L set insts f.1 else .ok f.1).bind fun ms =>
    .ok (if name = "" then d else (writePng can dir name (ord (ms.map fun m => (m.1, run m.2))) d).1)

end Ecad.PMerge
