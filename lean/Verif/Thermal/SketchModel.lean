import Verif.Design.CacheModel
import Verif.Thermal.DumpModel
/-!
The pictures and meshes written while prism models are extracted
(src/extraction/thermal/EThermalModelExtraction.cpp:191-206, 310-313, 326-337, 361-379, 473-476; `GenerateMesh`, 161-181, writes the picture of a mesh),
and when they are written at all (src/design/ELayoutView.cpp:340-351).

Simplifications: `/` separates directories; every file can be written, and is there afterwards; contents are the number of the extraction and the
part of the model they show.
-/
namespace Ecad.Sketch
open Ctm (Bytes digs)
open Profile (asc)
open Dump (inDir)
open Extract Cache2

/-- What a file shows: the polygons of the layer cut model, a mesh, or the prisms -/
inductive Part
  | sketch
  | mesh (k : Nat)
  | prisms
  deriving DecidableEq

/-- The files there are: path, and the number of the extraction with the part -/
abbrev Disk := List (Bytes × (Nat × Part))

/-- writing a file: what was there under the name is gone -/
def write (d : Disk) (p : Bytes) (a : Nat × Part) : Disk := (p, a) :: UMap.erase d p

/-- What decides on the files of an extraction: the directory, `dumpSketchImg`, `dumpMeshFile`, and for stackup models the number of meshes -/
structure Wish where
  dir : Bytes
  sketch : Bool
  mesh : Bool
  meshes : Option Nat

/-- The name of a picture of the polygons (src/extraction/thermal/EThermalModelExtraction.cpp:192, 196, 327, 331) -/
def sketchPath (dir : Bytes) (i : Nat) : Bytes := inDir dir (if i = 0 then asc "LayerCut.png" else asc "LayerCut" ++ digs i ++ asc ".png")

/-- the loop over the numbers (src/extraction/thermal/EThermalModelExtraction.cpp:194-197, 329-332); `none` if the fuel does not suffice -/
def search (d : Disk) (dir : Bytes) : Nat → Nat → Option Bytes
  | 0, _ => none
  | fuel + 1, i =>
    match UMap.find? d (sketchPath dir (i + 1)) with
    | some _ => search d dir fuel (i + 1)
    | none => some (sketchPath dir (i + 1))

/-- the name chosen (src/extraction/thermal/EThermalModelExtraction.cpp:192-198, 327-333) -/
def chosen (d : Disk) (dir : Bytes) (fuel : Nat) : Option Bytes :=
  match UMap.find? d (sketchPath dir 0) with
  | some _ => search d dir fuel 0
  | none => some (sketchPath dir 0)

/-- the pictures of the meshes (src/extraction/thermal/EThermalModelExtraction.cpp:204-206; 361-379 for stackup models) -/
def meshPaths (w : Wish) : List (Bytes × Part) :=
  match w.meshes with
  | none => [(inDir w.dir (asc "mesh.png"), .mesh 0)]
  | some n => (List.range n).map fun i => (inDir w.dir (asc "mesh" ++ digs (i + 1) ++ asc ".png"), .mesh i)

/-- the files of the mesh (src/extraction/thermal/EThermalModelExtraction.cpp:204-206, 310-313, 361-379, 473-476) -/
def meshFiles (w : Wish) : List (Bytes × Part) :=
  if w.mesh && !w.dir.isEmpty then meshPaths w ++ [(inDir w.dir (asc "mesh.vtk"), .prisms)] else []

/-- all files of the extraction with number `k` (src/extraction/thermal/EThermalModelExtraction.cpp:183-316, 318-479) -/
def files (fuel : Nat) (w : Wish) (k : Nat) (d : Disk) : Option Disk :=
  let rest := fun d => (meshFiles w).foldl (fun d f => write d f.1 (k, f.2)) d
  if !w.dir.isEmpty && w.sketch then (chosen d w.dir fuel).map fun p => rest (write d p (k, .sketch))
  else some (rest d)

/-- several extractions, numbered from `k` on -/
def series (fuel : Nat) : List Wish → Nat → Disk → Option Disk
  | [], _, d => some d
  | w :: ws, k, d => (files fuel w k d).bind fun d' => series fuel ws (k + 1) d'

variable {L F D C : Type} [DecidableEq F]

/-- what the settings of a prism model wish, for a layer cut model with `n` different meshes -/
def wishOf (b : ThermalS F) (m : MeshS F) (c : CutS F) (n : Nat) : Wish :=
  ⟨asc b.workDir, c.dumpSketchImg, m.dumpMeshFile, if m.genMeshByLayer then some n else none⟩

/-- `ExtractThermalModel` for prism models with its files (src/design/ELayoutView.cpp:340-351) -/
def extractFiles (G : Gens L F D C) (meshes : D → Nat) (fuel : Nat) (l : L) (st : St F D C) (d : Disk) (k : Nat) (b : ThermalS F) (m : MeshS F)
    (g : MergeS) (c : CutS F) : St F D C × Option Disk :=
  let s := Settings.prism b m g c
  let r := (extractThermal G l st s).1
  match UMap.find? st.models s.modelType with
  | some o => if !b.forceRebuild && o.settings.eq s then (r, some d) else (r, files fuel (wishOf b m c (meshes (extractCut G l st c).2.2)) k d)
  | none => (r, files fuel (wishOf b m c (meshes (extractCut G l st c).2.2)) k d)

end Ecad.Sketch
