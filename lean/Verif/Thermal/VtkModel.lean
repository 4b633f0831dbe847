import Verif.Thermal.PrismModel
/-!
The points of prism models and the VTK file written for a prism model: src/model/thermal/EPrismThermalModel.{h,cpp},
src/model/thermal/utils/EStackupPrismThermalModelBuilder.cpp, src/model/thermal/io/EPrismThermalModelIO.cpp.

Simplifications: coordinates are elements of a field and are printed exactly; the file is a list of lines of tokens; opening the file
succeeds; the two nested maps from levels and vertices of the mesh to points are one map with pairs as keys; of an element only its
triangle is kept (the other parts are in Verif/Thermal/PrismModel.lean).
-/
namespace Ecad.Vtk
open Ecad.PrismT

variable {K : Type} [Field K]

/-- `FPoint3D` -/
abbrev P3 (K : Type) := K × K × K

/-- `PrismTemplate` (src/model/thermal/EPrismThermalModel.h:171), a triangulation: points and the vertices of the
triangles -/
structure Tmpl (K : Type) where
  pts : List (K × K)
  tris : List (Fin 3 → Nat)

/-- `PrismLayer` (src/model/thermal/EPrismThermalModel.h:84-118): elevation, thickness and the triangles
(`templateId`) of its elements -/
structure Layer (K : Type) where
  elev : K
  thick : K
  elems : List Nat

/-- What the points are computed from: `m_prismTemplates`, `layers` and `m_scaleH2Unit`
(src/model/thermal/EPrismThermalModel.h:220-230) -/
structure Mdl (K : Type) where
  tmpls : List (Nat × Tmpl K)
  layers : List (Layer K)
  scale : K

/-- `SetLayerPrismTemplate` (src/model/thermal/EPrismThermalModel.cpp:48-51) -/
def setTmpl (m : Mdl K) (l : Nat) (t : Tmpl K) : Mdl K := { m with tmpls := (UMap.emplace m.tmpls l t).1 }

/-- `GetLayerPrismTemplate` (src/model/thermal/EPrismThermalModel.cpp:53-56) -/
def tmplAt (m : Mdl K) (l : Nat) : Res (Tmpl K) :=
  match UMap.find? m.tmpls l with
  | some t => .ok t
  | none => .exn

/-- The height in `GetPoint` (src/model/thermal/EPrismThermalModel.cpp:199-201) -/
def heightAt (m : Mdl K) (l : Nat) (L : Layer K) (v : Nat) : Res K :=
  if v < 3 then .ok L.elev
  else if l + 1 = m.layers.length then .ok (L.elev - L.thick)
  else (Res.at_ m.layers (l + 1)).bind fun L' => .ok L'.elev

/-- `GetPoint` of layer, element and vertex (src/model/thermal/EPrismThermalModel.cpp:193-205) -/
def getPoint (m : Mdl K) (l e v : Nat) : Res (P3 K) :=
  (tmplAt m l).bind fun t =>
  (Res.at_ m.layers l).bind fun L =>
  (Res.at_ L.elems e).bind fun id =>
  (Res.at_ t.tris id).bind fun tri =>
  (heightAt m l L v).bind fun h =>
  (Res.at_ t.pts (tri (Fin.ofNat 3 v))).bind fun p =>
  .ok (p.1 * m.scale, p.2 * m.scale, h)

/-- `m_points` and `templateIdMap` (src/model/thermal/EPrismThermalModel.cpp:97-104) -/
structure Pts (K : Type) where
  pts : List (P3 K)
  ids : List ((Nat × Nat) × Nat)

/-- Looking up a vertex on a level and adding its point if it is new
(src/model/thermal/EPrismThermalModel.cpp:118-122, 124-128, with `AddPoint` 187-191) -/
def vertexAt (s : Pts K) (lvl w : Nat) (new : Res (P3 K)) : Res (Nat × Pts K) :=
  match UMap.find? s.ids (lvl, w) with
  | some i => .ok (i, s)
  | none => new.bind fun p => .ok (s.pts.length, ⟨s.pts ++ [p], (UMap.emplace s.ids (lvl, w) s.pts.length).1⟩)

/-- One turn of the loop over the vertices (src/model/thermal/EPrismThermalModel.cpp:117-130): vertices `v` and `v + 3` -/
def vertexPair (m : Mdl K) (tri : Fin 3 → Nat) (l e : Nat) (v : Fin 3) (s : Pts K) : Res ((Nat × Nat) × Pts K) :=
  (vertexAt s l (tri v) (getPoint m l e v)).bind fun a =>
  (vertexAt a.2 (l + 1) (tri v) (getPoint m l e (v + 3))).bind fun b =>
  .ok ((a.1, b.1), b.2)

/-- The vertices of one prism (src/model/thermal/EPrismThermalModel.cpp:109-130); `tris` are the triangles of the template
of layer 0 (96). -/
def prismVertices (m : Mdl K) (tris : List (Fin 3 → Nat)) (off : List Nat) (i : Nat) (s : Pts K) : Res (List Nat × Pts K) :=
  (localIndex off i).bind fun p =>
  (Res.index m.layers p.1).bind fun L =>
  (Res.at_ L.elems p.2).bind fun id =>
  (Res.at_ tris id).bind fun tri =>
  (vertexPair m tri p.1 p.2 0 s).bind fun a =>
  (vertexPair m tri p.1 p.2 1 a.2).bind fun b =>
  (vertexPair m tri p.1 p.2 2 b.2).bind fun c =>
  .ok ([a.1.1, b.1.1, c.1.1, a.1.2, b.1.2, c.1.2], c.2)

/-- The loop over all elements (src/model/thermal/EPrismThermalModel.cpp:108-149) -/
def buildLoop (m : Mdl K) (tris : List (Fin 3 → Nat)) (off : List Nat) : List Nat → Pts K → Res (List (List Nat) × Pts K)
  | [], s => .ok ([], s)
  | i :: is, s =>
    (prismVertices m tris off i s).bind fun r =>
    (buildLoop m tris off is r.2).bind fun rs => .ok (r.1 :: rs.1, rs.2)

/-- the offsets of the layers (src/model/thermal/EPrismThermalModel.cpp:92-94) -/
def offs (m : Mdl K) : List Nat := offsets 0 (m.layers.map fun L => L.elems.length)

/-- `BuildPrismModel` of a new model (src/model/thermal/EPrismThermalModel.cpp:88-150): vertices of the prisms and
points -/
def build (m : Mdl K) : Res (List (List Nat) × List (P3 K)) :=
  (tmplAt m 0).bind fun t =>
  (buildLoop m t.tris (offs m) (List.range (totalPrisms (offs m))) ⟨[], []⟩).bind fun r => .ok (r.1, r.2.pts)

/-- One element of a stackup prism model (src/model/thermal/utils/EStackupPrismThermalModelBuilder.cpp:32-39): six points of
its own -/
def stackPrism (m : Mdl K) (i : Nat) : Res (List Nat × List (P3 K)) :=
  (localIndex (offs m) i).bind fun p =>
  (mapRes (fun v => getPoint m p.1 p.2 v) (List.range 6)).bind fun ps =>
  .ok ((List.range 6).map fun v => 6 * i + v, ps)

/-- `BuildPrismModel` of a new stackup prism model
(src/model/thermal/utils/EStackupPrismThermalModelBuilder.cpp:20-49) -/
def stackBuild (m : Mdl K) : Res (List (List Nat) × List (P3 K)) :=
  (mapRes (stackPrism m) (List.range (totalPrisms (offs m)))).bind fun r =>
  .ok (r.map Prod.fst, r.flatMap Prod.snd)

/-- `AddLineElement` (src/model/thermal/EPrismThermalModel.cpp:73-86) for a list of segments: the points with those of the ends
appended, and the end points of the lines -/
def addLines : List (P3 K) → List (P3 K × P3 K) → List (P3 K) × List (Nat × Nat)
  | pts, [] => (pts, [])
  | pts, (a, b) :: segs =>
    let r := addLines (pts ++ [a] ++ [b]) segs
    (r.1, (pts.length, pts.length + 1) :: r.2)

/-! ### file -/

/-- a token of the file: a word, a count or an index, a decimal number -/
inductive Tok (K : Type) | w (s : String) | n (i : Nat) | x (a : K)
  deriving DecidableEq

open Tok

/-- The data of the cells (src/model/thermal/io/EPrismThermalModelIO.cpp:51-63), if there is a temperature for each; `rgb` is the
colour of the i-th row of the table. -/
def dataLines (cells : Nat) (rgb : Nat → P3 K) : Option (List K) → List (List (Tok K))
  | none => []
  | some ts => if ts.length = cells then
      [[w "CELL_DATA", n cells], [w "SCALARS", w "SCALARS", w "FLOAT", n 1], [w "LOOKUP_TABLE", w "TEMPERATURE"]] ++
      (ts.map fun t => [x t]) ++
      [[], [w "LOOKUP_TABLE", w "TEMPERATURE", n 100]] ++
      ((List.range 100).map fun i => [x (rgb i).1, x (rgb i).2.1, x (rgb i).2.2, x 1])
    else []

/-- The lines of a file (src/model/thermal/io/EPrismThermalModelIO.cpp:20-63) with `total` prisms -/
def fileLines (total : Nat) (ps : List (List Nat)) (pts : List (P3 K)) (lines : List (Nat × Nat)) (temps : Option (List K))
    (rgb : Nat → P3 K) : List (List (Tok K)) :=
  [[w "# vtk DataFile Version 2.0"], [w "Unstructured Grid"], [w "ASCII"], [w "DATASET", w "UNSTRUCTURED_GRID"],
    [w "POINTS", n pts.length, w "FLOAT"]] ++
  (pts.map fun p => [x p.1, x p.2.1, x p.2.2]) ++
  [[], [w "CELLS", n (lines.length + total), n (total * 7 + lines.length * 3)]] ++
  (ps.map fun vs => n 6 :: vs.map n) ++
  (lines.map fun e => [n 2, n e.1, n e.2]) ++
  [[], [w "CELL_TYPES", n (lines.length + total)]] ++
  (ps.map fun _ => [n 13]) ++
  (lines.map fun _ => [n 3]) ++
  dataLines (lines.length + total) rgb temps

/-- `GenerateVTKFile` (src/model/thermal/io/EPrismThermalModelIO.cpp:6-68): the first `total` prisms are read with
`GetPrism` (src/model/thermal/EPrismThermalModel.h:200), which throws if there are fewer. -/
def write (total : Nat) (prisms : List (List Nat)) (pts : List (P3 K)) (lines : List (Nat × Nat)) (temps : Option (List K))
    (rgb : Nat → P3 K) : Res (List (List (Tok K))) :=
  (mapRes (Res.at_ prisms) (List.range total)).bind fun ps => .ok (fileLines total ps pts lines temps rgb)

end Ecad.Vtk
