import Verif.Geom.CutModel
/-!
Which layers of a stackup prism model share a mesh, and from which polygons the meshes are made
(`GenerateStackupPrismThermalModel`, src/extraction/thermal/EThermalModelExtraction.cpp:335-394). The code compares shared pointers to lists of
polygons; the tables of the layer cut model are therefore given here with pointers: a list is known by the layer it has been made for.
-/
namespace Ecad.StackMesh
open Ecad.Geom

/-- The pointer taken for a slice with upper height `h` (src/model/geometry/ELayerCutModel.cpp:96-100); the pointers of the old
table are the numbers of its layers. -/
def ptrEntry (oldOrder : List Int) (old : Lut) (prev : Option Nat) (h : Int) : Option Nat :=
  match oldOrder.idxOf? h with
  | some j => (old j).map fun _ => j
  | none => prev

/-- The loop assigning lists to the slices (src/model/geometry/ELayerCutModel.cpp:95-101), with pointers -/
def remapPtr (oldOrder : List Int) (old : Lut) : Option Nat → List Int → Res (List Nat)
  | _, [] => .ok []
  | prev, h :: hs =>
    match ptrEntry oldOrder old prev h with
    | some j => (remapPtr oldOrder old (some j) hs).bind fun js => .ok (j :: js)
    | none => .exn

/-- `m_layerOrder`, `m_lyrPolygons` as pointers, and the lists pointed to -/
structure PCut where
  order : List Int
  ptr : Nat → Option Nat
  heap : Lut

/-- `BuildLayerPolygonLUT` (src/model/geometry/ELayerCutModel.cpp:45-107), as `Geom.build`, with pointers -/
def buildPtr (ratio : ℚ) (fuel : Nat) (ps : List Poly) : Option (Res PCut) :=
  let order := layerOrder ps
  match fillLut order 0 ps (fun _ => none) with
  | .ok m =>
    if ratio > 1 then
      match order with
      | [] => some .exn
      | _ =>
        (sliceAll ratio fuel (pairs order)).map fun l =>
          match l.getLast? with
          | none => .ub
          | some r =>
            (remapPtr order m none (l.map Range.high)).bind fun js =>
              .ok ⟨l.map Range.high ++ [r.low], fun k => js[k]?, m⟩
    else some (.ok ⟨order, fun k => (m k).map fun _ => k, m⟩)
  | .ub => some .ub
  | .exn => some .exn

variable {P : Type}

/-- `layerPolygons`, one entry per mesh, and `layer2Template` for the layers so far
(src/extraction/thermal/EThermalModelExtraction.cpp:340-342) -/
structure Meshes (P : Type) where
  polys : List (List P)
  ofLayer : List Nat

/-- One turn of the loop (src/extraction/thermal/EThermalModelExtraction.cpp:345-355): pointers of this layer and the one before;
`GetLayerPolygonIndices` throws for a layer without list, `at p` are the polygons of a list -/
def addLayer (imprint : Bool) (content : Nat → List P) (cur prev : Option Nat) (s : Meshes P) : Res (Meshes P) :=
  match cur, prev with
  | some a, some b =>
    let polys := if a ≠ b then s.polys ++ [content a ++ (if imprint then s.polys.getLastD [] else [])] else s.polys
    .ok ⟨polys, s.ofLayer ++ [polys.length - 1]⟩
  | _, _ => .exn

/-- The loop over the layers (src/extraction/thermal/EThermalModelExtraction.cpp:344): `n` turns from layer `i` -/
def addLayers (imprint : Bool) (content : Nat → List P) (ptr : Nat → Option Nat) : Nat → Nat → Meshes P → Res (Meshes P)
  | _, 0, s => .ok s
  | i, n + 1, s => (addLayer imprint content (ptr i) (ptr (i - 1)) s).bind (addLayers imprint content ptr (i + 1) n)

/-- The meshes of `total` layers (src/extraction/thermal/EThermalModelExtraction.cpp:340-356) -/
def meshes (imprint : Bool) (content : Nat → List P) (ptr : Nat → Option Nat) (total : Nat) : Res (Meshes P) :=
  match ptr 0 with
  | some a => addLayers imprint content ptr 1 (total - 1) ⟨[content a], [0]⟩
  | none => .exn

/-- `GetLayerPolygons` (src/model/geometry/ELayerCutModel.cpp:149-155) of a list; unknown indices do not occur -/
def contentOf (polygons : Nat → P) (c : PCut) (p : Nat) : List P := ((c.heap p).getD []).map polygons

/-- The meshes for a cut model (src/extraction/thermal/EThermalModelExtraction.cpp:340-356) -/
def stackMeshes (imprint : Bool) (polygons : Nat → P) (c : PCut) : Res (Meshes P) :=
  meshes imprint (contentOf polygons c) c.ptr (c.order.length - 1)

/-- The polygons given to the mesh of a layer (src/extraction/thermal/EThermalModelExtraction.cpp:358-380, 388-389) -/
def Meshes.forLayer (s : Meshes P) (k : Nat) : Option (List P) := s.ofLayer[k]?.bind fun t => s.polys[t]?

end Ecad.StackMesh
