import Mathlib.Algebra.Field.Rat
import Verif.Gds.MapFileModel
import Verif.Hier.Model
import Verif.Shape.Model
/-!
`ECadExtGdsHandler::CreateDatabase` (src/extension/gds/ECadExtGdsHandler.cpp:19-215) from the bytes of the GDSII file and of the layer map
file to the layouts of the cells, in the form in which `Verif/Hier/Model.lean` flattens them.

Simplifications: coordinates are exact (see `Verif/Shape/Model.lean`), so that points under a magnified reference are not rounded; the
end type of a path is left out (see `Verif/Gds/ReaderModel.lean` for it).
-/
namespace Ecad.GdsD
open Hier (Layout noNet)

/-- What a primitive made by the import carries: a shape, or a text with its transform. -/
inductive Geo
  | shape (s : Shp.Shape ℚ)
  | text (str : Gds.Name) (m : Shp.Aff ℚ)

/-- `EGeometry2D::Transform` and `AddTransform` of a text (src/design/EPrimitive.cpp:175-178, src/basic/protocol/Transformable.h:18-21,
src/basic/ETransform.h:92-101), see src/utility/ELayoutMergeUtility.cpp:71-92. -/
def act (m : Shp.Aff ℚ) : Geo → Geo
  | .shape s => .shape (s.transform m)
  | .text str n => .text str (m.comp n)

/-- a point with exact coordinates -/
def pt (p : Gds.Point) : ℚ × ℚ := ((p.1 : ℚ), (p.2 : ℚ))

/-- The end of `ImportOnePolygon` and `ImportOnePath` (src/extension/gds/ECadExtGdsHandler.cpp:119-126, 138-145): a shape on more than one
layer becomes a template (src/EDataMgr.cpp:323-327). -/
def onLayers (s : Shp.Shape ℚ) : List Nat → List (Hier.Prim Geo)
  | [] => []
  | [i] => [⟨noNet, (i : Int), .shape s, none⟩]
  | ids => ids.map fun i : Nat => ⟨noNet, (i : Int), .shape (.templ .one s), none⟩

/-- `ImportOnePolygon`, `ImportOnePath`, `ImportOneText` (src/extension/gds/ECadExtGdsHandler.cpp:111-161) for the layer ids `m`; a text gets
the identity (src/collection/EPrimitiveCollection.cpp:72-76). -/
def primsOf (m : List (Int × List Nat)) : Gds.Obj → List (Hier.Prim Geo)
  | .polygon layer _ pts => onLayers (.polygon (pts.map pt)) (Gds.idsOf m layer)
  | .path layer _ _ w pts => onLayers (.path (pts.map pt) (w : ℚ)) (Gds.idsOf m layer)
  | .text layer _ _ str _ _ _ _ _ _ => (Gds.idsOf m layer).map fun i : Nat => ⟨noNet, (i : Int), .text str .one, none⟩
  | .ref .. | .array .. => []

/-- `makeETransform2D(scale, rotation, offset)` with `GetTransform` (src/basic/ETransform.h:25-34, 122-130): scale, turn, shift.  `rad` gives
cosine and sine of an angle in radians. -/
def matrix (rad : ℚ → ℚ × ℚ) (scale rotation : ℚ) (p : Gds.Point) : Shp.Aff ℚ :=
  ⟨(rad rotation).1 * scale, -((rad rotation).2 * scale), (rad rotation).2 * scale, (rad rotation).1 * scale, p.1, p.2⟩

/-- characters of a name -/
def str (n : Gds.Name) : String := String.ofList (n.map Char.ofNat)

/-- `CreateCellInst` for one reference (src/collection/ECellInstCollection.cpp:46-53) with the name the import gives it; the layer map is
null. -/
def instOf (rad : ℚ → ℚ × ℚ) (cells : List Gds.Name) (i : Gds.Inst) : Hier.Inst (Shp.Aff ℚ) :=
  ⟨str i.cell ++ "_inst" ++ (match i.number with | none => "" | some k => "_" ++ toString k), cells.idxOf i.cell,
    matrix rad i.scale i.rotation i.position, none⟩

/-- The layer made for a row of the stack; its id is set by `AppendLayers` (src/collection/ELayerCollection.cpp:41-55). -/
def lyrOf (s : Gds.Stack) : Layer.Lyr :=
  ⟨match s.name with | .inl n => str n | .inr i => "layer_" ++ toString i, if s.conducting then .conducting else .dielectric,
    LayerMap.noLayer, 0⟩

/-- the cells of a database under construction -/
abbrev Cells := List (Gds.Name × Layout Geo (Shp.Aff ℚ))

/-- The first loop over the cells (src/extension/gds/ECadExtGdsHandler.cpp:67-72).  `CreateCircuitCell` returns null for a name in use
(src/design/EDatabase.cpp:150-156), which is dereferenced. -/
def makeCells (stack : List Gds.Stack) (m : List (Int × List Nat)) : Cells → List Gds.Cell → Res Cells
  | ds, [] => .ok ds
  | ds, c :: cs =>
    if c.name ∈ ds.map Prod.fst then .ub
    else makeCells stack m (ds ++ [(c.name, { layers := (Layer.appendAll [] (stack.map lyrOf)).1, prims := c.objects.flatMap (primsOf m) })]) cs

/-- instances are appended to the layout of a cell -/
def addInsts (name : Gds.Name) (is : List (Hier.Inst (Shp.Aff ℚ))) (ds : Cells) : Cells :=
  ds.map fun d => if d.1 = name then (d.1, { d.2 with insts := d.2.insts ++ is }) else d

/-- The second loop over the cells (src/extension/gds/ECadExtGdsHandler.cpp:75-79). -/
def makeRefs (rad : ℚ → ℚ × ℚ) : Cells → List Gds.Cell → Res Cells
  | ds, [] => .ok ds
  | ds, c :: cs =>
    if c.name ∈ ds.map Prod.fst then
      makeRefs rad (addInsts c.name ((Gds.importRefs (ds.map Prod.fst) c).map (instOf rad (ds.map Prod.fst))) ds) cs
    else .ub

/-- what the import makes: units, layers, cells -/
structure Design where
  unit : ℚ
  precision : ℚ
  stack : List Gds.Stack
  cells : Cells

/-- the layouts by the numbers of the cells -/
def Design.layouts (d : Design) : Hier.Db Geo (Shp.Aff ℚ) := fun k => (d.cells[k]?).elim {} (·.2)

/-- The layers and the map of their ids (src/extension/gds/ECadExtGdsHandler.cpp:38-64); `order` is the order in which an unordered set yields
its members. -/
def layersOf (order : List Int → List Int) (d : Gds.Db) : Option (List Gds.LayerRow) → List Gds.Stack × List (Int × List Nat)
  | some rows => Gds.layersFromMap rows 0 0 []
  | none => Gds.layersFromDb (order d.layers) 0 []

/-- from the layers on (src/extension/gds/ECadExtGdsHandler.cpp:36, 66-81) -/
def fill (rad : ℚ → ℚ × ℚ) (order : List Int → List Int) (d : Gds.Db) (rows : Option (List Gds.LayerRow)) : Res Design :=
  (makeCells (layersOf order d rows).1 (layersOf order d rows).2 [] d.cells).bind fun ds =>
    (makeRefs rad ds d.cells).bind fun ds => .ok ⟨d.unit, d.precision, (layersOf order d rows).1, ds⟩

/-- `CreateDatabase` (src/extension/gds/ECadExtGdsHandler.cpp:19-82): `dbs` are the names of the open databases, `gds` the bytes of the
GDSII file, `path` the name of the layer map file, `map` its bytes.  The outer `none`: the reader needs more fuel; the inner one: the result
null. -/
def createDatabase (rad : ℚ → ℚ × ℚ) (order : List Int → List Int) (cap fuel : Nat) (dbs : List String) (name : String)
    (gds : List Gds.Byte) (path : String) (map : Option (List Nat)) : Option (Res (Option Design)) :=
  (Gds.readFile cap fuel gds).map fun r => r.bind fun x =>
    (Gds.importRows dbs name x.2 path map).2.bind fun
      | none => .ok none
      | some rows => (fill rad order x.1 rows).bind fun d => .ok (some d)

end Ecad.GdsD
