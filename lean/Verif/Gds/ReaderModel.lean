import Verif.Gds.ParserModel
/-!
GDSII reader: from the calls of the parser to the cells and objects (src/extension/gds/EGdsFileIO.cpp,
src/extension/gds/EGdsObjects.h), and the import of these into a layout (src/extension/gds/ECadExtGdsHandler.cpp).
-/
namespace Ecad.Gds

/-- a string of the file, by character codes -/
abbrev Name := List Nat

/-- `EPoint2D` -/
abbrev Point := Int × Int

/-- The objects of a cell (src/extension/gds/EGdsObjects.h:31-106); the constructor stands for the record type stored beside
the object.  `spacing` of arrays is left out: the `SPACING` record does not reach the reader (its expected data are unknown).
`layer` and `dataType` are `int16_t`, which holds every value the two-byte records can give. -/
inductive Obj
  | polygon (layer dataType : Int) (points : List Point)
  | path (layer dataType pathType width : Int) (points : List Point)
  | text (layer dataType textType : Int) (text : Name) (position : Point) (width presentation : Int) (rotation scale : ℚ)
      (strans : Int)
  | ref (refCell : Name) (position : Point) (rotation scale : ℚ) (strans : Int)
  | array (refCell : Name) (cols rows : Int) (positions : List Point) (rotation scale : ℚ) (strans : Int)
  deriving DecidableEq

/-- `EGdsCell` (src/extension/gds/EGdsObjects.h:108-176) -/
structure Cell where
  name : Name
  objects : List Obj
  deriving DecidableEq

/-- `EGdsDB` (src/extension/gds/EGdsObjects.h:178-185).  `header`: the number or the string it is set from.  `unit`,
`precision`: those of `coordUnits` (src/basic/ECadUnits.h:149-150, 162-165).  `layers`: an unordered set, here a list without
repetitions.  `cellIdx`: the keys of `cellIdxMap`; its values are never used. -/
structure Db where
  header : Option (Int ⊕ Name)
  libName : Name
  unit : ℚ
  precision : ℚ
  cells : List Cell
  layers : List Int
  cellIdx : List Name
  deriving DecidableEq

/-- an empty database -/
def Db.empty : Db := ⟨none, [], 1 / 1000, 1 / 1000000000, [], [], []⟩

/-- `AddCell` (src/extension/gds/EGdsObjects.h:212-220); the reader does not look at the result -/
def Db.addCell (d : Db) (name : Name) : Db :=
  if name ∈ d.cellIdx then d
  else { d with cellIdx := d.cellIdx ++ [name], cells := d.cells ++ [⟨name, []⟩] }

/-- `Layers().insert(layer)` -/
def Db.addLayer (d : Db) (layer : Int) : Db := if layer ∈ d.layers then d else { d with layers := d.layers ++ [layer] }

/-- `Cells().back()` with an object added (src/extension/gds/EGdsFileIO.cpp:231-247); no cell: undefined behaviour -/
def Db.addObject (d : Db) (o : Obj) : Res Db :=
  match d.cells.getLast? with
  | none => .ub
  | some c => .ok { d with cells := d.cells.dropLast ++ [{ c with objects := c.objects ++ [o] }] }

/-- the values collected for an element (src/extension/gds/EGdsFileIO.h: members of `EGdsReader`) -/
structure El where
  layer : Int
  dataType : Int
  pathType : Int
  textType : Int
  width : Int
  columns : Int
  rows : Int
  angle : ℚ
  mag : ℚ
  strans : Int
  presentation : Int
  points : List Point
  string : Name
  sname : Name
  deriving DecidableEq

/-- `Reset` (src/extension/gds/EGdsFileIO.cpp:39-57) -/
def El.reset : El := ⟨-1, -1, -1, -1, 0, 0, 0, 0, 1, -1, -1, [], [], []⟩

/-- state of the reader: `m_status` (a record type), the values, the database -/
structure Rd where
  status : Nat
  el : El
  db : Db
  deriving DecidableEq

/-- the state at the start (src/extension/gds/EGdsFileIO.cpp:28-32) -/
def Rd.init : Rd := ⟨0x3c, El.reset, Db.empty⟩

/-- `data.front()` -/
def front {A : Type} : List A → Res A
  | [] => .ub
  | a :: _ => .ok a

/-- the points of an `XY` record (src/extension/gds/EGdsFileIO.cpp:118-121); an odd number of values is undefined behaviour -/
def pairs : List Int → Res (List Point)
  | [] => .ok []
  | [_] => .ub
  | x :: y :: l => (pairs l).bind fun r => .ok ((x, y) :: r)

/-- `ReadInteger` (src/extension/gds/EGdsFileIO.cpp:79-142); `at` beyond the end throws -/
def readInteger (s : Rd) (t : Nat) (data : List Int) : Res Rd :=
  match t with
  | 0x00 => (front data).bind fun v => .ok { s with db := { s.db with header := some (.inl v) } }
  | 0x0d => (front data).bind fun v => .ok { s with el := { s.el with layer := v } }
  | 0x0e => (front data).bind fun v => .ok { s with el := { s.el with dataType := v } }
  | 0x21 => (front data).bind fun v => .ok { s with el := { s.el with pathType := v } }
  | 0x16 => (front data).bind fun v => .ok { s with el := { s.el with textType := v } }
  | 0x0f => (front data).bind fun v => .ok { s with el := { s.el with width := v } }
  | 0x1a => (front data).bind fun v => .ok { s with el := { s.el with strans := v } }
  | 0x17 => (front data).bind fun v => .ok { s with el := { s.el with presentation := v } }
  | 0x13 => (Res.at_ data 0).bind fun c => (Res.at_ data 1).bind fun r =>
      .ok { s with el := { s.el with columns := c, rows := r } }
  | 0x10 => (pairs data).bind fun l => .ok { s with el := { s.el with points := s.el.points ++ l } }
  | 0x01 => .ok { s with status := 0x01 }
  | 0x05 => .ok { s with status := 0x05 }
  | _ => .ok s

/-- `ReadFloat` (src/extension/gds/EGdsFileIO.cpp:154-180) -/
def readFloat (s : Rd) (t : Nat) (data : List ℚ) : Res Rd :=
  match t with
  | 0x03 => (Res.at_ data 0).bind fun u => (Res.at_ data 1).bind fun p =>
      .ok { s with db := { s.db with unit := u, precision := p } }
  | 0x1c => (front data).bind fun v => .ok { s with el := { s.el with angle := v } }
  | 0x1b => (front data).bind fun v => .ok { s with el := { s.el with mag := v } }
  | _ => .ok s

/-- `ReadString` (src/extension/gds/EGdsFileIO.cpp:182-213), without the assertions -/
def readString (s : Rd) (t : Nat) (data : Name) : Res Rd :=
  match t with
  | 0x00 => .ok { s with db := { s.db with header := some (.inr data) } }
  | 0x06 => .ok { s with db := s.db.addCell data }
  | 0x02 => .ok { s with db := { s.db with libName := data } }
  | 0x19 => .ok { s with el := { s.el with string := data } }
  | 0x12 => .ok { s with el := { s.el with sname := data } }
  | _ => .ok s

/-- the object made at the end of an element (src/extension/gds/EGdsFileIO.cpp:228-249); `cols` and `rows` are converted to
`size_t` -/
def endElement (status : Nat) (e : El) (d : Db) : Res Db :=
  match status with
  | 0x2d | 0x08 => d.addObject (.polygon e.layer e.dataType e.points)
  | 0x09 => d.addObject (.path e.layer e.dataType e.pathType e.width e.points)
  | 0x0c => (front e.points).bind fun p =>
      d.addObject (.text e.layer e.dataType e.textType e.string p e.width e.presentation e.angle e.mag e.strans)
  | 0x0a => (front e.points).bind fun p => d.addObject (.ref e.sname p e.angle e.mag e.strans)
  | 0x0b => d.addObject (.array e.sname (e.columns % 2 ^ 64) (e.rows % 2 ^ 64) e.points e.angle e.mag e.strans)
  | _ => .ok d

/-- `ReadBeginEnd` (src/extension/gds/EGdsFileIO.cpp:215-271) -/
def readBeginEnd (s : Rd) (t : Nat) : Res Rd :=
  match t with
  | 0x2d | 0x08 | 0x09 | 0x0c | 0x0a | 0x0b => .ok { s with status := t }
  | 0x11 => (endElement s.status s.el (s.db.addLayer s.el.layer)).bind fun d => .ok ⟨0x05, El.reset, d⟩
  | 0x04 => .ok { s with status := 0x3c }
  | 0x07 => .ok { s with status := 0x01 }
  | _ => .ok s

/-- one call of the reader (src/extension/gds/EGdsFileIO.cpp:64-77, 144-152, 182, 215) -/
def readCall (s : Rd) : Call → Res Rd
  | .bits t l | .int2 t l | .int4 t l => readInteger s t l
  | .real4 t l | .real8 t l => readFloat s t l
  | .str t l => readString s t l
  | .none t => readBeginEnd s t

/-- a sequence of calls -/
def readCalls (s : Rd) : List Call → Res Rd
  | [] => .ok s
  | c :: cs => (readCall s c).bind fun s' => readCalls s' cs

/-- `EGdsReader::operator()` (src/extension/gds/EGdsFileIO.cpp:28-37) for a file that can be opened: the database and the
result.  Simplification: the parser makes all its calls before the reader sees the first, so that a parser that does not
end hides what the reader did before. -/
def readFile (cap fuel : Nat) (file : List Byte) : Option (Res (Db × Bool)) :=
  (parseFile cap fuel file).map fun r => r.bind fun p => (readCalls Rd.init p.1).bind fun s => .ok (s.db, p.2)

/-! ### import into a layout -/

/-- a row of the layer map file (src/extension/gds/EGdsLayerMap.h:11-19) -/
structure LayerRow where
  name : Name
  conducting : Bool
  layerId : Int
  dataType : Int
  thickness : ℚ
  deriving DecidableEq

/-- a layer of the layout: `CreateStackupLayer` (src/EDataMgr.cpp) -/
structure Stack where
  name : Name ⊕ Int
  conducting : Bool
  elevation : ℚ
  thickness : ℚ
  deriving DecidableEq

/-- `m_layerIdMap.insert({key, {}}).first->second.insert(id)` for rising ids; a set is a list in rising order -/
def addId (m : List (Int × List Nat)) (key : Int) (id : Nat) : List (Int × List Nat) :=
  match m with
  | [] => [(key, [id])]
  | (k, l) :: m => if k = key then (k, l ++ [id]) :: m else (k, l) :: addId m key id

/-- layers from a layer map file (src/extension/gds/ECadExtGdsHandler.cpp:48-56): layers and `m_layerIdMap` -/
def layersFromMap (rows : List LayerRow) (elevation : ℚ) (id : Nat) (m : List (Int × List Nat)) :
    List Stack × List (Int × List Nat) :=
  match rows with
  | [] => ([], m)
  | r :: rows =>
    let q := layersFromMap rows (elevation - r.thickness) (id + 1) (addId m r.layerId id)
    (⟨.inl r.name, r.conducting, elevation, r.thickness⟩ :: q.1, q.2)

/-- layers without a layer map file (src/extension/gds/ECadExtGdsHandler.cpp:58-64); `order` is the order in which the
unordered set yields the layers.  The name is `"layer_" + std::to_string(lyr)`. -/
def layersFromDb (order : List Int) (id : Nat) (m : List (Int × List Nat)) : List Stack × List (Int × List Nat) :=
  match order with
  | [] => ([], m)
  | l :: order =>
    let q := layersFromDb order (id + 1) (addId m l id)
    (⟨.inr l, true, 0, 0⟩ :: q.1, q.2)

/-- what is made in a layout -/
inductive Prim
  | polygon (layer : Nat) (points : List Point)
  | path (layer : Nat) (pathType width : Int) (points : List Point)
  | text (layer : Nat) (text : Name) (scale rotation : ℚ) (position : Point)
  deriving DecidableEq

/-- `EPrimitiveCollection::CreateText` (src/collection/EPrimitiveCollection.cpp:72-76): the transform handed over is not used, the text
has the identity (src/design/EPrimitive.cpp:437-442). -/
def createText (layer : Nat) (_transform : ℚ × ℚ × Point) (text : Name) : Prim := .text layer text 1 0 (0, 0)

/-- the layer ids of a gds layer: `m_layerIdMap.count` and `.at` -/
def idsOf (m : List (Int × List Nat)) (layer : Int) : List Nat :=
  match m with
  | [] => []
  | (k, l) :: m => if k = layer then l else idsOf m layer

/-- `ImportOnePolygon`, `ImportOnePath`, `ImportOneText` (src/extension/gds/ECadExtGdsHandler.cpp:111-161): one object per
layer id -/
def importObj (m : List (Int × List Nat)) : Obj → List Prim
  | .polygon layer _ pts => (idsOf m layer).map fun i => .polygon i pts
  | .path layer _ pt w pts => (idsOf m layer).map fun i => .path i pt w pts
  | .text layer _ _ str pos _ _ rot sc _ => (idsOf m layer).map fun i => createText i (sc, rot, pos) str
  | .ref .. | .array .. => []

/-- `ImportOneCell` (src/extension/gds/ECadExtGdsHandler.cpp:84-109) -/
def importCell (m : List (Int × List Nat)) (c : Cell) : List Prim := c.objects.flatMap (importObj m)

/-- A cell instance: the name is the cell name followed by `"_inst"` and, for arrays, `"_"` and a number; `mirror` is
`EMirror2D::No` always.  `rotation` is in radians (src/basic/ETransform.h:15). -/
structure Inst where
  cell : Name
  number : Option Nat
  scale : ℚ
  rotation : ℚ
  position : Point
  deriving DecidableEq

/-- `ImportOneCellReference`, `ImportOneCellRefArray` (src/extension/gds/ECadExtGdsHandler.cpp:185-215); `cells` are the names
of the cells of the database, each with a layout view. -/
def importRef (cells : List Name) : Obj → List Inst
  | .ref cell pos rot sc _ => if cell ∈ cells then [⟨cell, none, sc, rot, pos⟩] else []
  | .array cell _ _ pts rot sc _ =>
    if cell ∈ cells then pts.zipIdx.map fun p => ⟨cell, some p.2, sc, rot, p.1⟩ else []
  | _ => []

/-- `ImportCellReferences` (src/extension/gds/ECadExtGdsHandler.cpp:163-183) -/
def importRefs (cells : List Name) (c : Cell) : List Inst := c.objects.flatMap (importRef cells)

end Ecad.Gds
