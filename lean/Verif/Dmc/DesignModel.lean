import Verif.Dmc.FileModel
import Verif.Shape.PadInst
import Verif.Design.RegistryModel
/-!
`ECadExtDmcDomHandler::CreateDatabase` (src/extension/dmcdom/ECadExtDmcDomHandler.cpp:67-187) from the texts of the files to the database: the boundary,
the layer map and the padstack definitions of the vias, and the layout after `AddDefaultDielectricLayers`.

Simplifications: the library operator `|=` of boxes takes the smaller lower left and the larger upper right coordinates, an empty box (`none`) being
neutral; the corners of a box are its `toPolygon`.  The data manager is its registry of databases.
-/
namespace Ecad.Dmc
open Ctm (Bytes)

/-- a box: lower left x and y, upper right x and y -/
abbrev BBox := Int × Int × Int × Int

/-- `bbox |= data.bbox` (library operator) -/
def joinBox : Option BBox → BBox → Option BBox
  | none, b => some b
  | some a, b => some (min a.1 b.1, min a.2.1 b.2.1, max a.2.2.1 b.2.2.1, max a.2.2.2 b.2.2.2)

/-- the box of the records that are not holes (src/extension/dmcdom/ECadExtDmcDomHandler.cpp:95, 101-106) -/
def unionBox (rs : List FRec) : Option BBox := rs.foldl (fun b r => if r.isHole then b else joinBox b r.bbox) none

/-- `toPolygon(bbox)` (src/extension/dmcdom/ECadExtDmcDomHandler.cpp:153-156); `far` are the corners of the empty box -/
def corners (far : List (Int × Int)) : Option BBox → List (Int × Int)
  | none => far
  | some b => [(b.1, b.2.1), (b.2.2.1, b.2.1), (b.2.2.1, b.2.2.2), (b.1, b.2.2.2)]

/-- the loop over the layers that fills the layer map and the names (src/extension/dmcdom/ECadExtDmcDomHandler.cpp:161-169); `i` is `toId` -/
def fillMap : Nat → LayerMap.BiMap → List Layer.Lyr → LayerMap.BiMap × List String
  | _, m, [] => (m, [])
  | i, m, y :: ys =>
    if y.type = .dielectric then fillMap i m ys
    else
      let r := fillMap (i + 1) (LayerMap.setMapping m y.id (i : Int)) ys
      (r.1, y.name :: r.2)

/-- the shape of an outline with its holes (src/extension/dmcdom/ECadExtDmcDomHandler.cpp:124-127) -/
def toShape (s : Shape (Int × Int)) : Shp.Shape ℚ :=
  let q : List (Int × Int) → List (ℚ × ℚ) := fun l => l.map fun p => ((p.1 : ℚ), (p.2 : ℚ))
  if s.holes ≠ [] then .holes (q s.outline) (s.holes.map q) else .polygon (q s.outline)

/-- the padstack definitions of the vias (src/extension/dmcdom/ECadExtDmcDomHandler.cpp:173-178); `used` are the names of the definitions there are -/
def makeDefs (layerNames : List String) : List String → List (Shape (Int × Int)) → List (String × Pad.Data (Shp.Shape ℚ))
  | _, [] => []
  | used, s :: ss =>
    let n := Naming.nextName used "padstack"
    (n, Pad.setVia (Pad.setLayers Pad.Data.init layerNames) ⟨some (toShape s), (0, 0), 0⟩) :: makeDefs layerNames (used ++ [n]) ss

/-- a padstack instance: its definition and its layer map are positions in those of the database -/
structure Via where
  name : String
  net : Int
  top : Int
  bot : Int
  defn : Nat
  lmap : Option Nat
  deriving DecidableEq, Repr

/-- the database: its cell by name, and the layout of the cell -/
structure Board where
  database : String
  cells : List String
  nets : Net.Coll
  layers : List Layer.Lyr
  geoms : List (Geom (Int × Int))
  vias : List Via
  defs : List (String × Pad.Data (Shp.Shape ℚ))
  maps : List (String × LayerMap.BiMap)
  boundary : List (Int × Int)

/-- the padstack instance as `GetLayerShape` sees it; the transform is `makeETransform2D(1, 0, EPoint2D(0, 0))`
(src/extension/dmcdom/ECadExtDmcDomHandler.cpp:183) -/
def Board.inst (b : Board) (v : Via) : Shp.PInst ℚ where
  top := v.top
  bot := v.bot
  lmap := v.lmap.bind fun i => (b.maps[i]?).map Prod.snd
  data := (b.defs[v.defn]?).map Prod.snd
  trans := Shp.Aff.one

/-- From the records and points to the layout (src/extension/dmcdom/ECadExtDmcDomHandler.cpp:86-186); `junk` stands for numbers that were never set -/
def board (junk : Int) (far : List (Int × Int)) (name : String) (rs : List FRec) (pts : List (Int × Int)) : Res Board :=
  let recs := rs.map (FRec.toRec junk)
  (walk recs.length {} recs pts).bind fun s =>
  let lm := fillMap 0 LayerMap.new s.layers
  (makeVias s 1 s.vias).bind fun insts =>
  (Layer.layoutAddDielectric
    ⟨s.layers, s.geoms.map fun g => ⟨g.layer, none⟩, insts.map fun i => ⟨i.top, i.bot, some 0⟩, [], [(name, lm.1)]⟩).bind fun x =>
  .ok
    { database := name
      cells := [name]
      nets := s.coll
      layers := x.1.layers
      geoms := List.zipWith (fun g (p : Layer.Prim) => { g with layer := p.layer }) s.geoms x.1.prims
      vias := List.zipWith (fun (i : Inst (Int × Int) × Nat) (p : Layer.PsInst) => ⟨i.1.name, i.1.net, p.top, p.bot, i.2, p.lmap⟩) insts.zipIdx x.1.psInsts
      defs := makeDefs lm.2 [] (insts.map Inst.shape)
      maps := x.1.maps
      boundary := corners far (unionBox rs) }

/-- why there is no database: there is one of the name, a file was not read -/
inductive Why where
  | taken
  | file (e : Fail)
  deriving DecidableEq, Repr

/-- `CreateDatabase` (src/extension/dmcdom/ECadExtDmcDomHandler.cpp:67-187): the registry of databases afterwards, and what is returned; `d` is the
new database object -/
def createDatabase (junk : Int) (far : List (Int × Int)) (scale : ℚ) (reg : Registry.Reg) (d : Nat) (name : String) (dom dmc : Option Bytes) :
    Registry.Reg × Res (Except Why Board) :=
  match Registry.openDb reg name with
  | some _ => (reg, .ok (.error .taken))
  | none =>
    match parseDomFile scale dom with
    | .ub => (reg, .ub)
    | .exn => (reg, .exn)
    | .ok (.error e) => (reg, .ok (.error (.file e)))
    | .ok (.ok pts) =>
      match parseDmcFile scale dmc with
      | .ub => (reg, .ub)
      | .exn => (reg, .exn)
      | .ok (.error e) => (reg, .ok (.error (.file e)))
      | .ok (.ok rs) =>
        match Registry.create reg name d with
        | (reg, none) => (reg, .ok (.error .taken))
        | (reg, some _) => (reg, (board junk far name rs pts).bind fun b => .ok (.ok b))

end Ecad.Dmc
