import Verif.Xfl.Model
import Verif.Xfl.ParserModel
import Verif.Basic.SmallModel
import Verif.Net.Model
/-!
The import of an XFL file from its text to the database (src/extension/xfl/ECadExtXflHandler.cpp:18-74): the handlers of the reader
(src/extension/xfl/EXflParser.h:479-591), the look up tables (src/extension/xfl/EXflObjects.h:402-418), the steps of the import in
their order.  The steps themselves are those of Verif.Xfl.Model, the reader is that of Verif.Xfl.ParserModel.

Simplifications: numbers are exact; angles of the file are mapped by `ang` to the names of angles which `R` of Verif.Xfl.Model takes;
the cell and the layout that are created hold what the steps put into them.  A scale of 0 (an infinite factor in the code) is not
modelled: the theorems are about other scales.
-/
namespace Ecad.XflI
open Ecad.Xfl Ecad.XflP
open Shp (Shape)

/-- `EXflDB` (src/extension/xfl/EXflObjects.h:370-400) as far as the handlers fill it.  `unit` and `scale` have no initial value
(`new EXflDB` at src/extension/xfl/ECadExtXflHandler.cpp:397 and `Clear` at EXflObjects.h:387-400 leave them as they are): `none`. -/
structure Db where
  unit : Option Bool := none
  scale : Option ℚ := none
  board : Option (PBoard ℚ) := none
  nets : List (PNet ℚ) := []
  vias : List (PVia ℚ) := []
  parts : List (Str × List (PPin ℚ)) := []
  layers : List (PLay ℚ) := []
  routes : List (Str × List (PObj ℚ)) := []
  materials : List (PMat ℚ) := []
  padstacks : List (Int × List (PPad ℚ)) := []
  templates : List (Int × Geo ℚ) := []

/-- The handlers (src/extension/xfl/EXflParser.h:479-574).  Version and design type are kept but not used by the import. -/
def handle (d : Db) : Ev ℚ → Db
  | .version _ _ => d
  | .unit inch => { d with unit := some inch }
  | .designType _ => d
  | .scale s => { d with scale := some s }
  | .material m => { d with materials := d.materials ++ [m] }
  | .layer l => { d with layers := d.layers ++ [l] }
  | .shape s => { d with templates := d.templates ++ [s] }
  | .board b => { d with board := some b }
  | .padstack p => { d with padstacks := d.padstacks ++ [p] }
  | .via v => { d with vias := d.vias ++ [v] }
  | .part p => { d with parts := d.parts ++ [p] }
  | .net n => { d with nets := d.nets ++ [n] }
  | .route r => { d with routes := d.routes ++ [r] }

/-- a text as `std::string` -/
def str (s : Str) : String := String.ofList s

variable (ang : ℚ → Int)

/-- `Material` (src/extension/xfl/EXflObjects.h:16-25) -/
def toMat (m : PMat ℚ) : XMat ℚ := ⟨str m.name, m.conductivity, m.permittivity, m.permeability, m.loss⟩

/-- `Layer` (src/extension/xfl/EXflObjects.h:27-34) -/
def toLay (l : PLay ℚ) : XLayer ℚ := ⟨str l.name, l.thick, l.type, str l.cmat, str l.dmat⟩

/-- `Padstack` (src/extension/xfl/EXflObjects.h:66-79) -/
def toPstk (p : Int × List (PPad ℚ)) : XPadstack := ⟨p.1, p.2.map fun q => ⟨q.lyr, q.id, ang q.rot⟩⟩

/-- `Via` (src/extension/xfl/EXflObjects.h:81-90): without barrel the material is the empty text -/
def toVia (v : PVia ℚ) : XVia := ⟨str v.name, v.pstk, v.id, ang v.rot, (v.barrel.map fun b => str b.2).getD ""⟩

/-- `InstObject` (src/extension/xfl/EXflObjects.h:114-137) -/
def toObj : PObj ℚ → Obj ℚ
  | .path l w p => .path l w p
  | .via s e n loc r m => .via s e (str n) loc (ang r) m
  | .bondwire _ _ _ _ _ => .bondwire
  | .polygon v l p => .polygon v l p
  | .rectangle v l w h p => .rectangle v l w h p
  | .square v l w p => .square v l w p
  | .diamond v l w p => .diamond v l w p
  | .circle v l d p => .circle v l d p
  | .annular l a b p => .annular l a b p
  | .composite v l c => .composite v l c
  | .shape v l i p r m t => .shape v l i p (ang r) m t

/-- `BoardGeom` (src/extension/xfl/EXflObjects.h:63-64) -/
def toBoard : PBoard ℚ → Board ℚ
  | .polygon l => .polygon l
  | .composite l => .composite l
  | .shape i p r m t => .shape i p (ang r) m t

/-- The padstacks in `BuildLUTs` (src/extension/xfl/EXflObjects.h:410-411): the first of equal numbers is kept. -/
def pstkLut (l : List XPadstack) : List (Int × XPadstack) := l.foldl (fun a p => (UMap.emplace a p.id p).1) []

/-- `ImportNets` (src/extension/xfl/ECadExtXflHandler.cpp:211-223): a name in use gives no net. -/
def importNets (ns : List String) : Net.Coll := ns.foldl (fun c n => (Net.createNet c n).1) {}

/-- `Scale2Coord` of the units of the file (src/extension/xfl/ECadExtXflHandler.cpp:39-41, src/basic/ECadUnits.h:172-184, 201-204);
the factors of inch and millimetre to metre are those of the library. -/
def coordScale (inch : Bool) : ℚ := Units.scale2Coord (Units.make (if inch then 254 / 10000 else 1 / 1000) (1 / 1000000000))

/-- What the database holds afterwards -/
structure Result where
  inch : Bool
  mats : List (String × Mat ℚ)
  layers : List (SLayer ℚ)
  pads : PDb ℚ
  nets : Net.Coll
  outs : List (Out ℚ)
  boundary : Option (List (ℚ × ℚ))

/-- what the import of connection objects and of the outline reads -/
def env (lib : Lib ℚ) (div : Nat) (R : Int → ℚ × ℚ) (scale : ℚ) (tmpl : List (Int × Shape ℚ)) (metal : List (Int × Int)) (pads : PDb ℚ) : Env ℚ :=
  ⟨⟨lib, scale, div⟩, tmpl, metal, UMap.count pads.maps, UMap.count pads.defs, R⟩

/-- The steps after reading (src/extension/xfl/ECadExtXflHandler.cpp:39-73), with the units and scale that were read. -/
def build (lib : Lib ℚ) (div : Nat) (R : Int → ℚ × ℚ) (d : Db) (inch : Bool) (sc : ℚ) : Res Result :=
  -- 39-42
  let scale := coordScale inch / sc
  -- 44-46
  (Getter.buildTemplates ⟨lib, scale, div⟩ [] d.templates).bind fun tmpl =>
  -- 52
  let ms := importMats [] [] (d.materials.map toMat)
  -- 59
  let ls := importLayers ms.2 scale (d.layers.map toLay)
  -- 62
  (importVias tmpl ls.metalMap ms.2 (pstkLut (d.padstacks.map (toPstk ang))) ⟨[], []⟩ (d.vias.map (toVia ang))).bind fun pads =>
  -- 65
  let nets := importNets (d.nets.map fun n => str n.name)
  -- 68
  ((env lib div R scale tmpl ls.metalMap pads).routes (fun n => (Net.findByName nets n).map Net.Net.id) []
    (d.routes.map fun r => (str r.1, r.2.map (toObj ang)))).bind fun outs =>
  -- 71
  ((env lib div R scale tmpl ls.metalMap pads).board (d.board.map (toBoard ang))).bind fun b =>
  .ok ⟨inch, ms.1, ls.layers, pads, nets, outs.2, b⟩

/-- `CreateDatabase` (src/extension/xfl/ECadExtXflHandler.cpp:18-74): `none` is the null pointer.  `open_` says whether there is
a database of the name, `file` is the text of the file if it can be opened.  Units or a scale that were never set are read at 39-41. -/
def create (lib : Lib ℚ) (div : Nat) (R : Int → ℚ × ℚ) (open_ : Bool) (file : Option Str) : Res (Option Result) :=
  if open_ then .ok none
  else
    match file with
    | none => .ok none
    | some s =>
      if !(read s).2 then .ok none
      else
        let d := (read s).1.foldl handle {}
        match d.unit, d.scale with
        | some inch, some sc => (build ang lib div R d inch sc).bind fun r => .ok (some r)
        | _, _ => .ub

end Ecad.XflI
