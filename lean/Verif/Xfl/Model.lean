import Verif.Shape.Model
import Verif.Basic.PadModel
import Verif.Layer.MapModel
import Verif.Naming.Model
import Verif.Base.UMap
/-!
Import of XFL files (src/extension/xfl/EXflObjects.h, src/extension/xfl/ECadExtXflHandler.cpp), from the
parsed objects on.

Not modelled here: the grammar (see ParserModel), parts and components (which the handler does not
import), rounding to integer coordinates.  Angles are degrees, given to a function `R` that yields cosine and
sine.
-/
namespace Ecad.Xfl
open Shp (Aff Shape Box)

variable {K : Type} [Field K] [LinearOrder K]

/-- Library functions: those of shapes, circumscribed polygons of circles, the points of an arc from
`start` around `mid` to `end_` (type 0 clockwise, 1 counterclockwise) and of a half circle from `start`. -/
structure Lib (K : Type) extends Shp.Lib K where
  circumscribed : K × K → K → Nat → List (K × K)
  arc : Int → K × K → K × K → K × K → Nat → List (K × K)
  half : K × K → K × K → Nat → List (K × K)

/-- element of a `Composite`: `Point` or `Arc` (src/extension/xfl/EXflObjects.h:36-39) -/
inductive Seg (K : Type)
  | pt (p : K × K)
  | arc (type : Int) (end_ mid : K × K)
  deriving DecidableEq

/-- `Shape` (src/extension/xfl/EXflObjects.h:37-59) -/
inductive Geo (K : Type)
  | polygon (pts : List (K × K))
  | composite (l : List (Seg K))
  | rectangle (w h : K)
  | square (w : K)
  | diamond (w : K)
  | circle (d : K)
  | annular (outer inner : K)
  | oblong (w left right : K)
  | bullet (w left right : K)
  | finger (w left right : K)
  deriving DecidableEq

/-- `EShapeGetter` (src/extension/xfl/EXflObjects.h:145-149, 334-336) -/
structure Getter (K : Type) where
  lib : Lib K
  scale : K
  div : Nat

namespace Getter
variable (G : Getter K)

/-- `toEPoint2D` (src/extension/xfl/EXflObjects.h:303-306) -/
def pt (p : K × K) : K × K := (p.1 * G.scale, p.2 * G.scale)

/-- `toEPoint2Ds` (src/extension/xfl/EXflObjects.h:308-332).  For type 2 (and all others) the points are
assigned to a local variable that hides the result (326): no points. -/
def arcPts (start : K × K) (type : Int) (end_ mid : K × K) : List (K × K) :=
  let fps := if type = 0 then G.lib.arc 0 start mid end_ G.div
    else if type = 1 then G.lib.arc 1 start mid end_ G.div
    else []
  fps.map G.pt

/-- `auto iter = points.begin(); iter++` and the rest of the points: undefined behaviour without points
(src/extension/xfl/EXflObjects.h:180-182). -/
def skipFirst (ps : List (K × K)) : Res (List (K × K)) :=
  match ps with
  | [] => .ub
  | _ :: r => .ok r

/-- The loop over a composite (src/extension/xfl/EXflObjects.h:172-188). -/
def compositeLoop (last : K × K) : List (Seg K) → Res (List (K × K))
  | [] => .ok []
  | .pt p :: r => (compositeLoop p r).bind fun ps => .ok (G.pt p :: ps)
  | .arc t e m :: r => (skipFirst (G.arcPts last t e m)).bind fun a => (compositeLoop e r).bind fun ps => .ok (a ++ ps)

/-- `operator()(Composite)` (src/extension/xfl/EXflObjects.h:161-190): the first element must be a point. -/
def composite : List (Seg K) → Res (List (K × K))
  | .pt p :: r => (G.compositeLoop p r).bind fun ps => .ok (G.pt p :: ps)
  | _ => .ub

/-- `operator()` for the kinds of shapes (src/extension/xfl/EXflObjects.h:151-300). -/
def get : Geo K → Res (Shape K)
  -- 151-159
  | .polygon pts => .ok (.polygon (pts.map G.pt))
  | .composite l => (G.composite l).bind fun ps => .ok (.polygon ps)
  -- 192-204: half of the size is halved again
  | .rectangle w h =>
    let halfW := 1 / 2 * w * G.scale
    let halfH := 1 / 2 * h * G.scale
    .ok (.rect ⟨(-(1 / 2) * halfW, -(1 / 2) * halfH), (1 / 2 * halfW, 1 / 2 * halfH)⟩)
  -- 206-217: not scaled
  | .square w =>
    let halfW := 1 / 2 * w
    .ok (.rect ⟨(-halfW, -halfW), (halfW, halfW)⟩)
  -- 219-227: not scaled
  | .diamond w =>
    let halfW := 1 / 2 * w
    .ok (.polygon [(halfW, 0), (0, halfW), (-halfW, 0), (0, -halfW)])
  -- 229-234: not scaled
  | .circle d => .ok (.circle (0, 0) (1 / 2 * d) G.div)
  -- 236-247
  | .annular outer inner =>
    let innerR := 1 / 2 * inner * G.scale
    let outerR := 1 / 2 * outer * G.scale
    .ok (.holes (G.lib.inscribed (0, 0) outerR G.div) [G.lib.circumscribed (0, 0) innerR G.div])
  -- 249-260
  | .oblong w left right =>
    let halfW := 1 / 2 * w * G.scale
    .ok (.rect ⟨(-left * G.scale, -halfW), (right * G.scale, halfW)⟩)
  -- 262-278
  | .bullet w left right =>
    let halfW := 1 / 2 * w * G.scale
    (skipFirst (G.lib.half (right * G.scale - halfW, 0) (right * G.scale - halfW, -halfW) G.div)).bind fun a =>
    .ok (.polygon ([(-left * G.scale, halfW), (-left * G.scale, -halfW), (right * G.scale - halfW, -halfW)] ++ a))
  -- 280-300
  | .finger w left right =>
    let halfW := 1 / 2 * w * G.scale
    (skipFirst (G.lib.half (right * G.scale - halfW, 0) (right * G.scale - halfW, -halfW) G.div)).bind fun a =>
    (skipFirst (G.lib.half (-left * G.scale + halfW, 0) (-left * G.scale + halfW, halfW) G.div)).bind fun b =>
    .ok (.polygon ((right * G.scale - halfW, -halfW) :: a ++ (-left * G.scale + halfW, halfW) :: b))

/-- The template loop of `BuildLUTs` (src/extension/xfl/EXflObjects.h:413-417). -/
def buildTemplates (acc : List (Int × Shape K)) : List (Int × Geo K) → Res (List (Int × Shape K))
  | [] => .ok acc
  | (i, g) :: r => (G.get g).bind fun s => buildTemplates (UMap.emplace acc i s).1 r

end Getter

/-! ### layers -/

/-- `Layer` (src/extension/xfl/EXflObjects.h:27-34) -/
structure XLayer (K : Type) where
  name : String
  thickness : K
  type : Char
  cmat : String
  dmat : String
  deriving DecidableEq

/-- a stackup layer (`CreateStackupLayer`): what the import gives it -/
structure SLayer (K : Type) where
  name : String
  dielectric : Bool
  elevation : K
  thickness : K
  cmat : String
  dmat : String
  deriving DecidableEq

/-- `sDefaultConductingMat`, `sDefaultDielectricMat` (src/basic/ECadAlias.h:72-73) -/
def defaultConductingMat : String := "copper"
def defaultDielectricMat : String := "silicon"

/-- state of the loop of `ImportLayers` -/
structure LState (K : Type) where
  id : Int
  xflLayerId : Int
  xflMetalId : Int
  elevation : K
  layers : List (SLayer K)
  metalMap : List (Int × Int)
  layerMap : List (Int × Int)

/-- One turn of the loop (src/extension/xfl/ECadExtXflHandler.cpp:188-207); `mats` is `m_matNameMap`. -/
def layerStep (mats : List (String × String)) (scale : K) (s : LState K) (x : XLayer K) : LState K :=
  let id := s.id + 1
  let diel := x.type == 'D'
  let cmat := (UMap.find? mats x.cmat).getD defaultConductingMat
  let dmat := (UMap.find? mats x.dmat).getD defaultDielectricMat
  let layer : SLayer K := ⟨x.name, diel, s.elevation * scale, x.thickness * scale, cmat, dmat⟩
  { id := id,
    xflLayerId := s.xflLayerId + 1,
    xflMetalId := if !diel then s.xflMetalId + 1 else s.xflMetalId,
    elevation := s.elevation - x.thickness,
    layers := s.layers ++ [layer],
    metalMap := if !diel then (UMap.emplace s.metalMap s.xflMetalId id).1 else s.metalMap,
    layerMap := (UMap.emplace s.layerMap s.xflLayerId id).1 }

/-- `ImportLayers` (src/extension/xfl/ECadExtXflHandler.cpp:179-209).  The layers are appended to an empty layout, so
that the id of a layer is its position. -/
def importLayers (mats : List (String × String)) (scale : K) (xs : List (XLayer K)) : LState K :=
  xs.foldl (layerStep mats scale) ⟨-1, 1, 1, 0, [], [], []⟩

/-! ### materials -/

/-- `Material` (src/extension/xfl/EXflObjects.h:16-25) without the fields that are not imported -/
structure XMat (K : Type) where
  name : String
  conductivity : K
  permittivity : K
  permeability : K
  lossTangent : K
  deriving DecidableEq

/-- The properties set by `ImportMaterialDefs`. -/
structure Mat (K : Type) where
  conductivity : K
  permittivity : K
  permeability : K
  magneticLossTangent : K
  deriving DecidableEq

/-- `ImportMaterialDefs` (src/extension/xfl/ECadExtXflHandler.cpp:86-112): the material definitions of the database and
`m_matNameMap`.  `CreateMaterialDef` (src/design/EDatabase.cpp) refuses a name in use; the name suggested by
`GetNextDefName` is not. -/
def importMats (db : List (String × Mat K)) (m : List (String × String)) :
    List (XMat K) → List (String × Mat K) × List (String × String)
  | [] => (db, m)
  | x :: xs =>
    let name := Naming.nextName (UMap.keys db) x.name
    if UMap.count db name then importMats db m xs
    else importMats (UMap.emplace db name ⟨x.conductivity, x.permittivity, x.permeability, x.lossTangent⟩).1
      (UMap.emplace m x.name name).1 xs

/-! ### padstack definitions -/

/-- `Pad` without the anti pad (src/extension/xfl/EXflObjects.h:66-73) -/
structure XPad where
  sigLyr : Int
  shapeId : Int
  rot : Int
  deriving DecidableEq

/-- `Padstack` (src/extension/xfl/EXflObjects.h:75-79) -/
structure XPadstack where
  id : Int
  pads : List XPad
  deriving DecidableEq

/-- `Via` (src/extension/xfl/EXflObjects.h:81-90) without the fields that are not imported -/
structure XVia where
  name : String
  padstackId : Int
  shapeId : Int
  shapeRot : Int
  material : String
  deriving DecidableEq

/-- the layer maps and padstack definitions of the database, by name -/
structure PDb (K : Type) where
  maps : List (String × LayerMap.BiMap)
  defs : List (String × Pad.Data (Shape K))

/-- The loop over the pads (src/extension/xfl/ECadExtXflHandler.cpp:153-170).  `lm` is the layer map, null when its name was
in use. -/
def padLoop (tmpl : List (Int × Shape K)) (metal : List (Int × Int)) (d : Pad.Data (Shape K)) (lm : Option LayerMap.BiMap) (i : Nat) :
    List XPad → Res (Pad.Data (Shape K) × Option LayerMap.BiMap)
  | [] => .ok (d, lm)
  | p :: ps =>
    match UMap.find? tmpl p.shapeId with
    | none => padLoop tmpl metal d lm (i + 1) ps
    | some s =>
      (Pad.setPad d (i : Int) ⟨some (.templ Aff.one s), (0, 0), p.rot⟩).bind fun r =>
      match UMap.find? metal p.sigLyr with
      | none => padLoop tmpl metal r.2 lm (i + 1) ps
      | some l =>
        match lm with
        | none => .ub
        | some m => padLoop tmpl metal r.2 (some (LayerMap.setMapping m (i : Int) l)) (i + 1) ps

/-- One turn of the loop of `ImportPadstackDefs` (src/extension/xfl/ECadExtXflHandler.cpp:119-175).  A definition whose name
is in use is a null pointer, used at 174. -/
def viaStep (tmpl : List (Int × Shape K)) (metal : List (Int × Int)) (mats : List (String × String)) (pstks : List (Int × XPadstack))
    (db : PDb K) (v : XVia) : Res (PDb K) :=
  match UMap.find? pstks v.padstackId with
  | none => .ok db
  | some ps =>
    match UMap.find? tmpl v.shapeId with
    | none => .ok db
    | some ts =>
      if v.material ≠ "" ∧ UMap.count mats v.material = false then .ok db
      else
        let d : Pad.Data (Shape K) := Pad.Data.init
        let d := if v.material ≠ "" then { d with material := (UMap.find? mats v.material).getD "" } else d
        let d := Pad.setVia d ⟨some (.templ Aff.one ts), (0, 0), v.shapeRot⟩
        let fresh := !UMap.count db.maps v.name
        let d := Pad.setLayers d ((List.range ps.pads.length).map fun i => "layer_" ++ toString (i + 1))
        (padLoop tmpl metal d (if fresh then some LayerMap.new else none) 0 ps.pads).bind fun r =>
        let maps := match r.2 with
          | some m => db.maps ++ [(v.name, m)]
          | none => db.maps
        if UMap.count db.defs v.name then .ub
        else .ok ⟨maps, db.defs ++ [(v.name, r.1)]⟩

/-- `ImportPadstackDefs` (src/extension/xfl/ECadExtXflHandler.cpp:114-177). -/
def importVias (tmpl : List (Int × Shape K)) (metal : List (Int × Int)) (mats : List (String × String)) (pstks : List (Int × XPadstack)) :
    PDb K → List XVia → Res (PDb K)
  | db, [] => .ok db
  | db, v :: vs => (viaStep tmpl metal mats pstks db v).bind fun db' => importVias tmpl metal mats pstks db' vs

/-! ### connection objects -/

/-- `InstObject` (src/extension/xfl/EXflObjects.h:114-137) -/
inductive Obj (K : Type)
  | path (layer : Int) (width : K) (p : List (Seg K))
  | via (sLayer eLayer : Int) (name : String) (loc : K × K) (rot : Int) (mirror : Char)
  | bondwire
  | polygon (isVoid : Bool) (layer : Int) (pts : List (K × K))
  | rectangle (isVoid : Bool) (layer : Int) (w h : K) (loc : K × K)
  | square (isVoid : Bool) (layer : Int) (w : K) (loc : K × K)
  | diamond (isVoid : Bool) (layer : Int) (w : K) (loc : K × K)
  | circle (isVoid : Bool) (layer : Int) (d : K) (loc : K × K)
  | annular (layer : Int) (outer inner : K) (loc : K × K)
  | composite (isVoid : Bool) (layer : Int) (l : List (Seg K))
  | shape (isVoid : Bool) (layer : Int) (id : Int) (loc : K × K) (rot : Int) (mirror : Char) (rotThenMirror : Bool)
  deriving DecidableEq

/-- `EMirror2D` (src/basic/ETransform.h:8) as far as used -/
inductive Mir | no | x | y
  deriving DecidableEq, Repr

/-- `makeETransform2D(1.0, rot, off, mirror)` as a matrix (src/basic/ETransform.h:25-34, 122-130): turned, then mirrored
about an axis, then shifted. -/
def mat (R : Int → K × K) (rot : Int) (off : K × K) (mir : Mir) : Aff K :=
  let r : Aff K := if rot = 0 then Aff.one else ⟨(R rot).1, -(R rot).2, (R rot).2, (R rot).1, 0, 0⟩
  let m : Aff K := match mir with
    | .no => Aff.one
    | .x => ⟨1, 0, 0, -1, 0, 0⟩
    | .y => ⟨-1, 0, 0, 1, 0, 0⟩
  (⟨1, 0, 0, 1, off.1, off.2⟩ : Aff K).comp (m.comp r)

/-- `makeEPoint2D` (src/extension/xfl/ECadExtXflHandler.h:54-57) -/
def mkPt (scale : K) (p : K × K) : K × K := (scale * p.1, scale * p.2)

/-- `isHole` (src/extension/xfl/ECadExtXflHandler.cpp:421-431) -/
def Obj.isHole : Obj K → Bool
  | .polygon v _ _ => v
  | .rectangle v _ _ _ _ => v
  | .square v _ _ _ => v
  | .diamond v _ _ _ => v
  | .circle v _ _ _ => v
  | .composite v _ _ => v
  | .shape v _ _ _ _ _ _ => v
  | _ => false

/-- What the import of connection objects reads: the getter, the templates, the metal layers, the names of layer maps and
padstack definitions, cosine and sine. -/
structure Env (K : Type) where
  G : Getter K
  tmpl : List (Int × Shape K)
  metal : List (Int × Int)
  hasMap : String → Bool
  hasDef : String → Bool
  R : Int → K × K

variable (E : Env K)

/-- mirror of a template shape (src/extension/xfl/ECadExtXflHandler.cpp:475-476) -/
def mirOf (c : Char) : Mir := if c == 'N' then .no else if c == 'X' then .x else .y

/-- `makeEShapeFromInstObject` (src/extension/xfl/ECadExtXflHandler.cpp:433-490). -/
def Env.mkShape : Obj K → Res (Int × Option (Shape K))
  | .polygon _ lyr pts => (E.G.get (.polygon pts)).bind fun s => .ok (lyr, some s)
  | .rectangle _ lyr w h loc =>
    (E.G.get (.rectangle w h)).bind fun s => .ok (lyr, some (s.transform (mat E.R 0 (mkPt E.G.scale loc) .no)))
  | .square _ lyr w loc =>
    (E.G.get (.square w)).bind fun s => .ok (lyr, some (s.transform (mat E.R 0 (mkPt E.G.scale loc) .no)))
  | .diamond _ lyr w loc =>
    (E.G.get (.diamond w)).bind fun s => .ok (lyr, some (s.transform (mat E.R 0 (mkPt E.G.scale loc) .no)))
  | .circle _ lyr d loc =>
    (E.G.get (.circle d)).bind fun s => .ok (lyr, some (s.transform (mat E.R 0 (mkPt E.G.scale loc) .no)))
  | .composite _ lyr l => (E.G.get (.composite l)).bind fun s => .ok (lyr, some s)
  | .shape _ lyr id loc rot mirror rtm =>
    match UMap.find? E.tmpl id with
    | none => .ok (lyr, none)
    | some ts =>
      let s : Shape K := .templ Aff.one ts
      let m := mirOf mirror
      if rtm then .ok (lyr, some (s.transform (mat E.R rot (mkPt E.G.scale loc) m)))
      else
        let s := s.transform (mat E.R 0 (0, 0) m)
        .ok (lyr, some (s.transform (mat E.R rot (mkPt E.G.scale loc) .no)))
  | _ => .ok (-1, none)

/-- The loop of `GetNextPadstackInstName` (src/extension/xfl/ECadExtXflHandler.cpp:406-418), at most `fuel` turns. -/
def instNameLoop (used : List String) (defName : String) (fuel index : Nat) : Option String :=
  match fuel with
  | 0 => none
  | fuel + 1 =>
    let instName := defName ++ "_inst_" ++ toString index
    if !used.contains instName then some instName else instNameLoop used defName fuel (index + 1)

/-- `GetNextPadstackInstName`: enough turns to leave the loop (`c88_names`). -/
def nextInstName (used : List String) (defName : String) : String :=
  (instNameLoop used defName (used.length + 1) 1).getD ""

/-- what is put into the layout -/
inductive Out (K : Type)
  /-- `CreateGeometry2D` -/
  | geom (layer net : Int) (s : Shape K)
  /-- `CreatePadstackInst` -/
  | inst (name defName : String) (net top bot : Int) (m : Aff K)
  deriving DecidableEq

/-- The inner loop (src/extension/xfl/ECadExtXflHandler.cpp:320-326): the holes and the objects not consumed. -/
def Env.holes (lyr : Int) : List (Obj K) → Res (List (Shape K) × List (Obj K))
  | [] => .ok ([], [])
  | o :: r =>
    if !o.isHole then .ok ([], o :: r)
    else (E.mkShape o).bind fun x =>
      match x.2 with
      | none => .ok ([], o :: r)
      | some s =>
        if x.1 ≠ lyr then .ok ([], o :: r)
        else (Env.holes lyr r).bind fun y => .ok (s :: y.1, y.2)

/-- One turn of the loop over the objects of a route (src/extension/xfl/ECadExtXflHandler.cpp:239-349): names in use, what is
created, objects left. -/
def Env.step (net : Int) (used : List String) (o : Obj K) (r : List (Obj K)) : Res (List String × List (Out K) × List (Obj K)) :=
  match o with
  -- 241-256
  | .path layer width p =>
    match UMap.find? E.metal layer with
    | none => .ok (used, [], r)
    | some l =>
      (E.G.composite p).bind fun ps =>
      if ps.length = 0 then .ok (used, [], r)
      else .ok (used, [.geom l net (.path ps (width * E.G.scale))], r)
  -- 258-286
  | .via sLayer eLayer name loc rot mirror =>
    match UMap.find? E.metal sLayer, UMap.find? E.metal eLayer with
    | some s, some e =>
      if E.hasMap name = false then .ok (used, [], r)
      else if E.hasDef name = false then .ok (used, [], r)
      else
        let m : Mir := if mirror == 'Y' || mirror == '1' then .y else .no
        let n := nextInstName used name
        .ok (n :: used, [.inst n name net s e (mat E.R rot (mkPt E.G.scale loc) m)], r)
    | _, _ => .ok (used, [], r)
  -- 288-291
  | .bondwire => .ok (used, [], r)
  -- 293-307
  | .annular layer outer inner loc =>
    match UMap.find? E.metal layer with
    | none => .ok (used, [], r)
    | some l =>
      (E.G.get (.annular outer inner)).bind fun s =>
      if !s.isValid then .ok (used, [], r)
      else .ok (used, [.geom l net (s.transform (mat E.R 0 (mkPt E.G.scale loc) .no))], r)
  -- 309-349
  | o =>
    if o.isHole then .ok (used, [], r)
    else (E.mkShape o).bind fun x =>
      match UMap.find? E.metal x.1 with
      | none => .ok (used, [], r)
      | some l =>
        match x.2 with
        | none => .ok (used, [], r)
        | some s =>
          (E.holes x.1 r).bind fun y =>
          if y.1.isEmpty then
            if !s.isValid then .ok (used, [], y.2)
            else .ok (used, [.geom l net s], y.2)
          else
            let pwh : Shape K := .holes (s.contour E.G.lib.toLib) (y.1.map fun h => h.contour E.G.lib.toLib)
            if !pwh.isValid then .ok (used, [], y.2)
            else .ok (used, [.geom l net pwh], y.2)

/-- The loop over the objects of a route (src/extension/xfl/ECadExtXflHandler.cpp:238-350).  Every turn consumes an object, so
that as many turns as there are objects are enough. -/
def Env.route (net : Int) : Nat → List String → List (Obj K) → Res (List String × List (Out K))
  | _, used, [] => .ok (used, [])
  | 0, used, _ => .ok (used, [])
  | n + 1, used, o :: r =>
    (E.step net used o r).bind fun x =>
    (Env.route net n x.1 x.2.2).bind fun y => .ok (y.1, x.2.1 ++ y.2)

/-- `ImportConnObjs` (src/extension/xfl/ECadExtXflHandler.cpp:225-352); `netId` is `FindNetByName`. -/
def Env.routes (netId : String → Option Int) : List String → List (String × List (Obj K)) → Res (List String × List (Out K))
  | used, [] => .ok (used, [])
  | used, (n, objs) :: rs =>
    match netId n with
    | none => Env.routes netId used rs
    | some i =>
      (E.route i objs.length used objs).bind fun x =>
      (Env.routes netId x.1 rs).bind fun y => .ok (y.1, x.2 ++ y.2)

/-! ### board outline -/

/-- `BoardGeom` (src/extension/xfl/EXflObjects.h:63-64) -/
inductive Board (K : Type)
  | polygon (pts : List (K × K))
  | composite (l : List (Seg K))
  | shape (id : Int) (loc : K × K) (rot : Int) (mirror : Char) (rotThenMirror : Bool)

/-- `ImportBoardGeom` (src/extension/xfl/ECadExtXflHandler.cpp:354-390): the boundary set, if one is.  With a template shape the
shape is assigned to a local variable that hides the one used afterwards (374): a null pointer is used at 388. -/
def Env.board : Option (Board K) → Res (Option (List (K × K)))
  | none => .ok none
  | some (.polygon pts) => (E.G.get (.polygon pts)).bind fun s => .ok (some (s.contour E.G.lib.toLib))
  | some (.composite l) => (E.G.get (.composite l)).bind fun s => .ok (some (s.contour E.G.lib.toLib))
  | some (.shape id _ _ _ _) =>
    match UMap.find? E.tmpl id with
    | none => .ok none
    | some _ => .ub

end Ecad.Xfl
