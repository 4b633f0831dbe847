import Verif.Base.Res
import Verif.Base.UMap
import Verif.Net.Model
import Verif.Layer.Model
/-!
Import of DMC/DOM files (src/extension/dmcdom/ECadExtDmcDomHandler.cpp:67-186), from the records and points read on.

`next` is incremented once more after the end of the records is reached (150) or if there are none (98); the pointer is not read
then, and the increment is not modelled.
-/
namespace Ecad.Dmc

/-- `EDmcData` (src/extension/dmcdom/ECadExtDmcDomHandler.h:11-23) without the bounding box -/
structure Rec where
  isVia : Bool
  isHole : Bool
  netId : Int
  layerId : Int
  sigLyr1 : Int
  sigLyr2 : Int
  points : Nat
  netName : String
  lyrName : String
  deriving DecidableEq, Repr

/-- a polygon with holes -/
structure Shape (P : Type) where
  outline : List P
  holes : List (List P)
  deriving DecidableEq, Repr

/-- a geometry of the layout: layer, net and shape -/
structure Geom (P : Type) where
  layer : Int
  net : Int
  shape : Shape P
  deriving DecidableEq, Repr

/-- what the loop has made so far: nets, layers, the maps of the function (src/extension/dmcdom/ECadExtDmcDomHandler.cpp:89-93),
geometries and the vias to be made -/
structure St (P : Type) where
  coll : Net.Coll := {}
  layers : List Layer.Lyr := []
  netMap : List (Int × Int) := []
  lyrMap : List (Int × Int) := []
  sigMap : List (Int × Int) := []
  geoms : List (Geom P) := []
  vias : List (Int × Int × Int × Shape P) := []

variable {P : Type}

/-- `std::advance(ptEnd, n)` and the points from `ptBegin` to `ptEnd` (src/extension/dmcdom/ECadExtDmcDomHandler.cpp:109-112, 117-121);
advancing beyond the end of the points is undefined. -/
def run (n : Nat) (pts : List P) : Res (List P × List P) :=
  if n ≤ pts.length then .ok (pts.take n, pts.drop n) else .ub

/-- the loop over the holes after an outline (src/extension/dmcdom/ECadExtDmcDomHandler.cpp:113-122): the holes, the records and the
points that remain -/
def holes : List Rec → List P → Res (List (List P) × List Rec × List P)
  | [], pts => .ok ([], [], pts)
  | r :: rs, pts =>
    if r.isHole then (run r.points pts).bind fun x => (holes rs x.2).bind fun y => .ok (x.1 :: y.1, y.2)
    else .ok ([], r :: rs, pts)

/-- the net of a record (src/extension/dmcdom/ECadExtDmcDomHandler.cpp:130-133): for a name that is taken `CreateNet` gives null, which
is dereferenced -/
def ensureNet (s : St P) (r : Rec) : Res (St P) :=
  if UMap.count s.netMap r.netId then .ok s
  else
    match Net.createNet s.coll r.netName with
    | (_, none) => .ub
    | (c, some n) => .ok { s with coll := c, netMap := (UMap.emplace s.netMap r.netId n.id).1 }

/-- the layer of a record that is not a via (src/extension/dmcdom/ECadExtDmcDomHandler.cpp:140-146) -/
def ensureLayer (s : St P) (r : Rec) : St P :=
  let s := if UMap.count s.lyrMap r.layerId then s
    else
      let x := Layer.append s.layers ⟨r.lyrName, .conducting, LayerMap.noLayer, 0⟩
      { s with layers := x.1, lyrMap := (UMap.emplace s.lyrMap r.layerId x.2).1 }
  if UMap.count s.sigMap r.sigLyr1 then s else { s with sigMap := (UMap.emplace s.sigMap r.sigLyr1 r.layerId).1 }

/-- `map.at` -/
def atKey (m : List (Int × Int)) (k : Int) : Res Int :=
  match UMap.find? m k with
  | some v => .ok v
  | none => .exn

/-- net, layer and geometry of an outline record (src/extension/dmcdom/ECadExtDmcDomHandler.cpp:130-148) -/
def place (s : St P) (r : Rec) (shape : Shape P) : Res (St P) :=
  (ensureNet s r).bind fun s =>
    if r.isVia then .ok { s with vias := s.vias ++ [(r.netId, r.sigLyr1, r.sigLyr2, shape)] }
    else
      let s := ensureLayer s r
      (atKey s.lyrMap r.layerId).bind fun l => (atKey s.netMap r.netId).bind fun n =>
        .ok { s with geoms := s.geoms ++ [⟨l, n, shape⟩] }

/-- the loop over the records (src/extension/dmcdom/ECadExtDmcDomHandler.cpp:101-151); the fuel is the number of records -/
def walk : Nat → St P → List Rec → List P → Res (St P)
  | 0, s, _, _ => .ok s
  | _ + 1, s, [], _ => .ok s
  | n + 1, s, r :: rs, pts =>
    if r.isHole then walk n s rs pts
    else
      (run r.points pts).bind fun x => (holes rs x.2).bind fun y =>
        (place s r ⟨x.1, y.1⟩).bind fun s => walk n s y.2.1 y.2.2

/-- a padstack instance made for a via -/
structure Inst (P : Type) where
  name : String
  net : Int
  top : Int
  bot : Int
  shape : Shape P
  deriving DecidableEq, Repr

/-- the loop over the vias (src/extension/dmcdom/ECadExtDmcDomHandler.cpp:170-184), the first being number `i` -/
def makeVias (s : St P) : Nat → List (Int × Int × Int × Shape P) → Res (List (Inst P))
  | _, [] => .ok []
  | i, (n, l1, l2, sh) :: vs =>
    (atKey s.netMap n).bind fun net =>
    (atKey s.sigMap l1).bind fun a => (atKey s.lyrMap a).bind fun top =>
    (atKey s.sigMap l2).bind fun b => (atKey s.lyrMap b).bind fun bot =>
    (makeVias s (i + 1) vs).bind fun rest => .ok (⟨"via_" ++ toString i, net, top, bot, sh⟩ :: rest)

/-- `CreateDatabase` (src/extension/dmcdom/ECadExtDmcDomHandler.cpp:89-186) up to `AddDefaultDielectricLayers`, which is undefined
without layers -/
def importDmc (recs : List Rec) (pts : List P) : Res (St P × List (Inst P)) :=
  (walk recs.length {} recs pts).bind fun s => (makeVias s 1 s.vias).bind fun insts =>
    (Layer.addDefaultDielectric s.layers).bind fun _ => .ok (s, insts)

end Ecad.Dmc
