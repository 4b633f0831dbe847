import Verif.KiCad.BoardModel
/-!
KiCad import (src/extension/kicad/ECadExtKiCadHandler.cpp, EKiCadObjects.h, EKiCadObjects.cpp): collecting the segments, zones, vias,
drawings, pads and footprints of a board.

`none` stands for `invalidIndex`, except for the net of a pad, which has no initial value (EKiCadObjects.h:136): there it
stands for an indeterminate value.  The points of the library `generic` start at the origin.  `mv` is what the standard library
leaves in a string that has been moved from; the usual implementations leave the empty string.
-/
namespace Ecad.KiCad

/-- a range based `for`: the body may fail -/
def foldR {σ α : Type} (f : σ → α → Res σ) : σ → List α → Res σ
  | s, [] => .ok s
  | s, a :: as => (f s a).bind fun s => foldR f s as

/-- the i-th value read by `GetValue` (src/extension/kicad/ECadExtKiCadHandler.h:57-64): reading past the end is undefined -/
def val (b : List Tree) (i : Nat) : Res (List Char) := (Res.index b i).bind fun t => .ok t.value

/-- `Stroke` (src/extension/kicad/EKiCadObjects.h:37-48) -/
structure Stroke (K : Type) where
  solid : Bool
  fill : Bool
  layer : Option Nat
  width : K
  deriving DecidableEq

/-- `Arc` (src/extension/kicad/EKiCadObjects.h:50-54); type, fill and layer keep their initial values -/
structure Arc (K : Type) where
  angle : K
  start : K × K
  fin : K × K
  width : K
  deriving DecidableEq

/-- `Line` (src/extension/kicad/EKiCadObjects.h:56-60) -/
structure Line (K : Type) where
  stroke : Stroke K
  start : K × K
  fin : K × K
  deriving DecidableEq

/-- `Circle` (src/extension/kicad/EKiCadObjects.h:62-66) -/
structure Circle (K : Type) where
  stroke : Stroke K
  center : K × K
  fin : K × K
  deriving DecidableEq

/-- `Poly` (src/extension/kicad/EKiCadObjects.h:68-71) -/
structure Poly (K : Type) where
  stroke : Stroke K
  shape : List (K × K)
  deriving DecidableEq

/-- `Via::Type` (src/extension/kicad/EKiCadObjects.h:104) -/
inductive VType where
  | through
  | micro
  | blind
  deriving DecidableEq

/-- `Via` (src/extension/kicad/EKiCadObjects.h:102-111); the size of the drill is never set -/
structure Via (K : Type) where
  type : VType
  net : Option Nat
  size : K
  pos : K × K
  layer0 : Option Nat
  layer1 : Option Nat
  deriving DecidableEq

/-- `Segment` (src/extension/kicad/EKiCadObjects.h:113-120) -/
structure Segment (K : Type) where
  net : Option Nat
  layer : Option Nat
  width : K
  start : K × K
  fin : K × K
  deriving DecidableEq

/-- `Zone` (src/extension/kicad/EKiCadObjects.h:122-128) -/
structure Zone (K : Type) where
  net : Option Nat
  layer : Option Nat
  polygon : List (K × K)
  filled : List (List (K × K))
  deriving DecidableEq

/-- `Pad::Type` (src/extension/kicad/EKiCadObjects.h:132) -/
inductive PType where
  | unknown
  | smd
  | thruHole
  | connect
  | npThruHole
  deriving DecidableEq

/-- `Pad::Shape` (src/extension/kicad/EKiCadObjects.h:133) -/
inductive PShape where
  | unknown
  | rect
  | roundrect
  | circle
  | oval
  | trapezoid
  deriving DecidableEq

/-- `Pad` (src/extension/kicad/EKiCadObjects.h:130-146) -/
structure Pad (K : Type) where
  type : PType
  shape : PShape
  net : Option Nat
  angle : K
  ratio : K
  pos : K × K
  size : K × K
  name : List Char
  polygon : List (K × K)
  layers : List Nat
  deriving DecidableEq

/-- `Component` (src/extension/kicad/EKiCadObjects.h:159-180) -/
structure Comp (K : Type) where
  flipped : Bool
  layer : Option Nat
  loc : K × K
  angle : K
  name : List Char
  vias : List (Via K)
  arcs : List (Arc K)
  pads : List (Pad K)
  lines : List (Line K)
  polys : List (Poly K)
  zones : List (Zone K)
  circles : List (Circle K)
  segments : List (Segment K)
  deriving DecidableEq

variable {K : Type} [Field K]

/-- `FindLayer` (src/extension/kicad/EKiCadObjects.cpp:107-112): the number of the layer found -/
def findId (ls : List (List Char × KLayer K)) (name : List Char) : Option Nat := (UMap.find? ls name).map KLayer.id

/-- two numbers at the beginning of the values (src/extension/kicad/ECadExtKiCadHandler.h:57-64) -/
def getPair (cv : Conv K) (b : List Tree) : Res (K × K) :=
  (val b 0).bind fun x => (val b 1).bind fun y => .ok (cv.num x, cv.num y)

/-- one number (src/extension/kicad/ECadExtKiCadHandler.h:57-64) -/
def getNum (cv : Conv K) (b : List Tree) : Res K := (val b 0).bind fun x => .ok (cv.num x)

/-- one index (src/extension/kicad/ECadExtKiCadHandler.h:57-64) -/
def getIdx (cv : Conv K) (b : List Tree) : Res Nat := (val b 0).bind fun x => .ok (cv.index x)

/-- the layer named by the first value, if there is one, otherwise the one of before -/
def getLayer (fl : List Char → Option Nat) (old : Option Nat) (b : List Tree) : Res (Option Nat) :=
  (val b 0).bind fun x => .ok ((fl x).or old)

/-- `Stroke::SetType` and `SetFill` (src/extension/kicad/EKiCadObjects.cpp:6-16) -/
def setSolid (old : Bool) (s : List Char) : Bool := if s = "solid".toList then true else old

/-- One node of `ExtractStroke` (src/extension/kicad/ECadExtKiCadHandler.cpp:321-332) -/
def strokeAttr (cv : Conv K) (fl : List Char → Option Nat) (s : Stroke K) (a : Tree) : Res (Stroke K) :=
  if a.value = "width".toList then (getNum cv a.branches).bind fun w => .ok { s with width := w }
  else if a.value = "type".toList then (val a.branches 0).bind fun x => .ok { s with solid := setSolid s.solid x }
  else if a.value = "fill".toList then (val a.branches 0).bind fun x => .ok { s with fill := setSolid s.fill x }
  else if a.value = "layer".toList then (getLayer fl s.layer a.branches).bind fun l => .ok { s with layer := l }
  else .ok s

/-- `ExtractStroke` (src/extension/kicad/ECadExtKiCadHandler.cpp:319-333) -/
def extractStroke (cv : Conv K) (fl : List Char → Option Nat) (s : Stroke K) (b : List Tree) : Res (Stroke K) :=
  foldR (strokeAttr cv fl) s b

/-- the stroke of a new object (src/extension/kicad/EKiCadObjects.h:41-44) -/
def Stroke.new : Stroke K := ⟨false, false, none, 0⟩

/-- `ExtractPoints` (src/extension/kicad/ECadExtKiCadHandler.cpp:306-317): the last point is dropped if it equals the first -/
def extractPoints [DecidableEq K] (cv : Conv K) (b : List Tree) : Res (List (K × K)) :=
  (foldR (fun ps (s : Tree) => (getPair cv s.branches).bind fun p => .ok (ps ++ [p])) [] b).bind fun ps =>
    match ps.getLast?, ps.head? with
    | some z, some a => .ok (if z = a then ps.dropLast else ps)
    | _, _ => .ub

/-- One node of `ExtractSegment` (src/extension/kicad/ECadExtKiCadHandler.cpp:139-152) -/
def segAttr (cv : Conv K) (fl : List Char → Option Nat) (s : Segment K) (a : Tree) : Res (Segment K) :=
  if a.value = "start".toList then (getPair cv a.branches).bind fun p => .ok { s with start := p }
  else if a.value = "end".toList then (getPair cv a.branches).bind fun p => .ok { s with fin := p }
  else if a.value = "width".toList then (getNum cv a.branches).bind fun w => .ok { s with width := w }
  else if a.value = "net".toList then (getIdx cv a.branches).bind fun n => .ok { s with net := some n }
  else if a.value = "layer".toList then (getLayer fl s.layer a.branches).bind fun l => .ok { s with layer := l }
  else .ok s

/-- `ExtractSegment` (src/extension/kicad/ECadExtKiCadHandler.cpp:136-154) -/
def extractSegment (cv : Conv K) (fl : List Char → Option Nat) (b : List Tree) : Res (Segment K) :=
  foldR (segAttr cv fl) ⟨none, none, 0, (0, 0), (0, 0)⟩ b

/-- a `pts` node of the polygon of a zone (src/extension/kicad/ECadExtKiCadHandler.cpp:166-169) -/
def zonePts [DecidableEq K] (cv : Conv K) (ps : List (K × K)) (a : Tree) : Res (List (K × K)) :=
  if a.value = "pts".toList then extractPoints cv a.branches else .ok ps

/-- a `pts` node of a filled polygon of a zone (src/extension/kicad/ECadExtKiCadHandler.cpp:172-175) -/
def zoneFill [DecidableEq K] (cv : Conv K) (fs : List (List (K × K))) (a : Tree) : Res (List (List (K × K))) :=
  if a.value = "pts".toList then (extractPoints cv a.branches).bind fun ps => .ok (fs ++ [ps]) else .ok fs

/-- One node of `ExtractZone` (src/extension/kicad/ECadExtKiCadHandler.cpp:159-178) -/
def zoneAttr [DecidableEq K] (cv : Conv K) (fl : List Char → Option Nat) (z : Zone K) (a : Tree) : Res (Zone K) :=
  if a.value = "net".toList then (getIdx cv a.branches).bind fun n => .ok { z with net := some n }
  else if a.value = "layer".toList then (getLayer fl z.layer a.branches).bind fun l => .ok { z with layer := l }
  else if a.value = "polygon".toList then (foldR (zonePts cv) z.polygon a.branches).bind fun ps => .ok { z with polygon := ps }
  else if a.value = "filled_polygon".toList then (foldR (zoneFill cv) z.filled a.branches).bind fun fs => .ok { z with filled := fs }
  else .ok z

/-- `ExtractZone` (src/extension/kicad/ECadExtKiCadHandler.cpp:156-180) -/
def extractZone [DecidableEq K] (cv : Conv K) (fl : List Char → Option Nat) (b : List Tree) : Res (Zone K) :=
  foldR (zoneAttr cv fl) ⟨none, none, [], []⟩ b

/-- One node of `ExtractVia` (src/extension/kicad/ECadExtKiCadHandler.cpp:186-203); for the layers `at` throws -/
def viaAttr (cv : Conv K) (fl : List Char → Option Nat) (v : Via K) (a : Tree) : Res (Via K) :=
  if a.value = "at".toList then (getPair cv a.branches).bind fun p => .ok { v with pos := p }
  else if a.value = "size".toList then (getNum cv a.branches).bind fun w => .ok { v with size := w }
  else if a.value = "net".toList then (getIdx cv a.branches).bind fun n => .ok { v with net := some n }
  else if a.value = "layers".toList then
    (Res.at_ a.branches 0).bind fun x => (Res.at_ a.branches 1).bind fun y =>
      .ok { v with layer0 := (fl x.value).or v.layer0, layer1 := (fl y.value).or v.layer1 }
  else if a.value = "micro".toList then .ok { v with type := .micro }
  else if a.value = "bline".toList then .ok { v with type := .blind }
  else .ok v

/-- `ExtractVia` (src/extension/kicad/ECadExtKiCadHandler.cpp:182-205) -/
def extractVia (cv : Conv K) (fl : List Char → Option Nat) (b : List Tree) : Res (Via K) :=
  foldR (viaAttr cv fl) ⟨.through, none, 0, (0, 0), none, none⟩ b

/-- One node of `ExtractCircle` (src/extension/kicad/ECadExtKiCadHandler.cpp:210-217) -/
def circleAttr (cv : Conv K) (fl : List Char → Option Nat) (c : Circle K) (a : Tree) : Res (Circle K) :=
  if a.value = "center".toList then (getPair cv a.branches).bind fun p => .ok { c with center := p }
  else if a.value = "end".toList then (getPair cv a.branches).bind fun p => .ok { c with fin := p }
  else if a.value = "stroke".toList then (extractStroke cv fl c.stroke a.branches).bind fun s => .ok { c with stroke := s }
  else .ok c

/-- `ExtractCircle` (src/extension/kicad/ECadExtKiCadHandler.cpp:207-219) -/
def extractCircle (cv : Conv K) (fl : List Char → Option Nat) (b : List Tree) : Res (Circle K) :=
  foldR (circleAttr cv fl) ⟨Stroke.new, (0, 0), (0, 0)⟩ b

/-- One node of `ExtractPoly` (src/extension/kicad/ECadExtKiCadHandler.cpp:224-229) -/
def polyAttr [DecidableEq K] (cv : Conv K) (fl : List Char → Option Nat) (p : Poly K) (a : Tree) : Res (Poly K) :=
  if a.value = "pts".toList then (extractPoints cv a.branches).bind fun ps => .ok { p with shape := ps }
  else if a.value = "stroke".toList then (extractStroke cv fl p.stroke a.branches).bind fun s => .ok { p with stroke := s }
  else .ok p

/-- `ExtractPoly` (src/extension/kicad/ECadExtKiCadHandler.cpp:221-231) -/
def extractPoly [DecidableEq K] (cv : Conv K) (fl : List Char → Option Nat) (b : List Tree) : Res (Poly K) :=
  foldR (polyAttr cv fl) ⟨Stroke.new, []⟩ b

/-- `ExtractArc` (src/extension/kicad/ECadExtKiCadHandler.cpp:233-241): by position; `at` throws -/
def extractArc (cv : Conv K) (b : List Tree) : Res (Arc K) :=
  (Res.at_ b 0).bind fun t0 => (getPair cv t0.branches).bind fun s =>
  (Res.at_ b 1).bind fun t1 => (getPair cv t1.branches).bind fun e =>
  (Res.at_ b 2).bind fun t2 => (getNum cv t2.branches).bind fun a =>
  (Res.at_ b 4).bind fun t4 => (getNum cv t4.branches).bind fun w => .ok ⟨a, s, e, w⟩

/-- One node of `ExtractLine` (src/extension/kicad/ECadExtKiCadHandler.cpp:246-253) -/
def lineAttr (cv : Conv K) (fl : List Char → Option Nat) (l : Line K) (a : Tree) : Res (Line K) :=
  if a.value = "start".toList then (getPair cv a.branches).bind fun p => .ok { l with start := p }
  else if a.value = "end".toList then (getPair cv a.branches).bind fun p => .ok { l with fin := p }
  else if a.value = "stroke".toList then (extractStroke cv fl l.stroke a.branches).bind fun s => .ok { l with stroke := s }
  else .ok l

/-- `ExtractLine` (src/extension/kicad/ECadExtKiCadHandler.cpp:243-255) -/
def extractLine (cv : Conv K) (fl : List Char → Option Nat) (b : List Tree) : Res (Line K) :=
  foldR (lineAttr cv fl) ⟨Stroke.new, (0, 0), (0, 0)⟩ b

/-- `Pad::SetType` (src/extension/kicad/EKiCadObjects.cpp:18-30) -/
def padType (s : List Char) : PType :=
  if s = "smd".toList then .smd
  else if s = "thru_hole".toList then .thruHole
  else if s = "connect".toList then .connect
  else if s = "np_thru_hole".toList then .npThruHole
  else .unknown

/-- `Pad::SetShape` (src/extension/kicad/EKiCadObjects.cpp:32-46) -/
def padShape (s : List Char) : PShape :=
  if s = "rect".toList then .rect
  else if s = "roundrect".toList then .roundrect
  else if s = "circle".toList then .circle
  else if s = "oval".toList then .oval
  else if s = "trapezoid".toList then .trapezoid
  else .unknown

/-- `TryGetValue` of one number (src/extension/kicad/ECadExtKiCadHandler.h:66-75): a missing one changes nothing -/
def tryNum (cv : Conv K) (old : K) (b : List Tree) (i : Nat) : K := (b[i]?.map fun t => cv.num t.value).getD old

/-- a drawing of a pad (src/extension/kicad/ECadExtKiCadHandler.cpp:282-286) -/
def padPrim [DecidableEq K] (cv : Conv K) (ps : List (K × K)) (a : Tree) : Res (List (K × K)) :=
  if a.value = "gr_poly".toList then (Res.index a.branches 0).bind fun t => extractPoints cv t.branches else .ok ps

/-- One node of `ExtractPad` (src/extension/kicad/ECadExtKiCadHandler.cpp:266-288) -/
def padAttr [DecidableEq K] (cv : Conv K) (fl : List Char → Option Nat) (p : Pad K) (a : Tree) : Res (Pad K) :=
  if a.value = "at".toList then .ok { p with
    pos := (tryNum cv p.pos.1 a.branches 0, tryNum cv p.pos.2 a.branches 1), angle := tryNum cv p.angle a.branches 2 }
  else if a.value = "size".toList then (getPair cv a.branches).bind fun s => .ok { p with size := s }
  else if a.value = "layers".toList then .ok { p with layers := p.layers ++ a.branches.filterMap fun t => fl t.value }
  else if a.value = "roundrect_rratio".toList then (getNum cv a.branches).bind fun r => .ok { p with ratio := r }
  else if a.value = "net".toList then (getIdx cv a.branches).bind fun n => .ok { p with net := some n }
  else if a.value = "primitives".toList then (foldR (padPrim cv) p.polygon a.branches).bind fun ps => .ok { p with polygon := ps }
  else .ok p

/-- the outlines of oval and rectangular pads (src/extension/kicad/ECadExtKiCadHandler.cpp:290-302) -/
def padOutline (p : Pad K) : Pad K :=
  match p.shape with
  | .oval => { p with polygon := p.polygon ++ [(p.size.2 / -2, 0), (p.size.2 / 2, 0)] }
  | .rect => { p with polygon := p.polygon ++ [(p.size.1 / -2, p.size.2 / 2), (p.size.1 / 2, p.size.2 / 2),
      (p.size.1 / 2, p.size.2 / -2), (p.size.1 / -2, p.size.2 / -2)] }
  | _ => p

/-- `ExtractPad` (src/extension/kicad/ECadExtKiCadHandler.cpp:257-304); `n` is the number for the next pad without a name; the result
has the next such number -/
def extractPad [DecidableEq K] (cv : Conv K) (fl : List Char → Option Nat) (n : Nat) (b : List Tree) : Res (Pad K × Nat) :=
  (val b 0).bind fun name => (val b 1).bind fun ty => (val b 2).bind fun sh =>
    let named := if name = [] then ("Unnamed".toList ++ (Nat.repr n).toList, n + 1) else (name, n)
    (foldR (padAttr cv fl) ⟨padType ty, padShape sh, none, 0, 0, (0, 0), (0, 0), named.1, [], []⟩ (b.drop 3)).bind fun p =>
      .ok (padOutline p, named.2)

/-- a component as it is created (src/extension/kicad/EKiCadObjects.h:159-180) -/
def Comp.new (name : List Char) : Comp K := ⟨false, none, (0, 0), 0, name, [], [], [], [], [], [], [], []⟩

/-- The state of the handler: what is in `m_kicad`, `m_current.noNamePadId` and the component `m_current.comp`
(`none`: the board itself) (src/extension/kicad/ECadExtKiCadHandler.h:91-112) -/
structure St (K : Type) where
  db : KDb K
  comps : List (List Char × Comp K)
  root : Comp K
  noName : Nat
  cur : Option (List Char)

/-- a component is changed in place -/
def St.onComp (s : St K) (key : List Char) (f : Comp K → Comp K) : St K :=
  { s with comps := s.comps.map fun e => if e.1 = key then (e.1, f e.2) else e }

/-- `m_current.comp` is changed -/
def St.onCur (s : St K) (f : Comp K → Comp K) : St K :=
  match s.cur with
  | none => { s with root := f s.root }
  | some k => s.onComp k f

/-- `FindLayer` on the layers collected so far -/
def St.fl (s : St K) : List Char → Option Nat := findId s.db.layers

/-- `ExtractPad` and where the pad goes (src/extension/kicad/ECadExtKiCadHandler.cpp:257-304) -/
def padNode [DecidableEq K] (cv : Conv K) (s : St K) (t : Tree) : Res (St K) :=
  (extractPad cv s.fl s.noName t.branches).bind fun r =>
    .ok { s.onCur (fun c => { c with pads := c.pads ++ [r.1] }) with noName := r.2 }

/-- `ExtractNode` for the drawings, by the table of functions (src/extension/kicad/ECadExtKiCadHandler.cpp:11-26, 57-62); nodes not
in the table are passed over -/
def drawNode [DecidableEq K] (cv : Conv K) (s : St K) (t : Tree) : Res (St K) :=
  if t.value = "segment".toList then (extractSegment cv s.fl t.branches).bind fun x => .ok (s.onCur fun c => { c with segments := c.segments ++ [x] })
  else if t.value = "zone".toList then (extractZone cv s.fl t.branches).bind fun x => .ok (s.onCur fun c => { c with zones := c.zones ++ [x] })
  else if t.value = "via".toList then (extractVia cv s.fl t.branches).bind fun x => .ok (s.onCur fun c => { c with vias := c.vias ++ [x] })
  else if t.value = "pad".toList then padNode cv s t
  else if t.value = "fp_arc".toList ∨ t.value = "gr_arc".toList then
    (extractArc cv t.branches).bind fun x => .ok (s.onCur fun c => { c with arcs := c.arcs ++ [x] })
  else if t.value = "fp_line".toList ∨ t.value = "gr_line".toList then
    (extractLine cv s.fl t.branches).bind fun x => .ok (s.onCur fun c => { c with lines := c.lines ++ [x] })
  else if t.value = "fp_poly".toList then (extractPoly cv s.fl t.branches).bind fun x => .ok (s.onCur fun c => { c with polys := c.polys ++ [x] })
  else if t.value = "fp_circle".toList ∨ t.value = "gr_circle".toList then
    (extractCircle cv s.fl t.branches).bind fun x => .ok (s.onCur fun c => { c with circles := c.circles ++ [x] })
  else .ok s

/-- `AddComponent` (src/extension/kicad/EKiCadObjects.cpp:87-91): `Component(std::move(name))` is made before `emplace` copies its first
argument, which is the string moved from -/
def addComponent (mv : List Char → List Char) (comps : List (List Char × Comp K)) (name : List Char) : List (List Char × Comp K) :=
  (UMap.emplace comps (mv name) (Comp.new name)).1

/-- the nodes `layer` and `at` of a footprint (src/extension/kicad/ECadExtKiCadHandler.cpp:121-126), which go to the component of the
footprint -/
def fpLayer (s : St K) (key : List Char) (b : List Tree) : Res (St K) :=
  (val b 0).bind fun x =>
    .ok (s.onComp key fun c => { c with layer := s.fl x, flipped := decide (s.fl x ≠ some 0) })

def fpAt (cv : Conv K) (s : St K) (key : List Char) (b : List Tree) : St K :=
  s.onComp key fun c => { c with
    loc := (tryNum cv c.loc.1 b 0, tryNum cv c.loc.2 b 1), angle := tryNum cv c.angle b 2 }

/-- `ExtractNode` (src/extension/kicad/ECadExtKiCadHandler.cpp:57-62) with `ExtractFootprint` (114-134), of a node up to a depth of
`setup` and `footprint` nodes -/
def node [DecidableEq K] (cv : Conv K) (mv : List Char → List Char) : Nat → St K → Tree → Res (St K)
  | 0, s, _ => .ok s
  | n + 1, s, t =>
    if t.value = "layers".toList then (extractLayers cv s.db t.branches).bind fun db => .ok { s with db := db }
    else if t.value = "stackup".toList then (stackupEntries cv s.db t.branches).bind fun db => .ok { s with db := db }
    else if t.value = "net".toList then (extractNet cv s.db t).bind fun db => .ok { s with db := db }
    else if t.value = "setup".toList then foldR (node cv mv n) s t.branches
    else if t.value = "footprint".toList then
      (val t.branches 0).bind fun name =>
        (foldR (fun s a =>
          if a.value = "layer".toList then fpLayer s (mv name) a.branches
          else if a.value = "at".toList then .ok (fpAt cv s (mv name) a.branches)
          else if a.value = "pad".toList then padNode cv s a
          else node cv mv n s a)
          { s with comps := addComponent mv s.comps name, cur := some (mv name) } (t.branches.drop 1)).bind fun s =>
          .ok { s with cur := none }
    else drawNode cv s t

/-- the state at the beginning (src/extension/kicad/ECadExtKiCadHandler.cpp:50-51) -/
def St.new : St K := ⟨{}, [], Comp.new [], 0, none⟩

/-- `ExtractKiCadObjects` (src/extension/kicad/ECadExtKiCadHandler.cpp:41-55) after the reading of the tree -/
def collect [DecidableEq K] (cv : Conv K) (mv : List Char → List Char) (depth : Nat) (t : Tree) : Res (St K) :=
  foldR (node cv mv depth) St.new t.branches

end Ecad.KiCad
