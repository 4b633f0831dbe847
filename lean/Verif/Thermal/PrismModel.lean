import Verif.Thermal.OpsModel
import Verif.Thermal.GridTModel
/-!
Prism thermal models and the network built from them:
src/extraction/thermal/EThermalModelExtraction.cpp (GeneratePrismThermalModel), src/model/thermal/EPrismThermalModel.{h,cpp},
src/solver/thermal/utils/EPrismThermalNetworkBuilder.cpp.

Simplifications: numbers are elements of an ordered field; what the geometry library computes for the
triangles of the mesh (areas, lengths, distances, in metres) and what a material library answers are parameters; the
search for the polygon a triangle lies in (EThermalModelExtraction.cpp:233-238, 244-251) is a parameter `info`; vertex
points of the prisms and the counters of the summary (see SummaryModel) are left out; `noNeighbor` is `none`.
-/
namespace Ecad.PrismT
open Ecad.Thermal Ecad.GridT

variable {K : Type} [Field K] [LinearOrder K]

/-! ### extraction -/

/-- What lines 233-251 of src/extraction/thermal/EThermalModelExtraction.cpp find for a triangle that becomes an
element: material, and power ratio, scenario and loss power table if it dissipates. -/
structure Cell (K : Type) where
  mat : Nat
  power : Option (K × Nat × (K → K))

/-- `PrismElement` (src/model/thermal/EPrismThermalModel.h:54-82) -/
structure Elem (K : Type) where
  cell : Cell K
  id : Nat
  tri : Nat
  edge : Fin 3 → Option Nat
  top : Option Nat
  bot : Option Nat

/-- the neighbours of the triangles of the mesh, `tri::Triangulation` of the library -/
abbrev Mesh := List (Fin 3 → Option Nat)

/-- One triangle in `buildOnePrismLayer` (src/extraction/thermal/EThermalModelExtraction.cpp:232-252) with
`PrismLayer::AddElement` (src/model/thermal/EPrismThermalModel.h:107-113) -/
def addTriangle (info : Nat → Option (Cell K)) (s : List (Elem K) × List (Nat × Nat)) (it : Nat) :
    List (Elem K) × List (Nat × Nat) :=
  match info it with
  | none => s
  | some c => (s.1 ++ [⟨c, s.1.length, it, fun _ => none, none, none⟩], (UMap.emplace s.2 it s.1.length).1)

/-- `buildOnePrismLayer` (src/extraction/thermal/EThermalModelExtraction.cpp:228-254): elements of a layer and the map
from triangles to elements -/
def buildLayer (tris : Nat) (info : Nat → Option (Cell K)) : List (Elem K) × List (Nat × Nat) :=
  (List.range tris).foldl (addTriangle info) ([], [])

/-- The neighbours within a layer (src/extraction/thermal/EThermalModelExtraction.cpp:264-272);
`triangles.at` throws for an unknown triangle. -/
def linkEdges (mesh : Mesh) (map : List (Nat × Nat)) : List (Elem K) → Res (List (Elem K))
  | [] => .ok []
  | e :: es =>
    match mesh[e.tri]? with
    | none => .exn
    | some nb => (linkEdges mesh map es).bind fun es =>
      .ok ({ e with edge := fun n => (nb n).bind (UMap.find? map) } :: es)

/-- The neighbours in the layer below (src/extraction/thermal/EThermalModelExtraction.cpp:277-284) -/
def linkDown (lowerMap : List (Nat × Nat)) : List (Elem K) → List (Elem K) → Res (List (Elem K) × List (Elem K))
  | [], lower => .ok ([], lower)
  | e :: es, lower =>
    match UMap.find? lowerMap e.tri with
    | none => (linkDown lowerMap es lower).bind fun r => .ok (e :: r.1, r.2)
    | some id =>
      match lower[id]? with
      | none => .exn
      | some l => (linkDown lowerMap es (lower.modify id fun l => { l with top := some e.id })).bind fun r =>
        .ok ({ e with bot := some l.id } :: r.1, r.2)

/-- The loop that connects the layers (src/extraction/thermal/EThermalModelExtraction.cpp:260-286) -/
def connect (mesh : Mesh) : List (List (Elem K) × List (Nat × Nat)) → Res (List (List (Elem K)))
  | [] => .ok []
  | [l] => (linkEdges mesh l.2 l.1).bind fun es => .ok [es]
  | l :: l' :: rest =>
    (linkEdges mesh l.2 l.1).bind fun es =>
    (linkDown l'.2 es l'.1).bind fun r =>
    (connect mesh ((r.2, l'.2) :: rest)).bind fun ls => .ok (r.1 :: ls)
  termination_by l => l.length

/-- The layers of `GeneratePrismThermalModel` (src/extraction/thermal/EThermalModelExtraction.cpp:210-286) -/
def extract (mesh : Mesh) (layers : Nat) (info : Nat → Nat → Option (Cell K)) : Res (List (List (Elem K))) :=
  connect mesh ((List.range layers).map fun l => buildLayer mesh.length (info l))

/-! ### numbering -/

/-- `m_indexOffset` (src/model/thermal/EPrismThermalModel.cpp:92-94): the sizes of the layers added up -/
def offsets : Nat → List Nat → List Nat
  | s, [] => [s]
  | s, n :: sizes => s :: offsets (s + n) sizes

/-- `TotalPrismElements` (src/model/thermal/EPrismThermalModel.h:260-263) -/
def totalPrisms (off : List Nat) : Nat := off.getLastD 0

/-- `GlobalIndex` (src/model/thermal/EPrismThermalModel.h:265-268) -/
def globalIndex (off : List Nat) (lyr ele : Nat) : Res Nat := (Res.index off lyr).bind fun o => .ok (o + ele)

/-- the loop of `PrismLocalIndex`, on the offsets from layer `lyr` on -/
def localFrom (index : Nat) : Nat → List Nat → Res (Nat × Nat)
  | lyr, a :: b :: rest => if a ≤ index ∧ index < b then .ok (lyr, index - a) else localFrom index (lyr + 1) (b :: rest)
  | _, _ => .ub

/-- `PrismLocalIndex` (src/model/thermal/EPrismThermalModel.h:270-275): past the last layer the loop reads behind the
vector. -/
def localIndex (off : List Nat) (index : Nat) : Res (Nat × Nat) := localFrom index 0 off

/-- `LineLocalIndex` (src/model/thermal/EPrismThermalModel.h:277-281); the assertion may be off, and the
subtraction wraps around. -/
def lineLocalIndex (off : List Nat) (index : Nat) : Nat :=
  if totalPrisms off ≤ index then index - totalPrisms off else 2 ^ 64 - (totalPrisms off - index)

/-- `isPrima` (src/model/thermal/EPrismThermalModel.h:283-286) -/
def isPrima (off : List Nat) (index : Nat) : Bool := index < totalPrisms off

/-- The id given to the n-th line element (src/model/thermal/EPrismThermalModel.cpp:76-77) -/
def lineId (off : List Nat) (n : Nat) : Nat := totalPrisms off + (n + 1) - 1

/-- `PrismInstance` (src/model/thermal/EPrismThermalModel.h:139-162) together with its element -/
structure Prism (K : Type) where
  layer : Nat
  elem : Elem K
  edge : Fin 3 → Option Nat
  top : Option Nat
  bot : Option Nat

/-- an array of three -/
def three {α : Type} (a b c : α) (n : Fin 3) : α := if n = 0 then a else if n = 1 then b else c

/-- a neighbour in a layer, as global index -/
def toGlobal (off : List Nat) (lyr : Nat) : Option Nat → Res (Option Nat)
  | none => .ok none
  | some n => (globalIndex off lyr n).bind fun g => .ok (some g)

/-- One element in `BuildPrismModel` (src/model/thermal/EPrismThermalModel.cpp:109-111, 132-148); above the first layer
the index of the layer wraps around. -/
def makePrism (off : List Nat) (layers : List (List (Elem K))) (i : Nat) : Res (Prism K) :=
  (localIndex off i).bind fun p =>
  (Res.index layers p.1).bind fun layer =>
  (Res.at_ layer p.2).bind fun e =>
  (toGlobal off p.1 (e.edge 0)).bind fun e0 =>
  (toGlobal off p.1 (e.edge 1)).bind fun e1 =>
  (toGlobal off p.1 (e.edge 2)).bind fun e2 =>
  (toGlobal off (pred64 p.1) e.top).bind fun t =>
  (toGlobal off (p.1 + 1) e.bot).bind fun b =>
  .ok ⟨p.1, e, three e0 e1 e2, t, b⟩

/-- the elements in a loop -/
def mapRes {α β : Type} (f : α → Res β) : List α → Res (List β)
  | [] => .ok []
  | a :: l => (f a).bind fun b => (mapRes f l).bind fun bs => .ok (b :: bs)

/-- `BuildPrismModel` (src/model/thermal/EPrismThermalModel.cpp:88-150): offsets and prisms -/
def buildPrisms (layers : List (List (Elem K))) : Res (List Nat × List (Prism K)) :=
  let off := offsets 0 (layers.map List.length)
  (mapRes (makePrism off layers) (List.range (totalPrisms off))).bind fun ps => .ok (off, ps)

/-! ### network -/

/-- `LineElement` (src/model/thermal/EPrismThermalModel.h:26-52), with length and cross section in metres -/
structure Line (K : Type) where
  id : Nat
  mat : Nat
  scen : Nat
  length : K
  area : K
  current : K
  front : List Nat
  back : List Nat

/-- A bond wire as `AddBondWiresFromLayerCutModel` reads it: number of points, material, scenario, current, length and
cross section of each segment, and the prisms found at the first and the last point. -/
structure Wire (K : Type) where
  points : Nat
  mat : Nat
  scen : Nat
  current : K
  length : Nat → K
  area : K
  start : List Nat
  fin : List Nat

/-- One segment (src/model/thermal/EPrismThermalModel.cpp:159-181, `AddLineElement` 73-86): a new line, connected with the
prism at the start or with the line before, and at the end of the wire with the prism there -/
def addSeg (off : List Nat) (w : Wire K) (lines : List (Line K)) (curr : Nat) : List (Line K) :=
  let id := lineId off lines.length
  let front := if curr = 0 then w.start else (lines.getLast?.map Line.id).toList
  let back := if curr + 1 = w.points - 1 then w.fin else []
  let prev := if curr = 0 then lines else lines.modify (lines.length - 1) fun l => { l with back := l.back ++ [id] }
  prev ++ [⟨id, w.mat, w.scen, w.length curr, w.area, w.current, front, back⟩]

/-- One wire (src/model/thermal/EPrismThermalModel.cpp:155-183); without points the number of segments wraps around and
`pts.at(0)` throws. -/
def addWire (off : List Nat) (lines : List (Line K)) (w : Wire K) : Res (List (Line K)) :=
  if w.points = 0 then .exn else .ok ((List.range (w.points - 1)).foldl (addSeg off w) lines)

/-- `AddBondWiresFromLayerCutModel` (src/model/thermal/EPrismThermalModel.cpp:152-185) -/
def addWires (off : List Nat) : List (Line K) → List (Wire K) → Res (List (Line K))
  | lines, [] => .ok lines
  | lines, w :: ws => (addWire off lines w).bind fun lines => addWires off lines ws

/-- The prism model as the builder reads it. The geometry in metres: area and side lengths of triangles, distance of
the centre to a side and between centres, and the thickness of layers; the materials: thermal conductivity, specific heat,
density, resistivity. A block boundary condition comes with the test whether the centre of a triangle is in the
block. -/
structure PModel (K : Type) where
  off : List Nat
  prisms : List (Prism K)
  lines : List (Line K)
  area : Nat → K
  edgeLen : Nat → Fin 3 → K
  toSide : Nat → Fin 3 → K
  dist : Nat → Nat → K
  height : Nat → K
  k : Nat → K → Fin 3 → K
  heat : Nat → K → K
  rho : Nat → K → K
  resist : Nat → K → K
  topBC : Option (BC K)
  botBC : Option (BC K)
  topBlocks : List (BC K × (Nat → Bool))
  botBlocks : List (BC K × (Nat → Bool))

/-- `TotalElements` (src/model/thermal/EPrismThermalModel.h:250-253) -/
def PModel.total (m : PModel K) : Nat := m.lines.length + totalPrisms m.off

/-- The resistance over a side (src/solver/thermal/utils/EPrismThermalNetworkBuilder.cpp:81, 86-98, 288-294) -/
def PModel.sideR (m : PModel K) (p q : Prism K) (e : Fin 3) (tp tq : K) : K :=
  let vArea := m.height p.layer * m.edgeLen p.elem.tri e
  let kxy := 1 / 2 * (m.k p.elem.cell.mat tp 0 + m.k p.elem.cell.mat tp 1)
  let d := m.toSide p.elem.tri e
  let kNb := 1 / 2 * (m.k q.elem.cell.mat tq 0 + m.k q.elem.cell.mat tq 1)
  d / kxy / vArea + (m.dist p.elem.tri q.elem.tri - d) / kNb / vArea

/-- The resistance to the layer above or below (src/solver/thermal/utils/EPrismThermalNetworkBuilder.cpp:121-126, 146-151) -/
def PModel.vertR (m : PModel K) (p q : Prism K) (tp tq : K) : K :=
  (1 / 2 * m.height p.layer / m.k p.elem.cell.mat tp 2 + 1 / 2 * m.height q.layer / m.k q.elem.cell.mat tq 2) / m.area p.elem.tri

/-- A connection of element `i`, in one direction only; `GetPrism` and `iniT.at` throw for an unknown element. -/
def PModel.link (m : PModel K) (iniT : List K) (i : Nat) (n : Option Nat) (r : Prism K → K → K) : List (Res (Op K)) :=
  match n with
  | none => []
  | some n =>
    if i < n then
      match m.prisms[n]?, iniT[n]? with
      | some q, some t => [.ok (.r i n (r q t))]
      | _, _ => [.exn]
    else []

/-- A uniform boundary condition on an element without neighbour above or below
(src/solver/thermal/utils/EPrismThermalNetworkBuilder.cpp:105-119, 130-144) -/
def PModel.bcOps (m : PModel K) (bc : Option (BC K)) (i : Nat) (p : Prism K) (n : Option Nat) : List (Res (Op K)) :=
  match n, bc with
  | none, some ⟨.htc, some v⟩ => [.ok (.htc i (v * m.area p.elem.tri))]
  | none, some ⟨.heatFlux, some v⟩ => [.ok (.hf i (v * m.area p.elem.tri))]
  | _, _ => []

/-- The power of an element (src/solver/thermal/utils/EPrismThermalNetworkBuilder.cpp:62-68) -/
def powerOps (i : Nat) (p : Prism K) (t : K) : List (Res (Op K)) :=
  match p.elem.cell.power with
  | some (ratio, scen, lut) => [.ok (.addHF i (lut t * ratio)), .ok (.scen i scen)]
  | none => []

/-- One element of `BuildPrismElement` (src/solver/thermal/utils/EPrismThermalNetworkBuilder.cpp:60-152) -/
def PModel.elemOps (m : PModel K) (iniT : List K) (i : Nat) : List (Res (Op K)) :=
  match m.prisms[i]?, iniT[i]? with
  | some p, some t =>
    powerOps i p t ++
    [.ok (.c i (m.heat p.elem.cell.mat t * m.rho p.elem.cell.mat t * (m.area p.elem.tri * m.height p.layer)))] ++
    m.link iniT i (p.edge 0) (fun q tq => m.sideR p q 0 t tq) ++
    m.link iniT i (p.edge 1) (fun q tq => m.sideR p q 1 t tq) ++
    m.link iniT i (p.edge 2) (fun q tq => m.sideR p q 2 t tq) ++
    m.bcOps m.topBC i p p.top ++ m.link iniT i p.top (fun q tq => m.vertR p q t tq) ++
    m.bcOps m.botBC i p p.bot ++ m.link iniT i p.bot (fun q tq => m.vertR p q t tq)
  | _, _ => [.exn]

/-- `GetLineJouleHeat` (src/solver/thermal/utils/EPrismThermalNetworkBuilder.cpp:319-325) -/
def PModel.joule (m : PModel K) (l : Line K) (t : K) : K :=
  if l.current = 0 then 0 else m.resist l.mat t * l.length * l.current * l.current / l.area

/-- the mean of the conductivities (src/solver/thermal/utils/EPrismThermalNetworkBuilder.cpp:175, 187) -/
def PModel.aveK (m : PModel K) (mat : Nat) (t : K) : K := (m.k mat t 0 + m.k mat t 1 + m.k mat t 2) / 3

/-- `setR` in `BuildLineElement` (src/solver/thermal/utils/EPrismThermalNetworkBuilder.cpp:179-193) -/
def PModel.lineR (m : PModel K) (l : Line K) (t : K) (nb : Nat) : List (Res (Op K)) :=
  if isPrima m.off nb then [.ok (.r nb l.id (1 / 2 * l.length / m.aveK l.mat t / l.area))]
  else if l.id < nb then
    match m.lines[lineLocalIndex m.off nb]? with
    | some q => [.ok (.r l.id nb (1 / 2 * l.length / m.aveK l.mat t / l.area + 1 / 2 * q.length / m.aveK q.mat t / q.area))]
    | none => [.exn]
  else []

/-- One line of `BuildLineElement` (src/solver/thermal/utils/EPrismThermalNetworkBuilder.cpp:159-196) -/
def PModel.lineOps (m : PModel K) (iniT : List K) (l : Line K) : List (Res (Op K)) :=
  match iniT[l.id]? with
  | none => [.exn]
  | some t =>
    [.ok (.c l.id (m.heat l.mat t * m.rho l.mat t * (l.area * l.length))), .ok (.scen l.id l.scen)] ++
    (if 0 < m.joule l t then [.ok (.addHF l.id (m.joule l t))] else []) ++
    l.front.flatMap (m.lineR l t) ++ l.back.flatMap (m.lineR l t)

/-- A block boundary condition (src/solver/thermal/utils/EPrismThermalNetworkBuilder.cpp:209-237): the elements in the
block without neighbour on that side, layer by layer; within a layer the order of the spatial index is
replaced by that of the elements. -/
def PModel.blockOps (m : PModel K) (side : Elem K → Option Nat) (b : BC K × (Nat → Bool)) : List (Res (Op K)) :=
  match b.1.value with
  | none => []
  | some v => m.prisms.zipIdx.filterMap fun p =>
    if b.2 p.1.elem.tri ∧ side p.1.elem = none then
      match b.1.type with
      | .heatFlux => some (.ok (.hf p.2 (v * m.area p.1.elem.tri)))
      | .htc => some (.ok (.htc p.2 (v * m.area p.1.elem.tri)))
    else none

/-- `ApplyBlockBCs` (src/solver/thermal/utils/EPrismThermalNetworkBuilder.cpp:200-243) -/
def PModel.blocksOps (m : PModel K) : List (Res (Op K)) :=
  m.topBlocks.flatMap (m.blockOps Elem.top) ++ m.botBlocks.flatMap (m.blockOps Elem.bot)

/-- The blocks of elements for the threads (src/solver/thermal/utils/EPrismThermalNetworkBuilder.cpp:30-46): pairs of begin
and end. `n` is the number of workers of the pool. -/
def threadBlocks (size n : Nat) : List (Nat × Nat) :=
  let blockSize := size / n
  let full := if blockSize > 0 then (List.range n).map fun i => (i * blockSize, (i + 1) * blockSize) else []
  let begin_ := if blockSize > 0 then n * blockSize else 0
  full ++ if begin_ ≠ size then [(begin_, size)] else []

/-- the calls for a range of elements -/
def PModel.rangeOps (m : PModel K) (iniT : List K) (b : Nat × Nat) : List (Res (Op K)) :=
  (List.range' b.1 (b.2 - b.1)).flatMap (m.elemOps iniT)

/-- All calls of `Build` on one thread (src/solver/thermal/utils/EPrismThermalNetworkBuilder.cpp:46-49) -/
def PModel.ops (m : PModel K) (iniT : List K) : List (Res (Op K)) :=
  m.rangeOps iniT (0, totalPrisms m.off) ++ m.lines.flatMap (m.lineOps iniT) ++ m.blocksOps

/-- `Build` (src/solver/thermal/utils/EPrismThermalNetworkBuilder.cpp:21-51) on one thread; `none` is the null pointer. -/
def PModel.build (minR : K) (m : PModel K) (iniT : List K) : Res (Option (Network K)) :=
  if iniT.length ≠ m.total then .ok none
  else (run minR (Network.new noScen m.total) (m.ops iniT)).bind fun net => .ok (some net)

end Ecad.PrismT
