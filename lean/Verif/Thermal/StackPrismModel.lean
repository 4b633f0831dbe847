import Verif.Thermal.PrismModel
/-!
Stackup prism thermal models, in which every layer has a mesh of its own, and the network built from them:
src/extraction/thermal/EThermalModelExtraction.cpp (GenerateStackupPrismThermalModel),
src/model/thermal/utils/EStackupPrismThermalModelBuilder.cpp, EStackupPrismThermalModelQuery.cpp,
src/solver/thermal/utils/EStackupPrismThermalNetworkBuilder.cpp.

Simplifications: as for prism models (Verif/Thermal/PrismModel.lean).  What the geometry library computes for triangles
(areas, whether bounding boxes intersect, the area two triangles have in common) is a parameter; the entries found by the spatial
index come in the order of the elements.
-/
namespace Ecad.PrismT
open Ecad.Thermal Ecad.GridT

variable {K : Type} [Field K] [LinearOrder K]

/-! ### extraction -/

/-- Line 443-444 of src/extraction/thermal/EThermalModelExtraction.cpp: every element is its own neighbour above and
below ("todo") -/
def selfNb (e : Elem K) : Elem K := { e with top := some e.id, bot := some e.id }

/-- A layer (src/extraction/thermal/EThermalModelExtraction.cpp:398-424, 430-446): its elements and their neighbours in the mesh
of the layer -/
def stackLayer (mesh : Mesh) (info : Nat → Option (Cell K)) : Res (List (Elem K)) :=
  let l := buildLayer mesh.length info
  (linkEdges mesh l.2 l.1).bind fun es => .ok (es.map selfNb)

/-- The layers of `GenerateStackupPrismThermalModel` (src/extraction/thermal/EThermalModelExtraction.cpp:380-446);
`meshes` are the meshes of the layers (`layer2Template`, 343-356). -/
def stackLayers (meshes : List Mesh) (info : Nat → Nat → Option (Cell K)) : Res (List (List (Elem K))) :=
  mapRes (fun m => stackLayer m.1 (info m.2)) meshes.zipIdx

/-! ### contacts -/

/-- What the geometry library says about the triangles of the meshes, given by layer and number: their areas, whether the
bounding boxes of two intersect, and the area two have in common (`GetIntersectArea`,
src/model/thermal/utils/EStackupPrismThermalModelBuilder.cpp:134-141), in coordinate units. -/
structure Tris (K : Type) where
  area : Nat → Nat → K
  meet : Nat → Nat → Nat → Nat → Bool
  overlap : Nat → Nat → Nat → Nat → K

/-- `PrismInstance` (src/model/thermal/EPrismThermalModel.h:139-162) with its contacts above and below: index and ratio
(`ContactInstance`, 120-136) -/
structure SPrism (K : Type) where
  base : Prism K
  up : List (Nat × K)
  down : List (Nat × K)

/-- One element in the first loop of `BuildPrismModel`
(src/model/thermal/utils/EStackupPrismThermalModelBuilder.cpp:31-49): neighbours in the layer only -/
def makeSide (off : List Nat) (layers : List (List (Elem K))) (i : Nat) : Res (Prism K) :=
  (localIndex off i).bind fun p =>
  (Res.index layers p.1).bind fun layer =>
  (Res.at_ layer p.2).bind fun e =>
  (toGlobal off p.1 (e.edge 0)).bind fun e0 =>
  (toGlobal off p.1 (e.edge 1)).bind fun e1 =>
  (toGlobal off p.1 (e.edge 2)).bind fun e2 =>
  .ok ⟨p.1, e, three e0 e1 e2, none, none⟩

/-- The entries of the spatial index of a layer (`BuildLayerIndexTree`,
src/model/thermal/utils/EStackupPrismThermalModelQuery.cpp:42-57) -/
def layerPrisms (off : List Nat) (ps : List (Prism K)) (l : Nat) : Res (List (Nat × Prism K)) :=
  (Res.at_ off l).bind fun lo =>
  (Res.at_ off (l + 1)).bind fun hi =>
  mapRes (fun j => (Res.at_ ps j).bind fun q => .ok (j, q)) (List.range' lo (hi - lo))

/-- One search result (src/model/thermal/utils/EStackupPrismThermalModelBuilder.cpp:73-77, 88-92 and
`IntersectsPrismInstances`, EStackupPrismThermalModelQuery.cpp:27-40) -/
def contact (g : Tris K) (p : Prism K) (q : Nat × Prism K) : Option (Nat × K) :=
  if g.meet p.layer p.elem.tri q.2.layer q.2.elem.tri = true ∧ 0 < g.overlap p.layer p.elem.tri q.2.layer q.2.elem.tri then
    some (q.1, g.overlap p.layer p.elem.tri q.2.layer q.2.elem.tri / g.area p.layer p.elem.tri)
  else none

/-- The contacts of an instance in layer `l` (src/model/thermal/utils/EStackupPrismThermalModelBuilder.cpp:71-77, 86-92) -/
def contacts (g : Tris K) (off : List Nat) (ps : List (Prism K)) (p : Prism K) (l : Nat) : Res (List (Nat × K)) :=
  (layerPrisms off ps l).bind fun qs => .ok (qs.filterMap (contact g p))

/-- One turn of `BuildPrismInstanceTopBotNeighbors`
(src/model/thermal/utils/EStackupPrismThermalModelBuilder.cpp:63-97).  The array of the two lists of contacts is never `empty()`
(78, 93), so that every instance not in the outer layer is its own neighbour there.  It writes to instance `i` only, and reads
layer and element of others, which no turn changes. -/
def topBot (g : Tris K) (layers : Nat) (off : List Nat) (ps : List (Prism K)) (i : Nat) : Res (SPrism K) :=
  (Res.index ps i).bind fun p =>
  (localIndex off i).bind fun li =>
  (if li.1 = 0 then .ok [] else contacts g off ps p (li.1 - 1)).bind fun up =>
  (if li.1 + 1 = layers then .ok [] else contacts g off ps p (li.1 + 1)).bind fun down =>
  .ok ⟨{ p with top := if li.1 = 0 then none else some i, bot := if li.1 + 1 = layers then none else some i }, up, down⟩

/-- consecutive entries -/
def pairs : List Nat → List (Nat × Nat)
  | a :: b :: l => (a, b) :: pairs (b :: l)
  | _ => []

/-- The ranges of elements (src/model/thermal/utils/EStackupPrismThermalModelBuilder.cpp:51-57): one per layer with
several threads, otherwise one for all -/
def stackBlocks (off : List Nat) (threads : Nat) : List (Nat × Nat) :=
  if 1 < threads then pairs off else [(0, totalPrisms off)]

/-- `EStackupPrismThermalModelBuilder::BuildPrismModel`
(src/model/thermal/utils/EStackupPrismThermalModelBuilder.cpp:20-58) on a model without instances -/
def buildStack (g : Tris K) (layers : List (List (Elem K))) (threads : Nat) : Res (List Nat × List (SPrism K)) :=
  let off := offsets 0 (layers.map List.length)
  (mapRes (makeSide off layers) (List.range (totalPrisms off))).bind fun ps =>
  (mapRes (topBot g layers.length off ps) ((stackBlocks off threads).flatMap fun b => List.range' b.1 (b.2 - b.1))).bind fun sps =>
  .ok (off, sps)

/-! ### network -/

/-- The stackup prism model as the network builder reads it: as `PModel`, with geometry by layer and triangle.  A block
boundary condition comes with the area of the block and the test whether the bounding box of a triangle meets the block. -/
structure SModel (K : Type) where
  off : List Nat
  prisms : List (SPrism K)
  lines : List (Line K)
  area : Nat → Nat → K
  edgeLen : Nat → Nat → Fin 3 → K
  toSide : Nat → Nat → Fin 3 → K
  dist : Nat → Nat → Nat → K
  height : Nat → K
  k : Nat → K → Fin 3 → K
  heat : Nat → K → K
  rho : Nat → K → K
  resist : Nat → K → K
  topBC : Option (BC K)
  botBC : Option (BC K)
  topBlocks : List (BC K × K × (Nat → Nat → Bool))
  botBlocks : List (BC K × K × (Nat → Nat → Bool))

/-- what `BuildLineElement`, inherited from `EPrismThermalNetworkBuilder`, reads -/
def SModel.wires (m : SModel K) : PModel K :=
  { off := m.off, prisms := m.prisms.map SPrism.base, lines := m.lines, area := fun _ => 0, edgeLen := fun _ _ => 0,
    toSide := fun _ _ => 0, dist := fun _ _ => 0, height := m.height, k := m.k, heat := m.heat, rho := m.rho,
    resist := m.resist, topBC := m.topBC, botBC := m.botBC, topBlocks := [], botBlocks := [] }

/-- `TotalElements` (src/model/thermal/EPrismThermalModel.h:250-253) -/
def SModel.total (m : SModel K) : Nat := m.lines.length + totalPrisms m.off

/-- `GetPrismTopBotArea` (src/solver/thermal/utils/EPrismThermalNetworkBuilder.cpp:296-303) -/
def SModel.areaOf (m : SModel K) (p : SPrism K) : K := m.area p.base.layer p.base.elem.tri

/-- The resistance over a side (src/solver/thermal/utils/EStackupPrismThermalNetworkBuilder.cpp:50, 55-67) -/
def SModel.sideR (m : SModel K) (p q : SPrism K) (e : Fin 3) (tp tq : K) : K :=
  let vArea := m.height p.base.layer * m.edgeLen p.base.layer p.base.elem.tri e
  let kxy := 1 / 2 * (m.k p.base.elem.cell.mat tp 0 + m.k p.base.elem.cell.mat tp 1)
  let d := m.toSide p.base.layer p.base.elem.tri e
  let kNb := 1 / 2 * (m.k q.base.elem.cell.mat tq 0 + m.k q.base.elem.cell.mat tq 1)
  d / kxy / vArea + (m.dist p.base.layer p.base.elem.tri q.base.elem.tri - d) / kNb / vArea

/-- The resistance over a contact (src/solver/thermal/utils/EStackupPrismThermalNetworkBuilder.cpp:95-100, 143-148) -/
def SModel.contactR (m : SModel K) (p q : SPrism K) (ratio tp tq : K) : K :=
  (1 / 2 * m.height p.base.layer / m.k p.base.elem.cell.mat tp 2 +
    1 / 2 * m.height q.base.layer / m.k q.base.elem.cell.mat tq 2) / (m.areaOf p * ratio)

/-- A connection over a side, in one direction only (src/solver/thermal/utils/EStackupPrismThermalNetworkBuilder.cpp:51-68) -/
def SModel.link (m : SModel K) (iniT : List K) (i : Nat) (n : Option Nat) (r : SPrism K → K → K) : List (Res (Op K)) :=
  match n with
  | none => []
  | some n =>
    if i < n then
      match m.prisms[n]?, iniT[n]? with
      | some q, some t => [.ok (.r i n (r q t))]
      | _, _ => [.exn]
    else []

/-- One contact (src/solver/thermal/utils/EStackupPrismThermalNetworkBuilder.cpp:93-102, 141-150): contacts with a
lower number are skipped. -/
def SModel.contactOp (m : SModel K) (iniT : List K) (i : Nat) (p : SPrism K) (t : K) (c : Nat × K) : List (Res (Op K)) :=
  if c.1 < i then []
  else
    match m.prisms[c.1]?, iniT[c.1]? with
    | some q, some tq => [.ok (.r i c.1 (m.contactR p q c.2 t tq))]
    | _, _ => [.exn]

/-- the part of the face that is left (src/solver/thermal/utils/EStackupPrismThermalNetworkBuilder.cpp:90-92, 138-140) -/
def free (cs : List (Nat × K)) : K := cs.foldl (fun r c => r - c.2) 1

/-- A uniform boundary condition: `htc` is what is written for a transfer coefficient, `flux` for a flux
(src/solver/thermal/utils/EStackupPrismThermalNetworkBuilder.cpp:75-87, 104-116, 124-135, 152-164) -/
def faceOps (bc : Option (BC K)) (i : Nat) (htc flux : K → K) : List (Res (Op K)) :=
  match bc with
  | some ⟨.htc, some v⟩ => [.ok (.htc i (htc v))]
  | some ⟨.heatFlux, some v⟩ => [.ok (.hf i (flux v))]
  | _ => []

/-- the contacts of a face and the boundary condition on what is left of it
(src/solver/thermal/utils/EStackupPrismThermalNetworkBuilder.cpp:90-116, 138-164) -/
def SModel.contactsOps (m : SModel K) (iniT : List K) (i : Nat) (p : SPrism K) (t : K) (bc : Option (BC K))
    (cs : List (Nat × K)) : List (Res (Op K)) :=
  cs.flatMap (m.contactOp iniT i p t) ++
  if 0 < free cs then faceOps bc i (fun v => v * m.areaOf p * free cs) (fun v => v * m.areaOf p * free cs) else []

/-- The top (src/solver/thermal/utils/EStackupPrismThermalNetworkBuilder.cpp:72-120); a neighbour that is neither none nor the
element itself leads to an assertion, which may be off. -/
def SModel.topOps (m : SModel K) (iniT : List K) (i : Nat) (p : SPrism K) (t : K) : List (Res (Op K)) :=
  match p.base.top with
  | none => faceOps m.topBC i (fun v => v * m.areaOf p) (fun v => v * m.areaOf p)
  | some n => if i = n then m.contactsOps iniT i p t m.topBC p.up else []

/-- The bottom (src/solver/thermal/utils/EStackupPrismThermalNetworkBuilder.cpp:121-168): a flux on the bottom of the last layer is
not multiplied by the area (130). -/
def SModel.botOps (m : SModel K) (iniT : List K) (i : Nat) (p : SPrism K) (t : K) : List (Res (Op K)) :=
  match p.base.bot with
  | none => faceOps m.botBC i (fun v => v * m.areaOf p) (fun v => v)
  | some n => if i = n then m.contactsOps iniT i p t m.botBC p.down else []

/-- The calls of an element after its power (src/solver/thermal/utils/EStackupPrismThermalNetworkBuilder.cpp:39-168) -/
def SModel.restOps (m : SModel K) (iniT : List K) (i : Nat) (p : SPrism K) (t : K) : List (Res (Op K)) :=
  [.ok (.c i (m.heat p.base.elem.cell.mat t * m.rho p.base.elem.cell.mat t * (m.areaOf p * m.height p.base.layer)))] ++
    (m.link iniT i (p.base.edge 0) (fun q tq => m.sideR p q 0 t tq) ++
    (m.link iniT i (p.base.edge 1) (fun q tq => m.sideR p q 1 t tq) ++
    (m.link iniT i (p.base.edge 2) (fun q tq => m.sideR p q 2 t tq) ++
    (m.topOps iniT i p t ++ m.botOps iniT i p t))))

/-- One element of `BuildPrismElement` (src/solver/thermal/utils/EStackupPrismThermalNetworkBuilder.cpp:28-169) -/
def SModel.elemOps (m : SModel K) (iniT : List K) (i : Nat) : List (Res (Op K)) :=
  match m.prisms[i]?, iniT[i]? with
  | some p, some t => powerOps i p.base t ++ m.restOps iniT i p t
  | _, _ => [.exn]

/-- A block boundary condition (src/solver/thermal/utils/EStackupPrismThermalNetworkBuilder.cpp:184-215): the test in line 200 is on the
neighbours of the element, not of the instance. -/
def SModel.blockOps (m : SModel K) (side : Elem K → Option Nat) (b : BC K × K × (Nat → Nat → Bool)) : List (Res (Op K)) :=
  match b.1.value with
  | none => []
  | some v => m.prisms.zipIdx.filterMap fun p =>
    if b.2.2 p.1.base.layer p.1.base.elem.tri ∧ side p.1.base.elem = none then
      match b.1.type with
      | .heatFlux => some (.ok (.hf p.2 (v / b.2.1 * m.areaOf p.1)))
      | .htc => some (.ok (.htc p.2 (v * m.areaOf p.1)))
    else none

/-- `ApplyBlockBCs` (src/solver/thermal/utils/EStackupPrismThermalNetworkBuilder.cpp:173-221) -/
def SModel.blocksOps (m : SModel K) : List (Res (Op K)) :=
  m.topBlocks.flatMap (m.blockOps Elem.top) ++ m.botBlocks.flatMap (m.blockOps Elem.bot)

/-- the calls for a range of elements -/
def SModel.rangeOps (m : SModel K) (iniT : List K) (b : Nat × Nat) : List (Res (Op K)) :=
  (List.range' b.1 (b.2 - b.1)).flatMap (m.elemOps iniT)

/-- All calls of `Build`, inherited from `EPrismThermalNetworkBuilder`, on one thread
(src/solver/thermal/utils/EPrismThermalNetworkBuilder.cpp:46-49) -/
def SModel.ops (m : SModel K) (iniT : List K) : List (Res (Op K)) :=
  m.rangeOps iniT (0, totalPrisms m.off) ++ m.lines.flatMap (m.wires.lineOps iniT) ++ m.blocksOps

/-- `Build` (src/solver/thermal/utils/EPrismThermalNetworkBuilder.cpp:21-51) on one thread; `none` is the null pointer. -/
def SModel.build (minR : K) (m : SModel K) (iniT : List K) : Res (Option (Network K)) :=
  if iniT.length ≠ m.total then .ok none
  else (run minR (Network.new noScen m.total) (m.ops iniT)).bind fun net => .ok (some net)

end Ecad.PrismT
