import Verif.Thermal.OpsModel
/-!
Grid thermal models and the network built from them:
src/model/thermal/EGridThermalModel.{h,cpp}, src/model/thermal/EThermalModel.cpp,
src/solver/thermal/utils/EGridThermalNetworkBuilder.{h,cpp}.

Simplifications: numbers are elements of an ordered field, comparisons with tolerance are exact;
indices are natural numbers without wrap around, except where the code subtracts one from a size
(`pred64`); the interpolation library (boost pchip) is a parameter `ip`; the summary counters (see SummaryModel) of the
builder, names and materials of layers (constants in the code) are left out.
-/
namespace Ecad.GridT
open Ecad.Thermal

variable {K : Type} [Field K] [LinearOrder K]

/-- `ESize2D` -/
structure Size2 where
  x : Nat
  y : Nat
  deriving DecidableEq, Repr

/-- `ESize3D` -/
structure Size3 where
  x : Nat
  y : Nat
  z : Nat
  deriving DecidableEq, Repr

/-- `invalidIndex` (src/basic/ECadDef.h:76) -/
def invalidIndex : Nat := 2 ^ 64 - 1

/-- `n - 1` on `size_t` -/
def pred64 (n : Nat) : Nat := if n = 0 then invalidIndex else n - 1

/-- `GetFlattenIndex` (src/model/thermal/EGridThermalModel.h:126-129) -/
def flatten (s : Size2) (g : Size3) : Nat := s.x * s.y * g.z + s.y * g.x + g.y

/-- `GetGridIndex` (src/model/thermal/EGridThermalModel.h:131-140): division by zero is undefined. -/
def gridIndex (s : Size2) (index : Nat) : Res Size3 :=
  if s.x * s.y = 0 then .ub
  else
    let tmp := index % (s.x * s.y)
    .ok ⟨tmp / s.y, tmp % s.y, index / (s.x * s.y)⟩

/-- `Orientation` (src/solver/thermal/utils/EGridThermalNetworkBuilder.h:17) -/
inductive Orient | top | bot | left | right | front | end_
  deriving DecidableEq, Repr

/-- `GetNeighbor` (src/solver/thermal/utils/EGridThermalNetworkBuilder.cpp:306-348); `m` is `m_size`. -/
def neighbor (m g : Size3) : Orient → Size3
  | .top => { g with z := if g.z = 0 then invalidIndex else g.z - 1 }
  | .bot => { g with z := if g.z = pred64 m.z then invalidIndex else g.z + 1 }
  | .left => { g with x := if g.x = 0 then invalidIndex else g.x - 1 }
  | .right => { g with x := if g.x = pred64 m.x then invalidIndex else g.x + 1 }
  | .front => { g with y := if g.y = 0 then invalidIndex else g.y - 1 }
  | .end_ => { g with y := if g.y = pred64 m.y then invalidIndex else g.y + 1 }

/-- `isValid` of the builder (src/solver/thermal/utils/EGridThermalNetworkBuilder.h:113-117) -/
def valid (g : Size3) : Bool := g.x ≠ invalidIndex && g.y ≠ invalidIndex && g.z ≠ invalidIndex

/-! ### power -/

/-- `EGridData`, the library's occupancy grid -/
structure GridData (K : Type) where
  width : Nat
  height : Nat
  val : Nat → Nat → K

/-- `EGridDataTable` without its cache (src/model/thermal/EThermalModel.h:60-64): samples in the order of
the `std::map`. -/
structure Table (K : Type) where
  size : Size2
  samples : List (K × GridData K)

/-- `std::map::insert` -/
def insertSample (key : K) (d : GridData K) : List (K × GridData K) → List (K × GridData K)
  | [] => [(key, d)]
  | (k, e) :: t =>
    if key < k then (key, d) :: (k, e) :: t
    else if k < key then (k, e) :: insertSample key d t
    else (k, e) :: t

/-- `EGridDataTable::AddSample` (src/model/thermal/EGridThermalModel.cpp:27-34) -/
def addSample (t : Table K) (key : K) (d : GridData K) : Table K × Bool :=
  if d.width ≠ t.size.x ∨ d.height ≠ t.size.y then (t, false)
  else ({ t with samples := insertSample key d t.samples }, true)

/-- `EGridDataTable::Query` (src/model/thermal/EGridThermalModel.cpp:36-60) on a table whose interpolators
are made anew; `none` is the reported failure, `ip` the library's interpolator through the given points. -/
def query (ip : List (K × K) → K → Res K) (t : Table K) (key : K) (x y : Nat) : Res (Option K) :=
  if t.size.x ≤ x ∨ t.size.y ≤ y then .ok none
  else match t.samples with
    | [] => .ok none
    | [s] => .ok (some (s.2.val x y))
    | s :: s' :: rest =>
      let l := (s' :: rest).getLast (by simp)
      if key ≤ s.1 then .ok (some (s.2.val x y))
      else if l.1 ≤ key then .ok (some (l.2.val x y))
      else (ip (t.samples.map fun p => (p.1, p.2.val x y)) key).bind fun v => .ok (some v)

/-- `m_interpolator`: absent, present with all pointers null, present and filled
(src/model/thermal/EThermalModel.h:63) -/
inductive Cache | absent | null | filled
  deriving DecidableEq, Repr

/-- `EGridDataTable::Query` with its cache (src/model/thermal/EGridThermalModel.cpp:36-60, 100-119):
`BuildInterpolator` allocates the grid of null pointers first; if an interpolator cannot be made it stays
behind, and a later query follows the null pointer. The cache after the call comes with the result. -/
def queryC (ip : List (K × K) → K → Res K) (t : Table K) (c : Cache) (key : K) (x y : Nat) :
    Res (Option K) × Cache :=
  if t.size.x ≤ x ∨ t.size.y ≤ y then (.ok none, c)
  else match t.samples with
    | [] => (.ok none, c)
    | [s] => (.ok (some (s.2.val x y)), c)
    | s :: s' :: rest =>
      let l := (s' :: rest).getLast (by simp)
      if key ≤ s.1 then (.ok (some (s.2.val x y)), c)
      else if l.1 ≤ key then (.ok (some (l.2.val x y)), c)
      else match c with
        | .null => (.ub, .null)
        | _ =>
          match ip (t.samples.map fun p => (p.1, p.2.val x y)) key with
          | .ok v => (.ok (some v), .filled)
          | .exn => (.exn, .null)
          | .ub => (.ub, .null)

/-- `EThermalPowerModel` and its two kinds (src/model/thermal/EThermalModel.h:66-105) -/
inductive Power (K : Type) where
  | grid (t : Table K)
  | block (ll ur : Size2) (total : K)

/-- `EBlockPowerModel::Size` (src/model/thermal/EThermalModel.cpp:67-70), for `ll` below `ur` -/
def blockSize (ll ur : Size2) : Nat := (ur.y - ll.y + 1) * (ur.x - ll.x + 1)

/-- `EBlockPowerModel::Query` (src/model/thermal/EThermalModel.cpp:50-55) -/
def blockQuery (ll ur : Size2) (total : K) (x y : Nat) : Option K :=
  if ll.x ≤ x ∧ x ≤ ur.x ∧ ll.y ≤ y ∧ y ≤ ur.y then some (total / (blockSize ll ur : K)) else none

/-! ### model -/

/-- `EThermalBoundaryConditionType` (src/basic/ECadDef.h:246) -/
inductive BCType | htc | heatFlux
  deriving DecidableEq, Repr

/-- `EThermalBoundaryCondition` (src/basic/ECadSettings.h:228-257); the value `none` is invalid. -/
structure BC (K : Type) where
  type : BCType
  value : Option K

/-- `EGridThermalLayer` (src/model/thermal/EGridThermalModel.h:50-60) -/
structure TLayer (K : Type) where
  thickness : K
  fraction : Nat → Nat → K
  powers : List (Power K)

/-- `EGridThermalModel` (src/model/thermal/EGridThermalModel.h:113-124, EThermalModel.h:31) -/
structure GModel (K : Type) where
  size : Size2
  resX : K
  resY : K
  scaleH : K
  layers : List (TLayer K)
  jumps : List (Size3 × Size3 × K)
  topBC : Option (BC K)
  botBC : Option (BC K)
  topBlocks : List ((Size2 × Size2) × BC K)
  botBlocks : List ((Size2 × Size2) × BC K)

/-- `TotalGrids` (src/model/thermal/EGridThermalModel.cpp:266-269) -/
def GModel.total (m : GModel K) : Nat := m.size.x * m.size.y * m.layers.length

/-- `ModelSize` (src/model/thermal/EGridThermalModel.cpp:271-274) -/
def GModel.size3 (m : GModel K) : Size3 := ⟨m.size.x, m.size.y, m.layers.length⟩

/-- `GetXGridLength` (src/solver/thermal/utils/EGridThermalNetworkBuilder.h:65-69) -/
def GModel.lenX (m : GModel K) : K := m.resX * m.scaleH
/-- `GetYGridLength` (src/solver/thermal/utils/EGridThermalNetworkBuilder.h:71-75) -/
def GModel.lenY (m : GModel K) : K := m.resY * m.scaleH
/-- `GetZGridLength` (src/solver/thermal/utils/EGridThermalNetworkBuilder.h:77-81), for a layer of the model -/
def GModel.lenZ (m : GModel K) (z : Nat) : K := (m.layers[z]?.map TLayer.thickness).getD 0
/-- `GetXGridArea` (src/solver/thermal/utils/EGridThermalNetworkBuilder.h:83-87) -/
def GModel.areaX (m : GModel K) (z : Nat) : K := m.lenZ z * m.lenY
/-- `GetYGridArea` (src/solver/thermal/utils/EGridThermalNetworkBuilder.h:89-93) -/
def GModel.areaY (m : GModel K) (z : Nat) : K := m.lenZ z * m.lenX
/-- `GetZGridArea` (src/solver/thermal/utils/EGridThermalNetworkBuilder.h:95-99) -/
def GModel.areaZ (m : GModel K) : K := m.lenX * m.lenY
/-- `GetMetalComposite` (src/solver/thermal/utils/EGridThermalNetworkBuilder.cpp:195-199), for a cell of the model -/
def GModel.fraction (m : GModel K) (g : Size3) : K := (m.layers[g.z]?.map fun l => l.fraction g.x g.y).getD 0

/-- `GetConductingMatK` (src/solver/thermal/utils/EGridThermalNetworkBuilder.cpp:240-246), all axes -/
def metalK : K := 400
/-- `GetDielectricMatK` (src/solver/thermal/utils/EGridThermalNetworkBuilder.cpp:248-254), all axes -/
def dielK : K := 70
/-- `GetConductingMatC` (src/solver/thermal/utils/EGridThermalNetworkBuilder.cpp:272-277) -/
def metalC : K := 380
/-- `GetDielectricMatC` (src/solver/thermal/utils/EGridThermalNetworkBuilder.cpp:279-284) -/
def dielC : K := 691
/-- `GetConductingMatRho` (src/solver/thermal/utils/EGridThermalNetworkBuilder.cpp:286-291) -/
def metalRho : K := 8850
/-- `GetDielectricMatRho` (src/solver/thermal/utils/EGridThermalNetworkBuilder.cpp:293-298); not called by the code -/
def dielRho : K := 2400

/-- `GetCompositeMatK` (src/solver/thermal/utils/EGridThermalNetworkBuilder.cpp:213-224), each axis -/
def GModel.k (m : GModel K) (g : Size3) : K := m.fraction g * metalK + (1 - m.fraction g) * dielK

/-- `GetCap` (src/solver/thermal/utils/EGridThermalNetworkBuilder.cpp:201-205) -/
def cap (c rho z area : K) : K := c * rho * z * area

/-- `GetCompositeMatC` (src/solver/thermal/utils/EGridThermalNetworkBuilder.cpp:263-270) -/
def GModel.cellC (m : GModel K) (g : Size3) (z area : K) : K :=
  m.fraction g * cap metalC metalRho z area + (1 - m.fraction g) * cap dielC metalRho z area

/-- `GetRes` (src/solver/thermal/utils/EGridThermalNetworkBuilder.cpp:207-211) -/
def getRes (k1 z1 k2 z2 area : K) : K := (z1 / k1 + z2 / k2) / area

/-- The resistance to the right, back and bottom neighbour
(src/solver/thermal/utils/EGridThermalNetworkBuilder.cpp:42, 52, 65) -/
def GModel.resTo (m : GModel K) (g h : Size3) : Orient → K
  | .right => getRes (m.k g) (1 / 2 * m.lenX) (m.k h) m.lenX (m.areaX g.z)
  | .end_ => getRes (m.k g) (1 / 2 * m.lenY) (m.k h) (1 / 2 * m.lenY) (m.areaY g.z)
  | _ => getRes (m.k g) (1 / 2 * m.lenZ g.z) (m.k h) (1 / 2 * m.lenZ h.z) m.areaZ

/-- One connection of a cell (src/solver/thermal/utils/EGridThermalNetworkBuilder.cpp:36-44, 46-54, 56-67) -/
def GModel.link (m : GModel K) (i : Nat) (g : Size3) (o : Orient) : List (Res (Op K)) :=
  let h := neighbor m.size3 g o
  if valid h then [.ok (.r i (flatten m.size h) (m.resTo g h o))] else []

/-- One cell of the first loop (src/solver/thermal/utils/EGridThermalNetworkBuilder.cpp:26-68) -/
def GModel.cellOps (m : GModel K) (i : Nat) : List (Res (Op K)) :=
  match gridIndex m.size i with
  | .ok g => .ok (.c i (m.cellC g (m.lenZ g.z) m.areaZ)) :: (m.link i g .right ++ m.link i g .end_ ++ m.link i g .bot)
  | .ub => [.ub]
  | .exn => [.exn]

/-- One bond wire (src/solver/thermal/utils/EGridThermalNetworkBuilder.cpp:71-77); `iniT.at` throws outside. -/
def GModel.jumpOps (m : GModel K) (iniT : List K) (j : Size3 × Size3 × K) : List (Res (Op K)) :=
  let i1 := flatten m.size j.1
  let i2 := flatten m.size j.2.1
  if i1 = i2 then []
  else if i1 < iniT.length then [.ok (.r i1 i2 (metalK * j.2.2))] else [.exn]

/-- The cells `(x, y)` of two nested loops over `x` and `y` -/
def cells (xs ys : List Nat) : List (Nat × Nat) := xs.flatMap fun x => ys.map fun y => (x, y)

/-- The whole layer -/
def allCells (s : Size2) : List (Nat × Nat) := cells (List.range s.x) (List.range s.y)

/-- `for (x = ll.x; x <= ur.x; ++x) for (y = ll.y; y <= ur.y; ++y)` -/
def blockCells (ll ur : Size2) : List (Nat × Nat) :=
  cells (List.range' ll.x (ur.x + 1 - ll.x)) (List.range' ll.y (ur.y + 1 - ll.y))

/-- One cell of `ApplyHeatFlowForLayer` (src/solver/thermal/utils/EGridThermalNetworkBuilder.cpp:123-130) -/
def GModel.heatOps (ip : List (K × K) → K → Res K) (m : GModel K) (iniT : List K) (t : Table K) (z : Nat)
    (c : Nat × Nat) : List (Res (Op K)) :=
  let index := flatten m.size ⟨c.1, c.2, z⟩
  match iniT[index]? with
  | none => [.exn]
  | some key =>
    match query ip t key c.1 c.2 with
    | .ok (some v) => [.ok (.hf index v)]
    | .ok none => []
    | .ub => [.ub]
    | .exn => [.exn]

/-- `THERMAL_RD` (src/solver/thermal/utils/EGridThermalNetworkBuilder.cpp:7) -/
def thermalRd : K := 1 / 100

/-- One power model of layer `z` (src/solver/thermal/utils/EGridThermalNetworkBuilder.cpp:84-100);
`n` is the number of nodes so far. -/
def GModel.powerOps (ip : List (K × K) → K → Res K) (m : GModel K) (iniT : List K) (n z : Nat) :
    Power K → List (Res (Op K))
  | .grid t => (allCells m.size).flatMap (m.heatOps ip iniT t z)
  | .block ll ur total =>
    .ok .append :: .ok (.hf n total) ::
      (blockCells ll ur).map fun c => .ok (.r (flatten m.size ⟨c.1, c.2, z⟩) n thermalRd)

/-- The number of nodes a power model appends -/
def Power.appends : Power K → Nat
  | .grid _ => 0
  | .block .. => 1

/-- The power models in the order of the loops (src/solver/thermal/utils/EGridThermalNetworkBuilder.cpp:81-84):
layer number and model -/
def GModel.powers (m : GModel K) : List (Nat × Power K) :=
  m.layers.zipIdx.flatMap fun p => p.1.powers.map fun q => (p.2, q)

/-- The loop over the power models (src/solver/thermal/utils/EGridThermalNetworkBuilder.cpp:80-101) -/
def GModel.powersOps (ip : List (K × K) → K → Res K) (m : GModel K) (iniT : List K) :
    Nat → List (Nat × Power K) → List (Res (Op K))
  | _, [] => []
  | n, (z, p) :: ps => m.powerOps ip iniT n z p ++ GModel.powersOps ip m iniT (n + p.appends) ps

/-- One cell of a boundary condition (src/solver/thermal/utils/EGridThermalNetworkBuilder.cpp:142-160, 172-190) -/
def GModel.bcOp (m : GModel K) (type : BCType) (value : K) (z : Nat) (c : Nat × Nat) : Res (Op K) :=
  match type with
  | .htc => .ok (.htc (flatten m.size ⟨c.1, c.2, z⟩) (m.areaZ * value))
  | .heatFlux => .ok (.hf (flatten m.size ⟨c.1, c.2, z⟩) (m.areaZ * value))

/-- A boundary condition on some cells of a layer: `ApplyUniformBoundaryConditionForLayer`,
`ApplyBlockBoundaryConditionForLayer` (src/solver/thermal/utils/EGridThermalNetworkBuilder.cpp:135-193) -/
def GModel.bcOps (m : GModel K) (bc : BC K) (z : Nat) (cs : List (Nat × Nat)) : List (Res (Op K)) :=
  match bc.value with
  | none => []
  | some v => cs.map (m.bcOp bc.type v z)

/-- The boundary conditions in order (src/solver/thermal/utils/EGridThermalNetworkBuilder.cpp:104-112):
condition, layer, cells. `m_size.z - 1` wraps around for a model without layers. -/
def GModel.bcs (m : GModel K) : List (BC K × Nat × List (Nat × Nat)) :=
  m.topBC.toList.map (fun b => (b, 0, allCells m.size)) ++
  m.botBC.toList.map (fun b => (b, pred64 m.layers.length, allCells m.size)) ++
  m.topBlocks.map (fun b => (b.2, 0, blockCells b.1.1 b.1.2)) ++
  m.botBlocks.map (fun b => (b.2, pred64 m.layers.length, blockCells b.1.1 b.1.2))

/-- All calls of `Build` (src/solver/thermal/utils/EGridThermalNetworkBuilder.cpp:25-112) -/
def GModel.ops (ip : List (K × K) → K → Res K) (m : GModel K) (iniT : List K) : List (Res (Op K)) :=
  (List.range m.total).flatMap m.cellOps ++ m.jumps.flatMap (m.jumpOps iniT) ++
  m.powersOps ip iniT m.total m.powers ++ m.bcs.flatMap fun b => m.bcOps b.1 b.2.1 b.2.2

/-- `Build` (src/solver/thermal/utils/EGridThermalNetworkBuilder.cpp:15-115); `none` is the null pointer. -/
def GModel.build (minR : K) (ip : List (K × K) → K → Res K) (m : GModel K) (iniT : List K) :
    Res (Option (Network K)) :=
  if iniT.length ≠ m.total then .ok none
  else (run minR (Network.new noScen m.total) (m.ops ip iniT)).bind fun net => .ok (some net)

end Ecad.GridT
