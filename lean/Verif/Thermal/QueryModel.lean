import Verif.Thermal.NetModel
import Verif.Util.UtilModel
/-!
Where results are read: the layer of a height, the elements next to monitor points, the values at probes, the
static iteration.
-/
namespace Ecad.Query
open Ecad.Thermal

/-! ### the layer of a height -/

/-- `PrismLayer` with what the query looks at (src/model/thermal/EPrismThermalModel.h): elevation of its top and
thickness. -/
structure Lyr (K : Type) where
  elevation : K
  thickness : K
  deriving DecidableEq, Repr

section
variable {K : Type} [Field K] [LinearOrder K]

/-- The loop of `NearestLayer` (src/model/thermal/utils/EPrismThermalModelQuery.cpp:44-48), `i` is the index of
the first layer of the rest; `Within<LCRO>` of the library includes the left bound and excludes the right one. -/
def nearestLoop (h : K) : Nat → List (Lyr K) → Option Nat
  | _, [] => none
  | i, l :: ls =>
    if l.elevation - l.thickness ≤ h ∧ h < l.elevation then some i else nearestLoop h (i + 1) ls

/-- `EPrismThermalModelQuery::NearestLayer` (src/model/thermal/utils/EPrismThermalModelQuery.cpp:39-50); `front()`
of an empty vector is undefined behaviour. -/
def nearestLayer (layers : List (Lyr K)) (h : K) : Res Nat :=
  match layers with
  | [] => .ub
  | l :: _ =>
    if h > l.elevation then .ok 0
    else .ok ((nearestLoop h 0 layers).getD (layers.length - 1))

/-- `EStackupPrismThermalModelQuery::NearestLayer`
(src/model/thermal/utils/EStackupPrismThermalModelQuery.cpp:66-77) -/
def nearestLayerS (layers : List (Lyr K)) (h : K) : Res Nat :=
  match layers with
  | [] => .ub
  | l :: _ =>
    if h ≥ l.elevation then .ok 0
    else .ok ((nearestLoop h 0 layers).getD (layers.length - 1))

/-- The test of one layer in `SearchStackupLayer` (src/utility/ELayoutRetriever.cpp:272-273): heights from the
map; `Within<LORC>` of the library excludes the left bound and includes the right one. -/
def heightIn (h : K) : Option (K × K) → Bool
  | some (e, t) => decide (e - t < h ∧ h ≤ e)
  | none => false

/-- `SearchStackupLayer` (src/utility/ELayoutRetriever.cpp:263-277) for a retriever made for the present
layout.  Every stackup layer
has an entry in the height map; without one the variables would be those of the turn before. -/
def searchStackup (l : List (Util.Slab K)) (h : K) : Option (Util.Slab K) :=
  (Util.stackupLayers l).find? fun y => heightIn h (Util.layerHeight l y.id)

/-! ### monitors -/

/-- A prism with what the query looks at: the centre of its triangle in integer coordinates, as cast in
`BuildLayerIndexTree` (src/model/thermal/utils/EPrismThermalModelQuery.cpp:81). -/
structure Centre where
  x : Int
  y : Int
  deriving DecidableEq, Repr

/-- squared distance, what the search tree of the library compares -/
def dist2 (a b : Centre) : Int := (a.x - b.x) * (a.x - b.x) + (a.y - b.y) * (a.y - b.y)

/-- `BuildLayerIndexTree` (src/model/thermal/utils/EPrismThermalModelQuery.cpp:69-85): the prisms of a layer with
their global index; `cs` are the centres of the prisms layer by layer, `indexOffset` the sums of their
numbers (C34, C63). -/
def layerTree (cs : List (List Centre)) (layer : Nat) : List (Nat × Centre) :=
  (((cs[layer]?.getD []).zipIdx ((cs.take layer).map List.length).sum)).map fun p => (p.2, p.1)

/-- `nearest(pt, 1)` of the search tree: one of the entries at least distance; which one, if there are
several, is for the library to choose (`pick`). -/
def nearest1 (pick : List (Nat × Centre) → Option (Nat × Centre)) (t : List (Nat × Centre)) (p : Centre) :
    Option (Nat × Centre) :=
  pick (t.filter fun e => t.all fun f => decide (dist2 e.2 p ≤ dist2 f.2 p))

/-- One turn of `SearchElementIndices` (src/model/thermal/EPrismThermalModel.cpp:211-218; the same in
src/model/thermal/EStackupPrismThermalModel.cpp:30-37 with its own query): `q` is the integer point, `h` the height
of the monitor; `front()` of an empty result is undefined behaviour. -/
def monitor (near : List (Lyr K) → K → Res Nat) (pick : List (Nat × Centre) → Option (Nat × Centre))
    (layers : List (Lyr K)) (cs : List (List Centre)) (q : Centre) (h : K) : Res Nat :=
  (near layers h).bind fun i =>
    match nearest1 pick (layerTree cs i) q with
    | some e => .ok e.1
    | none => .ub

/-- `SearchElementIndices` (src/model/thermal/EPrismThermalModel.cpp:207-219) -/
def searchElements (near : List (Lyr K) → K → Res Nat) (pick : List (Nat × Centre) → Option (Nat × Centre))
    (layers : List (Lyr K)) (cs : List (List Centre)) : List (Centre × K) → Res (List Nat)
  | [] => .ok []
  | m :: ms => (monitor near pick layers cs m.1 m.2).bind fun i =>
      (searchElements near pick layers cs ms).bind fun is => .ok (i :: is)

end

/-! ### probes -/

/-- `std::set::insert` on the ascending list of the elements -/
def setInsert (a : Nat) : List Nat → List Nat
  | [] => [a]
  | b :: l => if a < b then a :: b :: l else if b < a then b :: setInsert a l else b :: l

/-- the map from a probe to its place (src/solver/thermal/EThermalNetworkSolver.cpp:18, 20-21) -/
def probeMap : Nat → List (Nat × Nat) → List Nat → List (Nat × Nat)
  | _, m, [] => m
  | i, m, p :: ps => probeMap (i + 1) (UMap.emplace m p i).1 ps

/-- `.at` for every request (src/solver/thermal/EThermalNetworkSolver.cpp:23) -/
def lookups (m : List (Nat × Nat)) : List Nat → Res (List Nat)
  | [] => .ok []
  | i :: is =>
    match UMap.find? m i with
    | none => .exn
    | some r => (lookups m is).bind fun rs => .ok (r :: rs)

/-- `GetProbsAndPermutation` (src/solver/thermal/EThermalNetworkSolver.cpp:16-25): the set of probes, ascending,
and the place of each request in it. -/
def probsAndPermutation (indices : List Nat) : Res (List Nat × List Nat) :=
  let probs := indices.foldl (fun s i => setInsert i s) []
  (lookups (probeMap 0 [] probs) indices).bind fun perm => .ok (probs, perm)

section
variable {K : Type} [Field K]

/-- reading a vector at every index, with the access given -/
def readAll (get : List K → Nat → Res K) (x : List K) : List Nat → Res (List K)
  | [] => .ok []
  | p :: ps => (get x p).bind fun v => (readAll get x ps).bind fun vs => .ok (v :: vs)

/-- A sample of the transient solver (src/solver/thermal/network/ThermalNetworkSolver.h:162-165): time, then
the state at every probe, read without check. -/
def transientRow (x : List K) (probs : List Nat) (t : K) : Res (List K) :=
  (readAll Res.index x probs).bind fun vs => .ok (t :: vs)

/-- The dumped values of the static solver (src/solver/thermal/EThermalNetworkSolver.cpp:81-82), read with
`at`. -/
def staticRow (x : List K) (probs : List Nat) : Res (List K) := readAll Res.at_ x probs

/-- The entries of the output matrix `L` in `makeMNA` (src/solver/thermal/network/ThermalNetwork.h:309-322): the
identity without probes, else one column per probe; `setIdentity` and an assertion that each probe is a
node. -/
def lTriplets (nodes : Nat) (probs : List Nat) : Triplets K :=
  if probs.isEmpty then (List.range nodes).map fun i => (i, i, 1)
  else probs.zipIdx.map fun p => (p.1, p.2, 1)

/-- the number of columns of `L` (src/solver/thermal/network/ThermalNetwork.h:310, 320) -/
def lCols (nodes : Nat) (probs : List Nat) : Nat := if probs.isEmpty then nodes else probs.length

/-- The transposed product: what the reduced solver puts out (`rLT`,
src/solver/thermal/network/ThermalNetworkSolver.h:318, 339-346) for the state in node coordinates. -/
def outputs (nodes : Nat) (probs : List Nat) (x : Nat → K) : List K :=
  (List.range (lCols nodes probs)).map fun j =>
    ((lTriplets nodes probs).map fun t => if t.2.1 = j then t.2.2 * x t.1 else 0).sum

end
end Ecad.Query
