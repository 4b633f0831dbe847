import Verif.Base.Res
import Verif.Base.UMap
import Mathlib.Algebra.Order.Field.Basic
import Mathlib.Algebra.BigOperators.Group.List.Basic
/-!
Thermal networks: src/solver/thermal/network/ThermalNetwork.h.

Numbers are elements of an ordered field (exact arithmetic).  The stamps of the library
(`generic::ckt::mna::Stamp`) are modelled by the usual entries of a conductance: between two nodes
`g` on both diagonal entries and `-g` on both others, to ground `g` on the diagonal entry; and
`setFromTriplets` adds up entries with equal position, as Eigen documents.
-/
namespace Ecad.Thermal

variable {K : Type} [Field K] [LinearOrder K]

/-- `ThermalNetwork::Node` (src/solver/thermal/network/ThermalNetwork.h:20-41); the temperature `none` is
`unknownT`. -/
structure Node (K : Type) where
  scen : Nat
  t : Option K
  c : K
  hf : K
  htc : K
  ns : List (Nat × K)

/-- The default node (src/solver/thermal/network/ThermalNetwork.h:22-27) -/
def Node.default (scen : Nat) : Node K := ⟨scen, none, 0, 0, 0, []⟩

/-- `m_nodes` -/
abbrev Network (K : Type) := List (Node K)

/-- The constructor (src/solver/thermal/network/ThermalNetwork.h:49-52) -/
def Network.new (scen n : Nat) : Network K := List.replicate n (Node.default scen)

/-- Change one node through `m_nodes[i]`: outside, undefined behaviour. -/
def upd (net : Network K) (i : Nat) (f : Node K → Node K) : Res (Network K) :=
  if i < net.length then .ok (net.modify i f) else .ub

/-- `SetHF` (src/solver/thermal/network/ThermalNetwork.h:104-107) -/
def setHF (net : Network K) (i : Nat) (v : K) : Res (Network K) := upd net i fun n => { n with hf := v }

/-- `AddHF` (src/solver/thermal/network/ThermalNetwork.h:109-112) -/
def addHF (net : Network K) (i : Nat) (v : K) : Res (Network K) := upd net i fun n => { n with hf := n.hf + v }

/-- `SetHTC` (src/solver/thermal/network/ThermalNetwork.h:119-122) -/
def setHTC (net : Network K) (i : Nat) (v : K) : Res (Network K) := upd net i fun n => { n with htc := v }

/-- `AddHTC` (src/solver/thermal/network/ThermalNetwork.h:124-127) -/
def addHTC (net : Network K) (i : Nat) (v : K) : Res (Network K) := upd net i fun n => { n with htc := n.htc + v }

/-- `SetC` (src/solver/thermal/network/ThermalNetwork.h:134-137) -/
def setC (net : Network K) (i : Nat) (v : K) : Res (Network K) := upd net i fun n => { n with c := v }

/-- `AppendNode` (src/solver/thermal/network/ThermalNetwork.h:81-87) -/
def appendNode (scen : Nat) (net : Network K) (t : Option K) : Network K × Nat :=
  (net ++ [{ (Node.default scen : Node K) with t := t }], net.length)

/-- The change of the neighbour table in `SetR` (src/solver/thermal/network/ThermalNetwork.h:144-149):
assign through the iterator if found, else emplace. -/
def setNs (ns : List (Nat × K)) (j : Nat) (r : K) : List (Nat × K) :=
  match UMap.find? ns j with
  | some _ => ns.map fun e => if e.1 = j then (e.1, 1 / (1 / r + 1 / e.2)) else e
  | none => (UMap.emplace ns j r).1

/-- `SetR` (src/solver/thermal/network/ThermalNetwork.h:139-150) -/
def setR (minR : K) (net : Network K) (a b : Nat) (r : K) : Res (Network K) :=
  let r := max r minR
  let (a, b) := if a > b then (b, a) else (a, b)
  upd net a fun n => { n with ns := setNs n.ns b r }

/-- A sequence of `SetR` calls. -/
def setRs (minR : K) : Network K → List (Nat × Nat × K) → Res (Network K)
  | net, [] => .ok net
  | net, (a, b, r) :: ops => (setR minR net a b r).bind fun net => setRs minR net ops

/-- `TotalHF` (src/solver/thermal/network/ThermalNetwork.h:162-168) -/
def totalHF (net : Network K) : K := (net.map Node.hf).sum

/-! ### assembly -/

/-- entries of a sparse matrix: row, column, value -/
abbrev Triplets (K : Type) := List (Nat × Nat × K)

/-- `mna::Stamp(t, i, j, g)` of the library: a conductance between two nodes. -/
def stamp2 (i j : Nat) (g : K) : Triplets K := [(i, i, g), (j, j, g), (i, j, -g), (j, i, -g)]

/-- `mna::Stamp(t, i, g)` of the library: a conductance to ground. -/
def stamp1 (i : Nat) (g : K) : Triplets K := [(i, i, g)]

/-- `setFromTriplets` of the library: the value at a position is the sum of all entries there. -/
def entry (ts : Triplets K) (i j : Nat) : K := (ts.map fun t => if t.1 = i ∧ t.2.1 = j then t.2.2 else 0).sum

/-- The entries of `G` of one node (src/solver/thermal/network/ThermalNetwork.h:298-300) -/
def nodeG (i : Nat) (n : Node K) : Triplets K :=
  n.ns.flatMap (fun e => stamp2 i e.1 (1 / e.2)) ++ if n.htc ≠ 0 then stamp1 i n.htc else []

/-- The entries of `G` in `makeMNA` (src/solver/thermal/network/ThermalNetwork.h:296-300) -/
def gTriplets (net : Network K) : Triplets K := net.zipIdx.flatMap fun p => nodeG p.2 p.1

/-- The test for a source column (src/solver/thermal/network/ThermalNetwork.h:65, 204, 302) -/
def isSource (bonds : Bool) (n : Node K) : Bool := decide (n.hf ≠ 0) || (bonds && decide (n.htc ≠ 0))

/-- `Source` (src/solver/thermal/network/ThermalNetwork.h:61-69) -/
def source (net : Network K) (bonds : Bool) : Nat := (net.filter (isSource bonds)).length

/-- The entries of `B` in `makeMNA` (src/solver/thermal/network/ThermalNetwork.h:296, 302-303): `i` runs
over the nodes, `s` over the columns used so far. -/
def bTriplets (bonds : Bool) : Nat → Nat → Network K → Triplets K
  | _, _, [] => []
  | i, s, n :: net =>
    if isSource bonds n then (i, s, 1) :: bTriplets bonds (i + 1) (s + 1) net
    else bTriplets bonds (i + 1) s net

/-- `makeRhs` (src/solver/thermal/network/ThermalNetwork.h:196-208) -/
def makeRhs (net : Network K) (bonds : Bool) (refT : K) : List K :=
  (net.filter (isSource bonds)).map fun n => n.hf + n.htc * refT

/-- `makeFullRhs` (src/solver/thermal/network/ThermalNetwork.h:210-220) -/
def makeFullRhs (net : Network K) (refT : K) : List K := net.map fun n => n.hf + n.htc * refT

/-- `makeBondsRhs` (src/solver/thermal/network/ThermalNetwork.h:222-238) -/
def bondsTriplets (net : Network K) (refT : K) : Triplets K :=
  net.zipIdx.flatMap fun p => if p.1.htc ≠ 0 then [(p.2, 0, p.1.htc * refT)] else []

/-- The entries of `negG` in `makeInvCandNegG` (src/solver/thermal/network/ThermalNetwork.h:271-275) -/
def negGTriplets (net : Network K) : Triplets K :=
  net.zipIdx.flatMap fun p =>
    p.1.ns.flatMap (fun e => stamp2 p.2 e.1 (-1 / e.2)) ++ if p.1.htc ≠ 0 then stamp1 p.2 (-p.1.htc) else []

/-- The entries of `invC` in `makeInvCandNegG` (src/solver/thermal/network/ThermalNetwork.h:276) -/
def invCTriplets (net : Network K) : Triplets K :=
  net.zipIdx.flatMap fun p => if p.1.c > 0 then stamp1 p.2 (1 / p.1.c) else []

/-- The entries of `C` in `makeMNA` (src/solver/thermal/network/ThermalNetwork.h:301) -/
def cTriplets (net : Network K) : Triplets K :=
  net.zipIdx.flatMap fun p => if p.1.c > 0 then stamp1 p.2 p.1.c else []

/-- The entries of the projection in `makeSourceProjMatrix`
(src/solver/thermal/network/ThermalNetwork.h:249-255); `rhs2Nodes` maps column `s` to its row. -/
def projTriplets : Nat → Nat → Network K → Triplets K
  | _, _, [] => []
  | i, s, n :: net =>
    if n.hf ≠ 0 then (i, s, 1) :: projTriplets (i + 1) (s + 1) net else projTriplets (i + 1) s net

/-- Product of a sparse matrix and a dense vector, as Eigen defines it. -/
def mulVec (ts : Triplets K) (x : Nat → K) (i : Nat) : K := (ts.map fun t => if t.1 = i then t.2.2 * x t.2.1 else 0).sum

/-- The right hand side of the linear system, `m.B * rhs`
(src/solver/thermal/network/ThermalNetworkSolver.h:37-38, 61) -/
def systemRhs (net : Network K) (bonds : Bool) (refT : K) (i : Nat) : K :=
  mulVec (bTriplets bonds 0 0 net) (fun s => (makeRhs net bonds refT).getD s 0) i

/-- The vector `x` solves the system handed to the solver (src/solver/thermal/network/ThermalNetworkSolver.h:57-93; the
factorisations are the library's). `m.L` is the identity there. -/
def Solves (net : Network K) (refT : K) (x : Nat → K) : Prop :=
  ∀ i, i < net.length → mulVec (gTriplets net) x i = systemRhs net true refT i

/-- The derivative computed for the transient solver
(src/solver/thermal/network/ThermalNetworkSolver.h:191-205, 219-229):
`invC * negG * x + invC * bonds + invC * proj * hf`; `exc` is the excitation of a node. -/
def derivative (net : Network K) (refT : K) (exc : Nat → K) (x : Nat → K) (i : Nat) : K :=
  let hfs := (net.zipIdx.filter fun p => p.1.hf ≠ 0).map fun p => p.1.hf * exc p.2
  mulVec (invCTriplets net) (mulVec (negGTriplets net) x) i
    + mulVec (invCTriplets net) (fun k => entry (bondsTriplets net refT) k 0) i
    + mulVec (invCTriplets net) (mulVec (projTriplets 0 0 net) (fun s => hfs.getD s 0)) i

end Ecad.Thermal
