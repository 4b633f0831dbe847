import Verif.Thermal.NetModel
import Mathlib.Algebra.BigOperators.Group.Finset.Basic
/-!
Transient solver with model order reduction (src/solver/thermal/network/ThermalNetworkSolver.h:264-445).

The reduction itself (`generic::ckt::Reduce`) is the library's.  It is represented by what it promises: a basis `x` (the matrix
`rom.x`) and the projected matrices `xᵀ C x`, `xᵀ G x`, `xᵀ B`, `xᵀ L`.
-/
namespace Ecad.Thermal

open Finset

variable {K : Type} [Field K] [LinearOrder K]

/-- the inputs `im.uh` (src/solver/thermal/network/ThermalNetworkSolver.h:402-409); `exc` is the excitation of a node -/
def excInputs (net : Network K) (bonds : Bool) (refT : K) (exc : Nat → K) : List K :=
  (net.zipIdx.filter fun p => isSource bonds p.1).map fun p => p.1.hf * exc p.2 + p.1.htc * refT

/-- The entries of `L` in `makeMNA` (src/solver/thermal/network/ThermalNetwork.h:308-323) for `n` nodes -/
def lTriplets (n : Nat) (probs : List Nat) : Triplets K :=
  if probs = [] then (List.range n).map fun i => (i, i, 1) else probs.zipIdx.map fun p => (p.1, p.2, 1)

/-- `rom.x * z`: the temperatures of the `n` nodes for a reduced state `z` of size `q` -/
def lift (q : Nat) (x : Nat → Nat → K) (z : Nat → K) (i : Nat) : K := ∑ k ∈ range q, x i k * z k

/-- `rom.xT * y` (src/solver/thermal/network/ThermalNetworkSolver.h:323-332) -/
def project (n : Nat) (x : Nat → Nat → K) (y : Nat → K) (k : Nat) : K := ∑ i ∈ range n, x i k * y i

/-- What the rate `dz = coeff * z + input * uh` (src/solver/thermal/network/ThermalNetworkSolver.h:315-317, 413) satisfies, the
factorisation of the reduced `C` being a solution of the linear systems: `xᵀ C x dz = -xᵀ G x z + xᵀ B uh`. -/
def ReducedRate (net : Network K) (refT : K) (exc : Nat → K) (q : Nat) (x : Nat → Nat → K) (z dz : Nat → K) : Prop :=
  ∀ k < q, project net.length x (mulVec (cTriplets net) (lift q x dz)) k =
    - project net.length x (mulVec (gTriplets net) (lift q x z)) k
      + project net.length x (mulVec (bTriplets true 0 0 net) fun s => (excInputs net true refT exc).getD s 0) k

/-- `State2Output` (src/solver/thermal/network/ThermalNetworkSolver.h:334-342): `(xᵀ L)ᵀ z` -/
def reducedOut (net : Network K) (probs : List Nat) (q : Nat) (x : Nat → Nat → K) (z : Nat → K) (j : Nat) : K :=
  ∑ k ∈ range q, project net.length x (fun i => entry (lTriplets net.length probs) i j) k * z k

end Ecad.Thermal
