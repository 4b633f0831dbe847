import Verif.Thermal.OpsModel
/-!
The excitation of the nodes in the transient solvers (src/solver/thermal/network/ThermalNetworkSolver.h): `Scalar` is `Float32`
(src/solver/thermal/EThermalNetworkSolver.h:30), and the full solver keeps the scenarios of the heated nodes in a vector of `Scalar`.

Simplification: only the scenarios are rounded, all other numbers are exact.
-/
namespace Ecad.Scen
open Thermal

variable {K : Type} [Field K] [LinearOrder K]

/-- The distance of neighbouring values of a `Float32` at `n`: a significand has 24 bits. -/
def ulp (n : Nat) : Nat := 2 ^ (Nat.log2 n + 1 - 24)

/-- The conversion of a `size_t` to `Float32`, `scen[rhs] = network[node].scen` (src/solver/thermal/network/ThermalNetworkSolver.h:202), in the
rounding mode to nearest, ties to even. -/
def toFloat (n : Nat) : Nat :=
  if 2 * (n % ulp n) < ulp n ∨ (2 * (n % ulp n) = ulp n ∧ n / ulp n % 2 = 0) then n / ulp n * ulp n else (n / ulp n + 1) * ulp n

/-- The conversion of a `Float32` back to `size_t`, the argument of `(*e)(t, im.scen[i])`
(src/solver/thermal/network/ThermalNetworkSolver.h:225, src/basic/ECadSettings.h): undefined if the value does not fit. -/
def toSize (v : Nat) : Res Nat := if v < 2 ^ 64 then .ok v else .ub

/-- The scenarios of the heated nodes as the excitation gets them (src/solver/thermal/network/ThermalNetworkSolver.h:199-204, 224-226). -/
def scens : List (Node K) → Res (List Nat)
  | [] => .ok []
  | n :: ns => if n.hf ≠ 0 then (toSize (toFloat n.scen)).bind fun s => (scens ns).bind fun r => .ok (s :: r) else scens ns

/-- `Solver::operator()` of the full solver (src/solver/thermal/network/ThermalNetworkSolver.h:219-229) at time `t` under the excitation `e`, which is
never null (src/solver/thermal/EThermalNetworkSolver.cpp:127-141): the rate of node `i` at the temperatures `x`. -/
def rate (net : Network K) (refT : K) (e : K → Nat → K) (t : K) (x : Nat → K) (i : Nat) : Res K :=
  (scens net).bind fun ss =>
    let hfs := ((net.filter fun n => n.hf ≠ 0).zip ss).map fun p => p.1.hf * e t p.2
    .ok (mulVec (invCTriplets net) (mulVec (negGTriplets net) x) i
      + mulVec (invCTriplets net) (fun k => entry (bondsTriplets net refT) k 0) i
      + mulVec (invCTriplets net) (mulVec (projTriplets 0 0 net) (fun s => hfs.getD s 0)) i)

/-- The inputs of the reduced solver (src/solver/thermal/network/ThermalNetworkSolver.h:402-409), which takes the scenarios from the nodes. -/
def inputs (bonds : Bool) (refT : K) (e : K → Nat → K) (t : K) (net : Network K) : List K :=
  (net.filter (isSource bonds)).map fun n => n.hf * e t n.scen + n.htc * refT

end Ecad.Scen
