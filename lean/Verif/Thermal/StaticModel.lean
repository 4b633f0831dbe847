import Verif.Thermal.GridTModel
import Mathlib.Algebra.Order.AbsoluteValue.Basic
/-!
The iteration of the static solver: src/solver/thermal/EThermalNetworkSolver.cpp:27-88.
-/
namespace Ecad.Static
open Ecad.Thermal

variable {K : Type} [Field K] [LinearOrder K]

/-- The loop of `CalculateResidual` (src/solver/thermal/EThermalNetworkSolver.cpp:33-36): it runs over the first
vector and reads the second without check; the sizes are compared only by an assertion (30), which a release
build leaves out. -/
def resLoop (maximum : Bool) (size : K) : List K → List K → K → Res K
  | [], _, r => .ok r
  | _ :: _, [], _ => .ub
  | a :: v, b :: w, r => resLoop maximum size v w (if maximum then max |a - b| r else r + |a - b| / size)

/-- `CalculateResidual` (src/solver/thermal/EThermalNetworkSolver.cpp:27-38) -/
def residual (maximum : Bool) (v1 v2 : List K) : Res K := resLoop maximum (v1.length : K) v1 v2 0

/-- The `do`-`while` loop (src/solver/thermal/EThermalNetworkSolver.cpp:51-72).  `build` is `Build` of the network
builder (a null pointer ends with `return false`), `solve` the linear solver on the network, which resizes its
result to the number of nodes (src/solver/thermal/network/ThermalNetworkSolver.h:56); `left` is
`maxIteration`, decremented as `size_t`.  `none`: not ended after `fuel` rounds. -/
def loop (build : List K → Res (Option (Network K))) (solve : Network K → List K) (limit : K) (maximum : Bool) :
    Nat → Nat → List K → Option (Res (Option (List K)))
  | 0, _, _ => none
  | fuel + 1, left, prev =>
    match build prev with
    | .ub => some .ub
    | .exn => some .exn
    | .ok none => some (.ok none)
    | .ok (some net) =>
      match residual maximum (solve net) prev with
      | .ub => some .ub
      | .exn => some .exn
      | .ok r =>
        if r > limit ∧ GridT.pred64 left > 0 then loop build solve limit maximum fuel (GridT.pred64 left) (solve net)
        else some (.ok (some (solve net)))

/-- `Kelvins2Celsius` of the library -/
def toCelsius (t : K) : K := t - 27315 / 100

/-- `EThermalNetworkStaticSolver::Solve` (src/solver/thermal/EThermalNetworkSolver.cpp:40-75, without the dumps):
`total` is the size of the model, `iteration` the number of rounds of the settings (both kinds of model always
ask for iteration: src/model/thermal/EGridThermalModel.cpp:373-376, src/model/thermal/EPrismThermalModel.h:207). -/
def solveStatic (build : List K → Res (Option (Network K))) (solve : Network K → List K) (total : Nat) (envT limit : K)
    (maximum : Bool) (iteration : Nat) (celsius : Bool) (fuel : Nat) : Option (Res (Option (List K))) :=
  (loop build solve limit maximum fuel iteration (List.replicate total envT)).map fun r =>
    r.bind fun o => .ok (o.map fun l => if celsius then l.map toCelsius else l)

end Ecad.Static
