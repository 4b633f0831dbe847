import Verif.Thermal.NetModel
import Verif.Thermal.TransientModel
/-!
The fixed step integrator of the transient solver: `Solve` hands the derivative of the network to `integrate_const` with the stepper
`modified_midpoint` (src/solver/thermal/network/ThermalNetworkSolver.h:251-259) and with the sampling interval as the step
(src/solver/thermal/EThermalNetworkSolver.cpp:130-132, 140-142).

The stepper is part of boost odeint, not of the repository; it is modelled as that library documents it, with its default of two
substeps.  Exact numbers instead of floating point.
-/
namespace Ecad.Mid
open Ecad.Thermal

variable {K : Type} [Field K]

/-- One step of `modified_midpoint` of the library with its default of two substeps
(used at src/solver/thermal/network/ThermalNetworkSolver.h:256-257): with `h` half of the step, a step of `h` by the derivative at the start, a step of
`2h` from the start by the derivative at the point reached, and the mean of the two points with the second moved on by `h`. -/
def midStep (f : K → (Nat → K) → Nat → K) (t dt : K) (x : Nat → K) : Nat → K :=
  let h := dt / 2
  let x1 := fun i => x i + h * f t x i
  let x2 := fun i => x i + 2 * h * f (t + h) x1 i
  fun i => (x1 i + x2 i + h * f (t + h + h) x2 i) / 2

/-- `integrate_const` of the library after `k` steps (src/solver/thermal/network/ThermalNetworkSolver.h:257); as in `Trans.constFrom` times are
multiples of the step. -/
def march (f : K → (Nat → K) → Nat → K) (t0 dt : K) (x : Nat → K) : Nat → Nat → K
  | 0 => x
  | k + 1 => midStep f (t0 + k * dt) dt (march f t0 dt x k)

/-- `operator()` of `Solver` (src/solver/thermal/network/ThermalNetworkSolver.h:219-229) for the excitation `exc` of the nodes over time -/
def rhs [LinearOrder K] (net : Network K) (refT : K) (exc : K → Nat → K) (t : K) (x : Nat → K) : Nat → K := derivative net refT (exc t) x

/-- the steps of a network over states: what enters `Trans.Scheme` (src/solver/thermal/network/ThermalNetworkSolver.h:251-259); the stepper gives its
intermediate states the size of the state -/
def stepBy (refT : ℚ) (exc : ℚ → Nat → ℚ) (net : Network ℚ) (t dt : ℚ) (x : Trans.State) : Trans.State :=
  (List.range x.length).map (midStep (rhs net refT exc) t dt fun i => x.getD i 0)

end Ecad.Mid
