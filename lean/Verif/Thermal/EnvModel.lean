import Verif.Thermal.StaticModel
import Verif.Thermal.MidModel
import Verif.Thermal.SimModel
/-!
The temperature of the environment: `ETemperature` (src/basic/ECadUnits.h:113-131) and where the solvers read it
(src/solver/thermal/EThermalNetworkSolver.cpp:43, 74-75, 107, 181-183).  The settings of the extraction have a temperature of the environment too
(src/basic/ECadSettings.h:288), which nothing but their comparison reads (307).

Exact numbers; `generic::unit::Celsius2Kelvins` is the library's.
-/
namespace Ecad.Env
open Ecad.Thermal

/-- `ETemperatureUnit` (src/basic/ECadUnits.h:116) -/
inductive TUnit
  | celsius | kelvins
  deriving DecidableEq

/-- `ETemperature` (src/basic/ECadUnits.h:113-118) -/
structure Temp (K : Type) where
  value : K
  unit : TUnit

variable {K : Type} [Field K]

/-- `inKelvins` (src/basic/ECadUnits.h:120) -/
def Temp.inKelvins (t : Temp K) : K := if t.unit = .kelvins then t.value else t.value + 27315 / 100

/-- `EThermalNetworkStaticSolver::Solve` with the temperature of the environment from the settings
(src/solver/thermal/EThermalNetworkSolver.cpp:43-75): it is the reference of the linear systems and the start of the iteration, and its unit is that of
the results. -/
def staticRun [LinearOrder K] (build : List K → Res (Option (Network K))) (solve : K → Network K → List K) (total : Nat) (env : Temp K) (limit : K)
    (maximum : Bool) (iteration fuel : Nat) : Option (Res (Option (List K))) :=
  Static.solveStatic build (solve env.inKelvins) total env.inKelvins limit maximum iteration (env.unit == .celsius) fuel

/-- `EThermalNetworkTransientSolver::Solve` with the temperature of the environment from the settings
(src/solver/thermal/EThermalNetworkSolver.cpp:107, 120, 181-183); the solvers are made with it (127, 137). -/
def transRun {N : Type} (build : Trans.State → Option N) (S : ℚ → Trans.Scheme N) (total : Nat) (big : ℚ) (env : Temp ℚ) (set : Trans.Settings) (fuel : Nat) :
    Option (Res Trans.Out) :=
  Trans.solve build (S env.inKelvins) total big { set with envT := env.inKelvins, celsius := env.unit == .celsius } fuel

/-- the solver with fixed steps for networks (src/solver/thermal/network/ThermalNetworkSolver.h:207, 251-259); what the adaptive integrator does is left open -/
def fixedSteps (exc : ℚ → Nat → ℚ) (adapt : Network ℚ → ℚ → ℚ → ℚ → Trans.State → List Trans.Obs) (refT : ℚ) : Trans.Scheme (Network ℚ) :=
  ⟨List.length, Mid.stepBy refT exc, adapt⟩

end Ecad.Env
