import Verif.Thermal.QueryModel
import Verif.Thermal.StaticModel
import Verif.Design.ExtractModel
/-!
A thermal simulation of a layout: `RunThermalSimulation` (src/design/ELayoutView.cpp:353-374) and
src/simulation/thermal/EThermalSimulation.cpp, with the ends of the three static solvers
(src/solver/thermal/EThermalNetworkSolver.cpp).

Simplifications: numbers are those of an ordered field; the hot maps and result files are left out;
assertions are left out (the code goes on after them); building and solving the networks are given with
the model, the transient solver as a function.
-/
namespace Ecad.Sim
open Ecad.Thermal Ecad.Query

variable {K : Type} [Field K] [LinearOrder K]

/-- The dynamic classes of models a layout can hold (src/model/thermal/EGridThermalModel.h,
EPrismThermalModel.h, EStackupPrismThermalModel.h, which derives from the former, and the others). -/
inductive Class | grid | prism | stackup | other
  deriving DecidableEq

/-- `GetModelType` (src/model/thermal/EGridThermalModel.h:106, src/model/thermal/EPrismThermalModel.h:214,
src/model/thermal/EStackupPrismThermalModel.h:26); `none` is any other type. -/
def Class.type : Class → Option Extract.ModelType
  | .grid => some .thermalGrid
  | .prism => some .thermalPrism
  | .stackup => some .thermalStackupPrism
  | .other => none

/-- What the simulation uses of a model: its class, its size, the construction of its network, its layers and the
centres of its prisms. -/
structure Content (K : Type) where
  cls : Class
  total : Nat
  build : List K → Res (Option (Network K))
  layers : List (Lyr K)
  centres : List (List Centre)

/-- the settings of a static run, the monitor points (in the integer coordinates of the model, with their
height) and whether the working directory can be created
(src/basic/ECadSettings.h:406-465) -/
structure Setup (K : Type) where
  dir : Bool
  monitors : List (Centre × K)
  envT : K
  limit : K
  maximum : Bool
  iteration : Nat
  celsius : Bool

/-- What the library does: the linear solver and the search tree. -/
structure Lib (K : Type) where
  solve : Network K → List K
  pick : List (Nat × Centre) → Option (Nat × Centre)

/-- `model->SearchElementIndices(setup->monitors, solver.settings.probs)` on empty `probs`
(src/simulation/thermal/EThermalSimulation.cpp:108, 141, 175): a virtual function, which grid models do not
override (src/model/thermal/EThermalModel.h:28: nothing happens). -/
def probes (L : Lib K) (c : Content K) (ms : List (Centre × K)) : Res (List Nat) :=
  match c.cls with
  | .prism => searchElements nearestLayer L.pick c.layers c.centres ms
  | .stackup => searchElements nearestLayerS L.pick c.layers c.centres ms
  | _ => .ok []

/-- `*std::min_element` / `*std::max_element` of a vector
(src/solver/thermal/EThermalNetworkSolver.cpp:221-222, 291-292, 338-339): reading `end()` of an empty one is
undefined behaviour. -/
def extremes : List K → Res (K × K)
  | [] => .ub
  | a :: l => .ok (l.foldl min a, l.foldl max a)

/-- `Solve` of the three static solvers (src/solver/thermal/EThermalNetworkSolver.cpp:213-225, 285-295, 332-342): the
range of temperatures (`none`: two invalid numbers) and `temperatures`, empty before.  The outer `none`: the
iteration has not ended. -/
def solveProbes (L : Lib K) (c : Content K) (s : Setup K) (probs : List Nat) (fuel : Nat) :
    Option (Res (Option (K × K) × List K)) :=
  (Static.solveStatic c.build L.solve c.total s.envT s.limit s.maximum s.iteration s.celsius fuel).map fun r =>
    r.bind fun
      | none => .ok (none, [])
      | some x => (extremes x).bind fun e => (staticRow x probs).bind fun t => .ok (some e, t)

/-- `RunStaticSimulation` of the three simulators (src/simulation/thermal/EThermalSimulation.cpp:97-110, 130-143,
164-177) for a setup of the static kind; the first assignment (106) is kept by the second, which assigns the base
class of the solver's settings only (src/basic/ECadSettings.h:513-516). -/
def runSimulator (L : Lib K) (c : Content K) (s : Setup K) (fuel : Nat) :
    Option (Res (Option (K × K) × List K)) :=
  match probes L c s.monitors with
  | .ub => some .ub
  | .exn => some .exn
  | .ok ps => solveProbes L c s ps fuel

/-- `dynamic_cast` to the class of the case (src/simulation/thermal/EThermalSimulation.cpp:38, 42, 46): a
stackup model is a prism model. -/
def castOk : Class → Class → Bool
  | .grid, .grid => true
  | .prism, .prism => true
  | .stackup, .prism => true
  | .stackup, .stackup => true
  | _, _ => false

/-- The cases of the switch from the one of the model type on; a case whose cast fails falls through
(src/simulation/thermal/EThermalSimulation.cpp:36-52). -/
def cases : Option Extract.ModelType → List Class
  | some .thermalGrid => [.grid, .prism, .stackup]
  | some .thermalPrism => [.prism, .stackup]
  | some .thermalStackupPrism => [.stackup]
  | _ => []

/-- The simulator that is used: that of the first case whose cast succeeds; `none`: the default case. -/
def simulator (c : Class) : Option Class := (cases c.type).find? (castOk c ·)

/-- The content seen through a simulator: calls are virtual, the class stays that of the object. -/
def runWith (L : Lib K) (c : Content K) (s : Setup K) (fuel : Nat) : Option Class →
    Option (Res (Option (K × K) × List K))
  | none => some (.ok (none, []))
  | some _ => runSimulator L c s fuel

/-- `EThermalSimulation::RunStaticSimulation` (src/simulation/thermal/EThermalSimulation.cpp:24-54) -/
def runStatic (L : Lib K) (m : Option (Content K)) (s : Setup K) (fuel : Nat) :
    Option (Res (Option (K × K) × List K)) :=
  match m with
  | none => some (.ok (none, []))
  | some c => if !s.dir then some .exn else runWith L c s fuel (simulator c.cls)

/-- `EThermalSimulation::RunTransientSimulation` (src/simulation/thermal/EThermalSimulation.cpp:56-86), with the solver
as a function of model and probes (112-125 and the others). -/
def runTransient (L : Lib K) (solveT : Content K → List Nat → Res (Option (K × K))) (m : Option (Content K))
    (dir : Bool) (monitors : List (Centre × K)) : Res (Option (K × K)) :=
  match m with
  | none => .ok none
  | some c =>
    if !dir then .exn
    else match simulator c.cls with
      | none => .ok none
      | some _ => (probes L c monitors).bind (solveT c)

variable {F Lay : Type} [DecidableEq F]

/-- `ELayoutView::RunThermalSimulation` for a static setup (src/design/ELayoutView.cpp:353-363): `none` are settings
without extraction settings. -/
def runLayout (L : Lib K) (gen : Lay → Extract.Settings F → Option (Content K)) (l : Lay)
    (cache : Extract.Cache F (Content K)) (ex : Option (Extract.Settings F)) (s : Setup K) (fuel : Nat) :
    Option (Res (Option (K × K) × List K)) :=
  match ex with
  | none => some (.ok (none, []))
  | some e =>
    match (Extract.extract gen l cache e).2 with
    | none => some (.ok (none, []))
    | some m => runStatic L (some m.content) s fuel

end Ecad.Sim
