import Verif.Thermal.GridTModel
import Verif.Thermal.StackPrismModel
/-!
The summary that the network builders keep while they build, and that the static solver prints.

Every builder updates the summary next to the calls that set or add a heat flow or set a transfer coefficient, and nowhere
else, with the value of the call.  So the summary is modelled by what each call does to it.  The counter `fixedTNodes` is left
out: nothing ever changes it.
-/
namespace Ecad.Summary

open Ecad.Thermal Ecad.GridT Ecad.PrismT

variable {K : Type} [Field K] [LinearOrder K]

/-- `EThermalNetworkBuildSummary` (src/solver/thermal/utils/EThermalNetworkBuilder.h:6-13) -/
structure Summary (K : Type) where
  total : Nat
  boundary : Nat
  intake : K
  outtake : K
  joule : K

/-- `Reset` and the number of nodes (src/solver/thermal/utils/EGridThermalNetworkBuilder.cpp:21-22,
EPrismThermalNetworkBuilder.cpp:26-27) -/
def fresh (n : Nat) : Summary K := ⟨n, 0, 0, 0, 0⟩

/-- a heat flow counted by its sign (src/solver/thermal/utils/EGridThermalNetworkBuilder.cpp:90-92, 128-129, 151-152, 181-182,
EPrismThermalNetworkBuilder.cpp:114-116, 139-141, 227-229, EStackupPrismThermalNetworkBuilder.cpp:84-86, 113-115,
131-133, 161-163, 204-206) -/
def Summary.signed (s : Summary K) (v : K) : Summary K :=
  if 0 < v then { s with intake := s.intake + v } else { s with outtake := s.outtake + v }

/-- What the summary is after a call.  `SetHF` goes with a flow counted by its sign; `SetHTC` with one more boundary node
(src/solver/thermal/utils/EGridThermalNetworkBuilder.cpp:146, 176, EPrismThermalNetworkBuilder.cpp:109, 134, 233,
EStackupPrismThermalNetworkBuilder.cpp:79, 108, 128, 156, 210); `AddHF` of a prism with intake whatever the sign
(EPrismThermalNetworkBuilder.cpp:65, EStackupPrismThermalNetworkBuilder.cpp:34), `AddHF` of a wire with intake and
joule heat (EPrismThermalNetworkBuilder.cpp:170-171). -/
def tally (wire : Bool) (s : Summary K) : Res (Op K) → Summary K
  | .ok (.hf _ v) => s.signed v
  | .ok (.addHF _ v) =>
    if wire then { s with intake := s.intake + v, joule := s.joule + v } else { s with intake := s.intake + v }
  | .ok (.htc _ _) => { s with boundary := s.boundary + 1 }
  | _ => s

/-- The summary after `Build` of a grid model (src/solver/thermal/utils/EGridThermalNetworkBuilder.cpp:15-193) -/
def gridSummary (ip : List (K × K) → K → Res K) (m : GModel K) (iniT : List K) : Summary K :=
  (m.ops ip iniT).foldl (tally false) (fresh m.total)

/-- The summary after `Build` of a prism model on one thread (src/solver/thermal/utils/EPrismThermalNetworkBuilder.cpp:20-51) -/
def prismSummary (m : PModel K) (iniT : List K) : Summary K :=
  m.blocksOps.foldl (tally false) ((m.lines.flatMap (m.lineOps iniT)).foldl (tally true)
    ((m.rangeOps iniT (0, totalPrisms m.off)).foldl (tally false) (fresh m.total)))

/-- The summary after `Build` of a stackup prism model on one thread
(src/solver/thermal/utils/EPrismThermalNetworkBuilder.cpp:20-51, EStackupPrismThermalNetworkBuilder.cpp:21-221) -/
def stackSummary (m : SModel K) (iniT : List K) : Summary K :=
  m.blocksOps.foldl (tally false) ((m.lines.flatMap (m.wires.lineOps iniT)).foldl (tally true)
    ((m.rangeOps iniT (0, totalPrisms m.off)).foldl (tally false) (fresh m.total)))

/-! ### several threads

The threads of `Build` (src/solver/thermal/utils/EPrismThermalNetworkBuilder.cpp:30-45) add to the same `summary` without a
lock.  In C++ that is a data race; the model is the mildest reading: `iHeatFlow += p` reads the field and later writes
the sum. -/

/-- A thread: the sum it is about to write, if it has read the field, and the values it has still to add -/
structure Worker (K : Type) where
  reg : Option K
  todo : List K

/-- One step of a worker on the shared field (src/solver/thermal/utils/EPrismThermalNetworkBuilder.cpp:65): read, or write -/
def Worker.step (x : K) (w : Worker K) : K × Worker K :=
  match w.reg, w.todo with
  | some s, _ => (s, { w with reg := none })
  | none, v :: l => (x, ⟨some (x + v), l⟩)
  | none, [] => (x, w)

/-- A schedule: the numbers of the workers that take a step -/
def steps : K → List (Worker K) → List Nat → K × List (Worker K)
  | x, ws, [] => (x, ws)
  | x, ws, i :: s =>
    match ws[i]? with
    | none => steps x ws s
    | some w => steps (w.step x).1 (ws.set i (w.step x).2) s

/-- The intake a range of elements adds (src/solver/thermal/utils/EPrismThermalNetworkBuilder.cpp:65, 115, 140) -/
def intakes (l : List (Res (Op K))) : List K :=
  l.filterMap fun
    | .ok (.addHF _ v) => some v
    | .ok (.hf _ v) => if 0 < v then some v else none
    | _ => none

/-- The workers of a prism model with `n` threads at the start
(src/solver/thermal/utils/EPrismThermalNetworkBuilder.cpp:30-45) -/
def workers (m : PModel K) (iniT : List K) (n : Nat) : List (Worker K) :=
  (threadBlocks (totalPrisms m.off) n).map fun b => ⟨none, intakes (m.rangeOps iniT b)⟩

end Ecad.Summary
