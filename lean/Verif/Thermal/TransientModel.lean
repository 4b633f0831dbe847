import Verif.Base.Res
import Mathlib.Algebra.Order.Floor.Semiring
import Mathlib.Data.Rat.Floor
/-!
The transient solver: `EThermalNetworkTransientSolver::Solve` (src/solver/thermal/EThermalNetworkSolver.cpp:100-201) with the
samplers of src/solver/thermal/network/ThermalNetworkSolver.h.

Exact numbers instead of floating point; the dumps, traces and the reading and writing of reduced models are left out.
The integrators of the library (boost odeint) enter through `Scheme`.
-/
namespace Ecad.Trans

/-- The temperatures of the nodes, or the state of a reduced model -/
abbrev State := List ℚ

/-- A point of time with the state -/
abbrev Obs := ℚ × State

/-- The settings in use (src/basic/ECadSettings.h:440-447, 469-490, 499-527); `envT` in kelvin, `order` of the reduced
model, zero for none. -/
structure Settings where
  adaptive : Bool
  tempDep : Bool
  step : ℚ
  duration : ℚ
  interval : ℚ
  window : ℚ
  probs : List Nat
  envT : ℚ
  celsius : Bool
  order : Nat

/-- What a solver made for a network (`TransSolver`) does: the size of its states (`StateSize`,
src/solver/thermal/network/ThermalNetworkSolver.h:207, 239, 348), one step of the fixed step integrator from a time by a time, and
what the adaptive integrator observes after its start: network, start, duration, first step, state. -/
structure Scheme (N : Type) where
  size : N → Nat
  stepBy : N → ℚ → ℚ → State → State
  adapt : N → ℚ → ℚ → ℚ → State → List Obs

/-- `integrate_const` of the library: `n` steps; the observer sees the state before each step and at the end. -/
def constFrom (f : ℚ → State → State) (t0 dt : ℚ) (k : Nat) (x : State) : Nat → List Obs
  | 0 => [(t0 + k * dt, x)]
  | n + 1 => (t0 + k * dt, x) :: constFrom f t0 dt (k + 1) (f (t0 + k * dt) x) n

/-- `Solve` and `SolveAdaptive` (src/solver/thermal/network/ThermalNetworkSolver.h:241-259, 426-442) once the size fits: what
is observed; the state at the end is the last one.  Both integrators take no step if `dt` is not positive; the one
with fixed steps takes as many as fit into the duration. -/
def observed {N : Type} (S : Scheme N) (adaptive : Bool) (net : N) (t0 dur dt : ℚ) (x : State) : List Obs :=
  if adaptive then (t0, x) :: (if 0 < dt ∧ 0 < dur then S.adapt net t0 dur dt x else [])
  else constFrom (fun t y => S.stepBy net t dt y) t0 dt 0 x (if 0 < dt then ⌊dur / dt⌋₊ else 0)

/-- A sample: time and temperatures at the probes -/
abbrev Sample := ℚ × List ℚ

/-- `Sampler` (src/solver/thermal/network/ThermalNetworkSolver.h:140-180, 351-394).  `lastState` is the state the integrator
works on, so that writing to it changes nothing. -/
structure Sampler where
  start : ℚ
  stop : ℚ
  interval : ℚ
  prev : ℚ
  count : ℚ
  samples : List Sample

/-- The constructor (src/solver/thermal/network/ThermalNetworkSolver.h:150-156, 362-368) with the window at
src/solver/thermal/EThermalNetworkSolver.cpp:114.  `EsitimateSamples` (129-132 of the header) converts a quotient to an unsigned
number: undefined for infinity, not a number and -1 and below. -/
def Sampler.new (set : Settings) (samples : List Sample) : Res Sampler :=
  if set.interval = 0 ∨ (set.duration - (set.duration - set.window)) / set.interval ≤ -1 then .ub
  else .ok ⟨set.duration - set.window, set.duration, set.interval, (samples.getLast?.map Prod.fst).getD 0, 0, samples⟩

/-- `operator()` (src/solver/thermal/network/ThermalNetworkSolver.h:158-178, 370-391); `out` are the values of a state at
the probes. -/
def Sampler.observe (out : State → Res (List ℚ)) (s : Sampler) (o : Obs) : Res Sampler :=
  if s.start ≤ o.1 ∧ o.1 ≤ s.stop then
    let count := s.count + (o.1 - s.prev)
    if count > s.interval then
      (out o.2).bind fun v => .ok { s with samples := s.samples ++ [(o.1, v)], count := 0, prev := o.1 }
    else .ok { s with count := count, prev := o.1 }
  else .ok s

/-- All observations of one integration -/
def Sampler.run (out : State → Res (List ℚ)) (s : Sampler) : List Obs → Res Sampler
  | [] => .ok s
  | o :: os => (s.observe out o).bind fun s => Sampler.run out s os

/-- `x[p]` for each probe (src/solver/thermal/network/ThermalNetworkSolver.h:165), without check -/
def probe (x : State) : List Nat → Res (List ℚ)
  | [] => .ok []
  | p :: ps =>
    match x[p]? with
    | none => .ub
    | some v => (probe x ps).bind fun vs => .ok (v :: vs)

/-- The state of the loop: time, temperatures, samples and number of steps. -/
structure St where
  time : ℚ
  temps : State
  samples : List Sample
  steps : Nat

/-- One integration from `st.time` over `dur` with first step `dt`
(src/solver/thermal/EThermalNetworkSolver.cpp:127-132, 137-142).  `build` is `Build` of the network builder (null for
temperatures of another number), dereferenced at once.  A state of another size than that of the solver is left
alone (src/solver/thermal/network/ThermalNetworkSolver.h:244, 254). -/
def piece {N : Type} (build : State → Option N) (S : Scheme N) (set : Settings) (dur dt : ℚ) (st : St) : Res St :=
  match build st.temps with
  | none => .ub
  | some net =>
    (Sampler.new set st.samples).bind fun smp =>
    if st.temps.length ≠ S.size net then .ok st
    else
      let os := observed S set.adaptive net st.time dur dt st.temps
      (Sampler.run (probe · set.probs) smp os).bind fun smp =>
        .ok { st with temps := (os.getLast?.map Prod.snd).getD st.temps, samples := smp.samples,
                      steps := st.steps + (os.length - 1) }

/-- What a reduced solver (`Intermidiate`, src/solver/thermal/network/ThermalNetworkSolver.h:270-350) adds to a scheme:
`toState` is `rom.xT * in`, `output` the rows of `rLT`, with the number of probes, or all nodes without probes
(src/solver/thermal/network/ThermalNetwork.h:309-322). -/
structure Reduced (N : Type) where
  nodes : N → Nat
  scheme : Scheme N
  toState : N → State → State
  output : N → State → List ℚ

/-- One integration with a reduced model (src/solver/thermal/EThermalNetworkSolver.cpp:155-164, 169-176); `none` is
`return false` (`Input2State`, src/solver/thermal/network/ThermalNetworkSolver.h:328-330). -/
def pieceR {N : Type} (build : State → Option N) (R : Reduced N) (set : Settings) (dur dt : ℚ) (st : St) :
    Res (Option St) :=
  match build st.temps with
  | none => .ub
  | some net =>
    if st.temps.length ≠ R.nodes net then .ok none
    else
      let x := R.toState net st.temps
      (Sampler.new set st.samples).bind fun smp =>
      let os := observed R.scheme set.adaptive net st.time dur dt x
      (Sampler.run (fun y => .ok (R.output net y)) smp os).bind fun smp =>
        .ok (some { st with temps := R.output net ((os.getLast?.map Prod.snd).getD x), samples := smp.samples,
                            steps := st.steps + (os.length - 1) })

/-- The loop over the steps (src/solver/thermal/EThermalNetworkSolver.cpp:123-134); `none`: not ended after `fuel`
turns. -/
def loop {N : Type} (build : State → Option N) (S : Scheme N) (set : Settings) : Nat → St → Option (Res St)
  | 0, st => if st.time < set.duration then none else some (.ok st)
  | fuel + 1, st =>
    if st.time < set.duration then
      match piece build S set set.step set.interval st with
      | .ok st => loop build S set fuel { st with time := st.time + set.step }
      | .ub => some .ub
      | .exn => some .exn
    else some (.ok st)

/-- The same with a reduced model (src/solver/thermal/EThermalNetworkSolver.cpp:152-166) -/
def loopR {N : Type} (build : State → Option N) (R : Reduced N) (set : Settings) :
    Nat → St → Option (Res (Option St))
  | 0, st => if st.time < set.duration then none else some (.ok (some st))
  | fuel + 1, st =>
    if st.time < set.duration then
      match pieceR build R set set.step set.interval st with
      | .ok (some st) => loopR build R set fuel { st with time := st.time + set.step }
      | .ok none => some (.ok none)
      | .ub => some .ub
      | .exn => some .exn
    else some (.ok (some st))

/-- `Kelvins2Celsius` of the library -/
def celsius (t : ℚ) : ℚ := t - 27315 / 100

/-- The loop over the samples (src/solver/thermal/EThermalNetworkSolver.cpp:179-187): extremes so far and converted
samples.  `*min_element` of nothing is undefined. -/
def report (toC : Bool) : List Sample → (ℚ × ℚ) → Res ((ℚ × ℚ) × List Sample)
  | [], r => .ok (r, [])
  | (t, vs) :: ss, (lo, hi) =>
    let vs := if toC then vs.map celsius else vs
    match vs with
    | [] => .ub
    | v :: ws =>
      (report toC ss (min lo (ws.foldl min v), max hi (ws.foldl max v))).bind fun r => .ok (r.1, (t, vs) :: r.2)

/-- Result: whether a step was taken, the extremes, and the samples written to the file. -/
structure Out where
  ok : Bool
  lo : ℚ
  hi : ℚ
  samples : List Sample
  deriving DecidableEq

/-- The end of `Solve` (src/solver/thermal/EThermalNetworkSolver.cpp:105-106, 179-187, 200); `big` is `maxFloat`. -/
def finish (big : ℚ) (set : Settings) (st : St) : Res Out :=
  (report set.celsius st.samples (big, -big)).bind fun r => .ok ⟨decide (0 < st.steps), r.1.1, r.1.2, r.2⟩

/-- the beginning: `total` nodes at the temperature of the environment -/
def St.init (total : Nat) (set : Settings) : St := ⟨0, List.replicate total set.envT, [], 0⟩

/-- `Solve` without reduction (src/solver/thermal/EThermalNetworkSolver.cpp:100-144, 179-200); `total` is the size of the
model. -/
def solve {N : Type} (build : State → Option N) (S : Scheme N) (total : Nat) (big : ℚ) (set : Settings) (fuel : Nat) :
    Option (Res Out) :=
  if set.tempDep then (loop build S set fuel (St.init total set)).map fun r => r.bind (finish big set)
  else some ((piece build S set set.duration (if set.adaptive then set.step else set.interval) (St.init total set)).bind
    (finish big set))

/-- `Solve` with a reduced model (src/solver/thermal/EThermalNetworkSolver.cpp:100-114, 145-200): without temperature
dependence the state is not turned back into temperatures. -/
def solveR {N : Type} (build : State → Option N) (R : Reduced N) (total : Nat) (big : ℚ) (set : Settings) (fuel : Nat) :
    Option (Res (Option Out)) :=
  let fin := fun o : Option St => match o with
    | none => Res.ok none
    | some st => (finish big set st).bind fun r => .ok (some r)
  if set.tempDep then (loopR build R set fuel (St.init total set)).map fun r => r.bind fin
  else some ((pieceR build R set set.duration (if set.adaptive then set.step else set.interval) (St.init total set)).bind
    fin)

end Ecad.Trans
