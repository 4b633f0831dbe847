import Verif.Thermal.NetModel
import Mathlib.Algebra.Order.Ring.Rat
import Mathlib.Data.Rat.Floor
/-!
Merging boundary nodes: src/solver/thermal/network/utils/BoundaryNodeReduction.h; recording samples:
src/solver/thermal/network/ThermalNetworkSolver.h.
-/
namespace Ecad.Thermal

/-- Constants and arguments of `Reduce`: `FAKE_RES` and `FAKE_CAP`
(src/solver/thermal/network/utils/BoundaryNodeReduction.h:11-12), the smallest resistance, the
default scenario, the temperature range and the number of bins (18). -/
structure RedArgs where
  fakeR : ℚ
  fakeC : ℚ
  minR : ℚ
  scen : Nat
  minT : ℚ
  maxT : ℚ
  disc : Nat

/-- The bin of a temperature (src/solver/thermal/network/utils/BoundaryNodeReduction.h:22, 26); `none`:
the quotient is not a number and its conversion undefined.  With no bins `range` is infinite and the
quotient zero. -/
def RedArgs.bin (a : RedArgs) (t : ℚ) : Option Nat :=
  if a.maxT = a.minT then none
  else if a.disc = 0 then some 0
  else some ⌊(t - a.minT) / ((a.maxT - a.minT) / a.disc)⌋.toNat

/-- Lines 32-35: everything done for node `i` once its merged node `nid` is known; `htc` is read
through the reference `node`. -/
def moveTo (a : RedArgs) (net : Network ℚ) (nid i : Nat) (htc : ℚ) : Res (Network ℚ) :=
  (setC net nid a.fakeC).bind fun net =>
  (setR a.minR net nid i a.fakeR).bind fun net =>
  (addHTC net nid htc).bind fun net => setHTC net i 0

/-- One turn of the loop (src/solver/thermal/network/utils/BoundaryNodeReduction.h:23-36).  `cap` is the
capacity of the node vector.  When appending exceeds it, the vector moves and the reference `node`
(24) dangles; it is read afterwards (34): undefined behaviour. A node of unknown temperature is
above every range. -/
def redStep (a : RedArgs) (cap : Nat) (s : Network ℚ × List (Nat × Nat)) (i : Nat) :
    Res (Network ℚ × List (Nat × Nat)) :=
  match s.1[i]? with
  | none => .ub
  | some node =>
    match node.t with
    | none => .ok s
    | some t =>
      if t < a.minT ∨ a.maxT < t then .ok s
      else
        match a.bin t with
        | none => .ub
        | some id =>
          match UMap.find? s.2 id with
          | some nid => (moveTo a s.1 nid i node.htc).bind fun net => .ok (net, s.2)
          | none =>
            if s.1.length < cap then
              let r := appendNode a.scen s.1 none
              (moveTo a r.1 r.2 i node.htc).bind fun net => .ok (net, (UMap.emplace s.2 id r.2).1)
            else .ub

/-- The loop over the nodes `i`, `i + 1`, …, `n` of them. -/
def redLoop (a : RedArgs) (cap : Nat) : Nat → Nat → Network ℚ × List (Nat × Nat) → Res (Network ℚ × List (Nat × Nat))
  | _, 0, s => .ok s
  | i, n + 1, s => (redStep a cap s i).bind fun s => redLoop a cap (i + 1) n s

/-- `Reduce` (src/solver/thermal/network/utils/BoundaryNodeReduction.h:18-37) -/
def reduceBonds (a : RedArgs) (cap : Nat) (net : Network ℚ) : Res (Network ℚ × List (Nat × Nat)) :=
  redLoop a cap 0 net.length (net, [])

/-! ### sampler -/

/-- `Sampler` (src/solver/thermal/network/ThermalNetworkSolver.h:140-179, and 351-392 for the reduced
solver); samples are represented by their times, the oldest first. -/
structure Sampler where
  start : ℚ
  stop : ℚ
  interval : ℚ
  prev : ℚ
  count : ℚ
  samples : List ℚ

/-- The constructor (src/solver/thermal/network/ThermalNetworkSolver.h:150-156) -/
def Sampler.new (start stop interval : ℚ) (samples : List ℚ) : Sampler :=
  ⟨start, stop, interval, samples.getLast?.getD 0, 0, samples⟩

/-- `operator()` (src/solver/thermal/network/ThermalNetworkSolver.h:158-178), without the state vector;
`Within<Close>` of the library is taken to include both bounds. -/
def Sampler.observe (s : Sampler) (t : ℚ) : Sampler :=
  if s.start ≤ t ∧ t ≤ s.stop then
    let count := s.count + (t - s.prev)
    if count > s.interval then { s with samples := s.samples ++ [t], count := 0, prev := t }
    else { s with count := count, prev := t }
  else s

/-- A run of the integrator: the observer is called with each time. -/
def Sampler.run (s : Sampler) (ts : List ℚ) : Sampler := ts.foldl Sampler.observe s

end Ecad.Thermal
