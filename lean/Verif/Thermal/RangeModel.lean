import Verif.Thermal.NetModel
/-!
The lowest and the highest temperature of a network (src/solver/thermal/network/ThermalNetwork.h:170-188).

`big` is `std::numeric_limits<num_type>::max()`; it is also the mark `unknownT` (line 19), so a node without a temperature holds the
value `big`.
-/
namespace Ecad.Thermal

variable {K : Type} [Field K] [LinearOrder K]

/-- the member `t` of a node as stored (src/solver/thermal/network/ThermalNetwork.h:19, 23) -/
def Node.raw (big : K) (n : Node K) : K := n.t.getD big

/-- `SetT` (src/solver/thermal/network/ThermalNetwork.h:94-97): storing the mark makes the temperature unknown -/
def setT (big : K) (net : Network K) (i : Nat) (v : K) : Res (Network K) :=
  upd net i fun n => { n with t := if v = big then none else some v }

/-- `MinT` (src/solver/thermal/network/ThermalNetwork.h:170-178) -/
def minT (big : K) (net : Network K) : K :=
  net.foldl (fun m n => if n.raw big = big then m else min m (n.raw big)) big

/-- `MaxT` (src/solver/thermal/network/ThermalNetwork.h:180-188) -/
def maxT (big : K) (net : Network K) : K :=
  net.foldl (fun m n => if n.raw big = big then m else max m (n.raw big)) (-big)

end Ecad.Thermal
