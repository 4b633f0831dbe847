import Verif.Thermal.NetModel
/-!
The calls a network builder makes on the network it builds, as a list.

The builders never read the network they build (the number returned by `AppendNode` is the number of
nodes so far, which they know), so that a builder is modelled by the list of its calls in order.  A
builder may end early, by an exception or by undefined behaviour of its own: such an end is an
entry of the list too.
-/
namespace Ecad.Thermal

variable {K : Type} [Field K] [LinearOrder K]

/-- One call on the network (src/solver/thermal/network/ThermalNetwork.h:81-150). -/
inductive Op (K : Type) where
  | scen (i s : Nat)
  | c (i : Nat) (v : K)
  | hf (i : Nat) (v : K)
  | addHF (i : Nat) (v : K)
  | htc (i : Nat) (v : K)
  | addHTC (i : Nat) (v : K)
  | r (a b : Nat) (v : K)
  | append

/-- `Node::scen` of a new node (src/solver/thermal/network/ThermalNetwork.h:22) -/
def noScen : Nat := 2 ^ 64 - 1

/-- Execute one call. -/
def Op.exec (minR : K) (net : Network K) : Op K → Res (Network K)
  | .scen i s => upd net i fun n => { n with scen := s }
  | .c i v => setC net i v
  | .hf i v => setHF net i v
  | .addHF i v => Thermal.addHF net i v
  | .htc i v => setHTC net i v
  | .addHTC i v => Thermal.addHTC net i v
  | .r a b v => setR minR net a b v
  | .append => .ok (appendNode noScen net none).1

/-- Execute the calls in order up to the first that fails. -/
def run (minR : K) : Network K → List (Res (Op K)) → Res (Network K)
  | net, [] => .ok net
  | net, .ok op :: ops => (op.exec minR net).bind fun net => run minR net ops
  | _, .ub :: _ => .ub
  | _, .exn :: _ => .exn

end Ecad.Thermal
