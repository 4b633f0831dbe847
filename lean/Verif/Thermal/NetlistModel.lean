import Verif.Thermal.NetModel
/-!
The SPICE netlist of a thermal network: src/solver/thermal/network/utils/ThermalNetlistWriter.h.

Simplifications: a line is a card with its fields, not text; names of elements and nodes are made of their
parts, numbers are those of an ordered field.  The comment, `.ic` and `.tran` lines are left out.
-/
namespace Ecad.Netlist
open Ecad.Thermal

/-- A node of the circuit: `0`, `REF`, or `N` and a number
(src/solver/thermal/network/utils/ThermalNetlistWriter.h:35, 39). -/
inductive Nd | ground | ref | n (i : Nat)
  deriving DecidableEq

/-- The names of the elements (src/solver/thermal/network/utils/ThermalNetlistWriter.h:44, 52, 58, 64, 70, 76) -/
inductive Name | vref | c (i : Nat) | r (i j : Nat) | v (i : Nat) | i (s k : Nat) | rref (i : Nat)
  deriving DecidableEq

/-- kinds of elements: the first letter of the name -/
inductive Kind | cap | res | vol | cur
  deriving DecidableEq

/-- A line: element, its two nodes, its value. -/
structure Card (K : Type) where
  kind : Kind
  name : Name
  a : Nd
  b : Nd
  val : K
  deriving DecidableEq

variable {K : Type} [Field K] [LinearOrder K]

/-- The lines of node number `i` (src/solver/thermal/network/utils/ThermalNetlistWriter.h:50-79); `s` is
`sIndex`. -/
def nodeCards (s i : Nat) (nd : Node K) : List (Card K) :=
  (if nd.c > 0 then [⟨.cap, .c i, .n i, .ref, nd.c⟩] else []) ++
  (nd.ns.map fun e => ⟨.res, .r i e.1, .n i, .n e.1, e.2⟩) ++
  (match nd.t with
    | some t => [⟨.vol, .v i, .n i, .ref, t⟩]
    | none => []) ++
  (if nd.hf ≠ 0 then [⟨.cur, .i s i, .n s, .n i, nd.hf⟩] else []) ++
  (if nd.htc ≠ 0 then [⟨.res, .rref i, .n i, .ref, 1 / nd.htc⟩] else [])

/-- `WriteSpiceNetlist` (src/solver/thermal/network/utils/ThermalNetlistWriter.h:28-84) -/
def netlist (refT : K) (net : Network K) : List (Card K) :=
  ⟨.vol, .vref, .ref, .ground, refT⟩ :: net.zipIdx.flatMap fun p => nodeCards net.length p.2 p.1

end Ecad.Netlist
