import Verif.Base.Res
import Verif.Net.Model
/-!
Connectivity extraction.
-/
namespace Ecad.Conn

/-- A pointer to a connection object of the layout: the n-th primitive or padstack instance. -/
inductive Ref where
  | prim (i : Nat)
  | pad (i : Nat)
  deriving DecidableEq, Repr

/-- The kind of a primitive (`EPrimitiveType`): geometry, text with its label, or something else
(bondwires). -/
inductive Kind where
  | geom
  | text (label : String)
  | other
  deriving DecidableEq, Repr

/-- What has been put into the extractor: the next index (`AddObject` of the geometry library returns
0, 1, 2, … ; the library is not part of the repository), `connObjMap`, and the text labels with their
texts (`textLabels`). -/
structure Reg where
  next : Nat := 0
  objs : List (Nat × Ref) := []
  labels : List (Nat × String) := []

/-- The loop over the primitives (src/utility/ELayoutConnectivity.cpp:46-71), primitives from number
`i` on. -/
def regPrims (i : Nat) (s : Reg) : List Kind → Reg
  | [] => s
  | .geom :: ks => regPrims (i + 1)
      { s with next := s.next + 1, objs := (UMap.emplace s.objs s.next (.prim i)).1 } ks
  | .text t :: ks => regPrims (i + 1)
      { next := s.next + 1, objs := (UMap.emplace s.objs s.next (.prim i)).1,
        labels := (UMap.emplace s.labels s.next t).1 } ks
  | .other :: ks => regPrims (i + 1) s ks

/-- The loop over the layers of a padstack instance (src/utility/ELayoutConnectivity.cpp:85-93); the
list tells for which layers of the range there is a shape. -/
def regShapes (j : Nat) (added : Bool) (s : Reg) : List Bool → Reg
  | [] => s
  | false :: bs => regShapes j added s bs
  | true :: bs =>
    if !added then
      regShapes j true { s with next := s.next + 1, objs := (UMap.emplace s.objs s.next (.pad j)).1 } bs
    else regShapes j added { s with next := s.next + 1 } bs

/-- The loop over the padstack instances (src/utility/ELayoutConnectivity.cpp:79-94). -/
def regPads (j : Nat) (s : Reg) : List (List Bool) → Reg
  | [] => s
  | p :: ps => regPads (j + 1) (regShapes j false s p) ps

/-- The objects of a layout. -/
structure Objs where
  prims : List Kind
  pads : List (List Bool)

/-- everything registered (src/utility/ELayoutConnectivity.cpp:46-94) -/
def register (o : Objs) : Reg := regPads 0 (regPrims 0 {} o.prims) o.pads

/-- Name of the net of a group (src/utility/ELayoutConnectivity.cpp:105-116). -/
def netName (labels : List (Nat × String)) (g : List Nat) : String :=
  let name := (g.findSome? (UMap.find? labels)).getD ""
  if name = "" then "Auto_Net" else name

/-- Putting the objects of a group on a net (src/utility/ELayoutConnectivity.cpp:119-122). -/
def setNets (objs : List (Nat × Ref)) (id : Int) (nets : Ref → Int) : List Nat → Ref → Int
  | [] => nets
  | i :: is =>
    match UMap.find? objs i with
    | none => setNets objs id nets is
    | some r => setNets objs id (fun x => if x = r then id else nets x) is

/-- The loop over the groups (src/utility/ELayoutConnectivity.cpp:104-123).  `NextNetName` is
`NextKey` over the names of the nets. -/
def groups (s : Reg) (c : Net.Coll) (nets : Ref → Int) :
    List (List Nat) → Res (Net.Coll × (Ref → Int))
  | [] => .ok (c, nets)
  | g :: gs =>
    let r := Net.createNet c (Naming.nextName (UMap.keys c.nets) (netName s.labels g))
    match r.2 with
    | none => .ub
    | some n => groups s r.1 (setNets s.objs n.id nets g) gs

/-- `ConnectivityExtraction` (src/utility/ELayoutConnectivity.cpp:20-124).  `layers` is the number of
stackup layers: for none, `layers.size() - 1` (28) wraps around and the loop reads outside of the
vector.  `cc` maps the number of registered objects to the connected components found by the
geometry library (97-99). -/
def extract (layers : Nat) (o : Objs) (cc : List (List Nat)) (c : Net.Coll) (nets : Ref → Int) :
    Res (Net.Coll × (Ref → Int)) :=
  if layers = 0 then .ub else groups (register o) (Net.clear c) nets cc

end Ecad.Conn
