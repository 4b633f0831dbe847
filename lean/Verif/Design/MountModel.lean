import Verif.Basic.SmallModel
import Mathlib.Algebra.Group.Action.Defs
/-!
Placed components with their outlines and pins, and bond wires that end at pins or at points of a
layer.

Transforms are those of `Verif.Basic.SmallModel`: matrices `M` made by a library `Kit F M`, acting on
points `P`.  Simplification: points are exact, so the rounding of transformed points to integers is
not modelled.  Components are referred to by their position in a list (no component is removed).
-/
namespace Ecad.Mount
open Trans

variable {F M P : Type} [Zero F] [One F] [DecidableEq F] [Kit F M] [MulAction M P]

/-- `ELayerId::ComponentLayer` (src/basic/ECadCommon.h). -/
def componentLayer : Int := -10

/-- `ELayerId::noLayer` (src/basic/ECadCommon.h). -/
def noLayer : Int := -1

/-- `EComponentDefPin` (src/design/EComponentDefPin.h:33-37): name and location. -/
structure Pin (P : Type) where
  name : String
  loc : P
  deriving DecidableEq

/-- `EComponentDef` (src/design/EComponentDef.h): pins in the order of creation, and the points of the
outline if there is one. -/
structure CompDef (P : Type) where
  pins : List (Pin P)
  boundary : Option (List P)

/-- `CreatePin` (src/collection/EComponentDefPinCollection.cpp:39-53). -/
def CompDef.createPin (d : CompDef P) (name : String) (loc : P) : CompDef P :=
  { d with pins := d.pins ++ [⟨name, loc⟩] }

/-- `FindPinByName` (src/collection/EComponentDefPinCollection.cpp:55-62). -/
def findPin (name : String) : List (Pin P) → Option (Pin P)
  | [] => none
  | p :: ps => if name = p.name then some p else findPin name ps

/-- `EComponent` (src/design/EComponent.h:49-56): definition (by its position in a list), transform
and whether it is flipped. -/
structure Comp (F M : Type) where
  cdef : Nat
  trans : T F M
  flipped : Bool

/-- The transform put together in `GetBoundary` and `GetPinLocation`
(src/design/EComponent.cpp:111-114, 140-143). -/
def Comp.pose (c : Comp F M) : Res (T F M) :=
  (if c.flipped then (T.new F M).set fun d => { d with mirror := some 2 }
    else .ok (T.new F M)).bind fun t =>
  .ok (t.append c.trans).1

/-- `GetPinLocation` (src/design/EComponent.cpp:136-146); `none` is the result `false`. -/
def Comp.pinLocation (c : Comp F M) (d : CompDef P) (name : String) : Res (Option P) :=
  match findPin name d.pins with
  | none => .ok none
  | some pin => c.pose.bind fun t => .ok (some (t.get.2 • pin.loc))

/-- `GetBoundary` (src/design/EComponent.cpp:107-119): the points of the moved outline. -/
def Comp.boundary (c : Comp F M) (d : CompDef P) : Res (Option (List P)) :=
  match d.boundary with
  | none => .ok none
  | some b => c.pose.bind fun t => .ok (some (b.map fun p => t.get.2 • p))

/-- One end of a bond wire: `m_layer` or `m_endLayer`, and its entries of `m_mountComp`,
`m_connectedPin`, `m_location` and `m_flipped` (src/design/EPrimitive.h:130-134). -/
structure End (P : Type) where
  layer : Int
  comp : Option Nat
  pin : String
  loc : P
  flipped : Bool

/-- A bond wire: its two ends. -/
structure Wire (P : Type) where
  fst : End P
  snd : End P

/-- The constructor (src/design/EPrimitive.cpp:216-220, src/design/EPrimitive.h:130-134); `o` is the
value of a default constructed point. -/
def Wire.new (o : P) : Wire P := ⟨⟨noLayer, none, "", o, false⟩, ⟨noLayer, none, "", o, false⟩⟩

/-- `SetStartLayer(layer)` (src/design/EPrimitive.cpp:283-288) and `SetEndLayer(layer)` (303-308). -/
def End.setLayer (e : End P) (layer : Int) : End P :=
  { e with pin := "", comp := none, layer := layer }

/-- `SetStartLayer(layer, location, flipped)` (src/design/EPrimitive.cpp:276-281) and
`SetEndLayer(layer, location, flipped)` (296-301). -/
def End.setLayerAt (e : End P) (layer : Int) (loc : P) (flipped : Bool) : End P :=
  End.setLayer { e with loc := loc, flipped := flipped } layer

/-- `SetStartComponent` (src/design/EPrimitive.cpp:346-351) and `SetEndComponent` (358-363). -/
def End.setComponent (e : End P) (comp : Option Nat) (pin : String) : End P :=
  { e with layer := componentLayer, pin := pin, comp := comp }

/-- `Transform` (src/design/EPrimitive.cpp:400-405) at one end; `f` is the action of the matrix. -/
def End.transform (f : P → P) (e : End P) : End P := { e with loc := f e.loc }

/-- All definitions, components and bond wires. -/
structure World (F M P : Type) where
  defs : List (CompDef P)
  comps : List (Comp F M)
  wires : List (Wire P)

/-- The pin location of a component (src/design/EComponent.cpp:138); a component or definition that
does not exist is a wild pointer. -/
def World.pinLocation (w : World F M P) (i : Nat) (name : String) : Res (Option P) :=
  match w.comps[i]? with
  | none => .ub
  | some c =>
    match w.defs[c.cdef]? with
    | none => .ub
    | some d => c.pinLocation d name

/-- The outline of a component (src/design/EComponent.cpp:109). -/
def World.boundary (w : World F M P) (i : Nat) : Res (Option (List P)) :=
  match w.comps[i]? with
  | none => .ub
  | some c =>
    match w.defs[c.cdef]? with
    | none => .ub
    | some d => c.boundary d

/-- `GetStartPt` (src/design/EPrimitive.cpp:248-255) and `GetEndPt` (257-264). -/
def World.point (w : World F M P) (e : End P) : Res P :=
  match e.comp with
  | none => .ok e.loc
  | some i =>
    if e.pin = "" then .ok e.loc
    else (w.pinLocation i e.pin).bind fun r =>
      match r with
      | some p => .ok p
      | none => .ok e.loc

/-- `GetStartLayer(&flipped)` (src/design/EPrimitive.cpp:290-294) and `GetEndLayer(&flipped)`
(310-314): the layer and whether the end is below it.  A null component is dereferenced. -/
def World.side (w : World F M P) (e : End P) : Res (Int × Bool) :=
  if e.layer = componentLayer then
    match e.comp with
    | none => .ub
    | some i =>
      match w.comps[i]? with
      | none => .ub
      | some c => .ok (e.layer, c.flipped)
  else .ok (e.layer, e.flipped)

/-- Calls.  A transform is given by the object passed.  In calls on wires `b` tells the start (`true`)
from the end. -/
inductive Op (F M P : Type) where
  /-- `CreateComponentDef` and `SetBoundary` -/
  | newDef (boundary : Option (List P))
  | createPin (d : Nat) (name : String) (loc : P)
  /-- `CreateComponent` (src/collection/EComponentCollection.cpp:51-60) -/
  | newComp (d : Nat) (t : T F M) (flipped : Bool)
  | setTransform (i : Nat) (t : T F M)
  | addTransform (i : Nat) (t : T F M)
  /-- the matrix of a component is asked for, as in `EHierarchyObj::PrintImp`
  (src/design/EHierarchyObj.cpp:48-51) -/
  | readTransform (i : Nat)
  | setFlipped (i : Nat) (f : Bool)
  | newWire (o : P)
  | setLayer (k : Nat) (b : Bool) (layer : Int)
  | setLayerAt (k : Nat) (b : Bool) (layer : Int) (loc : P) (flipped : Bool)
  | setComponent (k : Nat) (b : Bool) (comp : Option Nat) (pin : String)
  | transformWire (k : Nat) (t : T F M)

/-- One end of a wire is changed. -/
def Wire.upd (w : Wire P) (b : Bool) (f : End P → End P) : Wire P :=
  if b then { w with fst := f w.fst } else { w with snd := f w.snd }

/-- One call.  `SetTransform` and `AddTransform`: src/basic/protocol/Transformable.h:13-21;
`SetFlipped`: src/design/EComponent.cpp:121-124. -/
def step (w : World F M P) : Op F M P → World F M P
  | .newDef b => { w with defs := w.defs ++ [⟨[], b⟩] }
  | .createPin d name loc => { w with defs := w.defs.modify d fun x => x.createPin name loc }
  | .newComp d t f => { w with comps := w.comps ++ [⟨d, t.copy, f⟩] }
  | .setTransform i t => { w with comps := w.comps.modify i fun c => { c with trans := t.copy } }
  | .addTransform i t =>
    { w with comps := w.comps.modify i fun c => { c with trans := (c.trans.append t).1 } }
  | .readTransform i =>
    { w with comps := w.comps.modify i fun c => { c with trans := c.trans.get.1 } }
  | .setFlipped i f => { w with comps := w.comps.modify i fun c => { c with flipped := f } }
  | .newWire o => { w with wires := w.wires ++ [Wire.new o] }
  | .setLayer k b l => { w with wires := w.wires.modify k fun x => x.upd b fun e => e.setLayer l }
  | .setLayerAt k b l p f =>
    { w with wires := w.wires.modify k fun x => x.upd b fun e => e.setLayerAt l p f }
  | .setComponent k b c pin =>
    { w with wires := w.wires.modify k fun x => x.upd b fun e => e.setComponent c pin }
  | .transformWire k t =>
    { w with wires := w.wires.modify k fun x =>
        ⟨x.fst.transform fun p => t.get.2 • p, x.snd.transform fun p => t.get.2 • p⟩ }

/-- A history of calls. -/
def run (w : World F M P) : List (Op F M P) → World F M P
  | [] => w
  | op :: ops => run (step w op) ops

end Ecad.Mount
