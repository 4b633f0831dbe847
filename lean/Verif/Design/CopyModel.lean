import Verif.Base.UMap
import Verif.Base.Res
/-!
Copying layouts and whole databases: which pointers the copy holds.

Objects are numbered as in `Verif.Design.DatabaseModel`; null is `none`.  Only what holds or is the
target of a pointer is kept: cells with their layouts, cell instances, components, padstack
instances and bond wires, component definitions with their pins, padstack definitions, layer maps and
materials.  Nets, layers, shapes, materials of objects and the like are referred to by id or name, or
are owned by one object, and are left out.
-/
namespace Ecad.Copy

/-- `EComponent` (src/design/EComponent.h:49-50, src/design/EHierarchyObj.h:25-28). -/
structure Comp where
  obj : Nat
  name : String
  refLayout : Option Nat
  compDef : Option Nat
  deriving DecidableEq, Repr

/-- `ECellInst` (src/design/ECellInst.h:37-40, src/design/EHierarchyObj.h:25-28). -/
structure CellInst where
  obj : Nat
  refLayout : Option Nat
  defLayout : Option Nat
  layerMap : Option Nat
  deriving DecidableEq, Repr

/-- `EPadstackInst` (src/design/EPadstackInst.h:47-53). -/
structure PsInst where
  obj : Nat
  psDef : Option Nat
  layerMap : Option Nat
  deriving DecidableEq, Repr

/-- `EBondwire` (src/design/EPrimitive.h:128-141). -/
structure Wire where
  obj : Nat
  startComp : Option Nat
  endComp : Option Nat
  joints : Option Nat
  deriving DecidableEq, Repr

/-- `ELayoutView` (src/design/ELayoutView.h): its cell, the components by name, and the rest in
order. -/
structure Layout where
  obj : Nat
  cell : Option Nat
  comps : List (String × Comp)
  insts : List CellInst
  pads : List PsInst
  wires : List Wire
  deriving DecidableEq, Repr

/-- `ECircuitCell` (src/design/ECell.cpp:99-104). -/
structure Cell where
  obj : Nat
  owner : Option Nat
  layout : Layout
  deriving DecidableEq, Repr

/-- `EComponentDef` with the padstack definitions of its pins (src/design/EComponentDefPin.h:36). -/
structure CompDef where
  obj : Nat
  owner : Option Nat
  pins : List (Nat × Option Nat)
  deriving DecidableEq, Repr

/-- Padstack definitions, layer maps and materials: nothing but their database is a pointer. -/
structure Plain where
  obj : Nat
  owner : Option Nat
  deriving DecidableEq, Repr

/-- `EDatabase` (src/design/EDatabase.cpp:46-54). -/
structure Database where
  obj : Nat
  cells : List (String × Cell)
  compDefs : List (String × CompDef)
  plains : List (String × Plain)
  deriving DecidableEq, Repr

/-- `CloneHelper` of an object without own copy code: a new object with the same members
(src/basic/protocol/Clonable.h:18-23); the new object of `o` is `o + base`. -/
def Comp.clone (base : Nat) (c : Comp) : Comp := { c with obj := c.obj + base }

/-- As `Comp.clone` (src/design/ECellInst.h). -/
def CellInst.clone (base : Nat) (c : CellInst) : CellInst := { c with obj := c.obj + base }

/-- As `Comp.clone` (src/design/EPadstackInst.h:38-39). -/
def PsInst.clone (base : Nat) (c : PsInst) : PsInst := { c with obj := c.obj + base }

/-- As `Comp.clone` (src/design/EPrimitive.h:124-125). -/
def Wire.clone (base : Nat) (c : Wire) : Wire := { c with obj := c.obj + base }

/-- `FindComponentByName` (src/design/ELayoutView.cpp:225-228,
src/collection/EComponentCollection.cpp:67-72). -/
def findComponentByName (comps : List (String × Comp)) (name : String) : Option Nat :=
  (UMap.find? comps name).map Comp.obj

/-- `bw->SetStartComponent(FindComponentByName(comp->GetName()), …)` (src/design/ELayoutView.cpp:85-88):
`heap` gives the names of the components in existence, a pointer to anything else is dangling. -/
def rebind (heap : Nat → Option String) (comps : List (String × Comp)) :
    Option Nat → Res (Option Nat)
  | none => .ok none
  | some o =>
    match heap o with
    | some name => .ok (findComponentByName comps name)
    | none => .ub

/-- The loop over the bond wires of the copy (src/design/ELayoutView.cpp:82-90). -/
def rebindAll (heap : Nat → Option String) (comps : List (String × Comp)) :
    List Wire → Res (List Wire)
  | [] => .ok []
  | w :: ws =>
    (rebind heap comps w.startComp).bind fun s =>
    (rebind heap comps w.endComp).bind fun e =>
    (rebindAll heap comps ws).bind fun ws' =>
    .ok ({ w with startComp := s, endComp := e } :: ws')

/-- Copying a layout (src/design/ELayoutView.cpp:69-93): the collections are cloned
(src/collection/ECollectionCollection.cpp:48-52), `m_cell` is taken over, the components of bond wires
are looked up in the copy. -/
def Layout.clone (heap : Nat → Option String) (base : Nat) (l : Layout) : Res Layout :=
  let comps := l.comps.map (fun e => (e.1, e.2.clone base))
  (rebindAll heap comps (l.wires.map (Wire.clone base))).bind fun ws =>
  .ok ⟨l.obj + base, l.cell, comps, l.insts.map (CellInst.clone base),
    l.pads.map (PsInst.clone base), ws⟩

/-- Copying a cell (src/design/ECell.cpp:43-55): afterwards `SetCell(this)`. -/
def Cell.clone (heap : Nat → Option String) (base : Nat) (c : Cell) : Res Cell :=
  (c.layout.clone heap base).bind fun l =>
  .ok ⟨c.obj + base, c.owner, { l with cell := some (c.obj + base) }⟩

/-- Copying a component definition (src/design/EComponentDef.cpp:45-57); its pins are cloned. -/
def CompDef.clone (base : Nat) (c : CompDef) : CompDef :=
  { c with obj := c.obj + base, pins := c.pins.map (fun p => (p.1 + base, p.2)) }

/-- Copying the other definitions (src/design/EPadstackDef.cpp:42-47,
src/design/EMaterialDef.cpp:41-51). -/
def Plain.clone (base : Nat) (c : Plain) : Plain := { c with obj := c.obj + base }

/-- Copying the cells one after the other (src/basic/ECollection.h:66-68). -/
def cloneCells (heap : Nat → Option String) (base : Nat) :
    List (String × Cell) → Res (List (String × Cell))
  | [] => .ok []
  | c :: cs =>
    (c.2.clone heap base).bind fun c' =>
    (cloneCells heap base cs).bind fun cs' =>
    .ok ((c.1, c') :: cs')

/-- The copy constructor of a database (src/design/EDatabase.cpp:60-73), followed by
`SetDatabase(this)` on every definition (src/collection/EDefinitionCollection.cpp:110-114,
src/collection/ECellCollection.cpp:63-69, src/collection/EComponentDefCollection.cpp:65-71,
src/collection/EPadstackDefCollection.cpp:64-70, src/collection/EMaterialDefCollection.cpp:75-81,
src/collection/ELayerMapCollection.cpp:65-71). -/
def Database.copy (heap : Nat → Option String) (base self : Nat) (d : Database) : Res Database :=
  (cloneCells heap base d.cells).bind fun cs =>
  .ok ⟨self, cs.map (fun c => (c.1, { c.2 with owner := some self })),
    d.compDefs.map (fun c => (c.1, { c.2.clone base with owner := some self })),
    d.plains.map (fun c => (c.1, { c.2.clone base with owner := some self }))⟩

end Ecad.Copy
