import Verif.Base.Res
import Verif.Net.Model
import Verif.Layer.Model
/-!
Merging the layout of a cell instance into a layout, and flattening of a cell hierarchy.
-/
namespace Ecad.Hier
open LayerMap (BiMap forward noLayer componentLayer)

/-- `ENetId::noNet` (src/basic/ECadDef.h:64-68). -/
def noNet : Int := -1

/-- A pointer to a component: the cell whose layout owns it and its name there. -/
abbrev CompRef := Nat × String

/-- The part of `EBondwire` that refers to layers and components (src/design/EPrimitive.h):
`m_endLayer`, `m_mountComp`, `m_connectedPin`.  The start layer is the layer of the primitive. -/
structure Wire where
  endLayer : Int
  startComp : Option CompRef
  startPin : String
  endComp : Option CompRef
  endPin : String
  deriving DecidableEq, Repr

/-- A primitive: net, layer, what is transformed (shape, bondwire locations or text transform), and
the bondwire part when it is a bondwire. -/
structure Prim (G : Type) where
  net : Int
  layer : Int
  geo : G
  wire : Option Wire
  deriving DecidableEq, Repr

/-- A padstack instance: net and what is transformed.  Its layer map is not touched by a merge
(src/utility/ELayoutMergeUtility.cpp:111) and left out. -/
structure Pad (G : Type) where
  net : Int
  geo : G
  deriving DecidableEq, Repr

/-- A component: placement layer and what is transformed.  The name is the key of its map. -/
structure Comp (G : Type) where
  layer : Int
  geo : G
  deriving DecidableEq, Repr

/-- `ECellInst` (src/design/ECellInst.h): name, instantiated cell, transform and layer map (`none`
is the null pointer). -/
structure Inst (T : Type) where
  name : String
  defCell : Nat
  trans : T
  layerMap : Option BiMap
  deriving DecidableEq, Repr

/-- `ELayoutView` (src/design/ELayoutView.h), reduced to the collections a merge looks at. -/
structure Layout (G T : Type) where
  layers : List Layer.Lyr := []
  nets : Net.Coll := {}
  comps : List (String × Comp G) := []
  prims : List (Prim G) := []
  pads : List (Pad G) := []
  insts : List (Inst T) := []

variable {G T : Type}

/-- `getName` (src/utility/ELayoutMergeUtility.cpp:17-18). -/
def getName (sep : Char) (pre name : String) : String := pre ++ sep.toString ++ name

/-- The net loop of `Merge` (src/utility/ELayoutMergeUtility.cpp:24-29): every net is cloned, renamed,
added, and its old and new id recorded. -/
def mergeNets (sep : Char) (pre : String) (c : Net.Coll) (m : List (Int × Int)) :
    List (String × Net.Net) → Res (Net.Coll × List (Int × Int))
  | [] => .ok (c, m)
  | e :: es =>
    let r := Net.addNet c (getName sep pre e.2.name)
    match r.2 with
    | none => .ub
    | some a => mergeNets sep pre r.1 (UMap.emplace m e.2.id a.id).1 es

/-- `EComponentCollection::AddComponent` (src/collection/EComponentCollection.cpp:39-49): returns the
name under which the component is stored. -/
def addComponent (cs : List (String × Comp G)) (name : String) (k : Comp G) :
    List (String × Comp G) × String :=
  let name := if UMap.count cs name then Naming.nextName (UMap.keys cs) name else name
  ((UMap.emplace cs name k).1, name)

/-- The component loop of `Merge` (src/utility/ELayoutMergeUtility.cpp:48-56).  `compMap` maps the
components of the merged cell `d` to the new ones, which belong to cell `c`. -/
def mergeComps (act : T → G → G) (sep : Char) (pre : String) (fwd : Int → Int) (t : T) (c d : Nat)
    (cs : List (String × Comp G)) (m : List (CompRef × CompRef)) :
    List (String × Comp G) → List (String × Comp G) × List (CompRef × CompRef)
  | [] => (cs, m)
  | e :: es =>
    let r := addComponent cs (getName sep pre e.1) ⟨fwd e.2.layer, act t e.2.geo⟩
    mergeComps act sep pre fwd t c d r.1 (UMap.emplace m (d, e.1) (c, r.2)).1 es

/-- New net of a merged object (src/utility/ELayoutMergeUtility.cpp:63-65, 107-109). -/
def mapNet (m : List (Int × Int)) (i : Int) : Int :=
  match UMap.find? m i with
  | some j => j
  | none => noNet

/-- `compMap.find(...)` for a pointer that may be null. -/
def findComp (m : List (CompRef × CompRef)) : Option CompRef → Option CompRef
  | none => none
  | some r => UMap.find? m r

/-- The primitive loop of `Merge` for one primitive (src/utility/ELayoutMergeUtility.cpp:60-100).
For a bondwire `GetEndLayer(&flipped)` (81) dereferences the end component when the end layer is
the component layer (src/design/EPrimitive.cpp:310-314); `SetEndLayer` (82) drops the end component
and pin (src/design/EPrimitive.cpp:303-308); `SetStartComponent` / `SetEndComponent` (84, 86) set
the layer to the component layer (src/design/EPrimitive.cpp:346-351, 358-363). -/
def mergePrim (act : T → G → G) (fwd : Int → Int) (t : T) (nm : List (Int × Int))
    (cm : List (CompRef × CompRef)) (p : Prim G) : Res (Prim G) :=
  let p1 : Prim G := { p with net := mapNet nm p.net, layer := fwd p.layer, geo := act t p.geo }
  match p.wire with
  | none => .ok p1
  | some w =>
    if w.endLayer = componentLayer ∧ w.endComp = none then .ub
    else
      let w1 := if w.endLayer ≠ componentLayer then
        { w with endLayer := fwd w.endLayer, endPin := "", endComp := none } else w
      let (l2, w2) := match findComp cm w1.startComp with
        | some r => (componentLayer, { w1 with startComp := some r })
        | none => (p1.layer, w1)
      let w3 := match findComp cm w2.endComp with
        | some r => { w2 with endComp := some r, endLayer := componentLayer }
        | none => w2
      .ok { p1 with layer := l2, wire := some w3 }

/-- `mapM` in the order of the loop -/
def mergePrims (act : T → G → G) (fwd : Int → Int) (t : T) (nm : List (Int × Int))
    (cm : List (CompRef × CompRef)) : List (Prim G) → Res (List (Prim G))
  | [] => .ok []
  | p :: ps => (mergePrim act fwd t nm cm p).bind fun q =>
      (mergePrims act fwd t nm cm ps).bind fun qs => .ok (q :: qs)

/-- Forward mapping of layers in a merge (src/utility/ELayoutMergeUtility.cpp:15, 31-35): the map of
the instance, or the default map of the receiving layout. -/
def layerFn (l : Layout G T) (i : Inst T) : Int → Int :=
  forward (match i.layerMap with
    | some m => m
    | none => Layer.defaultLayerMap l.layers)

/-- `ELayoutMergeUtility::Merge` (src/utility/ELayoutMergeUtility.cpp:8-118) after the flattening of
the instantiated cell: merges `other`, the layout of cell `i.defCell`, into the layout `l` of cell
`c`.  Cloning of cell instances (38-45) appends them with the transform of the instance composed
(`comp`). -/
def mergeInto (act : T → G → G) (comp : T → T → T) (sep : Char) (c : Nat) (l : Layout G T)
    (i : Inst T) (other : Layout G T) : Res (Layout G T) :=
  (mergeNets sep i.name l.nets (UMap.emplace [] noNet noNet).1 other.nets.nets).bind fun nm =>
    let insts := l.insts ++ other.insts.map fun j =>
      { j with name := getName sep i.name j.name, trans := comp i.trans j.trans }
    let cs := mergeComps act sep i.name (layerFn l i) i.trans c i.defCell l.comps [] other.comps
    (mergePrims act (layerFn l i) i.trans nm.2 cs.2 other.prims).bind fun ps =>
      .ok { l with
        nets := nm.1
        insts := insts
        comps := cs.1
        prims := l.prims ++ ps
        pads := l.pads ++ other.pads.map fun p =>
          { p with net := mapNet nm.2 p.net, geo := act i.trans p.geo } }

/-- The layouts of all cells of a database. -/
abbrev Db (G T : Type) := Nat → Layout G T

/-- one layout is replaced -/
def Db.set (db : Db G T) (c : Nat) (l : Layout G T) : Db G T := fun d => if d = c then l else db d

/-- Lines 11 ff. of `Merge` (src/utility/ELayoutMergeUtility.cpp:11): nothing is done for a layout
that instantiates itself. -/
def mergeDb (act : T → G → G) (comp : T → T → T) (sep : Char) (db : Db G T) (c : Nat) (i : Inst T) :
    Res (Db G T) :=
  if i.defCell = c then .ok db
  else (mergeInto act comp sep c (db c) i (db i.defCell)).bind fun l => .ok (db.set c l)

/-- a loop over a list -/
def forEach {S A : Type} (f : S → A → Res S) : S → List A → Res S
  | s, [] => .ok s
  | s, a :: as => (f s a).bind fun s' => forEach f s' as

/-- `ELayoutView::Flatten` (src/design/ELayoutView.cpp:376-385) with
`ECellInst::GetFlattenedLayoutView` (src/design/ECellInst.cpp:69-72) and
`ECircuitCell::GetFlattenedLayoutView` (src/design/ECell.cpp:133-137): every instance is flattened
first, then merged; at last the instances are dropped.  `fuel` bounds the depth of the recursion; a
recursion deeper than any bound overflows the stack, so running out of fuel counts as undefined
behaviour.  The loop runs over the instances found at the beginning: a flattened layout has no
instances, so that a merge appends none. -/
def flatten (act : T → G → G) (comp : T → T → T) (sep : Char) :
    Nat → Db G T → Nat → Res (Db G T)
  | 0, _, _ => .ub
  | n + 1, db, c =>
    (forEach (fun db i => (flatten act comp sep n db i.defCell).bind fun db =>
      mergeDb act comp sep db c i) db (db c).insts).bind fun db =>
        .ok (db.set c { db c with insts := [] })

/-- The tasks of `EFlattenUtility::Flatten` (src/utility/EFlattenUtility.cpp:11-25, 67-79) run one
after the other, since `FlattenOneCell` holds a mutex; the list is the order in which the executor
runs them. -/
def runTasks (act : T → G → G) (comp : T → T → T) (sep : Char) (n : Nat) (db : Db G T)
    (tasks : List Nat) : Res (Db G T) :=
  forEach (fun db c => flatten act comp sep n db c) db tasks

end Ecad.Hier
