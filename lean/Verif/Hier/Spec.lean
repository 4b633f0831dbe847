import Verif.Hier.Lemmas
/-!
Specification of flattening: what an expanded design consists of.
-/
namespace Ecad.Hier
variable {G T : Type}

/-- The objects of an expanded hierarchy, each with the path of instances (as positions in the lists
of instances, from the top) that leads to the cell it comes from.  Nets and components are named as
in that cell. -/
structure Exp (G : Type) where
  prims : List (List Nat × Prim G) := []
  pads : List (List Nat × Pad G) := []
  comps : List (List Nat × (String × Comp G)) := []
  nets : List (List Nat × Int) := []

/-- what a cell contains itself -/
def Exp.own (l : Layout G T) : Exp G where
  prims := l.prims.map fun p => ([], p)
  pads := l.pads.map fun p => ([], p)
  comps := l.comps.map fun e => ([], e)
  nets := l.nets.nets.map fun e => ([], e.2.id)

/-- two designs side by side -/
def Exp.append (a b : Exp G) : Exp G where
  prims := a.prims ++ b.prims
  pads := a.pads ++ b.pads
  comps := a.comps ++ b.comps
  nets := a.nets ++ b.nets

/-- a design seen through the `k`-th instance: one step is put before the paths, objects are placed -/
def Exp.under (act : T → G → G) (k : Nat) (fwd : Int → Int) (t : T) (e : Exp G) : Exp G where
  prims := e.prims.map fun x => (k :: x.1, place act fwd t x.2)
  pads := e.pads.map fun x => (k :: x.1, { x.2 with geo := act t x.2.geo })
  comps := e.comps.map fun x => (k :: x.1, (x.2.1, ⟨fwd x.2.2.layer, act t x.2.2.geo⟩))
  nets := e.nets.map fun x => (k :: x.1, x.2)

/-- the instances of a cell from number `k` on, each with its design under it -/
def Exp.addAll (act : T → G → G) (fwd : Inst T → Int → Int) (sub : Nat → Exp G) :
    Nat → Exp G → List (Inst T) → Exp G
  | _, e, [] => e
  | k, e, i :: is =>
    addAll act fwd sub (k + 1) (e.append ((sub i.defCell).under act k (fwd i) i.trans)) is

/-- The expansion of cell `c`: its own objects and, for each instance, the expansion of the
instantiated cell seen through it (down to depth `n`). -/
def expand (act : T → G → G) (db : Db G T) : Nat → Nat → Exp G
  | 0, _ => {}
  | n + 1, c =>
    Exp.addAll act (layerFn (db c)) (fun d => expand act db n d) 0 (Exp.own (db c)) (db c).insts

/-- all net ids handed out in an expanded design, down to depth `n` -/
def netTotal (db : Db G T) : Nat → Nat → Nat
  | 0, _ => 0
  | n + 1, c => (db c).nets.uid + ((db c).insts.map fun i => netTotal db n i.defCell).sum

/-- The layout `l` of cell `c` shows the expanded design `e` if it consists of the objects of `e`,
with nets and components renamed path by path. -/
structure Shows (c : Nat) (l : Layout G T) (ν : List Nat → Int → Int)
    (κ : List Nat → String → String) (e : Exp G) : Prop where
  prims : l.prims = e.prims.map fun x => rename c (ν x.1) (κ x.1) x.2
  pads : l.pads = e.pads.map fun x => ⟨ν x.1 x.2.net, x.2.geo⟩
  comps : l.comps = e.comps.map fun x => (κ x.1 x.2.1, x.2.2)
  nets : (l.nets.nets.map fun n => n.2.id) = e.nets.map fun x => ν x.1 x.2
  noNet : ∀ π, ν π noNet = noNet

end Ecad.Hier
