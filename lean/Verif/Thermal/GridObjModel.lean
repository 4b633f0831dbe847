import Verif.Ctm.GridModel
import Verif.Thermal.GridTModel
/-!
The object of a grid thermal model: layers, resolution, scale and block boundary conditions as they are put in by calls, and what a power table
says about its samples (src/model/thermal/EGridThermalModel.cpp).

Numbers are elements of an ordered field; the comparison `math::LT` of the library is taken as exact.  Materials of layers are left out.  Power models
are numbers (shared pointers), `none` is the null pointer.
-/
namespace Ecad.GridObj
open Ecad.Ctm Ecad.GridT

variable {K : Type} [Field K] [LinearOrder K]

/-! ## layers -/

/-- Calls on a layer.  `GetLayers()` hands out references to the layers of a model (src/model/thermal/EGridThermalModel.cpp:339-342). -/
inductive LCall (K : Type) where
  | metal (b : Bool)
  | thickness (t : K)
  | top (s : String)
  | bot (s : String)
  | power (p : Option Nat)
  | fraction (m : Option (Frac K))

/-- The constructor (src/model/thermal/EGridThermalModel.cpp:126-129, src/model/thermal/EGridThermalModel.h:50-58) -/
def newLayer (name : String) (m : Option (Frac K)) : GLay K Nat := ⟨name, false, 0, "", "", m, []⟩

/-- `SetMetalFraction` (src/model/thermal/EGridThermalModel.cpp:210-216): the size asked for is that of the metal fraction the layer has. -/
def setFraction (l : GLay K Nat) (m : Option (Frac K)) : GLay K Nat × Bool :=
  match m with
  | none => (l, false)
  | some f => if (f.w, f.h) ≠ l.size then (l, false) else ({ l with mf := some f }, true)

/-- `AddPowerModel` (src/model/thermal/EGridThermalModel.cpp:197-202) -/
def addPower (l : GLay K Nat) (p : Option Nat) : GLay K Nat × Bool :=
  match p with
  | none => (l, false)
  | some n => ({ l with powers := l.powers ++ [n] }, true)

/-- One call on a layer (src/model/thermal/EGridThermalModel.cpp:140-175, 197-216): the layer afterwards, and the answer of the calls that have one -/
def layerCall (l : GLay K Nat) : LCall K → GLay K Nat × Option Bool
  | .metal b => ({ l with isMetal := b }, none)
  | .thickness t => ({ l with thick := t }, none)
  | .top s => ({ l with top := s }, none)
  | .bot s => ({ l with bot := s }, none)
  | .power p => ((addPower l p).1, some (addPower l p).2)
  | .fraction m => ((setFraction l m).1, some (setFraction l m).2)

/-- `GetMetalFraction(x, y)` (src/model/thermal/EGridThermalModel.cpp:223-226): a null pointer is dereferenced.  The library reads a cell outside the
grid without check; here this is undefined as well. -/
def fractionAt (l : GLay K Nat) (x y : Nat) : Res K :=
  match l.mf with
  | none => .ub
  | some f => if x < f.w ∧ y < f.h then .ok (f.val x y) else .ub

/-! ## models -/

/-- `EGridThermalModel` (src/model/thermal/EGridThermalModel.h:112-123), without settings and elevation -/
structure Obj (K : Type) where
  size : Nat × Nat
  ref : K × K
  scaleH : K
  res : K × K
  layers : List (GLay K Nat)
  jumps : List (Size3 × Size3 × K)
  topBlocks : List ((Size2 × Size2) × BC K)
  botBlocks : List ((Size2 × Size2) × BC K)

/-- The constructor (src/model/thermal/EGridThermalModel.cpp:235-239, src/model/thermal/EGridThermalModel.h:116-117) -/
def Obj.new (size : Nat × Nat) (ref : K × K) : Obj K := ⟨size, ref, 1, (0, 0), [], [], [], []⟩

/-- Calls on a model -/
inductive Call (K : Type) where
  | append (l : GLay K Nat)
  | scale (s : K)
  | resolution (x y : K)
  | jump (a b : Size3) (alpha : K)
  | power (i : Nat) (p : Option Nat)
  | block (top : Bool) (ll ur : Size2) (bc : BC K)
  /-- a call on a layer over the reference `GetLayers()[i]` -/
  | layer (i : Nat) (c : LCall K)

/-- What a call gives back -/
inductive Ans | nothing | bool (b : Bool) | index (i : Nat)
  deriving DecidableEq, Repr

/-- `AppendLayer` (src/model/thermal/EGridThermalModel.cpp:315-327): `invalidIndex` or the last index -/
def Obj.append (o : Obj K) (l : GLay K Nat) : Obj K × Ans :=
  if l.thick < 0 then (o, .index invalidIndex)
  else if l.size ≠ o.size then (o, .index invalidIndex)
  else ({ o with layers := appendLayer o.size o.layers l }, .index o.layers.length)

/-- One call.  `SetScaleH` (src/model/thermal/EGridThermalModel.cpp:281-286), `SetResolution` (293-298), `AppendJumpConnection` (329-332),
`AddPowerModel` (349-353), `AddBlockBC` (361-365). -/
def step (o : Obj K) : Call K → Res (Obj K × Ans)
  | .append l => .ok (o.append l)
  | .scale s => if s < 0 then .ok (o, .bool false) else .ok ({ o with scaleH := s }, .bool true)
  | .resolution x y => if x < 0 ∨ y < 0 then .ok (o, .bool false) else .ok ({ o with res := (x, y) }, .bool true)
  | .jump a b alpha => .ok ({ o with jumps := o.jumps ++ [(a, b, alpha)] }, .nothing)
  | .power i p =>
    match o.layers[i]? with
    | none => .exn
    | some l => .ok ({ o with layers := o.layers.set i (addPower l p).1 }, .bool (addPower l p).2)
  | .block top ll ur bc =>
    .ok (if top then { o with topBlocks := o.topBlocks ++ [((ll, ur), bc)] } else { o with botBlocks := o.botBlocks ++ [((ll, ur), bc)] }, .nothing)
  | .layer i c =>
    match o.layers[i]? with
    | none => .ub
    | some l => .ok ({ o with layers := o.layers.set i (layerCall l c).1 }, match (layerCall l c).2 with | none => .nothing | some b => .bool b)

/-- A history of calls -/
def run (o : Obj K) : List (Call K) → Res (Obj K)
  | [] => .ok o
  | c :: cs => (step o c).bind fun r => run r.1 cs

/-- `GetResolution` (src/model/thermal/EGridThermalModel.cpp:300-314) -/
def Obj.getRes (o : Obj K) (scaled : Bool) : K × K := if scaled then (o.scaleH * o.res.1, o.scaleH * o.res.2) else o.res

/-- `GetRegion` (src/model/thermal/EGridThermalModel.cpp:253-259): the corners of the box -/
def Obj.region (o : Obj K) (scaled : Bool) : (K × K) × (K × K) :=
  (o.ref, (o.ref.1 + (if scaled then o.scaleH * o.res.1 * o.size.1 else o.res.1 * o.size.1),
    o.ref.2 + (if scaled then o.scaleH * o.res.2 * o.size.2 else o.res.2 * o.size.2)))

/-! ## tables -/

/-- all cells of a grid -/
def cellsOf (d : GridData K) : List K := (List.range d.width).flatMap fun x => (List.range d.height).map fun y => d.val x y

/-- `MaxOccupancy` of the library: the cell before which no other comes.  For a grid without cells the library says nothing; no theorem uses the value
written here. -/
def maxOcc (before : K → K → Bool) (d : GridData K) : K :=
  match cellsOf d with
  | [] => 0
  | v :: vs => vs.foldl (fun b a => if before a b then a else b) v

/-- `EGridDataTable::GetRange` (src/model/thermal/EGridThermalModel.cpp:77-85); `big` is the largest number -/
def getRange (big : K) (t : GridT.Table K) : K × K :=
  t.samples.foldl (fun r s => (min r.1 (maxOcc (fun a b => a < b) s.2), max r.2 (maxOcc (fun a b => b < a) s.2))) (big, -big)

/-- `operator!=` of the library's grids -/
def gridNe (d e : GridData K) : Bool := d.width ≠ e.width || d.height ≠ e.height || cellsOf d ≠ cellsOf e

/-- `EGridDataTable::NeedInterpolation` (src/model/thermal/EGridThermalModel.cpp:87-98) -/
def needInterpolation (t : GridT.Table K) : Bool :=
  match t.samples with
  | [] => false
  | s :: rest => rest.any fun q => gridNe s.2 q.2

/-- `EGridDataTable::GetAllKeys` (src/model/thermal/EGridThermalModel.cpp:62-68) -/
def allKeys (t : GridT.Table K) : List K := t.samples.map Prod.fst

/-- `EGridDataTable::GetTable` (src/model/thermal/EGridThermalModel.cpp:70-75) -/
def getTable (t : GridT.Table K) (key : K) : Option (GridData K) := (t.samples.find? fun s => s.1 = key).map Prod.snd

end Ecad.GridObj
