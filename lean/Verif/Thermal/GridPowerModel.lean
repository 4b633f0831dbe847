import Verif.Base.UMap
import Verif.Basic.LookupModel
import Verif.Geom.GridModel
import Verif.Thermal.GridTModel
/-!
The power of a grid thermal model made from a layout:
src/extraction/thermal/EThermalModelExtraction.cpp, lines 93-137.

Simplifications: numbers are elements of an ordered field; assertions are left out (the code goes on
after them).  The grid of tiles is that of `Verif.Geom.GridModel`.
-/
namespace Ecad.GridPower
open GridT Geom

variable {K : Type} [Field K] [LinearOrder K]

/-- A component of the layout: the calls of `SetLossPower` (src/design/EComponent.cpp:82-85, whose
temperatures are in kelvin), its placement layer and the bounding box of its outline, if it has
one. -/
structure Comp (K : Type) where
  loss : List (K × K)
  layer : Int
  box : Option ((Int × Int) × (Int × Int))

/-- `GetLossPower` (src/design/EComponent.cpp:87-90) -/
def Comp.lossPower (c : Comp K) (t : K) : Res K := Lookup.lookup (Lookup.build [] c.loss) t

/-- `temp` (src/extraction/thermal/EThermalModelExtraction.cpp:95) -/
def temps : List K := [25, 50, 75, 100, 125]

/-- `ETemperature::Celsius2Kelvins` (src/basic/ECadUnits.h:122), a library function -/
def toKelvin (t : K) : K := t + 27315 / 100

/-- `EGridData(nx, ny, 0)` -/
def zeros (nx ny : Nat) : GridData K := ⟨nx, ny, fun _ _ => 0⟩

/-- `gridData[t](i, j) += power` (src/extraction/thermal/EThermalModelExtraction.cpp:126): outside of
the grid this is undefined behaviour. -/
def addAt (d : GridData K) (i j : Nat) (p : K) : Res (GridData K) :=
  if i < d.width ∧ j < d.height then
    .ok { d with val := fun a b => if a = i ∧ b = j then d.val a b + p else d.val a b }
  else .ub

/-- The inner loop (src/extraction/thermal/EThermalModelExtraction.cpp:125-126) -/
def addCol (p : K) (i : Nat) (d : GridData K) : List Nat → Res (GridData K)
  | [] => .ok d
  | j :: js => (addAt d i j p).bind fun d' => addCol p i d' js

/-- The outer loop (src/extraction/thermal/EThermalModelExtraction.cpp:124) -/
def addRect (p : K) (js : List Nat) (d : GridData K) : List Nat → Res (GridData K)
  | [] => .ok d
  | i :: is => (addCol p i d js).bind fun d' => addRect p js d' is

/-- The values of a loop `for (i = lo; i <= hi; ++i)` -/
def span (lo hi : Nat) : List Nat := List.range' lo (hi + 1 - lo)

/-- `totalTiles` (src/extraction/thermal/EThermalModelExtraction.cpp:121). Simplification: no wrap
around, the box is not inside out. -/
def totalTiles (ll ur : Nat × Nat) : Nat := (ur.2 - ll.2 + 1) * (ur.1 - ll.1 + 1)

/-- The loop over the temperatures (src/extraction/thermal/EThermalModelExtraction.cpp:122-127) -/
def addPowers (c : Comp K) (ll ur : Nat × Nat) : List (K × GridData K) → Res (List (GridData K))
  | [] => .ok []
  | (t, d) :: rest =>
    (c.lossPower t).bind fun v =>
    (addRect (v / (totalTiles ll ur : K)) (span ll.2 ur.2) d (span ll.1 ur.1)).bind fun d' =>
    (addPowers c ll ur rest).bind fun ds =>
    .ok (d' :: ds)

/-- `gridMap` (src/extraction/thermal/EThermalModelExtraction.cpp:94): the grids of each layer -/
abbrev GridMap (K : Type) := List (Nat × List (GridData K))

/-- The entry of a layer, made if there is none
(src/extraction/thermal/EThermalModelExtraction.cpp:117-120) -/
def entry (nx ny : Nat) (gm : GridMap K) (l : Nat) : List (GridData K) :=
  (UMap.find? gm l).getD (temps.map fun (_ : K) => zeros nx ny)

/-- The entry of a layer is changed. -/
def setEntry (gm : GridMap K) (l : Nat) (ds : List (GridData K)) : GridMap K :=
  (UMap.emplace (UMap.erase gm l) l ds).1

/-- One component (src/extraction/thermal/EThermalModelExtraction.cpp:96-129); `lyr` is `lyrMap`. -/
def addComp (x y : Axis) (lyr : List (Int × Nat)) (gm : GridMap K) (c : Comp K) : Res (GridMap K) :=
  if c.loss.isEmpty then .ok gm
  else match UMap.find? lyr c.layer with
    | none => .ok gm
    | some l =>
      match c.box with
      | none => .ok gm
      | some b =>
        (getIndex x y b.1).bind fun ll =>
        (getIndex x y b.2).bind fun ur =>
        match ll, ur with
        | (some i0, some j0), (some i1, some j1) =>
          (addPowers c (i0, j0) (i1, j1) (temps.zip (entry x.grid y.grid gm l))).bind fun ds =>
          .ok (setEntry gm l ds)
        | _, _ => .ok gm

/-- All components -/
def addComps (x y : Axis) (lyr : List (Int × Nat)) (gm : GridMap K) : List (Comp K) → Res (GridMap K)
  | [] => .ok gm
  | c :: cs => (addComp x y lyr gm c).bind fun gm' => addComps x y lyr gm' cs

/-- The power model of a layer (src/extraction/thermal/EThermalModelExtraction.cpp:132-136) -/
def powerTable (nx ny : Nat) (ds : List (GridData K)) : Table K :=
  (temps.zip ds).foldl (fun t e => (addSample t (toKelvin e.1) e.2).1) ⟨⟨nx, ny⟩, []⟩

/-- The power models of all layers (src/extraction/thermal/EThermalModelExtraction.cpp:93-137) -/
def powerModels (x y : Axis) (lyr : List (Int × Nat)) (cs : List (Comp K)) :
    Res (List (Nat × Table K)) :=
  (addComps x y lyr [] cs).bind fun gm => .ok (gm.map fun e => (e.1, powerTable x.grid y.grid e.2))

end Ecad.GridPower
