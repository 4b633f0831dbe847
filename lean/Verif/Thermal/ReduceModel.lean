import Verif.Thermal.GridTModel
import Verif.Base.UMap
/-!
Halving the resolution of thermal models: src/model/thermal/utils/EThermalModelReduction.cpp.
-/
namespace Ecad.Reduce
open Ecad.GridT

/-- `Reduce` of an index (src/model/thermal/utils/EThermalModelReduction.cpp:119-123): the halves are exact as
`double`. -/
def halfFloor (s : Size2) : Size2 := ⟨s.x / 2, s.y / 2⟩

/-- `Reduce` of a size (src/model/thermal/utils/EThermalModelReduction.cpp:124-128) -/
def halfCeil (s : Size2) : Size2 := ⟨(s.x + 1) / 2, (s.y + 1) / 2⟩

section
variable {K : Type} [Field K] [LinearOrder K]

/-- assignment to one place -/
def set2 (r : Nat → Nat → K) (x y : Nat) (v : K) : Nat → Nat → K :=
  fun i j => if i = x ∧ j = y then v else r i j

/-- The loops over all cells (src/model/thermal/utils/EThermalModelReduction.cpp:153-158, 162-167, 171-176): the
place of the cell, at first zero, is combined with its value. -/
def gather (g : K → K → K) (d : GridData K) : Nat → Nat → K :=
  (allCells ⟨d.width, d.height⟩).foldl
    (fun r c => set2 r (halfFloor ⟨c.1, c.2⟩).x (halfFloor ⟨c.1, c.2⟩).y
      (g (r (halfFloor ⟨c.1, c.2⟩).x (halfFloor ⟨c.1, c.2⟩).y) (d.val c.1 c.2))) (fun _ _ => 0)

/-- How the library's grid numbers its cells; it is not part of the repository. -/
inductive Layout | byColumn | byRow
  deriving DecidableEq, Repr

/-- the number of cell (x, y) in a grid of the given size -/
def Layout.num (s : Size2) (x y : Nat) : Layout → Nat
  | .byColumn => x * s.y + y
  | .byRow => y * s.x + x

/-- The vector `count` (src/model/thermal/utils/EThermalModelReduction.cpp:140-147): how many cells go into place
number `k`, counted by `index.x * size.y + index.y`. -/
def counts (d : GridData K) (k : Nat) : Nat :=
  ((allCells ⟨d.width, d.height⟩).filter fun c =>
    (halfFloor ⟨c.1, c.2⟩).x * (halfCeil ⟨d.width, d.height⟩).y + (halfFloor ⟨c.1, c.2⟩).y = k).length

/-- `ReduceValueMethod` (src/model/thermal/utils/EThermalModelReduction.h:8) -/
inductive Method | average | accumulation | maximum | minimum
  deriving DecidableEq, Repr

/-- `Reduce` of a grid (src/model/thermal/utils/EThermalModelReduction.cpp:133-182): averages are divided place
by place by the count at the same number (148-149). -/
def reduceData (lay : Layout) (m : Method) (d : GridData K) : GridData K :=
  let s := halfCeil ⟨d.width, d.height⟩
  ⟨s.x, s.y, match m with
    | .average => fun x y => gather (· + ·) d x y / (counts d (lay.num s x y) : K)
    | .accumulation => gather (· + ·) d
    | .maximum => gather max d
    | .minimum => gather min d⟩

/-- `Reduce` of a table (src/model/thermal/utils/EThermalModelReduction.cpp:184-197), key by key -/
def reduceTable (lay : Layout) (m : Method) (t : Table K) : Table K :=
  t.samples.foldl (fun r s => (addSample r s.1 (reduceData lay m s.2)).1) ⟨halfCeil t.size, []⟩

/-! ### chip models -/

/-- A shared pointer: null, or an address and what is there. -/
abbrev Ptr (K : Type) := Option (Nat × GridData K)

/-- `EChipThermalModelV1` with what the reduction touches (src/model/thermal/EChipThermalModel.h:51-57) -/
structure Chip (K : Type) where
  tiles : Size2
  resolution : K
  powers : Option (Table K)
  densities : List (String × Ptr K)

/-- The loop over the densities (src/model/thermal/utils/EThermalModelReduction.cpp:34-40): `map` is `densityMap`
from addresses (null: `none`) to reduced grids; `fresh` the next unused address. -/
def reduceDensities (lay : Layout) : List (Option Nat × Ptr K) → Nat → List (String × Ptr K) → List (String × Ptr K)
  | _, _, [] => []
  | map, fresh, (name, p) :: rest =>
    match UMap.find? map (p.map Prod.fst), p with
    | some q, _ => (name, q) :: reduceDensities lay map fresh rest
    | none, some (a, d) =>
      (name, some (fresh, reduceData lay .average d)) ::
        reduceDensities lay (UMap.emplace map (some a) (some (fresh, reduceData lay .average d))).1 (fresh + 1) rest
    | none, none => (name, none) :: reduceDensities lay map fresh rest

/-- `EChipThermalModelV1Reduction::Reduce` (src/model/thermal/utils/EThermalModelReduction.cpp:19-43) -/
def reduceChip (lay : Layout) (fresh : Nat) (c : Chip K) : Option (Chip K) :=
  if c.tiles.x ≤ 1 ∨ c.tiles.y ≤ 1 then none
  else some {
    tiles := halfCeil c.tiles
    resolution := c.resolution * 2
    powers := c.powers.map (reduceTable lay .accumulation)
    densities := reduceDensities lay [(none, none)] fresh c.densities }

/-- `makeReductionModel` (src/model/thermal/utils/EThermalModelReduction.cpp:102-111); `none` is the null
pointer. -/
def reduceChipBy (lay : Layout) (fresh : Nat) : Nat → Chip K → Option (Chip K)
  | 0, c => some c
  | n + 1, c =>
    match reduceChip lay fresh c with
    | none => none
    | some c' => reduceChipBy lay fresh n c'

/-! ### grid models -/

/-- Reduction of one power model (src/model/thermal/utils/EThermalModelReduction.cpp:66-77) -/
def reducePower (lay : Layout) : Power K → Power K
  | .grid t => .grid (reduceTable lay .accumulation t)
  | .block ll ur total => .block (halfCeil ll) (halfCeil ur) total

/-- The loop over the power models of a layer (src/model/thermal/utils/EThermalModelReduction.cpp:64-80): the
reduced model is appended to the vector that is looped over.  `todo` are the models not yet visited.
Beyond the capacity `cap` the vector moves and the iterator dangles: undefined behaviour.  Within it the
loop is taken to visit the old models. -/
def reducePowers (lay : Layout) (cap : Nat) : List (Power K) → List (Power K) → Res (List (Power K))
  | [], ps => .ok ps
  | p :: todo, ps =>
    if ps.length < cap then reducePowers lay cap todo (ps ++ [reducePower lay p])
    else .ub

/-- A layer with what the reduction touches: power models, the capacity of their vector, metal fraction -/
structure RLayer (K : Type) where
  powers : List (Power K)
  cap : Nat
  fraction : Option (GridData K)

/-- the layers one after the other (src/model/thermal/utils/EThermalModelReduction.cpp:63-87); sharing of fractions
between layers is kept by the map there and not visible here. -/
def reduceLayers (lay : Layout) : List (RLayer K) → Res (List (RLayer K))
  | [] => .ok []
  | l :: ls => (reducePowers lay l.cap l.powers l.powers).bind fun ps => (reduceLayers lay ls).bind fun rs =>
      .ok (⟨ps, l.cap, l.fraction.map (reduceData lay .average)⟩ :: rs)

/-- `EGridThermalModelReduction::Reduce` (src/model/thermal/utils/EThermalModelReduction.cpp:54-89): size, resolution
and layers afterwards; `none` is `false`. -/
def reduceGrid (lay : Layout) (size : Size2) (resX resY : K) (layers : List (RLayer K)) :
    Res (Option (Size2 × K × K × List (RLayer K))) :=
  if size.x ≤ 1 ∨ size.y ≤ 1 then .ok none
  else (reduceLayers lay layers).bind fun ls => .ok (some (halfCeil size, resX * 2, resY * 2, ls))

end
end Ecad.Reduce
