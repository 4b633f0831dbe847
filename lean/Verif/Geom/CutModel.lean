import Verif.Base.Res
import Verif.Geom.Round
/-!
The layer cut model: the heights of all polygons cut the stack into layers
(src/model/geometry/ELayerCutModel.h, ELayerCutModel.cpp, utils/ELayerCutModelBuilder.cpp,
utils/ELayerCutModelQuery.cpp).  Heights are integers without overflow (`int` in the code).
-/
namespace Ecad.Geom

/-- `LayerRange` (src/model/geometry/ELayerCutModel.h:18-36). -/
structure Range where
  high : Int
  low : Int
  deriving DecidableEq, Repr

/-- `LayerRange::isValid` (src/model/geometry/ELayerCutModel.h:34) -/
def Range.isValid (r : Range) : Bool := r.high > r.low

/-- `LayerRange::Thickness` (src/model/geometry/ELayerCutModel.h:35) -/
def Range.thick (r : Range) : Int := r.high - r.low

/-- One polygon of the model (parallel vectors `m_ranges`, `m_materials`, map `m_powerBlocks`,
src/model/geometry/ELayerCutModel.h:122-128): range, whether its material is not `noMaterial`, and the
range of the power block at this index. -/
structure Poly where
  range : Range
  mat : Bool
  power : Option Range
  deriving DecidableEq, Repr

/-! ### building -/

/-- `std::set::emplace`, the set being written from the greatest element downwards
(src/model/geometry/ELayerCutModel.cpp:49, 54-55, 62-63). -/
def insertDesc (h : Int) : List Int → List Int
  | [] => [h]
  | x :: xs => if h > x then h :: x :: xs else if h = x then x :: xs else x :: insertDesc h xs

/-- The heights contributed by one polygon (src/model/geometry/ELayerCutModel.cpp:51-60). -/
def polyHeights (p : Poly) : List Int :=
  if p.mat && p.range.isValid then
    match p.power with
    | some r => [p.range.high, p.range.low, r.high, r.low]
    | none => [p.range.high, p.range.low]
  else []

/-- `m_layerOrder` before slicing (src/model/geometry/ELayerCutModel.cpp:49-63). -/
def layerOrder (ps : List Poly) : List Int :=
  (ps.flatMap polyHeights).foldl (fun l h => insertDesc h l) []

/-- `m_lyrPolygons`: the polygons of each layer. -/
abbrev Lut := Nat → Option (List Nat)

/-- One entry (src/model/geometry/ELayerCutModel.cpp:74-77). -/
def addTo (m : Lut) (k i : Nat) : Lut := fun k' => if k' = k then some ((m k).getD [] ++ [i]) else m k'

/-- The inner loop over layers (src/model/geometry/ELayerCutModel.cpp:73-78); `n` is the number of
turns. -/
def addLayers (i : Nat) : Nat → Nat → Lut → Lut
  | _, 0, m => m
  | s, n + 1, m => addLayers i (s + 1) n (addTo m s i)

/-- The loop over polygons (src/model/geometry/ELayerCutModel.cpp:67-79); `m_height2Index.at` throws for
an unknown height, and gives the position in the layer order otherwise (64-65). -/
def fillLut (order : List Int) : Nat → List Poly → Lut → Res Lut
  | _, [], m => .ok m
  | i, p :: ps, m =>
    if p.range.isValid then
      match order.idxOf? p.range.high, order.idxOf? p.range.low with
      | some s, some e => fillLut order (i + 1) ps (addLayers i s (min (order.length - 1) e - s) m)
      | _, _ => .exn
    else fillLut order (i + 1) ps m

/-! ### slicing -/

/-- `currH / (EFloat)otherH > ratio` (src/model/geometry/ELayerCutModel.cpp:175-176, 188-189), with the
floating point rules for a zero divisor: infinite for a positive dividend, not a number for zero. -/
def over (ratio : ℚ) (c p : Int) : Bool := if p = 0 then c > 0 else (c : ℚ) / (p : ℚ) > ratio

/-- `slice` (src/model/geometry/ELayerCutModel.cpp:159-166) -/
def slice (r : Range) : Range × Range :=
  let mid := round (((r.high + r.low : Int) : ℚ) / 2)
  (⟨r.high, mid⟩, ⟨mid, r.low⟩)

/-- Replace a range by its two halves if asked to; the second one is the current one afterwards
(src/model/geometry/ELayerCutModel.cpp:177-182, 190-195). -/
def cut (b : Bool) (r : Range) : List Range × Range :=
  if b then ([(slice r).1], (slice r).2) else ([], r)

/-- `SliceOverheightLayers` (src/model/geometry/ELayerCutModel.cpp:168-200): one pass over the list;
`prev` is the range before the current one, after slicing.  `currH` is not updated after the first
slice.  The assertions on the thickness are left out. -/
def slicePass (ratio : ℚ) : Option Range → List Range → List Range × Bool
  | _, [] => ([], false)
  | prev, cur :: rest =>
    let s1 := match prev with
      | some p => over ratio cur.thick p.thick
      | none => false
    let a := cut s1 cur
    let s2 := match rest with
      | n :: _ => over ratio cur.thick n.thick
      | [] => false
    let b := cut s2 a.2
    let r := slicePass ratio (some b.2) rest
    (a.1 ++ b.1 ++ b.2 :: r.1, s1 || s2 || r.2)

/-- The loop `while (sliced)` (src/model/geometry/ELayerCutModel.cpp:86-89); `none`: not ended after
`fuel` passes. -/
def sliceAll (ratio : ℚ) : Nat → List Range → Option (List Range)
  | 0, _ => none
  | n + 1, l =>
    let r := slicePass ratio none l
    if r.2 then sliceAll ratio n r.1 else some r.1

/-- The ranges between neighbouring heights (src/model/geometry/ELayerCutModel.cpp:82-84). -/
def pairs : List Int → List Range
  | a :: b :: l => ⟨a, b⟩ :: pairs (b :: l)
  | _ => []

/-- The entry taken for a slice with upper height `h`
(src/model/geometry/ELayerCutModel.cpp:96-100): the one of the old layer beginning there, else the
one of the slice before. -/
def remapEntry (oldOrder : List Int) (old : Lut) (prev : Option (List Nat)) (h : Int) :
    Option (List Nat) :=
  match oldOrder.idxOf? h with
  | some j => old j
  | none => prev

/-- The loop assigning polygons to the slices (src/model/geometry/ELayerCutModel.cpp:95-101), for the
upper heights of the slices; `prev` is the entry of the slice before.  `at` throws if missing. -/
def remap (oldOrder : List Int) (old : Lut) : Option (List Nat) → List Int → Res (List (List Nat))
  | _, [] => .ok []
  | prev, h :: hs =>
    match remapEntry oldOrder old prev h with
    | some l => (remap oldOrder old (some l) hs).bind fun ls => .ok (l :: ls)
    | none => .exn

/-- The built tables `m_layerOrder` and `m_lyrPolygons`. -/
structure Cut where
  order : List Int
  lut : Lut

/-- `BuildLayerPolygonLUT` (src/model/geometry/ELayerCutModel.cpp:45-107); `none`: slicing has not
ended after `fuel` passes.  Without any height the loop at 83 throws at its first turn. -/
def build (ratio : ℚ) (fuel : Nat) (ps : List Poly) : Option (Res Cut) :=
  let order := layerOrder ps
  match fillLut order 0 ps (fun _ => none) with
  | .ok m =>
    if ratio > 1 then
      match order with
      | [] => some .exn
      | _ =>
        (sliceAll ratio fuel (pairs order)).map fun l =>
          match l.getLast? with
          | none => .ub
          | some r =>
            (remap order m none (l.map Range.high)).bind fun ls =>
              .ok ⟨l.map Range.high ++ [r.low], fun k => ls[k]?⟩
    else some (.ok ⟨order, m⟩)
  | .ub => some .ub
  | .exn => some .exn

/-- `TotalLayers` (src/model/geometry/ELayerCutModel.cpp:109-112) of a model with a height. -/
def Cut.total (c : Cut) : Nat := c.order.length - 1

/-- `GetLayerHeightThickness` (src/model/geometry/ELayerCutModel.cpp:119-125) -/
def Cut.heightThickness (c : Cut) (scale : ℚ) (k : Nat) : Option (ℚ × ℚ) :=
  match c.order[k]?, c.order[k + 1]? with
  | some a, some b => some ((a : ℚ) / scale, (a : ℚ) / scale - (b : ℚ) / scale)
  | _, _ => none

/-- `GetLayerIndexByHeight` (src/model/geometry/ELayerCutModel.cpp:127-132); the index table holds the
first position of each height (64-65, 104-105). -/
def Cut.layerByHeight (c : Cut) (h : Int) : Option Nat := c.order.idxOf? h

/-! ### ranges from heights -/

/-- `GetLayerRange` and `GetHeight` (src/model/geometry/ELayerCutModel.cpp:139-147) -/
def layerRange (scale elev thick : ℚ) : Range := ⟨round (elev * scale), round ((elev - thick) * scale)⟩

/-- The range of the power block in `AddPowerBlock`
(src/model/geometry/utils/ELayerCutModelBuilder.cpp:49-51) -/
def powerRange (scale elev thick pos pt : ℚ) : Range :=
  let pe := elev - thick * pos
  layerRange scale pe (min (thick * pt) (thick - elev + pe))

/-! ### query -/

/-- One candidate more: the smaller area wins, of equal ones the earlier
(src/model/geometry/utils/ELayerCutModelQuery.cpp:30-37). -/
def better (area : Nat → ℚ) (best : Option Nat) (i : Nat) : Option Nat :=
  match best with
  | none => some i
  | some b => if area i < area b then some i else some b

/-- `SearchPolygon` (src/model/geometry/utils/ELayerCutModelQuery.cpp:24-40) for a layer with polygons.
`results` are the indices the r-tree returns, in any order; `contains` and `area` stand for the
geometry library.  The priority queue has the least area on top; which of several with the
same area is left to the order of `results`. -/
def searchPolygon (contains : Nat → Bool) (area : Nat → ℚ) (results : List Nat) : Option Nat :=
  (results.filter contains).foldl (better area) none

end Ecad.Geom
