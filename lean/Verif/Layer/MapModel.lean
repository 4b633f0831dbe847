import Mathlib.Data.List.Sort
/-!
`ELayerMap`: a `boost::bimap` of layer ids.
-/
namespace Ecad
namespace LayerMap

/-- `ELayerId::noLayer` (src/basic/ECadDef.h:70-74). -/
def noLayer : Int := -1
/-- `ELayerId::ComponentLayer` (src/basic/ECadDef.h:70-74). -/
def componentLayer : Int := -10

/-- `boost::bimap<ELayerId, ELayerId>` (src/design/ELayerMap.h:9): pairs, kept in the order of
their left key, which is the order in which `.left` is traversed. -/
abbrev BiMap := List (Int × Int)

/-- position of a new entry in the order of the left keys -/
def insertSorted (e : Int × Int) : BiMap → BiMap
  | [] => [e]
  | x :: xs => if e.1 ≤ x.1 then e :: x :: xs else x :: insertSorted e xs

/-- `bimap::insert`: refused when either side is already present. -/
def insert (m : BiMap) (a b : Int) : BiMap :=
  if m.any (fun e => e.1 = a || e.2 = b) then m else insertSorted (a, b) m

/-- `SetMapping` (src/design/ELayerMap.cpp:52-55). -/
def setMapping (m : BiMap) (a b : Int) : BiMap := insert m a b

/-- constructor (src/design/ELayerMap.cpp:23-31). -/
def new : BiMap := setMapping (setMapping [] noLayer noLayer) componentLayer componentLayer

/-- `GetMappingForward` (src/design/ELayerMap.cpp:75-79). -/
def forward (m : BiMap) (a : Int) : Int :=
  match m.find? (fun e => e.1 = a) with
  | some e => e.2
  | none => noLayer

/-- `GetMappingBackward` (src/design/ELayerMap.cpp:81-85). -/
def backward (m : BiMap) (b : Int) : Int :=
  match m.find? (fun e => e.2 = b) with
  | some e => e.1
  | none => noLayer

/-- `MappingLeft` (src/design/ELayerMap.cpp:57-64). -/
def mappingLeft (m f : BiMap) : BiMap :=
  m.foldl (fun acc e => insert acc (forward f e.1) e.2) []

/-- `MappingRight` (src/design/ELayerMap.cpp:66-73). -/
def mappingRight (m f : BiMap) : BiMap :=
  m.foldl (fun acc e => insert acc e.1 (forward f e.2)) []

end LayerMap
end Ecad
