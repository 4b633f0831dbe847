import Verif.Base.UMap
import Verif.Base.Res
import Mathlib.Data.Rat.Floor
import Mathlib.Algebra.Ring.Defs
/-!
Small basic types: versions, coordinate units, material properties, uniform boundary conditions,
two-way maps, transforms.
-/
namespace Ecad

/-! ### versions -/
namespace Version

/-- `EVersion` (src/basic/ECadVersion.h:7).  `unsigned int` as a natural number: the modelled
functions cannot overflow, since they reduce both parts modulo 100 first. -/
abbrev Ver := Nat × Nat

/-- `toInt` (src/basic/ECadVersion.h:10-13). -/
def toInt (v : Ver) : Nat := (v.1 % 100) * 100 + v.2 % 100

/-- `fromInt` (src/basic/ECadVersion.h:15-21). -/
def fromInt (n : Nat) : Ver := (n / 100 % 100, n % 100)

/-- `VersionGreaterThan` (src/basic/ECadVersion.h:28-31). -/
def greaterThan (a b : Ver) : Bool := toInt a > toInt b

/-- `VersionLessThan` (src/basic/ECadVersion.h:33-36). -/
def lessThan (a b : Ver) : Bool := toInt a < toInt b

end Version

/-! ### coordinate units -/
namespace Units

/-- Conversion of a floating point number to the integer type `ECoord`: truncation towards zero.
Simplifications: numbers are exact rationals; the undefined behaviour of values outside the 64-bit
range is not modelled. -/
def trunc (q : ℚ) : Int := if 0 ≤ q then ⌊q⌋ else ⌈q⌉

/-- `ECoordUnits` (src/basic/ECadUnits.h:147-150). -/
structure CoordUnits where
  unit : ℚ
  precision : ℚ

/-- constructor from the scales in metres of user and database unit
(src/basic/ECadUnits.h:180-184). -/
def make (user data : ℚ) : CoordUnits := ⟨data / user, data⟩

/-- `Scale2Coord` (src/basic/ECadUnits.h:201-204). -/
def scale2Coord (u : CoordUnits) : ℚ := 1 / u.unit

/-- `toCoord(value)` (src/basic/ECadUnits.h:206-209). -/
def toCoord (u : CoordUnits) (v : ℚ) : Int := trunc (v * scale2Coord u)

/-- `toCoord(value, unit)` (src/basic/ECadUnits.h:211-214); `s` is the scale of the unit in metres. -/
def toCoordIn (u : CoordUnits) (v s : ℚ) : Int := trunc (v * s / u.precision)

/-- `toUnit(coord)` (src/basic/ECadUnits.h:226-230). -/
def toUnit (u : CoordUnits) (c : ℚ) : ℚ := c * u.unit

/-- `toUnit(coord, unit)` (src/basic/ECadUnits.h:232-236). -/
def toUnitIn (u : CoordUnits) (c s : ℚ) : ℚ := c * u.precision / s

end Units

/-! ### material properties -/
namespace Material

/-- The properties of a material (src/design/EMaterialDef.h): an unordered map from property ids. -/
abbrev Props (P : Type) := List (Int × P)

/-- `SetProperty` (src/design/EMaterialDef.cpp:68-71). -/
def setProperty {P : Type} (m : Props P) (id : Int) (p : P) : Props P := (UMap.emplace m id p).1

/-- `GetProperty` (src/design/EMaterialDef.cpp:73-78); `none` is the null pointer. -/
def getProperty {P : Type} (m : Props P) (id : Int) : Option P := UMap.find? m id

/-- `hasProperty` (src/design/EMaterialDef.cpp:63-66). -/
def hasProperty {P : Type} (m : Props P) (id : Int) : Bool := UMap.count m id

/-- a history of settings -/
def setAll {P : Type} (m : Props P) (s : List (Int × P)) : Props P :=
  s.foldl (fun m e => setProperty m e.1 e.2) m

/-- `GetSimpleProperty` (src/design/EMaterialProp.cpp:100-104): `.at(0)`. -/
def getSimple {F : Type} (v : List F) : Res (Option F) := (Res.at_ v 0).bind fun x => .ok (some x)

/-- `GetAnisotropicProperty` (src/design/EMaterialProp.cpp:106-119); `ok none` is the return value
`false`. -/
def getAnisotropic {F : Type} (v : List F) (row : Nat) : Res (Option F) :=
  if row ≥ 3 then .ok none
  else if v.length = 1 then getSimple v
  else if v.length = 3 then (Res.at_ v row).bind fun x => .ok (some x)
  else (Res.at_ v (row * 3 + 0)).bind fun x => .ok (some x)

/-- `GetTensorProperty` (src/design/EMaterialProp.cpp:121-132). -/
def getTensor {F : Type} (v : List F) (row col : Nat) : Res (Option F) :=
  if row ≥ 3 ∨ col ≥ 3 then .ok none
  else if v.length = 1 then getSimple v
  else if v.length = 3 then getAnisotropic v row
  else (Res.at_ v (row * 3 + col)).bind fun x => .ok (some x)

/-- `GetDimensions` (src/design/EMaterialProp.cpp:149-160). -/
def getDimensions {F : Type} (v : List F) : Nat × Nat :=
  if v.length = 1 then (1, 1) else if v.length = 3 then (3, 1) else (3, 3)

/-- The loop of `EMaterialPropPolynomial::Calculate` (src/design/EMaterialProp.cpp:210-211) over
the coefficients from index `i` on. -/
def calcLoop {F : Type} [Semiring F] (x : F) (i : Nat) (value : F) : List F → F
  | [] => value
  | c :: cs => calcLoop x (i + 1) (value + x ^ i * c) cs

/-- `Calculate` (src/design/EMaterialProp.cpp:206-213).  `front()` of an empty vector is undefined
behaviour. -/
def calculate {F : Type} [Semiring F] (coeffs : List F) (x : F) : Res F :=
  match coeffs with
  | [] => .ub
  | c :: cs => .ok (calcLoop x 1 c cs)

/-- first element, undefined behaviour when there is none -/
def front {A : Type} : List A → Res A
  | [] => .ub
  | a :: _ => .ok a

/-- `EMaterialPropPolynomial::GetSimpleProperty` (src/design/EMaterialProp.cpp:215-220). -/
def polySimple {F : Type} [Semiring F] (cs : List (List F)) (x : F) : Res F :=
  (front cs).bind fun c => calculate c x

/-- `EMaterialPropPolynomial::GetAnisotropicProperty` (src/design/EMaterialProp.cpp:222-227). -/
def polyAnisotropic {F : Type} [Semiring F] (cs : List (List F)) (x : F) (row : Nat) :
    Res F :=
  (if cs.length = 3 then Res.at_ cs row else front cs).bind fun c => calculate c x

/-- `EMaterialPropPolynomial::GetTensorProperty` (src/design/EMaterialProp.cpp:229-235). -/
def polyTensor {F : Type} [Semiring F] (cs : List (List F)) (x : F) (row col : Nat) :
    Res F :=
  (if cs.length = 9 then Res.at_ cs (row * 3 + col)
   else if cs.length = 3 then Res.at_ cs row else front cs).bind fun c => calculate c x

end Material

/-! ### uniform boundary conditions of a thermal model -/
namespace UniformBC

/-- `SetUniformBC` (src/model/thermal/EThermalModel.cpp:72-75): `emplace`. -/
def set {O B : Type} [DecidableEq O] (m : List (O × B)) (o : O) (b : B) : List (O × B) :=
  (UMap.emplace m o b).1

/-- `GetUniformBC` (src/model/thermal/EThermalModel.cpp:77-83). -/
def get {O B : Type} [DecidableEq O] (isValid : B → Bool) (m : List (O × B)) (o : O) : Option B :=
  match UMap.find? m o with
  | none => none
  | some b => if isValid b then some b else none

end UniformBC

/-! ### two-way maps -/
namespace BiDir

/-- `EBidirectionMap` (src/basic/ELookupTable.h:9-13). -/
structure Map (L R : Type) where
  forward : List (L × R)
  backward : List (R × L)

variable {L R : Type} [DecidableEq L] [DecidableEq R]

/-- `Insert` (src/basic/ELookupTable.h:16-20). -/
def insert (m : Map L R) (l : L) (r : R) : Map L R :=
  ⟨(UMap.emplace m.forward l r).1, (UMap.emplace m.backward r l).1⟩

/-- `GetRight` on a constant map (src/basic/ELookupTable.h:47-50): `.at` throws when absent. -/
def getRight (m : Map L R) (l : L) : Res R :=
  match UMap.find? m.forward l with
  | some r => .ok r
  | none => .exn

/-- `GetLeft` on a constant map (src/basic/ELookupTable.h:37-40). -/
def getLeft (m : Map L R) (r : R) : Res L :=
  match UMap.find? m.backward r with
  | some l => .ok l
  | none => .exn

/-- a history of insertions into an empty map -/
def build (s : List (L × R)) : Map L R := s.foldl (fun m e => insert m e.1 e.2) ⟨[], []⟩

end BiDir

/-! ### transforms -/
namespace Trans

/-- `ETransformData2D` (src/basic/ETransform.h:10-17) over exact numbers `F`. -/
structure Data (F : Type) where
  scale : F
  rotation : F
  mirror : Option (Fin 3)
  offset : F × F
  deriving DecidableEq

/-- default values (src/basic/ETransform.h:14-17). -/
def Data.default (F : Type) [Zero F] [One F] : Data F := ⟨1, 0, none, (0, 0)⟩

/-- The library functions making the four kinds of matrices (`makeScaleTransform2D` etc., not part
of the repository) and the matrix product. -/
class Kit (F M : Type) extends Monoid M where
  scaleT : F → M
  rotateT : F → M
  mirrorT : Fin 3 → M
  shiftT : F × F → M

variable {F M : Type} [Zero F] [One F] [DecidableEq F] [Kit F M]

/-- `isTransformed` (src/basic/ETransform.h:19-23).  Simplification: exact instead of tolerant
comparison. -/
def Data.isTransformed (d : Data F) : Bool :=
  d.scale ≠ 1 || d.rotation ≠ 0 || d.mirror.isSome || d.offset ≠ (0, 0)

/-- `ETransformData2D::GetTransform` (src/basic/ETransform.h:25-34). -/
def Data.matrix (M : Type) [Kit F M] (d : Data F) : M :=
  let t : M := 1
  let t := if d.scale ≠ 1 then Kit.scaleT d.scale * t else t
  let t := if d.rotation ≠ 0 then Kit.rotateT d.rotation * t else t
  let t := match d.mirror with
    | some a => Kit.mirrorT F a * t
    | none => t
  if d.offset ≠ (0, 0) then Kit.shiftT d.offset * t else t

/-- `ETransform2D` (src/basic/ETransform.h:117-120). -/
structure T (F M : Type) where
  cache : Option M
  seq : List (Data F)

/-- default constructor (src/basic/ETransform.h:65). -/
def T.new (F M : Type) [Zero F] [One F] : T F M := ⟨none, [Data.default F]⟩

/-- the last element is edited, `back()` of an empty list is undefined behaviour -/
def editLast {A : Type} (f : A → A) : List A → Res (List A)
  | [] => .ub
  | [a] => .ok [f a]
  | a :: b :: r => (editLast f (b :: r)).bind fun r' => .ok (a :: r')

/-- The loop of `GetTransform` (src/basic/ETransform.h:108-112). -/
def product (M : Type) [Kit F M] (seq : List (Data F)) : M :=
  seq.foldl (fun t d => if !d.isTransformed then t else d.matrix M * t) 1

/-- `GetTransform` (src/basic/ETransform.h:104-116): the (cached) matrix and the object after the
call. -/
def T.get (t : T F M) : T F M × M :=
  match t.cache with
  | some m => (t, m)
  | none => (⟨some (product M t.seq), t.seq⟩, product M t.seq)

/-- Assigning through the reference returned by `Scale()`, `Rotation()`, `Mirror()` or `Offset()`
(src/basic/ETransform.h:81-91): the cache is dropped and the last element edited. -/
def T.set (t : T F M) (f : Data F → Data F) : Res (T F M) :=
  (editLast f t.seq).bind fun s => .ok ⟨none, s⟩

/-- `Append` (src/basic/ETransform.h:93-102).  Also returns the argument, which is read. -/
def T.append (t other : T F M) : T F M × T F M :=
  match t.cache with
  | some m => (⟨some (other.get.2 * m), t.seq⟩, other.get.1)
  | none => (⟨none, t.seq ++ other.seq.filter Data.isTransformed⟩, other)

/-- `operator=` and copy constructor (src/basic/ETransform.h:70-79). -/
def T.copy (t : T F M) : T F M := ⟨t.cache, t.seq⟩

end Trans
end Ecad
