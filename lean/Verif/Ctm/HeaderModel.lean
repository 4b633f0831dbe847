import Verif.Base.Res
import Mathlib.Data.Rat.Defs
import Mathlib.Algebra.Order.Ring.Rat
/-!
The header file of a chip thermal model (src/model/thermal/io/EChipThermalModelIO.cpp:158-332, 382-451), as bytes.

Library parts: `Split` cuts a line at blanks and drops empty items (`sep` says which bytes are blanks), `StartsWith`, `Trim` and
`Contains<CaseInsensitive>` are what their names say, and numbers are printed with six digits after the point, rounded by `rnd`.
`std::stod` reads sign, digits, point and digits; exponents, hexadecimal numbers, `inf` and `nan` are not modelled.  Numbers are
rationals.  Opening and closing the file is not modelled.
-/
namespace Ecad.Ctm

abbrev Bytes := List Nat

/-- keywords (src/model/thermal/io/EChipThermalModelIO.cpp:186-309, 398-447) -/
def kVersion : Bytes := [35, 86, 101, 114, 115, 105, 111, 110]
def kLayer : Bytes := [76, 65, 89, 69, 82]
def kDie : Bytes := [68, 73, 69]
def kDieOrig : Bytes := [68, 73, 69, 95, 79, 82, 73, 71]
def kTemp : Bytes := [84, 69, 77, 80]
def kTile : Bytes := [84, 73, 76, 69]
def kResolution : Bytes := [82, 69, 83, 79, 76, 85, 84, 73, 79, 78]
def kScale : Bytes := [83, 67, 65, 76, 69, 95, 70, 65, 67, 84, 79, 82]
def kAll : Bytes := [65, 76, 76, 95, 76, 65, 89, 69, 82, 83]
def kMetal : Bytes := [77, 69, 84, 65, 76, 95, 76, 65, 89, 69, 82, 83]
def kVia : Bytes := [86, 73, 65, 95, 76, 65, 89, 69, 82, 83]
/-- `encrypted`, in lower case -/
def kEncrypted : Bytes := [101, 110, 99, 114, 121, 112, 116, 101, 100]
/-- `None` -/
def kNone : Bytes := [78, 111, 110, 101]
/-- the default text of the first line, `Version 1.0 2022 R2` (src/model/thermal/EChipThermalModel.h:30) -/
def defaultHead : Bytes := [86, 101, 114, 115, 105, 111, 110, 32, 49, 46, 48, 32, 50, 48, 50, 50, 32, 82, 50]

/-- `ECTMv1Header` (src/model/thermal/EChipThermalModel.h:27-41).  The elevation of `layers` and the elevation and thickness of the
vias are neither written nor read, and not part of the model. -/
structure Header where
  encrypted : Bool := false
  head : Bytes := defaultHead
  resolution : ℚ := 10
  scale : ℚ := 1
  size : List ℚ := [0, 0, 0, 0]
  origin : List ℚ := [0, 0, 0, 0]
  tiles : Nat × Nat := (0, 0)
  temps : List ℚ := []
  /-- name and thickness -/
  layers : List (Bytes × ℚ) := []
  tech : List Bytes := []
  /-- name, bottom and top layer -/
  vias : List (Bytes × Bytes × Bytes) := []
  /-- name, thickness and elevation -/
  metals : List (Bytes × ℚ × ℚ) := []
  deriving DecidableEq, Repr

/-! ## numbers -/

/-- decimal digits of a number -/
def digs (n : Nat) : Bytes := if h : n < 10 then [48 + n] else digs (n / 10) ++ [48 + n % 10]
termination_by n

/-- six decimal digits -/
def pad6 (n : Nat) : Bytes :=
  [48 + n / 100000 % 10, 48 + n / 10000 % 10, 48 + n / 1000 % 10, 48 + n / 100 % 10, 48 + n / 10 % 10, 48 + n % 10]

/-- a number of millionths as text -/
def fmtMicro (k : Int) : Bytes :=
  (if k < 0 then [45] else []) ++ digs (k.natAbs / 1000000) ++ 46 :: pad6 (k.natAbs % 1000000)

/-- `std::to_string(double)`, and `<<` with `fixed` and precision 6 (src/model/thermal/io/EChipThermalModelIO.cpp:395) -/
def fmt (rnd : ℚ → Int) (x : ℚ) : Bytes := fmtMicro (rnd (x * 1000000))

def isDig (c : Nat) : Bool := 48 ≤ c && c ≤ 57

def digitsVal (l : Bytes) : Nat := l.foldl (fun a c => 10 * a + (c - 48)) 0

def isSpace (c : Nat) : Bool := c == 32 || (9 ≤ c && c ≤ 13)

/-- digits, point, digits -/
def stodAbs (s : Bytes) : Option ℚ :=
  let ip := s.takeWhile isDig
  let fp := match s.dropWhile isDig with
    | 46 :: t => t.takeWhile isDig
    | _ => []
  if ip = [] ∧ fp = [] then none else some ((digitsVal ip : ℚ) + (digitsVal fp : ℚ) / 10 ^ fp.length)

/-- `std::stod`: `none` is an exception -/
def stod (s : Bytes) : Option ℚ :=
  match s.dropWhile isSpace with
  | 45 :: t => (stodAbs t).map fun v => -v
  | 43 :: t => stodAbs t
  | t => stodAbs t

/-- `std::stol`: `none` is an exception -/
def stol (s : Bytes) : Option Int :=
  let f := fun (t : Bytes) => if t.takeWhile isDig = [] then none else some ((digitsVal (t.takeWhile isDig) : Int))
  match s.dropWhile isSpace with
  | 45 :: t => (f t).map fun v => -v
  | 43 :: t => f t
  | t => f t

/-- `static_cast<size_t>` -/
def toSize (i : Int) : Nat := (i % (2 ^ 64 : Int)).toNat

def orExn {α : Type} : Option α → Res α
  | some a => .ok a
  | none => .exn

/-! ## encryption -/

/-- `c += 3 * len + 22` on bytes (src/model/thermal/io/EChipThermalModelIO.cpp:390-393) -/
def encrypt (s : Bytes) (len : Nat) : Bytes := s.map fun c => (c + (3 * len + 22)) % 256

/-- `c -= 3 * len + 22` on bytes (src/model/thermal/io/EChipThermalModelIO.cpp:166-168) -/
def decryptText (s : Bytes) (len : Nat) : Bytes := s.map fun c => (c + (256 - (3 * len + 22) % 256)) % 256

/-- `decrypt` (src/model/thermal/io/EChipThermalModelIO.cpp:166-173): negative numbers become zero -/
def decrypt (s : Bytes) (len : Nat) : Res ℚ :=
  (orExn (stod (decryptText s len))).bind fun v => .ok (if 0 ≤ v then v else 0)

/-! ## writing -/

/-- each text after a blank -/
def sp (ts : List Bytes) : Bytes := ts.flatMap fun t => 32 :: t

/-- `std::left << std::setw(21)` -/
def padr (t : Bytes) : Bytes := t ++ List.replicate (21 - t.length) 32

variable (rnd : ℚ → Int)

/-- a number, encrypted or not (src/model/thermal/io/EChipThermalModelIO.cpp:402-403, 427-434) -/
def num (h : Header) (x : ℚ) (len : Nat) : Bytes := if h.encrypted then encrypt (fmt rnd x) len else fmt rnd x

/-- row of a metal layer (src/model/thermal/io/EChipThermalModelIO.cpp:424-436) -/
def metalRow (h : Header) (m : Bytes × ℚ × ℚ) : Bytes :=
  [32, 32] ++ padr m.1 ++ padr (num rnd h m.2.1 m.1.length) ++ padr (num rnd h m.2.2 m.1.length)

def orNone (t : Bytes) : Bytes := if t = [] then kNone else t

/-- row of a via layer (src/model/thermal/io/EChipThermalModelIO.cpp:441-447) -/
def viaRow (v : Bytes × Bytes × Bytes) : Bytes := [32, 32] ++ padr v.1 ++ padr (orNone v.2.1) ++ padr (orNone v.2.2)

/-- `WriteCTMv1HeaderFile` (src/model/thermal/io/EChipThermalModelIO.cpp:382-451), line by line.  `DIE_ORIG` is written from `size`
(412).  The texts of the comment lines starting with `#` are shortened. -/
def writeLines (h : Header) : List Bytes :=
  [h.head ++ 32 :: (if h.encrypted then 40 :: kEncrypted ++ [41] else []),
   kLayer ++ sp (digs h.layers.length :: h.layers.flatMap fun l => [l.1, num rnd h l.2 l.1.length]),
   kDie ++ sp (h.size.map (fmt rnd)),
   kTemp ++ sp (h.temps.map (fmt rnd)),
   kTile ++ sp [digs h.tiles.1, digs h.tiles.2],
   kResolution ++ sp [fmt rnd h.resolution],
   kDieOrig ++ sp (h.size.map (fmt rnd)),
   kScale ++ sp [fmt rnd h.scale],
   kAll ++ sp (digs h.tech.length :: h.tech),
   [],
   kMetal ++ [32, 123], [35]] ++ h.metals.map (metalRow rnd h) ++ [[125], kVia ++ [32, 123], [35]] ++ h.vias.map viaRow ++ [[125]]

/-- the file -/
def write (h : Header) : Bytes := (writeLines rnd h).flatMap fun l => l ++ [10]

/-! ## reading -/

/-- `std::getline` until the end of the file; the last line is the text after the last line feed -/
def fileLines : Bytes → Bytes → List Bytes
  | cur, [] => [cur]
  | cur, c :: cs => if c = 10 then cur :: fileLines [] cs else fileLines (cur ++ [c]) cs

/-- `Split`; `cur` is the item read so far -/
def splitAux (sep : Nat → Bool) : Bytes → Bytes → List Bytes
  | cur, [] => if cur = [] then [] else [cur]
  | cur, c :: cs =>
    if sep c then (if cur = [] then splitAux sep [] cs else cur :: splitAux sep [] cs) else splitAux sep (cur ++ [c]) cs

def split (sep : Nat → Bool) (line : Bytes) : List Bytes := splitAux sep [] line

def lower (c : Nat) : Nat := if 65 ≤ c ∧ c ≤ 90 then c + 32 else c

/-- `Contains<CaseInsensitive>(line, "Encrypted")` (src/model/thermal/io/EChipThermalModelIO.cpp:188) -/
def saysEncrypted (line : Bytes) : Bool := (line.map lower).tails.any fun t => kEncrypted.isPrefixOf t

/-- where the reader is: outside, or in the loop of the metal layers or of the via layers -/
inductive Mode where
  | top
  | metal
  | via
  deriving DecidableEq, Repr

/-- all the numbers of some items -/
def stods : List Bytes → Res (List ℚ)
  | [] => .ok []
  | t :: ts => (orExn (stod t)).bind fun v => (stods ts).bind fun vs => .ok (v :: vs)

/-- a number, decrypted if need be (src/model/thermal/io/EChipThermalModelIO.cpp:206, 300-301) -/
def readNum (enc : Bool) (t : Bytes) (len : Nat) : Res ℚ := if enc then decrypt t len else orExn (stod t)

/-- the loop over the layers of `LAYER` (src/model/thermal/io/EChipThermalModelIO.cpp:203-208); the number of items is even -/
def readLayers (enc : Bool) : List Bytes → Res (List (Bytes × ℚ))
  | n :: t :: ts => (readNum enc t n.length).bind fun v => (readLayers enc ts).bind fun ls => .ok ((n, v) :: ls)
  | _ => .ok []

/-- a line outside of the layer lists (src/model/thermal/io/EChipThermalModelIO.cpp:183-310); `none` is an error -/
def stepTop (sep : Nat → Bool) (h : Header) (line : Bytes) : Res (Option (Mode × Header)) :=
  if line = [] then .ok (some (.top, h))
  else if kVersion.isPrefixOf line then .ok (some (.top, { h with head := line, encrypted := h.encrypted || saysEncrypted line }))
  else if kLayer.isPrefixOf line then
    match split sep line with
    | _ :: t :: items => (orExn (stol t)).bind fun n =>
      if items.length + 2 ≠ (toSize n * 2 + 2) % 2 ^ 64 then .ok none
      else (readLayers h.encrypted items).bind fun ls => .ok (some (.top, { h with layers := h.layers ++ ls }))
    | _ => .ok none
  else if kDie.isPrefixOf line then
    if (split sep line).length ≠ 5 then .ok none
    else (stods (split sep line).tail).bind fun b =>
      .ok (some (.top, if kDieOrig.isPrefixOf line then { h with origin := b } else { h with size := b }))
  else if kTemp.isPrefixOf line then
    (stods (split sep line).tail).bind fun ts =>
      if (h.temps ++ ts).length < 5 then .ok none else .ok (some (.top, { h with temps := h.temps ++ ts }))
  else if kTile.isPrefixOf line then
    match split sep line with
    | [_, a, b] => (orExn (stol a)).bind fun x => (orExn (stol b)).bind fun y =>
      if toSize x > 100000 ∨ toSize y > 100000 then .ok none else .ok (some (.top, { h with tiles := (toSize x, toSize y) }))
    | _ => .ok none
  else if kResolution.isPrefixOf line then
    match split sep line with
    | [_, a] => (orExn (stod a)).bind fun x => .ok (some (.top, { h with resolution := x }))
    | _ => .ok none
  else if kScale.isPrefixOf line then
    match split sep line with
    | [_, a] => (orExn (stod a)).bind fun x => .ok (some (.top, { h with scale := x }))
    | _ => .ok none
  else if kAll.isPrefixOf line then
    match split sep line with
    | _ :: t :: items => (orExn (stol t)).bind fun n =>
      if items.length + 2 ≠ (toSize n + 2) % 2 ^ 64 then .ok none else .ok (some (.top, { h with tech := h.tech ++ items }))
    | _ => .ok none
  else if kMetal.isPrefixOf line then .ok (some (.metal, h))
  else if kVia.isPrefixOf line then .ok (some (.via, h))
  else .ok (some (.top, h))

/-- a line of the metal layers (src/model/thermal/io/EChipThermalModelIO.cpp:282-304) -/
def stepMetal (sep : Nat → Bool) (h : Header) (line : Bytes) : Res (Option (Mode × Header)) :=
  if line = [] then .ok (some (.metal, h))
  else if line.head? = some 35 then .ok (some (.metal, h))
  else if (line.dropWhile sep).head? = some 125 then .ok (some (.top, h))
  else
    match split sep line with
    | [n, a, b] => (readNum h.encrypted a n.length).bind fun t => (readNum h.encrypted b n.length).bind fun e =>
      .ok (some (.metal, { h with metals := h.metals ++ [(n, t, e)] }))
    | _ => .ok none

/-- a line of the via layers (src/model/thermal/io/EChipThermalModelIO.cpp:307-328) -/
def stepVia (sep : Nat → Bool) (h : Header) (line : Bytes) : Res (Option (Mode × Header)) :=
  if line = [] then .ok (some (.via, h))
  else if line.head? = some 35 then .ok (some (.via, h))
  else if (line.dropWhile sep).head? = some 125 then .ok (some (.top, h))
  else
    match split sep line with
    | [n, a, b] => .ok (some (.via, { h with vias := h.vias ++ [(n, a, b)] }))
    | _ => .ok none

def step (sep : Nat → Bool) : Mode → Header → Bytes → Res (Option (Mode × Header))
  | .top, h, l => stepTop sep h l
  | .metal, h, l => stepMetal sep h l
  | .via, h, l => stepVia sep h l

/-- the loops over the lines (src/model/thermal/io/EChipThermalModelIO.cpp:179-330); `none` is a return of false -/
def readLines (sep : Nat → Bool) : Mode → Header → List Bytes → Res (Option Header)
  | _, h, [] => .ok (some h)
  | m, h, l :: ls => (step sep m h l).bind fun r =>
    match r with
    | none => .ok none
    | some (m, h) => readLines sep m h ls

/-- `ParseCTMv1HeaderFile` (src/model/thermal/io/EChipThermalModelIO.cpp:158-332) into a new header -/
def read (sep : Nat → Bool) (file : Bytes) : Res (Option Header) := readLines sep .top {} (fileLines [] file)

end Ecad.Ctm
