import Verif.Dmc.Model
import Verif.Ctm.HeaderModel
/-!
Reading of DMC and DOM files (src/extension/dmcdom/ECadExtDmcDomHandler.cpp:16-62, 190-236), as bytes.

Streams are what is left of the line and whether they are still good: reading from a stream that has failed, or of which only blanks are left,
does not touch the value; a number that cannot be read sets the value to zero (or to the bound, if it is too large) and the stream fails.
Numbers are read as libstdc++ does: sign and digits; for `double` sign, digits, point and digits (exponents, hexadecimal numbers, `inf` and
`nan` are not modelled).  `double` is exact.  The conversion of a `double` to a coordinate (64 bit) cuts towards zero and is undefined beyond
the range.  `str::Split` drops empty items (see `Ctm.split`).
-/
namespace Ecad.Dmc
open Ctm (Bytes isDig isSpace digitsVal stol split fileLines)

/-- `std::stringstream` over a line -/
structure Strm where
  rest : Bytes
  good : Bool
  deriving DecidableEq, Repr

/-- what is left after the blanks; `none` if the stream has failed or ends -/
def Strm.skip (s : Strm) : Option Bytes :=
  if s.good then
    match s.rest.dropWhile isSpace with
    | [] => none
    | t => some t
  else none

/-- `>>` into a number: `g` gives the value, what is left and if it could be read -/
def Strm.get {α : Type} (g : Bytes → α × Bytes × Bool) (old : Option α) (s : Strm) : Option α × Strm :=
  match s.skip with
  | none => (old, ⟨[], false⟩)
  | some t => let x := g t; (some x.1, ⟨x.2.1, x.2.2⟩)

/-- `>>` into a string -/
def Strm.word (old : Bytes) (s : Strm) : Bytes × Strm :=
  match s.skip with
  | none => (old, ⟨[], false⟩)
  | some t => (t.takeWhile fun c => !isSpace c, ⟨t.dropWhile fun c => !isSpace c, true⟩)

/-- sign: if it is a minus, and what follows -/
def sign : Bytes → Bool × Bytes
  | 45 :: t => (true, t)
  | 43 :: t => (false, t)
  | t => (false, t)

/-- `>>` into an `int` -/
def getInt (t : Bytes) : Int × Bytes × Bool :=
  let s := sign t
  let ds := s.2.takeWhile isDig
  let r := s.2.dropWhile isDig
  if ds = [] then (0, r, false)
  else
    let v : Int := if s.1 then -(digitsVal ds : Int) else digitsVal ds
    if v < -2 ^ 31 then (-2 ^ 31, r, false) else if 2 ^ 31 ≤ v then (2 ^ 31 - 1, r, false) else (v, r, true)

/-- `>>` into a `size_t`: a number after a minus is taken from 2^64 -/
def getSize (t : Bytes) : Nat × Bytes × Bool :=
  let s := sign t
  let ds := s.2.takeWhile isDig
  let r := s.2.dropWhile isDig
  if ds = [] then (0, r, false)
  else
    let v := digitsVal ds
    if 2 ^ 64 ≤ v then (2 ^ 64 - 1, r, false) else (if s.1 then (2 ^ 64 - v) % 2 ^ 64 else v, r, true)

/-- the digits after the point, and what follows -/
def frac : Bytes → Bytes × Bytes
  | 46 :: r => (r.takeWhile isDig, r.dropWhile isDig)
  | r => ([], r)

/-- `>>` into a `double` -/
def getReal (t : Bytes) : ℚ × Bytes × Bool :=
  let s := sign t
  let ip := s.2.takeWhile isDig
  let q := frac (s.2.dropWhile isDig)
  if ip = [] ∧ q.1 = [] then (0, q.2, false)
  else
    let v : ℚ := (digitsVal ip : ℚ) + (digitsVal q.1 : ℚ) / 10 ^ q.1.length
    (if s.1 then -v else v, q.2, true)

/-- `std::stoi` -/
def stoi (t : Bytes) : Res Int :=
  match stol t with
  | none => .exn
  | some v => if -2 ^ 31 ≤ v ∧ v < 2 ^ 31 then .ok v else .exn

/-- towards zero -/
def trunc (q : ℚ) : Int := q.num.tdiv q.den

/-- `double` to `ECoord` (src/basic/ECadAlias.h:34) -/
def conv (q : ℚ) : Res Int := if -2 ^ 63 ≤ trunc q ∧ trunc q < 2 ^ 63 then .ok (trunc q) else .ub

/-- `ParseDomLine` (src/extension/dmcdom/ECadExtDmcDomHandler.cpp:16-22) -/
def parseDomLine (scale : ℚ) (l : Bytes) (points : List (Int × Int)) : Res (List (Int × Int) × Bool) :=
  let x := Strm.get getReal (some 0) ⟨l, true⟩
  let y := x.2.get getReal (some 0)
  (conv (x.1.getD 0 * scale)).bind fun a => (conv (y.1.getD 0 * scale)).bind fun b => .ok (points ++ [(a, b)], true)

/-- `EDmcData` (src/extension/dmcdom/ECadExtDmcDomHandler.h:11-23); `none` is a number that was never set -/
structure FRec where
  isVia : Bool
  isHole : Bool
  netId : Option Int
  layerId : Option Int
  sigLyr1 : Option Int
  sigLyr2 : Option Int
  points : Option Nat
  /-- lower left x and y, upper right x and y -/
  bbox : Int × Int × Int × Int
  netName : Bytes
  lyrName : Bytes
  deriving DecidableEq, Repr

/-- `getSigLayers` (src/extension/dmcdom/ECadExtDmcDomHandler.cpp:28-37) -/
def getSigLayers (t : Bytes) : Res (Option (Int × Int)) :=
  if t.length < 1 then .ok none
  else if t.length = 1 then .ok (some (-1, -1))
  else
    match split (fun c => c == 45) (t.drop 1) with
    | [a, b] => (stoi a).bind fun x => (stoi b).bind fun y => .ok (some (x, y))
    | _ => .ok none

/-- use of a number -/
def use {α : Type} : Option α → Res α
  | some a => .ok a
  | none => .ub

/-- `ParseDmcLine` (src/extension/dmcdom/ECadExtDmcDomHandler.cpp:24-62): `none` if it returns false -/
def parseDmcLine (scale : ℚ) (l : Bytes) : Res (Option FRec) :=
  let points := Strm.get getSize none ⟨l, true⟩
  let dark := points.2.get getInt none
  let layerId := dark.2.get getInt none
  let llx := layerId.2.get getReal none
  let urx := llx.2.get getReal none
  let lly := urx.2.get getReal none
  let ury := lly.2.get getReal none
  let netId := ury.2.get getInt none
  let netName := netId.2.word []
  let sigLyr := netName.2.word []
  let lyrName := sigLyr.2.word []
  if sigLyr.1 = [] then .ok none
  else
    (use dark.1).bind fun d =>
    let isVia : Bool := sigLyr.1.head? == some 86
    (if isVia then (getSigLayers sigLyr.1).bind fun x => .ok (x.map fun p => (some p.1, some p.2))
      else (stoi sigLyr.1).bind fun i => .ok (some (some i, none))).bind fun
    | none => .ok none
    | some sig =>
      (use llx.1).bind fun a => (conv (a * scale)).bind fun a =>
      (use urx.1).bind fun c => (conv (c * scale)).bind fun c =>
      (use lly.1).bind fun b => (conv (b * scale)).bind fun b =>
      (use ury.1).bind fun d' => (conv (d' * scale)).bind fun d' =>
        .ok (some ⟨isVia, d == 0, netId.1, layerId.1, sig.1, sig.2, points.1, (a, b, c, d'), netName.1, lyrName.1⟩)

/-- why a file is not read: it cannot be opened (no message), or the message says a line -/
inductive Fail where
  | open_
  | line (n : Nat)
  deriving DecidableEq, Repr

/-- the loop over the lines of a DOM file (src/extension/dmcdom/ECadExtDmcDomHandler.cpp:199-209); `n` lines were read before -/
def domLines (scale : ℚ) : Nat → List Bytes → List (Int × Int) → Res (Except Fail (List (Int × Int)))
  | _, [], ps => .ok (.ok ps)
  | n, l :: ls, ps =>
    if l = [] then domLines scale (n + 1) ls ps
    else (parseDomLine scale l ps).bind fun x => if x.2 then domLines scale (n + 1) ls x.1 else .ok (.error (.line (n + 1)))

/-- the loop over the lines of a DMC file (src/extension/dmcdom/ECadExtDmcDomHandler.cpp:223-233) -/
def dmcLines (scale : ℚ) : Nat → List Bytes → List FRec → Res (Except Fail (List FRec))
  | _, [], rs => .ok (.ok rs)
  | n, l :: ls, rs =>
    if l = [] then dmcLines scale (n + 1) ls rs
    else (parseDmcLine scale l).bind fun
      | some r => dmcLines scale (n + 1) ls (rs ++ [r])
      | none => .ok (.error (.line (n + 1)))

/-- `ParseDomFile` (src/extension/dmcdom/ECadExtDmcDomHandler.cpp:190-212); `none` is a file that cannot be opened -/
def parseDomFile (scale : ℚ) : Option Bytes → Res (Except Fail (List (Int × Int)))
  | none => .ok (.error .open_)
  | some b => domLines scale 0 (fileLines [] b) []

/-- `ParseDmcFile` (src/extension/dmcdom/ECadExtDmcDomHandler.cpp:214-236) -/
def parseDmcFile (scale : ℚ) : Option Bytes → Res (Except Fail (List FRec))
  | none => .ok (.error .open_)
  | some b => dmcLines scale 0 (fileLines [] b) []

/-- the record as the import uses it; `junk` stands for numbers that were never set -/
def FRec.toRec (junk : Int) (r : FRec) : Rec where
  isVia := r.isVia
  isHole := r.isHole
  netId := r.netId.getD junk
  layerId := r.layerId.getD junk
  sigLyr1 := r.sigLyr1.getD junk
  sigLyr2 := r.sigLyr2.getD junk
  points := r.points.getD 0
  netName := String.ofList (r.netName.map Char.ofNat)
  lyrName := String.ofList (r.lyrName.map Char.ofNat)

/-- `CreateDatabase` from the files on (src/extension/dmcdom/ECadExtDmcDomHandler.cpp:75-188): DOM first, then DMC, then the database -/
def load (junk : Int) (scale : ℚ) (dom dmc : Option Bytes) : Res (Except Fail (St (Int × Int) × List (Inst (Int × Int)))) :=
  (parseDomFile scale dom).bind fun
  | .error e => .ok (.error e)
  | .ok pts =>
    (parseDmcFile scale dmc).bind fun
    | .error e => .ok (.error e)
    | .ok rs => (importDmc (rs.map (FRec.toRec junk)) pts).bind fun x => .ok (.ok x)

end Ecad.Dmc
