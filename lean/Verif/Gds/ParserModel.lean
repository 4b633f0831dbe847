import Verif.Base.Res
import Mathlib.Algebra.Order.Ring.Rat
/-!
GDSII stream parser: buffering and decoding of records (src/extension/gds/EGdsParser.cpp).
-/
namespace Ecad.Gds

/-- a byte of the file -/
abbrev Byte := Fin 256

/-! ### buffer -/

/-- The buffer of `EGdsParser` (src/extension/gds/EGdsParser.h:26-31) together with the rest of the stream.  `mem` is
the memory `m_buffer` points to (length: `m_bcap`; `none`: not initialised), `gen` the number of allocations before it,
`ptr` is `m_bptr - m_buffer`, `len` is `m_blen`. -/
structure Buf where
  mem : List (Option Byte)
  gen : Nat
  ptr : Nat
  len : Nat
  rest : List Byte
  deriving DecidableEq

/-- constructor (src/extension/gds/EGdsParser.cpp:11-18) for a buffer of `cap` bytes (4096 in the code) -/
def Buf.init (cap : Nat) (file : List Byte) : Buf := ⟨List.replicate cap none, 0, 0, 0, file⟩

/-- The loop doubling the capacity (src/extension/gds/EGdsParser.cpp:256-258) in 64 bit arithmetic; `none`: not ended
after `fuel` turns. -/
def grow : Nat → Nat → Nat → Option Nat
  | 0, _, _ => none
  | f + 1, cap, n => if cap < n then grow f (cap * 2 % 2 ^ 64) n else some cap

/-- `fp.read(m_buffer + m_blen, m_bcap - m_blen)` and what follows (src/extension/gds/EGdsParser.cpp:271-278). -/
def fill (b : Buf) : Buf :=
  let k := min (b.mem.length - b.len) b.rest.length
  { mem := b.mem.take b.len ++ (b.rest.take k).map some ++ b.mem.drop (b.len + k)
    gen := b.gen, ptr := 0, len := b.len + k, rest := b.rest.drop k }

/-- the bytes between `m_bptr` and `m_bptr + m_blen` -/
def Buf.live (b : Buf) : List (Option Byte) := (b.mem.drop b.ptr).take b.len

/-- making room (src/extension/gds/EGdsParser.cpp:255-269) -/
def room (fuel : Nat) (b : Buf) (n : Nat) : Option Buf :=
  if b.mem.length < n * 2 % 2 ^ 64 then
    (grow fuel b.mem.length n).map fun cap =>
      { b with mem := b.live ++ List.replicate (cap - b.len) none, gen := b.gen + 1 }
  else if b.len > 0 then some { b with mem := b.live ++ b.mem.drop b.len }
  else some b

/-- a pointer into a buffer: number of the allocation and offset -/
structure Ptr where
  gen : Nat
  off : Nat
  deriving DecidableEq

/-- the last part of `Parse` (src/extension/gds/EGdsParser.cpp:281-291): buffer, pointer, `noRead` -/
def take (b : Buf) (n : Nat) : Buf × Option Ptr × Int :=
  if b.len ≥ n then ({ b with ptr := b.ptr + n, len := b.len - n }, some ⟨b.gen, b.ptr⟩, (n : Int))
  else (b, none, 0)

/-- `Parse` (src/extension/gds/EGdsParser.cpp:252-292); `n` is a 64 bit number. -/
def parse (fuel : Nat) (b : Buf) (n : Nat) : Option (Buf × Option Ptr × Int) :=
  if b.len < n then (room fuel b n).map fun b' => take (fill b') n
  else some (take b n)

/-- `p[k]`: reading through a null pointer, freed memory, outside of the memory or uninitialised memory is undefined
behaviour. -/
def deref (b : Buf) (p : Option Ptr) (k : Nat) : Res Byte :=
  match p with
  | none => .ub
  | some p =>
    if p.gen = b.gen then
      match b.mem[p.off + k]? with
      | some (some x) => .ok x
      | _ => .ub
    else .ub

/-- `p[k]`, `p[k+1]`, …, `n` bytes -/
def derefs (b : Buf) (p : Option Ptr) : Nat → Nat → Res (List Byte)
  | _, 0 => .ok []
  | k, n + 1 => (deref b p k).bind fun x => (derefs b p (k + 1) n).bind fun xs => .ok (x :: xs)

/-! ### numbers -/

/-- bytes accumulated by shifts, `displayInteger <<= 8; displayInteger += …` (src/extension/gds/EGdsParser.cpp:127-129,
144-148, 183-187), for a result of `w` bits -/
def shiftIn (w : Nat) (l : List Byte) : Nat := l.foldl (fun a x => (a * 256 + x.val) % 2 ^ w) 0

/-- conversion of `unsigned int` to `int` by `push_back` into a vector of `int` -/
def toInt32 (u : Nat) : Int := if u < 2 ^ 31 then (u : Int) else (u : Int) - 2 ^ 32

/-- two-byte integers (src/extension/gds/EGdsParser.cpp:127-136); all in 32 bit unsigned arithmetic -/
def int2 (l : List Byte) : Int :=
  let d := shiftIn 32 l
  toInt32 (if d / 2 ^ 15 % 2 = 1 then
    -- `&= 0x7fff`, `^= 0x7fff`, `+= 1`, `*= -1`
    (2 ^ 32 - (0x7fff - d % 2 ^ 15 + 1)) % 2 ^ 32
  else d)

/-- four-byte integers (src/extension/gds/EGdsParser.cpp:144-155) -/
def int4 (l : List Byte) : Int :=
  let d := shiftIn 32 l
  toInt32 (if d / 2 ^ 31 % 2 = 1 then
    (2 ^ 32 - (0x7fffffff - d % 2 ^ 31 + 1)) % 2 ^ 32
  else d)

/-- bit arrays (src/extension/gds/EGdsParser.cpp:118) -/
def bits (l : List Byte) : Int := (shiftIn 32 l : Int)

/-- reals of `n + 1` bytes (src/extension/gds/EGdsParser.cpp:163-172, 181-190), in exact arithmetic -/
def real (n : Nat) : List Byte → ℚ
  | [] => 0
  | x :: l =>
    let v := (shiftIn 64 l : ℚ) / 2 ^ (8 * n) * (16 : ℚ) ^ (((x.val % 128 : Nat) : Int) - 64)
    if x.val / 128 % 2 = 1 then -v else v

/-! ### records -/

/-- `eGdsRecordsExpectData` (src/extension/gds/EGdsRecords.h:244-306); 7 stands for 0xffff -/
def expectTable : List Nat :=
  [2, 2, 6, 5, 0, 2, 6, 0, 0, 0, 0, 0, 0, 2, 2, 3, 3, 0, 6, 2, 0, 0, 2, 1, 7, 6, 1, 5, 5, 7, 7, 6, 6, 2, 2, 6, 6, 2, 1, 3,
    7, 7, 2, 2, 6, 0, 2, 3, 3, 3, 2, 2, 1, 3, 2, 6, 0, 2, 6, 2, 7]

/-- `GdsRecordType` (src/extension/gds/EGdsRecords.h:313-318) -/
def recordType (x : Byte) : Nat := if x.val > 0x3c then 0x3c else x.val

/-- `GdsRecordExpectedData` (src/extension/gds/EGdsRecords.h:308-311) -/
def expected (t : Nat) : Nat := expectTable.getD t 7

/-- a call of the reader: record type and data -/
inductive Call
  | bits (t : Nat) (l : List Int)
  | int2 (t : Nat) (l : List Int)
  | int4 (t : Nat) (l : List Int)
  | real4 (t : Nat) (l : List ℚ)
  | real8 (t : Nat) (l : List ℚ)
  | str (t : Nat) (l : List Nat)
  | none (t : Nat)
  deriving DecidableEq

/-- the data loops `for(dataKtr = 2; dataKtr < noRead; dataKtr += w)` (src/extension/gds/EGdsParser.cpp:116, 126, 143, 162,
180): `c` items of `w` bytes from position `k` on -/
def items {A : Type} (b : Buf) (p : Option Ptr) (w : Nat) (f : List Byte → A) : Nat → Nat → Res (List A)
  | _, 0 => .ok []
  | k, c + 1 => (derefs b p k w).bind fun l => (items b p w f (k + w) c).bind fun r => .ok (f l :: r)

/-- number of turns of these loops -/
def turns (noRead w : Nat) : Nat := (noRead - 2 + (w - 1)) / w

/-- a character of a string (src/extension/gds/EGdsParser.cpp:203-207): `std::isprint` of a `char`, which is signed here;
a negative value other than `EOF` (-1) is undefined behaviour.  Locale "C". -/
def printable (x : Byte) : Res Nat :=
  if x.val = 255 then .ok 46
  else if x.val ≥ 128 then .ub
  else if 32 ≤ x.val ∧ x.val < 127 then .ok x.val else .ok 46

/-- the string loop (src/extension/gds/EGdsParser.cpp:198-214): `c` turns from position `k` on -/
def strLoop (b : Buf) (p : Option Ptr) : Nat → Nat → Res (List Nat)
  | _, 0 => .ok []
  | k, c + 1 =>
    (deref b p k).bind fun x1 => (deref b p (k + 1)).bind fun x2 =>
      if x1.val = 0 then .ok []
      else (printable x1).bind fun y1 =>
        if x2.val = 0 then .ok [y1]
        else (printable x2).bind fun y2 => (strLoop b p (k + 2) c).bind fun r => .ok (y1 :: y2 :: r)

/-- the part of the loop that calls the reader (src/extension/gds/EGdsParser.cpp:96-227); the reader never fails visibly
for the parser.  The data type of the file (`record[1]`) is read but only passed on to assertions.  `noRead` is not
negative here. -/
def dispatch (b : Buf) (record : Option Ptr) (noRead : Nat) : Res (List Call) :=
  (deref b record 0).bind fun t => (deref b record 1).bind fun _ =>
    let rt := recordType t
    match expected rt with
    | 1 => (items b record 2 bits 2 (turns noRead 2)).bind fun l => .ok [.bits rt l]
    | 2 => (items b record 2 int2 2 (turns noRead 2)).bind fun l => .ok [.int2 rt l]
    | 3 => (items b record 4 int4 2 (turns noRead 4)).bind fun l => .ok [.int4 rt l]
    | 4 => (items b record 4 (real 3) 2 (turns noRead 4)).bind fun l => .ok [.real4 rt l]
    | 5 => (items b record 8 (real 7) 2 (turns noRead 8)).bind fun l => .ok [.real8 rt l]
    | 6 => (strLoop b record 2 (turns noRead 2)).bind fun l => .ok [.str rt l]
    | 0 => .ok [.none rt]
    | _ => .ok []

/-- length of a record minus the length field, as a 64 bit number (src/extension/gds/EGdsParser.cpp:86: `noBytes - 2` is
an `int`, converted to `size_t`) -/
def bodyLen (noBytes : Nat) : Nat := if noBytes < 2 then 2 ^ 64 + noBytes - 2 else noBytes - 2

/-- what one turn of the loop does: leave, or the calls made and the state for the next turn -/
inductive Turn
  | stop
  | go (calls : List Call) (b : Buf) (record : Option Ptr)

/-- second half of a turn: the record itself (src/extension/gds/EGdsParser.cpp:85-94) -/
def body (fuel : Nat) (b : Buf) (record : Option Ptr) (noRead noBytes : Nat) : Option (Res Turn) :=
  if noBytes = 0 then some ((dispatch b record noRead).bind fun cs => .ok (.go cs b record))
  else (parse fuel b (bodyLen noBytes)).map fun r =>
    if r.2.2 ≠ (noBytes : Int) - 2 then .ok .stop
    else (dispatch r.1 r.2.1 (bodyLen noBytes)).bind fun cs => .ok (.go cs r.1 r.2.1)

/-- one turn (src/extension/gds/EGdsParser.cpp:74-246); `none`: an inner loop has not ended after `fuel` turns -/
def turn (fuel : Nat) (b : Buf) (record : Option Ptr) : Option (Res Turn) :=
  match parse fuel b 2 with
  | none => none
  | some (b', p, noRead) =>
    if noRead ≠ 2 then some (.ok .stop)
    else
      match deref b' p 0, deref b' p 1 with
      | .ok x, .ok y => body fuel b' record 2 (x.val * 256 + y.val)
      | _, _ => some .ub

/-- put calls before the others -/
def prepend (cs : List Call) : Option (Res (List Call × Bool)) → Option (Res (List Call × Bool))
  | none => none
  | some r => some (r.bind fun l => .ok (cs ++ l.1, l.2))

/-- `operator()(istream)` (src/extension/gds/EGdsParser.cpp:41-250): the calls made and the result. -/
def loop : Nat → Buf → Option Ptr → Option (Res (List Call × Bool))
  | 0, _, _ => none
  | f + 1, b, record =>
    match turn f b record with
    | none => none
    | some .ub => some .ub
    | some .exn => some .exn
    | some (.ok .stop) => some (.ok ([], true))
    | some (.ok (.go cs b' record')) => prepend cs (loop f b' record')

/-- parsing a file with a buffer of `cap` bytes (4096 in the code) -/
def parseFile (cap fuel : Nat) (file : List Byte) : Option (Res (List Call × Bool)) := loop fuel (Buf.init cap file) none

end Ecad.Gds
