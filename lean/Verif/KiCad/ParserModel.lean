import Mathlib.Data.List.Basic
/-!
KiCad parser (src/extension/kicad/EKiCadParser.h, EKiCadParser.cpp).

A stream is the list of the characters not yet read.  Every loop takes fuel, one unit per round; `none` means that the loop has
not ended yet.  At the end of the stream `peek` gives `EOF` again and again, and `get` leaves its variable as
it is: the character appended then is `junk`.
-/
namespace Ecad.KiCad

/-- `Tree` (src/extension/kicad/EKiCadParser.h:8-12) -/
inductive Tree where
  | mk (value : List Char) (branches : List Tree)

/-- the white space tested for in `ReadWhitespace` (src/extension/kicad/EKiCadParser.cpp:110) -/
def isWs (c : Char) : Bool := c == '\t' || c == '\n' || c == '\r' || c == ' '

/-- the characters which end a name or a string (src/extension/kicad/EKiCadParser.cpp:55, 88) -/
def isEnd (c : Char) : Bool := isWs c || c == ')'

/-- `ReadUntil(in, '(')` (src/extension/kicad/EKiCadParser.cpp:95-103): ends with the stream -/
def readUntil : List Char → List Char
  | [] => []
  | c :: s => if c == '(' then s else readUntil s

/-- `ReadWhitespace` (src/extension/kicad/EKiCadParser.cpp:105-114) -/
def readWs : List Char → List Char
  | [] => []
  | c :: s => if isWs c then readWs s else c :: s

/-- `ReadString` and `ReadNodeName` (src/extension/kicad/EKiCadParser.cpp:50-62, 82-93), which have the same loop -/
def readString (junk : Char) : Nat → List Char → List Char → Option (List Char × List Char)
  | 0, _, _ => none
  | n + 1, acc, [] => readString junk n (acc ++ [junk]) []
  | n + 1, acc, c :: s => if isEnd c then some (acc, c :: s) else readString junk n (acc ++ [c]) s

/-- The loop of `ReadQuotedString` (src/extension/kicad/EKiCadParser.cpp:70-77); `a` is the character before -/
def readQuotedLoop (junk : Char) : Nat → Option Char → List Char → List Char → Option (List Char × List Char)
  | 0, _, _, _ => none
  | n + 1, _, acc, [] => readQuotedLoop junk n none (acc ++ [junk]) []
  | n + 1, a, acc, b :: s =>
    if b == '"' && a != some '\\' then some (acc, b :: s) else readQuotedLoop junk n (some b) (acc ++ [b]) s

/-- `ReadQuotedString` (src/extension/kicad/EKiCadParser.cpp:64-80) -/
def readQuoted (junk : Char) (n : Nat) (s : List Char) : Option (List Char × List Char) :=
  readQuotedLoop junk n s.head? [] s

mutual
/-- `ReadTree` (src/extension/kicad/EKiCadParser.cpp:21-48) -/
def readTree (junk : Char) : Nat → List Char → Option (Tree × List Char)
  | 0, _ => none
  | n + 1, s =>
    (readString junk n [] (readWs (readUntil s))).bind fun name =>
      (readItems junk n [] name.2).bind fun bs => some (.mk name.1 bs.1, bs.2)

/-- the loop of `ReadTree` (src/extension/kicad/EKiCadParser.cpp:27-46) -/
def readItems (junk : Char) : Nat → List Tree → List Char → Option (List Tree × List Char)
  | 0, _, _ => none
  | n + 1, acc, s =>
    match readWs s with
    | [] => some (acc, [])
    | c :: r =>
      if c == ')' then some (acc, r)
      else if c == '(' then (readTree junk n (c :: r)).bind fun t => readItems junk n (acc ++ [t.1]) t.2
      else if c == '"' then (readQuoted junk n r).bind fun q => readItems junk n (acc ++ [.mk q.1 []]) (q.2.drop 1)
      else (readString junk n [] (c :: r)).bind fun q => readItems junk n (acc ++ [.mk q.1 []]) q.2
end

end Ecad.KiCad
