import Verif.Xfl.Model
/-!
The reader of XFL files: src/extension/xfl/EXflParser.h, a grammar for the parser generator boost spirit qi.

A parser is a function from the text left to a value and the text left, `none` if it fails; alternatives are ordered, repetitions take what
they can, and nothing taken is given back.  `lex p` is a parser that first passes over blanks and comments (the skipper).  Handlers of the
grammar change the data base as soon as their part is read, and this is not undone when an enclosing part fails: sections return the calls of
handlers whether they succeed or not.

Simplifications: numbers are exact; the words `inf` and `nan` are not numbers; of a bond wire the names of dies are passed over but not kept (they
are not used).  Attributes stay as they are set when an optional part fails half way; this matters for pins only, in other rules the enclosing
rule fails as well.
-/
namespace Ecad.XflP
open Ecad.Xfl

/-- the text left -/
abbrev Str := List Char

/-- A parser (`parse` of boost spirit) -/
def P (α : Type) := Str → Option (α × Str)

/-- Sequence of parsers (`>>`) with the value of the first -/
def P.bind {α β : Type} (p : P α) (f : α → P β) : P β := fun s =>
  match p s with
  | none => none
  | some x => f x.1 x.2

instance : Monad P where
  pure a := fun s => some (a, s)
  bind := P.bind

/-- Alternative (`|`) -/
def P.or {α : Type} (p q : P α) : P α := fun s =>
  match p s with
  | some x => some x
  | none => q s

/-- Optional part (unary `-`) -/
def opt {α : Type} (p : P α) : P (Option α) := fun s =>
  match p s with
  | some x => some (some x.1, x.2)
  | none => some (none, s)

/-- `n` turns of a repetition -/
def starN {α : Type} (p : P α) : Nat → Str → List α × Str
  | 0, s => ([], s)
  | n + 1, s =>
    match p s with
    | none => ([], s)
    | some x => (x.1 :: (starN p n x.2).1, (starN p n x.2).2)

/-- Repetition (unary `*`): a turn takes at least one character. -/
def star {α : Type} (p : P α) : P (List α) := fun s => some (starN p (s.length + 1) s)

/-! ### characters -/

/-- `ascii::space` -/
def isSpace (c : Char) : Bool := [' ', '\t', '\n', '\x0b', '\x0c', '\r'].contains c

/-- a character of `eol` -/
def isEol (c : Char) : Bool := c == '\n' || c == '\r'

/-- The skipper (src/extension/xfl/EXflParser.h:89-103): blanks, and comments up to the end of their line.  A comment on a last line without end is
not passed over.  With `true` we are in a comment. -/
def skipIn : Bool → Str → Str
  | _, [] => []
  | true, c :: s => skipIn (!isEol c) s
  | false, c :: s =>
    if isSpace c then skipIn false s
    else if c == '#' && s.any isEol then skipIn true s
    else c :: s

/-- The skipper -/
def skip (s : Str) : Str := skipIn false s

/-- `lexeme[p]`, or a part that is no sequence: blanks and comments before it -/
def lex {α : Type} (p : P α) : P α := fun s => p (skip s)

/-- `eol` -/
def eolR : P Unit
  | '\r' :: '\n' :: s => some ((), s)
  | '\r' :: s => some ((), s)
  | '\n' :: s => some ((), s)
  | _ => none

/-- A literal, up to a mapping of characters -/
def strip (f : Char → Char) : Str → Str → Option Str
  | [], s => some s
  | _ :: _, [] => none
  | c :: w, d :: s => if f c = f d then strip f w s else none

/-- `lexeme[no_case["…"]]` -/
def kw (w : String) : P Unit := lex fun s => (strip Char.toLower w.toList s).map fun r => ((), r)

/-- `"…"`, `lit("…")` -/
def lit (w : Str) : P Unit := lex fun s => (strip id w s).map fun r => ((), r)

/-- `+char_("…")` without skipper -/
def many1 (f : Char → Bool) : P Str := fun s =>
  if s.takeWhile f = [] then none else some (s.takeWhile f, s.dropWhile f)

/-- `char_("…")` -/
def chr (f : Char → Bool) : P Char := lex fun
  | c :: s => if f c then some (c, s) else none
  | [] => none

/-- characters of `text` (src/extension/xfl/EXflParser.h:296) -/
def isHead (c : Char) : Bool := c.isAlpha || c == '_'
def isTail (c : Char) : Bool := c.isAlphanum || c == '_' || c == '-'
/-- characters of `textNC` (src/extension/xfl/EXflParser.h:297) -/
def isNC (c : Char) : Bool := c.isAlphanum || c == '_' || c == '.' || c == '-'

/-- `text` (src/extension/xfl/EXflParser.h:296) -/
def text : P Str := lex fun
  | c :: s => if isHead c then some (c :: s.takeWhile isTail, s.dropWhile isTail) else none
  | [] => none

/-- `textNC` (src/extension/xfl/EXflParser.h:297) -/
def textNC : P Str := lex (many1 isNC)

/-- `textDQ` (src/extension/xfl/EXflParser.h:298) -/
def textDQ : P Str := lex fun
  | '"' :: s =>
    match s.dropWhile (· != '"') with
    | _ :: r => if s.takeWhile (· != '"') = [] then none else some (s.takeWhile (· != '"'), r)
    | [] => none
  | _ => none

/-- `textEOL` (src/extension/xfl/EXflParser.h:299) -/
def textEOL : P Unit := lex fun s =>
  if s.takeWhile (fun c => !isEol c) = [] then none else eolR (s.dropWhile fun c => !isEol c)

/-! ### numbers -/

/-- sign and what follows it -/
def sign : Str → Bool × Str
  | '-' :: s => (true, s)
  | '+' :: s => (false, s)
  | s => (false, s)

/-- decimal number -/
def natOf (ds : Str) : Nat := Nat.ofDigitChars 10 ds 0

/-- `int_` without skipper: fails beyond 32 bits -/
def intR : P Int := fun s =>
  let r := (sign s).2
  let ds := r.takeWhile Char.isDigit
  let v : Int := if (sign s).1 then -(natOf ds : Int) else natOf ds
  if ds = [] then none
  else if -2147483648 ≤ v ∧ v ≤ 2147483647 then some (v, r.dropWhile Char.isDigit) else none

/-- `int_` -/
def int_ : P Int := lex intR

/-- exponent of `double_` with its sign, and the text left; no digits: there is no exponent -/
def expo (s : Str) : Int × Str :=
  match s with
  | c :: s' =>
    let r := (sign s').2
    let ds := r.takeWhile Char.isDigit
    if (c == 'e' || c == 'E') && !ds.isEmpty then (if (sign s').1 then -(natOf ds : Int) else natOf ds, r.dropWhile Char.isDigit)
    else (0, s)
  | [] => (0, s)

/-- fraction of `double_` and the text left: `none` without a point -/
def frac (s : Str) : Option Str × Str :=
  match s with
  | '.' :: r => (some (r.takeWhile Char.isDigit), r.dropWhile Char.isDigit)
  | _ => (none, s)

/-- `double_` without skipper: `12`, `1.5`, `.5`, `2.`, with or without sign and exponent -/
def doubleR : P ℚ := fun s =>
  let r := (sign s).2
  let ip := r.takeWhile Char.isDigit
  let f := frac (r.dropWhile Char.isDigit)
  let fp := f.1.getD []
  if ip = [] ∧ fp = [] then none
  else
    let e := expo f.2
    let v : ℚ := (natOf (ip ++ fp) : ℚ) / 10 ^ fp.length * 10 ^ e.1
    some (if (sign s).1 then -v else v, e.2)

/-- `double_` -/
def double_ : P ℚ := lex doubleR

/-! ### geometry -/

/-- `point` (src/extension/xfl/EXflParser.h:310) -/
def point : P (ℚ × ℚ) := do
  let x ← double_
  let y ← double_
  pure (x, y)

/-- `polygon` (src/extension/xfl/EXflParser.h:311) -/
def polygon : P (List (ℚ × ℚ)) := do
  lit ['{']
  let l ← star point
  lit ['}']
  pure l

/-- `arc` (src/extension/xfl/EXflParser.h:312-317): `ARC` is tried before `ARC3`. -/
def arc : P (Seg ℚ) := do
  let t ← ((do kw "ARC"; pure 0) : P Int).or (((do kw "RARC"; pure 1) : P Int).or (do kw "ARC3"; pure 2))
  let e ← point
  let m ← point
  pure (.arc t e m)

/-- element of a composite (src/extension/xfl/EXflParser.h:321-322) -/
def seg : P (Seg ℚ) := P.or (do let p ← point; pure (.pt p)) arc

/-- `composite` (src/extension/xfl/EXflParser.h:319-325) -/
def composite : P (List (Seg ℚ)) := do
  lit ['{']
  let p ← point
  let l ← star seg
  lit ['}']
  pure (.pt p :: l)

/-- `rectangle`, `annular` (src/extension/xfl/EXflParser.h:327, 331) -/
def two : P (ℚ × ℚ) := point

/-- `oblong`, `bullet`, `finger` (src/extension/xfl/EXflParser.h:332-334) -/
def three : P (ℚ × ℚ × ℚ) := do
  let a ← double_
  let b ← double_
  let c ← double_
  pure (a, b, c)

/-- Alternatives in order -/
def alts {α : Type} : List (P α) → P α
  | [] => fun _ => none
  | p :: ps => p.or (alts ps)

/-- A keyword and a value -/
def kwThen {α : Type} (w : String) (p : P α) : P α := do kw w; p

/-- the kinds of a template shape (src/extension/xfl/EXflParser.h:338-347): a diamond is read as a square -/
def geoAlts : List (P (Geo ℚ)) :=
  [ kwThen "polygon" (do let l ← polygon; pure (.polygon l)),
    kwThen "rectangle" (do let p ← two; pure (.rectangle p.1 p.2)),
    kwThen "square" (do let w ← double_; pure (.square w)),
    kwThen "diamond" (do let w ← double_; pure (.square w)),
    kwThen "circle" (do let d ← double_; pure (.circle d)),
    kwThen "annular" (do let p ← two; pure (.annular p.1 p.2)),
    kwThen "oblong" (do let t ← three; pure (.oblong t.1 t.2.1 t.2.2)),
    kwThen "bullet" (do let t ← three; pure (.bullet t.1 t.2.1 t.2.2)),
    kwThen "finger" (do let t ← three; pure (.finger t.1 t.2.1 t.2.2)),
    kwThen "composite" (do let l ← composite; pure (.composite l)) ]

/-- `shape` (src/extension/xfl/EXflParser.h:336-349) -/
def shape : P (Int × Geo ℚ) := do
  let i ← int_
  let g ← alts geoAlts
  pure (i, g)

/-! ### definitions -/

/-- `Material` (src/extension/xfl/EXflObjects.h:16-25) -/
structure PMat (K : Type) where
  metal : Bool
  name : Str
  conductivity : K
  permittivity : K
  permeability : K
  loss : K
  causality : Int
  deriving DecidableEq

/-- `material` (src/extension/xfl/EXflParser.h:301-306); what is not read keeps the value of the constructor
(src/extension/xfl/EXflObjects.h:20-24) -/
def material : P (PMat ℚ) := P.or
  (do kw "C"; let n ← textDQ; let c ← double_; pure ⟨true, n, c, 0, 0, 0, 0⟩)
  (do
    kw "D"
    let n ← textDQ
    let c ← double_
    let e ← double_
    let m ← double_
    let o ← opt (do let l ← double_; let k ← int_; pure (l, k))
    pure ⟨false, n, c, e, m, (o.map Prod.fst).getD 0, (o.map Prod.snd).getD 0⟩)

/-- `Layer` (src/extension/xfl/EXflObjects.h:27-34) -/
structure PLay (K : Type) where
  name : Str
  thick : K
  type : Char
  cmat : Str
  dmat : Str
  deriving DecidableEq

/-- `layer` (src/extension/xfl/EXflParser.h:308) -/
def layer : P (PLay ℚ) := do
  let n ← textDQ
  let t ← double_
  let c ← chr fun c => ['S', 'D', 'P'].contains c
  let m ← textDQ
  let d ← textDQ
  pure ⟨n, t, c, m, d⟩

/-- `Pad` (src/extension/xfl/EXflObjects.h:66-73) -/
structure PPad (K : Type) where
  lyr : Int
  id : Int
  rot : K
  anti : Option (Int × K)
  deriving DecidableEq

/-- `+char_(" ")` and `*char_(" ")` without skipper -/
def blanks1 : P Unit := fun s => (many1 (· == ' ') s).map fun x => ((), x.2)
def blanks0 : P Unit := fun s => some ((), s.dropWhile (· == ' '))

/-- `pad` (src/extension/xfl/EXflParser.h:351-361): all on one line, only blanks between -/
def pad : P (PPad ℚ) := lex (do
  let l ← intR
  blanks1
  let i ← intR
  blanks1
  let r ← doubleR
  let a ← opt (do blanks1; let a ← intR; blanks1; let b ← doubleR; pure (a, b))
  blanks0
  eolR
  pure ⟨l, i, r, a⟩)

/-- `padstack` (src/extension/xfl/EXflParser.h:362) -/
def padstack : P (Int × List (PPad ℚ)) := do
  let i ← int_
  lit ['{']
  let l ← star pad
  lit ['}']
  pure (i, l)

/-- `Via` (src/extension/xfl/EXflObjects.h:81-90) -/
structure PVia (K : Type) where
  name : Str
  pstk : Int
  pstkRot : K
  id : Int
  rot : K
  barrel : Option (K × Str)
  deriving DecidableEq

/-- `via` (src/extension/xfl/EXflParser.h:364-373) -/
def via : P (PVia ℚ) := lex (do
  let n ← many1 isNC
  blanks1
  let p ← intR
  blanks1
  let pr ← doubleR
  blanks1
  let i ← intR
  blanks1
  let r ← doubleR
  let b ← opt (do blanks1; let t ← doubleR; blanks1; let m ← many1 isNC; pure (t, m))
  blanks0
  eolR
  pure ⟨n, p, pr, i, r, b⟩)

/-- `Node` (src/extension/xfl/EXflObjects.h:92-101) without the numbers that are not used -/
structure PNode (K : Type) where
  comp : Str
  pin : Str
  io : Str
  loc : K × K
  lyr : Int
  deriving DecidableEq

/-- `node` (src/extension/xfl/EXflParser.h:375-378) -/
def node : P (PNode ℚ) := do
  let c ← textNC
  let p ← textNC
  let i ← text
  let _ ← opt (do let a ← int_; let b ← int_; pure (a, b))
  lit ['{']
  let l ← point
  let y ← int_
  lit ['}']
  pure ⟨c, p, i, l, y⟩

/-- `Net` (src/extension/xfl/EXflObjects.h:103-112) without the numbers that are not used -/
structure PNet (K : Type) where
  name : Str
  type : Char
  attr : Int
  nodes : List (PNode K)
  deriving DecidableEq

/-- `net` (src/extension/xfl/EXflParser.h:380-389) -/
def net : P (PNet ℚ) := do
  let n ← textDQ
  let t ← chr fun c => ['S', 'P', 'G'].contains c
  let a ← int_
  let _ ← opt (do let a ← int_; let b ← int_; let c ← int_; pure (a, b, c))
  lit ['{']
  let l ← star node
  lit ['}']
  pure ⟨n, t, a, l⟩

/-! ### routes -/

/-- `InstObject` (src/extension/xfl/EXflObjects.h:114-137) -/
inductive PObj (K : Type)
  | path (layer : Int) (width : K) (p : List (Seg K))
  | via (s e : Int) (name : Str) (loc : K × K) (rot : K) (mirror : Char)
  | bondwire (s e id : Int) (src dst : K × K)
  | polygon (isVoid : Bool) (layer : Int) (pts : List (K × K))
  | rectangle (isVoid : Bool) (layer : Int) (w h : K) (loc : K × K)
  | square (isVoid : Bool) (layer : Int) (w : K) (loc : K × K)
  | diamond (isVoid : Bool) (layer : Int) (w : K) (loc : K × K)
  | circle (isVoid : Bool) (layer : Int) (d : K) (loc : K × K)
  | annular (layer : Int) (outer inner : K) (loc : K × K)
  | composite (isVoid : Bool) (layer : Int) (l : List (Seg K))
  | shape (isVoid : Bool) (layer : Int) (id : Int) (loc : K × K) (rot : K) (mirror : Char) (rotThenMirror : Bool)
  deriving DecidableEq

/-- `instPath` (src/extension/xfl/EXflParser.h:391) -/
def instPath : P (PObj ℚ) := do
  kw "path"
  let l ← int_
  let w ← double_
  let c ← composite
  pure (.path l w c)

/-- `instVia` (src/extension/xfl/EXflParser.h:392-395), mirror as constructed (src/extension/xfl/EXflObjects.h:115) if not given -/
def instVia : P (PObj ℚ) := do
  kw "via"
  let s ← int_
  let e ← int_
  let n ← textNC
  let l ← point
  let r ← double_
  let m ← opt (chr fun c => ['N', 'Y', '0', '1'].contains c)
  pure (.via s e n l r (m.getD 'N'))

/-- `instBondwire` (src/extension/xfl/EXflParser.h:396): the names of dies may be missing -/
def instBondwire : P (PObj ℚ) := do
  kw "bondwire"
  let s ← int_
  let e ← int_
  let i ← int_
  let p ← point
  let q ← point
  let _ ← opt (do let a ← textNC; let b ← textNC; pure (a, b))
  pure (.bondwire s e i p q)

/-- a shape or a void (src/extension/xfl/EXflParser.h:397-398, 401-402, 405, 413-414, 421-422, 426-427) -/
def solidOrVoid (solid void : String) : P Bool := P.or (do kw solid; pure false) (do kw void; pure true)

/-- `instPolygon` (src/extension/xfl/EXflParser.h:397-400) -/
def instPolygon : P (PObj ℚ) := do
  let v ← solidOrVoid "polygon" "void_polygon"
  let l ← int_
  let p ← polygon
  pure (.polygon v l p)

/-- `instRectangle` (src/extension/xfl/EXflParser.h:401-404) -/
def instRectangle : P (PObj ℚ) := do
  let v ← solidOrVoid "rectangle" "void_rectangle"
  let l ← int_
  let r ← two
  let p ← point
  pure (.rectangle v l r.1 r.2 p)

/-- `instSquare` (src/extension/xfl/EXflParser.h:405-407) -/
def instSquare : P (PObj ℚ) := do
  let v ← solidOrVoid "square" "void_square"
  let l ← int_
  let w ← double_
  let p ← point
  pure (.square v l w p)

/-- `instCircle` (src/extension/xfl/EXflParser.h:413-417) -/
def instCircle : P (PObj ℚ) := do
  let v ← solidOrVoid "circle" "void_circle"
  let l ← int_
  let d ← double_
  let p ← point
  pure (.circle v l d p)

/-- `instAnnular` (src/extension/xfl/EXflParser.h:418-420) -/
def instAnnular : P (PObj ℚ) := do
  kw "annular"
  let l ← int_
  let a ← two
  let p ← point
  pure (.annular l a.1 a.2 p)

/-- `instComposite` (src/extension/xfl/EXflParser.h:421-425) -/
def instComposite : P (PObj ℚ) := do
  let v ← solidOrVoid "composite" "void_composite"
  let l ← int_
  let c ← composite
  pure (.composite v l c)

/-- rotation and mirror of a placed shape, with its characters for mirrors (src/extension/xfl/EXflParser.h:430-433) -/
def rotMirror (f : Char → Bool) : P (ℚ × Char × Bool) := P.or
  (do let r ← double_; let m ← chr f; pure (r, m, true))
  (do let m ← chr f; let r ← double_; pure (r, m, false))

/-- `instShape` (src/extension/xfl/EXflParser.h:426-434) -/
def instShape : P (PObj ℚ) := do
  let v ← solidOrVoid "shape" "void_shape"
  let l ← int_
  let i ← int_
  let p ← point
  let t ← rotMirror fun c => ['N', 'Y'].contains c
  pure (.shape v l i p t.1 t.2.1 t.2.2)

/-- the objects of a route (src/extension/xfl/EXflParser.h:437-448): `instDiamond` (409-411) is not among them -/
def objAlts : List (P (PObj ℚ)) :=
  [instPath, instVia, instBondwire, instPolygon, instRectangle, instSquare, instCircle, instAnnular, instComposite, instShape]

/-- `route` (src/extension/xfl/EXflParser.h:436-449) -/
def route : P (Str × List (PObj ℚ)) := do
  let n ← textDQ
  lit ['{']
  let l ← star (alts objAlts)
  lit ['}']
  pure (n, l)

/-! ### parts -/

/-- `Pin` (src/extension/xfl/EXflObjects.h:339-346) -/
structure PPin (K : Type) where
  name : Str
  io : Str
  loc : K × K
  pstk : Int
  lyr : Int
  deriving DecidableEq

/-- The last two numbers of a pin: if there is only one it is assigned but not consumed. -/
def pinTail : P (Int × Int) := fun s =>
  match int_ s with
  | none => some ((0, 0), s)
  | some x =>
    match int_ x.2 with
    | none => some ((x.1, 0), s)
    | some y => some ((x.1, y.1), y.2)

/-- `pin` (src/extension/xfl/EXflParser.h:451) -/
def pin : P (PPin ℚ) := do
  let n ← textNC
  let l ← point
  let i ← text
  let t ← pinTail
  pure ⟨n, i, l, t.1, t.2⟩

/-- the outline of a part (src/extension/xfl/EXflParser.h:454-460); its values are not kept, they are not used -/
def partTail : P Unit := do
  let _ ← chr fun c => ['R', 'C', 'D'].contains c
  let _ ← point
  let _ ← point
  let _ ← double_
  let _ ← opt (do
    let _ ← chr fun c => ['R', 'L', 'C', 'S', 'D', 'M', 'O'].contains c
    let _ ← double_
    let _ ← opt (kw "noflip")
    let _ ← opt textNC
    pure ())
  pure ()

/-- `part` (src/extension/xfl/EXflParser.h:453-462) -/
def part : P (Str × List (PPin ℚ)) := do
  let n ← textNC
  let _ ← opt partTail
  lit ['{']
  let l ← star pin
  lit ['}']
  pure (n, l)

/-! ### sections -/

/-- `BoardGeom` (src/extension/xfl/EXflObjects.h:63-64) -/
inductive PBoard (K : Type)
  | polygon (l : List (K × K))
  | composite (l : List (Seg K))
  | shape (id : Int) (loc : K × K) (rot : K) (mirror : Char) (rotThenMirror : Bool)
  deriving DecidableEq

/-- The handlers with their arguments (src/extension/xfl/EXflParser.h:479-591) -/
inductive Ev (K : Type)
  | version (major minor : Int)
  | unit (inch : Bool)
  | designType (t : Str)
  | scale (s : K)
  | material (m : PMat K)
  | layer (l : PLay K)
  | shape (s : Int × Geo K)
  | board (b : PBoard K)
  | padstack (p : Int × List (PPad K))
  | via (v : PVia K)
  | part (p : Str × List (PPin K))
  | net (n : PNet K)
  | route (r : Str × List (PObj K))
  deriving DecidableEq

/-- `others` (src/extension/xfl/EXflParser.h:208-213); `UnitHandle` (485-491) -/
def others : P (Ev ℚ) := alts
  [ (do kw ".version"; let a ← int_; let b ← int_; pure (.version a b)),
    (do kw ".unit"; let t ← text; pure (.unit (t.map Char.toLower == "inch".toList))),
    (do kw ".design_type"; let t ← text; pure (.designType t)),
    (do kw ".scale"; let s ← double_; pure (.scale s)) ]

/-- A section: calls of handlers, and the text left if it succeeds -/
abbrev Sec := Str → List (Ev ℚ) × Option Str

/-- A parser whose handler is called at its end -/
def one (p : P (Ev ℚ)) : Sec := fun s =>
  match p s with
  | none => ([], none)
  | some x => ([x.1], some x.2)

/-- a section with entries (src/extension/xfl/EXflParser.h:215-220, 227-232, 234-239, 252-265, 277-285) -/
def secStar (open_ : String) (item : P (Ev ℚ)) (close : String) : Sec := fun s =>
  match kw open_ s with
  | none => ([], none)
  | some x => ((starN item (x.2.length + 1) x.2).1, (kw close (starN item (x.2.length + 1) x.2).2).map Prod.snd)

/-- `*(char_ - end)` -/
def untilN (p : P Unit) : Nat → Str → Str
  | 0, s => s
  | n + 1, s =>
    match p s with
    | some _ => s
    | none =>
      match skip s with
      | [] => s
      | _ :: r => untilN p n r

/-- a section that is passed over (src/extension/xfl/EXflParser.h:222-225, 267-275) -/
def secSkip (open_ close : String) : Sec := fun s =>
  match kw open_ s with
  | none => ([], none)
  | some x => ([], (kw close (untilN (kw close) (x.2.length + 1) x.2)).map Prod.snd)

/-- the outline of the board (src/extension/xfl/EXflParser.h:242-247) -/
def board : P (PBoard ℚ) := alts
  [ (do kw "polygon"; let l ← polygon; pure (.polygon l)),
    (do kw "composite"; let l ← composite; pure (.composite l)),
    (do kw "shape"; let i ← int_; let p ← point; let r ← double_; let m ← chr fun c => ['X', 'Y', 'N'].contains c; pure (.shape i p r m true)),
    (do kw "shape"; let i ← int_; let p ← point; let m ← chr fun c => ['X', 'Y', 'N'].contains c; let r ← double_; pure (.shape i p r m false)) ]

/-- `boardGeomSection` (src/extension/xfl/EXflParser.h:241-250) -/
def boardSection : Sec := fun s =>
  match kw ".board_geom" s with
  | none => ([], none)
  | some x =>
    match board x.2 with
    | some y => ([.board y.1], (kw ".end board_geom" y.2).map Prod.snd)
    | none => ([], (kw ".end board_geom" x.2).map Prod.snd)

/-- the value of a parser as an argument of its handler -/
def P.ev {α : Type} (p : P α) (f : α → Ev ℚ) : P (Ev ℚ) := do let a ← p; pure (f a)

/-- the known sections in their order (src/extension/xfl/EXflParser.h:189-201) -/
def sections : List Sec :=
  [ one others,
    secStar ".material" (material.ev .material) ".end material",
    secSkip ".material_frequency" ".end material_frequency",
    secStar ".layer" (layer.ev .layer) ".end layer",
    secStar ".shape" (shape.ev .shape) ".end shape",
    boardSection,
    secStar ".padstack" (padstack.ev .padstack) ".end padstack",
    secStar ".via" (via.ev .via) ".end via",
    secStar ".part" (part.ev .part) ".end part",
    secSkip ".component" ".end component",
    secSkip ".netattr" ".end netattr",
    secStar ".netlist" (net.ev .net) ".end netlist",
    secStar ".route" (route.ev .route) ".end route" ]

/-- `startTag` (src/extension/xfl/EXflParser.h:293) -/
def startTag : P Str := do
  lit ['.']
  let n ← fun s => match lit "end".toList s with
    | some _ => none
    | none => textNC s
  pure n

/-- `unknownSection`, `endTag` (src/extension/xfl/EXflParser.h:287-294) -/
def unknownSection : P Unit := fun s =>
  match startTag s with
  | none => none
  | some x => ((do kw ".end"; lit x.1) : P Unit) (untilN (kw ".end") (x.2.length + 1) x.2)

/-- Alternatives of sections: handlers called by sections that fail stay called. -/
def secAlts : List Sec → Sec
  | [] => fun _ => ([], none)
  | p :: ps => fun s =>
    match p s with
    | (e, some r) => (e, some r)
    | (e, none) => (e ++ (secAlts ps s).1, (secAlts ps s).2)

/-- One turn of `expression` (src/extension/xfl/EXflParser.h:186-206) -/
def step : Sec := secAlts (sections ++ [fun s => ([], (unknownSection s).map Prod.snd), fun s => ([], (textEOL s).map Prod.snd)])

/-- The repetition in `expression` -/
def stepsN : Nat → Str → List (Ev ℚ) × Str
  | 0, s => ([], s)
  | n + 1, s =>
    match step s with
    | (e, none) => (e, s)
    | (e, some r) => (e ++ (stepsN n r).1, (stepsN n r).2)

/-- `EXflReader::operator()` (src/extension/xfl/EXflParser.h:67-87) for a file that can be opened: the calls of handlers and the result -/
def read (s : Str) : List (Ev ℚ) × Bool :=
  ((stepsN (s.length + 1) s).1, skip (stepsN (s.length + 1) s).2 == [])

end Ecad.XflP
