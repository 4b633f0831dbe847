import Verif.Xfl.ParserModel
/-!
What an XFL file that lists given objects may look like, stated without the parser: a file is a list of tokens, each written after blanks and
comments; numbers may be written in any of the usual ways.
-/
namespace Ecad.XflP
open Ecad.Xfl

/-- blanks -/
def Blank (c : Char) : Prop := c ∈ [' ', '\t', '\n', '\x0b', '\x0c', '\r']

/-- Blanks and comments (`#` to the end of the line) -/
inductive Gap : Str → Prop
  | nil : Gap []
  | blank (c : Char) (s : Str) (hc : Blank c) (hs : Gap s) : Gap (c :: s)
  | comment (t : Str) (c : Char) (s : Str) (ht : ∀ d ∈ t, d ≠ '\n' ∧ d ≠ '\r') (hc : c = '\n' ∨ c = '\r') (hs : Gap s) :
      Gap ('#' :: (t ++ c :: s))

/-- a text that can be told from the gap before it -/
def Solid (u : Str) : Prop := ∃ c u', u = c :: u' ∧ ¬ Blank c ∧ c ≠ '#'

/-- a text at which a word or number ends -/
def Stop (r : Str) : Prop := r = [] ∨ ∃ c r', r = c :: r' ∧ (Blank c ∨ c = '#')

/-- decimal digits, at least one -/
def Digits (ds : Str) : Prop := ds ≠ [] ∧ ∀ d ∈ ds, d.isDigit = true

/-- sign and its factor -/
inductive SignText : Str → Int → Prop
  | none : SignText [] 1
  | plus : SignText ['+'] 1
  | minus : SignText ['-'] (-1)

/-- `u` is an integer of 32 bits. -/
def IntText (u : Str) (v : Int) : Prop :=
  ∃ sg k ds, SignText sg k ∧ Digits ds ∧ u = sg ++ ds ∧ v = k * (Nat.ofDigitChars 10 ds 0 : Nat) ∧ -2 ^ 31 ≤ v ∧ v < 2 ^ 31

/-- exponents -/
inductive ExpText : Str → Int → Prop
  | none : ExpText [] 0
  | some (e : Char) (sg : Str) (k : Int) (ds : Str) (he : e = 'e' ∨ e = 'E') (hs : SignText sg k) (hd : Digits ds) :
      ExpText (e :: (sg ++ ds)) (k * (Nat.ofDigitChars 10 ds 0 : Nat))

/-- fractions -/
inductive FracText : Str → Str → Prop
  | none : FracText [] []
  | some (ds : Str) (hd : ∀ d ∈ ds, d.isDigit = true) : FracText ('.' :: ds) ds

/-- `u` is the decimal number `q`. -/
def NumText (u : Str) (q : ℚ) : Prop :=
  ∃ sg k ip fs fp es e, SignText sg k ∧ (∀ d ∈ ip, d.isDigit = true) ∧ FracText fs fp ∧ ip ++ fp ≠ [] ∧ ExpText es e ∧
    u = sg ++ ip ++ fs ++ es ∧
    q = k * ((Nat.ofDigitChars 10 ip 0 : Nat) + (Nat.ofDigitChars 10 fp 0 : Nat) / 10 ^ fp.length) * 10 ^ e

/-- what a token stands for -/
inductive Lit
  | word (w : String)
  | str (t : Str)
  | int (v : Int)
  | num (q : ℚ)

/-- the texts of a token: keywords in any case -/
def Lit.Text : Lit → Str → Prop
  | .word w, u => u.map Char.toLower = w.toList.map Char.toLower
  | .str t, u => u = t
  | .int v, u => IntText u v
  | .num q, u => NumText u q

/-- Tokens: after a gap, right after what is before, blanks only, the end of the line -/
inductive Tok
  | tok (l : Lit)
  | raw (l : Lit)
  | sp
  | eol

/-- The texts of a list of tokens.  With `true` a new line has just begun and the gap may be empty. -/
inductive Writes : Bool → List Tok → Str → Prop
  | nil (b : Bool) : Writes b [] []
  | tok (b : Bool) (l : Lit) (ts : List Tok) (g u s : Str) (hg : Gap g) (hb : b = false → g ≠ []) (hu : l.Text u) (ho : Solid u)
      (hs : Writes false ts s) : Writes b (.tok l :: ts) (g ++ (u ++ s))
  | raw (b : Bool) (l : Lit) (ts : List Tok) (u s : Str) (hu : l.Text u) (ho : Solid u) (hs : Writes false ts s) :
      Writes b (.raw l :: ts) (u ++ s)
  | sp (b : Bool) (ts : List Tok) (n : Nat) (s : Str) (hs : Writes false ts s) : Writes b (.sp :: ts) (List.replicate (n + 1) ' ' ++ s)
  | eol (b : Bool) (ts : List Tok) (n : Nat) (e s : Str) (he : e = ['\n'] ∨ e = ['\r', '\n']) (hs : Writes true ts s) :
      Writes b (.eol :: ts) (List.replicate n ' ' ++ (e ++ s))

/-- Whether a new line has just begun after these tokens -/
def after : Bool → List Tok → Bool
  | b, [] => b
  | _, .eol :: ts => after true ts
  | _, _ :: ts => after false ts

/-- `r` can follow these tokens. -/
def Ends (b : Bool) (ts : List Tok) (r : Str) : Prop := after b ts = true ∨ Stop r

/-! ### the tokens of objects -/

/-- a keyword, a text, a number on its own -/
def W (w : String) : Tok := .tok (.word w)
def S (t : Str) : Tok := .tok (.str t)
def I (v : Int) : Tok := .tok (.int v)
def N (q : ℚ) : Tok := .tok (.num q)
/-- a text in quotes -/
def Q (t : Str) : Tok := .tok (.str ('"' :: (t ++ ['"'])))
def openB : Tok := S ['{']
def closeB : Tok := S ['}']

/-- a point -/
def ptToks (p : ℚ × ℚ) : List Tok := [N p.1, N p.2]

/-- keyword of an arc -/
def arcWord (t : Int) : String := if t = 0 then "ARC" else if t = 1 then "RARC" else "ARC3"

/-- a point or an arc -/
def segToks : Seg ℚ → List Tok
  | .pt p => ptToks p
  | .arc t e m => W (arcWord t) :: (ptToks e ++ ptToks m)

/-- points in braces -/
def polyToks (l : List (ℚ × ℚ)) : List Tok := openB :: (l.flatMap ptToks ++ [closeB])

/-- points and arcs in braces -/
def compToks (l : List (Seg ℚ)) : List Tok := openB :: (l.flatMap segToks ++ [closeB])

/-- template shapes -/
def geoToks : Geo ℚ → List Tok
  | .polygon l => W "polygon" :: polyToks l
  | .composite l => W "composite" :: compToks l
  | .rectangle w h => [W "rectangle", N w, N h]
  | .square w => [W "square", N w]
  | .diamond w => [W "diamond", N w]
  | .circle d => [W "circle", N d]
  | .annular a b => [W "annular", N a, N b]
  | .oblong a b c => [W "oblong", N a, N b, N c]
  | .bullet a b c => [W "bullet", N a, N b, N c]
  | .finger a b c => [W "finger", N a, N b, N c]

def shapeToks (s : Int × Geo ℚ) : List Tok := I s.1 :: geoToks s.2

/-- keyword of a shape or a void -/
def solidWord (v : Bool) (w : String) : Tok := W (if v then "void_" ++ w else w)

/-- The texts of the names of dies of a bond wire, and of the mirror of a via: not kept, or optional. -/
structure Extra where
  dies : Option (Str × Str)
  mirror : Bool

/-- Objects of a route -/
def objToks (x : Extra) : PObj ℚ → List Tok
  | .path l w p => W "path" :: I l :: N w :: compToks p
  | .via s e n l r m => W "via" :: I s :: I e :: S n :: N l.1 :: N l.2 :: N r :: (if x.mirror then [S [m]] else [])
  | .bondwire s e i p q => W "bondwire" :: I s :: I e :: I i :: N p.1 :: N p.2 :: N q.1 :: N q.2 ::
      (match x.dies with | some d => [S d.1, S d.2] | none => [])
  | .polygon v l p => solidWord v "polygon" :: I l :: polyToks p
  | .rectangle v l w h p => [solidWord v "rectangle", I l, N w, N h, N p.1, N p.2]
  | .square v l w p => [solidWord v "square", I l, N w, N p.1, N p.2]
  | .diamond v l w p => [solidWord v "diamond", I l, N w, N p.1, N p.2]
  | .circle v l d p => [solidWord v "circle", I l, N d, N p.1, N p.2]
  | .annular l a b p => [W "annular", I l, N a, N b, N p.1, N p.2]
  | .composite v l c => solidWord v "composite" :: I l :: compToks c
  | .shape v l i p r m t => [solidWord v "shape", I l, I i, N p.1, N p.2] ++ (if t then [N r, S [m]] else [S [m], N r])

/-- A route -/
def routeToks (net : Str) (l : List (Extra × PObj ℚ)) : List Tok :=
  Q net :: openB :: (l.flatMap (fun o => objToks o.1 o.2) ++ [closeB])

/-- Materials: loss and causality of a dielectric need not be given if zero -/
def matToks (short : Bool) (m : PMat ℚ) : List Tok :=
  if m.metal then [W "C", Q m.name, N m.conductivity]
  else [W "D", Q m.name, N m.conductivity, N m.permittivity, N m.permeability] ++ (if short then [] else [N m.loss, I m.causality])

/-- Layers -/
def layToks (l : PLay ℚ) : List Tok := [Q l.name, N l.thick, S [l.type], Q l.cmat, Q l.dmat]

/-- Pads: each on its line -/
def padToks (p : PPad ℚ) : List Tok :=
  [I p.lyr, .sp, .raw (.int p.id), .sp, .raw (.num p.rot)] ++
    (match p.anti with | some a => [.sp, .raw (.int a.1), .sp, .raw (.num a.2)] | none => []) ++ [.eol]

def pstkToks (p : Int × List (PPad ℚ)) : List Tok := I p.1 :: openB :: (p.2.flatMap padToks ++ [closeB])

/-- Vias: each on its line -/
def viaToks (v : PVia ℚ) : List Tok :=
  [S v.name, .sp, .raw (.int v.pstk), .sp, .raw (.num v.pstkRot), .sp, .raw (.int v.id), .sp, .raw (.num v.rot)] ++
    (match v.barrel with | some b => [.sp, .raw (.num b.1), .sp, .raw (.str b.2)] | none => []) ++ [.eol]

/-- Nets with their nodes; the numbers that are not kept may be there or not -/
def nodeToks (x : Option (Int × Int)) (n : PNode ℚ) : List Tok :=
  [S n.comp, S n.pin, S n.io] ++ (match x with | some a => [I a.1, I a.2] | none => []) ++ [openB, N n.loc.1, N n.loc.2, I n.lyr, closeB]

def netToks (x : Option (Int × Int × Int)) (l : List (Option (Int × Int) × PNode ℚ)) (n : PNet ℚ) : List Tok :=
  [Q n.name, S [n.type], I n.attr] ++ (match x with | some a => [I a.1, I a.2.1, I a.2.2] | none => []) ++
    openB :: (l.flatMap (fun y => nodeToks y.1 y.2) ++ [closeB])

/-- Pins and parts -/
def pinToks (short : Bool) (p : PPin ℚ) : List Tok :=
  [S p.name, N p.loc.1, N p.loc.2, S p.io] ++ (if short then [] else [I p.pstk, I p.lyr])

def partToks (n : Str) (l : List (Bool × PPin ℚ)) : List Tok := S n :: openB :: (l.flatMap (fun y => pinToks y.1 y.2) ++ [closeB])

/-- names without quotes (`textNC`): letters, digits, `_`, `.`, `-` -/
def Name (t : Str) : Prop := t ≠ [] ∧ ∀ c ∈ t, c.isAlphanum = true ∨ c = '_' ∨ c = '.' ∨ c = '-'

/-- words (`text`): do not begin with a digit or a sign -/
def Ident (t : Str) : Prop :=
  ∃ c t', t = c :: t' ∧ (c.isAlpha = true ∨ c = '_') ∧ ∀ d ∈ t', d.isAlphanum = true ∨ d = '_' ∨ d = '-'

/-- texts in quotes -/
def Quoted (t : Str) : Prop := t ≠ [] ∧ '"' ∉ t

end Ecad.XflP
