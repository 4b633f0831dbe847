import Verif.Dmc.FileModel
/-!
Writing of DMC and DOM files (src/utility/ELayoutPolygonMerger.cpp:262-322), as bytes.

`double` is exact; `fixed` with precision 6 is `Ctm.fmt`, rounding by `rnd`.  `Extent` of a polygon without points is not modelled and taken
as zero.  Nets and layers of the layout are lists of ids and names.  The mergers are a list in the order in which the unordered map is gone
through.
-/
namespace Ecad.Dmc
open Ctm (Bytes digs fmt)

/-- a merged polygon: net, outline and holes -/
structure Poly where
  net : Int
  solid : List (Int × Int)
  holes : List (List (Int × Int))
  deriving DecidableEq, Repr

/-- what the writer asks the layout for -/
structure Lay where
  nets : List (Int × Bytes)
  layers : List (Int × Bytes)

/-- `<<` of an `int` -/
def fmtInt (i : Int) : Bytes := (if i < 0 then [45] else []) ++ digs i.natAbs

/-- words with a blank between them -/
def joinSp : List Bytes → Bytes
  | [] => []
  | [w] => w
  | w :: ws => w ++ 32 :: joinSp ws

/-- least value of a coordinate -/
def lo (f : Int × Int → Int) : List (Int × Int) → Int
  | [] => 0
  | [p] => f p
  | p :: ps => min (f p) (lo f ps)

/-- greatest value of a coordinate -/
def hi (f : Int × Int → Int) : List (Int × Int) → Int
  | [] => 0
  | [p] => f p
  | p :: ps => max (f p) (hi f ps)

variable (rnd : ℚ → Int) (scale : ℚ)

/-- a coordinate in units -/
def coord (c : Int) : Bytes := fmt rnd ((c : ℚ) * scale)

/-- the words of a line of the DMC file (src/utility/ELayoutPolygonMerger.cpp:295-299) -/
def dmcWords (lyrId : Int) (lyrName : Bytes) (netId : Int) (netName : Bytes) (p : List (Int × Int)) (isHole : Bool) : List Bytes :=
  [digs p.length, fmtInt (if isHole then 0 else 1), fmtInt lyrId, coord rnd scale (lo Prod.fst p), coord rnd scale (hi Prod.fst p),
    coord rnd scale (lo Prod.snd p), coord rnd scale (hi Prod.snd p), fmtInt netId, netName, fmtInt lyrId, lyrName]

/-- `writeOnePolygon` (src/utility/ELayoutPolygonMerger.cpp:290-302): the line of the DMC file and the lines of the DOM file -/
def writePoly (lyrId : Int) (lyrName : Bytes) (netId : Int) (netName : Bytes) (p : List (Int × Int)) (isHole : Bool) : Bytes × List Bytes :=
  (joinSp (dmcWords rnd scale lyrId lyrName netId netName p isHole), p.map fun q => joinSp [coord rnd scale q.1, coord rnd scale q.2])

/-- `writeOnePolygonData` (src/utility/ELayoutPolygonMerger.cpp:304-316) -/
def writeData (lay : Lay) (lyrId : Int) (pd : Poly) : List (Bytes × List Bytes) :=
  match UMap.find? lay.nets pd.net, UMap.find? lay.layers lyrId with
  | some netName, some lyrName =>
    writePoly rnd scale lyrId lyrName pd.net netName pd.solid false :: pd.holes.map fun h => writePoly rnd scale lyrId lyrName pd.net netName h true
  | _, _ => []

/-- `WriteDomDmcForOneLayer` (src/utility/ELayoutPolygonMerger.cpp:285-322) -/
def writeLayer (lay : Lay) (m : Int × List Poly) : List (Bytes × List Bytes) := m.2.flatMap (writeData rnd scale lay m.1)

/-- each line with its end -/
def eol (ls : List Bytes) : Bytes := ls.flatMap fun l => l ++ [10]

/-- `WriteDomDmcFiles` (src/utility/ELayoutPolygonMerger.cpp:262-283): the texts of the DOM and DMC file, if they could be opened, and
the result; `dir`, `dom` and `dmc` say if the directory can be made and the files opened.  Opening a file that cannot be opened sets the fail bit of
a stream, not the bad bit (271). -/
def writeFiles (lay : Lay) (ms : List (Int × List Poly)) (dir dom dmc : Bool) : Option Bytes × Option Bytes × Bool :=
  if dir then
    let out := ms.flatMap (writeLayer rnd scale lay)
    (if dom then some (eol (out.flatMap Prod.snd)) else none, if dmc then some (eol (out.map Prod.fst)) else none, true)
  else (none, none, false)

end Ecad.Dmc
