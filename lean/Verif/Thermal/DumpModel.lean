import Verif.Thermal.StaticModel
import Verif.Thermal.SimModel
import Verif.Thermal.MorModel
import Verif.Thermal.TransientModel
import Verif.Thermal.ProfileModel
/-!
The files written by the thermal solvers: the matrices of each round and `static.txt`
(src/solver/thermal/EThermalNetworkSolver.cpp:40-88, src/solver/thermal/network/ThermalNetworkSolver.h:35-57), the hot maps
(src/solver/thermal/EThermalNetworkSolver.cpp:227-261, 297-301, 344-348), `trans.txt` (188-199), and the reader of the latter,
`load_data` (tools/trans_plot.py:4-14).

Simplifications: numbers are rational and printed with six digits as in `Verif/Thermal/ProfileModel.lean`; `/` separates directories and a
line ends with a line feed; directories can always be made, `opens` says which files can be opened.  Of a picture the numbers between zero and
one are kept that the library turns into colours; the file for prisms is in `Verif/Thermal/VtkModel.lean`, here is only its name.  `float` of
Python is left out: the columns read are texts.
-/
namespace Ecad.Dump
open Ctm (Bytes digs)
open Profile (asc gText padL cells)
open Dmc (joinSp eol)
open Thermal
open GridT (Size2 Size3 gridIndex)

/-- what a run leaves behind: a text, a picture (of each cell a number, or none if the number is a quotient of zeros), or the file for prisms -/
inductive Out
  | text (path content : Bytes)
  | pic (path : Bytes) (w h : Nat) (col : Nat → Nat → Option ℚ)
  | vtk (path : Bytes)

/-- the path of a file -/
def Out.path : Out → Bytes
  | .text p _ => p
  | .pic p _ _ _ => p
  | .vtk p => p

/-- a name in a directory (src/solver/thermal/EThermalNetworkSolver.cpp:61, 78, 189, 257, 298, 345) -/
def inDir (dir name : Bytes) : Bytes := dir ++ 47 :: name

/-- a text file, if it can be opened -/
def put (opens : Bytes → Bool) (p c : Bytes) : List Out := if opens p then [.text p c] else []

/-- what the solvers use of their settings (src/basic/ECadSettings.h:428-455, 492-527), and the files that can be opened -/
structure Cfg where
  workDir : Bytes
  dumpResults : Bool
  dumpHotmaps : Bool
  dumpMatrices : Bool
  probs : List Nat
  opens : Bytes → Bool

variable (rnd : ℚ → Int)

/-! ## matrices -/

/-- the positions a sparse matrix holds after `setFromTriplets`, column after column (iterated in
src/solver/thermal/network/ThermalNetworkSolver.h:43-44) -/
def stored (rows cols : Nat) (ts : Triplets ℚ) : List (Nat × Nat × ℚ) :=
  (List.range cols).flatMap fun c => (List.range rows).filterMap fun r =>
    if ts.any fun t => t.1 == r && t.2.1 == c then some (r, c, entry ts r c) else none

/-- a line of a matrix (src/solver/thermal/network/ThermalNetworkSolver.h:45) -/
def matLine (e : Nat × Nat × ℚ) : Bytes := joinSp [digs e.1, digs e.2.1, gText rnd e.2.2]

/-- `dumpSpMat` (src/solver/thermal/network/ThermalNetworkSolver.h:41-47) -/
def matText (rows cols : Nat) (ts : Triplets ℚ) : Bytes := eol ((stored rows cols ts).map (matLine rnd))

/-- lines with line feeds between them -/
def between : List Bytes → Bytes
  | [] => []
  | [l] => l
  | l :: ls => l ++ 10 :: between ls

/-- `osRhs << rhs` (src/solver/thermal/network/ThermalNetworkSolver.h:53-54): the library fills all numbers to the length of the longest -/
def rhsText (v : List ℚ) : Bytes :=
  let ts := v.map (gText rnd)
  between (ts.map (padL ((ts.map List.length).foldl max 0)))

/-- the directory of a round (src/solver/thermal/EThermalNetworkSolver.cpp:59-62): nothing if matrices are not wanted -/
def matDir (c : Cfg) (round : Nat) : Bytes := if c.dumpMatrices then inDir c.workDir (asc "iteration_" ++ digs round) else []

/-- the files of the matrices (src/solver/thermal/network/ThermalNetworkSolver.h:37-55) -/
def matFiles (c : Cfg) (refT : ℚ) (round : Nat) (net : Network ℚ) : List Out :=
  let dir := matDir c round
  if dir = [] then []
  else
    let n := net.length
    let s := source net true
    put c.opens (inDir dir (asc "G.txt")) (matText rnd n n (gTriplets net)) ++
    put c.opens (inDir dir (asc "B.txt")) (matText rnd n s (bTriplets true 0 0 net)) ++
    put c.opens (inDir dir (asc "C.txt")) (matText rnd n n (cTriplets net)) ++
    put c.opens (inDir dir (asc "L.txt")) (matText rnd n n (Thermal.lTriplets n [])) ++
    put c.opens (inDir dir (asc "rhs.txt")) (rhsText rnd (makeRhs net true refT))

/-! ## the static solver -/

/-- the loop of `Static.loop` with the files of each round (src/solver/thermal/EThermalNetworkSolver.cpp:51-72) -/
def loopD (build : List ℚ → Res (Option (Network ℚ))) (solve : Network ℚ → List ℚ) (limit : ℚ) (maximum : Bool)
    (files : Nat → Network ℚ → List Out) : Nat → Nat → Nat → List ℚ → Option (List Out × Res (Option (List ℚ)))
  | 0, _, _, _ => none
  | fuel + 1, left, round, prev =>
    match build prev with
    | .ub => some ([], .ub)
    | .exn => some ([], .exn)
    | .ok none => some ([], .ok none)
    | .ok (some net) =>
      match Static.residual maximum (solve net) prev with
      | .ub => some (files round net, .ub)
      | .exn => some (files round net, .exn)
      | .ok r =>
        if r > limit ∧ GridT.pred64 left > 0 then
          (loopD build solve limit maximum files fuel (GridT.pred64 left) (round + 1) (solve net)).map fun o => (files round net ++ o.1, o.2)
        else some (files round net, .ok (some (solve net)))

/-- values, each followed by a comma (src/solver/thermal/EThermalNetworkSolver.cpp:82, 194) -/
def commas (xs : List ℚ) : Bytes := xs.flatMap fun x => gText rnd x ++ [44]

/-- the loop over the probes (src/solver/thermal/EThermalNetworkSolver.cpp:81-83): what has been written, and if the end was reached -/
def probeLoop (x : List ℚ) : List Nat → List ℚ × Bool
  | [] => ([], true)
  | p :: ps =>
    match x[p]? with
    | none => ([], false)
    | some v => (v :: (probeLoop x ps).1, (probeLoop x ps).2)

/-- `static.txt` (src/solver/thermal/EThermalNetworkSolver.cpp:77-86): the file, and if an exception is thrown -/
def staticFile (c : Cfg) (x : List ℚ) : List Out × Bool :=
  if c.dumpResults && !c.workDir.isEmpty && c.opens (inDir c.workDir (asc "static.txt")) then
    let r := probeLoop x c.probs
    ([.text (inDir c.workDir (asc "static.txt")) (commas rnd r.1 ++ if r.2 then [10] else [])], r.2)
  else ([], true)

/-- the end of `Solve` (src/solver/thermal/EThermalNetworkSolver.cpp:74-87) -/
def endStatic (c : Cfg) (celsius : Bool) (o : List Out × Res (Option (List ℚ))) : List Out × Res (Option (List ℚ)) :=
  match o.2 with
  | .ok (some l) =>
    let x := if celsius then l.map Static.toCelsius else l
    (o.1 ++ (staticFile rnd c x).1, if (staticFile rnd c x).2 then .ok (some x) else .exn)
  | _ => o

/-- `EThermalNetworkStaticSolver::Solve` (src/solver/thermal/EThermalNetworkSolver.cpp:40-88) with its files -/
def solveStatic (c : Cfg) (build : List ℚ → Res (Option (Network ℚ))) (solve : Network ℚ → List ℚ) (total : Nat) (envT limit : ℚ)
    (maximum : Bool) (iteration : Nat) (celsius : Bool) (fuel : Nat) : Option (List Out × Res (Option (List ℚ))) :=
  (loopD build solve limit maximum (matFiles rnd c envT) fuel iteration 0 (List.replicate total envT)).map (endStatic rnd c celsius)

/-! ## hot maps -/

/-- `(*lyrHtMap)(x, y) = results[i]` for all results from number `i` on (src/solver/thermal/EThermalNetworkSolver.cpp:234-238) -/
def fill (m : Size3) : Nat → List ℚ → (Nat → Nat → Nat → ℚ) → Res (Nat → Nat → Nat → ℚ)
  | _, [], H => .ok H
  | i, v :: vs, H =>
    (gridIndex ⟨m.x, m.y⟩ i).bind fun g =>
      if g.z < m.z then fill m (i + 1) vs fun z x y => if z = g.z ∧ x = g.x ∧ y = g.y then v else H z x y
      else .exn

/-- the number turned into a colour (src/solver/thermal/EThermalNetworkSolver.cpp:243-250) -/
def scalar (lo hi v : ℚ) : Option ℚ := if hi - lo = 0 then none else some ((v - lo) / (hi - lo))

/-- the picture of a layer (src/solver/thermal/EThermalNetworkSolver.cpp:241-257): `MaxOccupancy` of the library is the extreme of all cells -/
def layerPic (dir : Bytes) (m : Size3) (H : Nat → Nat → Nat → ℚ) (z : Nat) : Res Out :=
  (Sim.extremes ((cells m.x m.y).map fun c => H z c.1 c.2)).bind fun e =>
    .ok (.pic (inDir dir (digs z ++ asc ".png")) m.x m.y fun x y => scalar e.1 e.2 (H z x y))

/-- the pictures of the layers from a number on -/
def layerPics (dir : Bytes) (m : Size3) (H : Nat → Nat → Nat → ℚ) : List Nat → Res (List Out)
  | [] => .ok []
  | z :: zs => (layerPic dir m H z).bind fun p => (layerPics dir m H zs).bind fun ps => .ok (p :: ps)

/-- the pictures of a grid model (src/solver/thermal/EThermalNetworkSolver.cpp:227-259); all cells are zero before -/
def gridPics (c : Cfg) (m : Size3) (x : List ℚ) : Res (List Out) :=
  if !c.workDir.isEmpty && c.dumpHotmaps then
    (fill m 0 x fun _ _ _ => 0).bind fun H => layerPics c.workDir m H (List.range m.z)
  else .ok []

/-- the file of a prism model (src/solver/thermal/EThermalNetworkSolver.cpp:297-301, 344-348) -/
def prismFile (c : Cfg) : List Out := if c.dumpHotmaps then [.vtk (inDir c.workDir (asc "hotmap.vtk"))] else []

/-! ## the transient solver -/

/-- `trans.txt` (src/solver/thermal/EThermalNetworkSolver.cpp:188-199) -/
def transFile (c : Cfg) (samples : List Trans.Sample) : List Out :=
  if c.dumpResults && !c.workDir.isEmpty then
    put c.opens (inDir c.workDir (asc "trans.txt")) (eol (samples.map fun s => commas rnd (s.1 :: s.2)))
  else []

/-! ## `load_data` -/

/-- the lines of a file as Python iterates over them, the line feeds taken off; nothing follows the last line feed -/
def pyLines : Bytes → Bytes → List Bytes
  | [], [] => []
  | cur, [] => [cur]
  | cur, c :: t => if c = 10 then cur :: pyLines [] t else pyLines (cur ++ [c]) t

/-- `split(',')` of Python -/
def pySplit : Bytes → Bytes → List Bytes
  | cur, [] => [cur]
  | cur, c :: t => if c = 44 then cur :: pySplit [] t else pySplit (cur ++ [c]) t

/-- `strip()` of Python for these characters -/
def pyStrip (l : Bytes) : Bytes := ((l.dropWhile Ctm.isSpace).reverse.dropWhile Ctm.isSpace).reverse

/-- the fields of a line (tools/trans_plot.py:8) -/
def pyArgs (l : Bytes) : List Bytes := (pySplit [] (pyStrip l)).dropLast

/-- `results[i].append(args[i])` for all fields (tools/trans_plot.py:12-13): more fields than columns raise an exception -/
def pyAppend : List (List Bytes) → List Bytes → Res (List (List Bytes))
  | cols, [] => .ok cols
  | [], _ :: _ => .exn
  | col :: cols, a :: as_ => (pyAppend cols as_).bind fun r => .ok ((col ++ [a]) :: r)

/-- the loop over the lines (tools/trans_plot.py:7-13) -/
def pyLoad : List (List Bytes) → List Bytes → Res (List (List Bytes))
  | cols, [] => .ok cols
  | cols, l :: ls =>
    (pyAppend (if cols.isEmpty then (pyArgs l).map fun _ => [] else cols) (pyArgs l)).bind fun r => pyLoad r ls

/-- `load_data` (tools/trans_plot.py:4-14) -/
def loadData (file : Bytes) : Res (List (List Bytes)) := pyLoad [] (pyLines [] file)

end Ecad.Dump
