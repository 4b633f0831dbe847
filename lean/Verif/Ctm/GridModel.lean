import Verif.Ctm.StackModel
/-!
Grid thermal models from chip thermal models and back (src/model/thermal/io/EThermalModelIO.cpp:17-185), without reduction
(`reduceOrder` 0).

Numbers are elements of an ordered field; the comparisons `math::LT`, `math::NE` of the library are taken as exact, and the metal
fractions are not rounded to `float`.  Materials, boundary conditions, jump connections, reference point, elevation and settings of a
grid model are left out: the first direction sets none of them, the second reads none of them.  A power model is an element of any type,
looked at through `query` (`none` is an unsuccessful query).
-/
namespace Ecad.Ctm

variable {K : Type} [Field K] [LinearOrder K]

/-- `ELayerMetalFraction`, `EGridData`: a grid of values -/
structure Frac (K : Type) where
  w : Nat
  h : Nat
  val : Nat → Nat → K

/-- `EGridThermalLayer` (src/model/thermal/EGridThermalModel.h:14-60) -/
structure GLay (K P : Type) where
  name : String
  isMetal : Bool
  thick : K
  top : String
  bot : String
  mf : Option (Frac K)
  powers : List P

/-- `EGridThermalModel` (src/model/thermal/EGridThermalModel.h:113-124) -/
structure Grid (K P : Type) where
  size : Nat × Nat
  scale : K
  res : K × K
  layers : List (GLay K P)

/-- `EGridThermalLayer::GetSize` (src/model/thermal/EGridThermalModel.cpp:229-233) -/
def GLay.size {P : Type} (l : GLay K P) : Nat × Nat :=
  match l.mf with
  | none => (0, 0)
  | some m => (m.w, m.h)

/-- `EGridThermalModel::AppendLayer` (src/model/thermal/EGridThermalModel.cpp:316-327) -/
def appendLayer {P : Type} (size : Nat × Nat) (ls : List (GLay K P)) (l : GLay K P) : List (GLay K P) :=
  if l.thick < 0 then ls
  else if l.size ≠ size then ls
  else match ls.getLast? with
    | none => ls ++ [l]
    | some b => ls.dropLast ++ [{ b with bot := l.name }, { l with top := b.name }]

/-- `EGridThermalModel::TotalThickness` (src/model/thermal/EGridThermalModel.cpp:245-251) -/
def totalThick {P : Type} (ls : List (GLay K P)) : K := ls.foldl (fun t l => t + l.thick) 0

/-- `EChipThermalModelV1` (src/model/thermal/EChipThermalModel.h); the elevations and thicknesses of via layers are never read -/
structure Chip (K P : Type) where
  tiles : Nat × Nat
  scale : K
  res : K
  metals : List (Lay K)
  vias : List ViaLay
  tech : List String
  densities : List (String × Frac K)
  powers : Option P

/-- `densities.at(name)` -/
def densityOf (ds : List (String × Frac K)) (n : String) : Option (Frac K) := (ds.find? fun d => d.1 = n).map Prod.snd

/-- the metal fraction of a layer of the stackup (src/model/thermal/io/EThermalModelIO.cpp:44-69).  Reading a density outside its grid is
undefined in the code; here it has some value. -/
def fracOf (tiles : Nat × Nat) (ds : List (String × Frac K)) (names : List String) : Frac K :=
  match names.filterMap (densityOf ds) with
  | [m] => m
  | ms => ⟨tiles.1, tiles.2, fun x y => min (ms.foldl (fun s m => s + m.val x y) 0) 1⟩

/-- a layer of the grid model (src/model/thermal/io/EThermalModelIO.cpp:40-75) -/
def gridLayer {P : Type} (c : Chip K P) (dev : String) (s : SLay K) : GLay K P :=
  { name := s.name, isMetal := false, thick := s.thick * (1 / 1000000), top := "", bot := "", mf := some (fracOf c.tiles c.densities s.names),
    powers := if s.name = dev then c.powers.toList else [] }

/-- `makeGridThermalModelFromCTMv1Model` (src/model/thermal/io/EThermalModelIO.cpp:17-82).  `none`: the lookup of positions has not ended;
`some none`: a null pointer is returned. -/
def toGrid {P : Type} (order : List String → List String) (tol : K) (fuel : Nat) (c : Chip K P) : Option (Option (Grid K P)) :=
  match build order tol c.metals c.vias c.tech fuel with
  | none => none
  | some st =>
    let dev := lastMetal c.metals st
    if dev = "" then some none
    else
      some (some
        { size := c.tiles
          scale := if c.scale < 0 then 1 else c.scale
          res := if c.res * (1 / 1000000) < 0 then (0, 0) else (c.res * (1 / 1000000), c.res * (1 / 1000000))
          layers := (st.map (gridLayer c dev)).foldl (appendLayer c.tiles) [] })

/-- a table of powers per temperature (`EGridPowerModel`) -/
abbrev Table (K : Type) := List (K × Frac K)

/-- the loop over the layers (src/model/thermal/io/EThermalModelIO.cpp:115-141): name, elevation, thickness, and the layer -/
def stackOf {P : Type} (e : K) : List (GLay K P) → List (Lay K × GLay K P)
  | [] => []
  | l :: ls => (⟨l.name, e, l.thick * 1000000⟩, l) :: stackOf (e - l.thick * 1000000) ls

/-- `densities.insert` in a loop (src/model/thermal/io/EThermalModelIO.cpp:170-174) -/
def densitiesOf {P : Type} (ls : List (GLay K P)) : List (String × Frac K) :=
  ls.foldl (fun ds l =>
    match l.mf with
    | none => ds
    | some m => if (densityOf ds l.name).isSome then ds else ds ++ [(l.name, m)]) []

/-- one power model (src/model/thermal/io/EThermalModelIO.cpp:155-157) -/
def addPower {P : Type} (query : P → K → Nat → Nat → Option K) (t : K) (x y : Nat) (s : K) (p : P) : K :=
  match query p t x y with
  | none => s
  | some v => s + v

/-- power of one cell at one temperature (src/model/thermal/io/EThermalModelIO.cpp:147-163) -/
def cellPower {P : Type} (query : P → K → Nat → Nat → Option K) (ls : List (GLay K P)) (t : K) (x y : Nat) : K :=
  ls.foldl (fun s l => l.powers.foldl (addPower query t x y) s) 0

/-- `makeChipThermalModelV1FromGridThermalModel` (src/model/thermal/io/EThermalModelIO.cpp:84-185), without the parts of the header which
are only written to files -/
def toChip {P : Type} (query : P → K → Nat → Nat → Option K) (g : Grid K P) : Option (Chip K (Table K)) :=
  if g.res.1 ≠ g.res.2 then none
  else
    let st := stackOf (totalThick g.layers * 1000000) g.layers
    let ds := densitiesOf g.layers
    if ds.length ≠ st.length then none
    else some
      { tiles := g.size
        scale := g.scale
        res := g.res.1 * 1000000
        metals := (st.filter fun p => p.2.isMetal).map Prod.fst
        vias := (st.filter fun p => !p.2.isMetal).map fun p => ⟨p.1.name, p.2.top, p.2.bot⟩
        tech := st.map fun p => p.1.name
        densities := ds
        powers := some ([25, 50, 75, 100, 125].map fun t => (t, ⟨g.size.1, g.size.2, cellPower query g.layers t⟩)) }

end Ecad.Ctm
