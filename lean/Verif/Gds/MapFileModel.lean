import Verif.Gds.ReaderModel
import Verif.Dmc.FileModel
/-!
The layer map file of a GDS import (src/extension/gds/EGdsLayerMap.cpp, src/extension/gds/ECadExtGdsHandler.cpp:19-56), as bytes.

`Split` cuts at blanks and drops empty items (`Ctm.split`); `std::stoi` and `std::stod` are those of `Verif/Dmc/FileModel.lean` and
`Verif/Ctm/HeaderModel.lean`, so exponents and hexadecimal numbers are not modelled.  The pointers of `m_lyrIdMap` are positions in `m_layers`;
the list is only ever lengthened or cleared together with the map.  `purpose` is always empty (src/extension/gds/EGdsLayerMap.cpp:78)
and left out.
-/
namespace Ecad.Gds
open Ctm (Bytes split stod orExn fileLines)
open Dmc (stoi)

/-- `EGdsLayerMap` (src/extension/gds/EGdsLayerMap.h:21-33) -/
structure LMap where
  layers : List LayerRow := []
  ids : List (Int × Nat) := []

/-- `EGdsLayerMap::GetLayer` (src/extension/gds/EGdsLayerMap.cpp:15-20) -/
def LMap.getLayer (m : LMap) (id : Int) : Option LayerRow := (UMap.find? m.ids id).bind fun i => m.layers[i]?

/-- `EGdsLayerMap::AddLayer` (src/extension/gds/EGdsLayerMap.cpp:22-26) -/
def LMap.addLayer (m : LMap) (r : LayerRow) : LMap := ⟨m.layers ++ [r], (UMap.emplace m.ids r.layerId m.layers.length).1⟩

/-- `EGdsLayerMap::Clear` (src/extension/gds/EGdsLayerMap.cpp:28-32) -/
def LMap.clear (_ : LMap) : LMap := {}

/-- `StartsWith<CaseInsensitive>(.., "m")` (src/extension/gds/EGdsLayerMap.cpp:77) -/
def startsM (t : Bytes) : Bool := t.head? == some 109 || t.head? == some 77

/-- `ParseOneLine` (src/extension/gds/EGdsLayerMap.cpp:68-80): `none` if it returns false -/
def parseRow (line : Bytes) : Res (Option LayerRow) :=
  match split (fun c => c == 32) line with
  | [n, k, l, d, t] =>
    (stoi l).bind fun l => (stoi d).bind fun d => (orExn (stod t)).bind fun t => .ok (some ⟨n, startsM k, l, d, t⟩)
  | _ => .ok none

/-- the loop over the lines (src/extension/gds/EGdsLayerMap.cpp:53-66) -/
def parseRows (m : LMap) : List Bytes → Res (LMap × Bool)
  | [] => .ok (m, true)
  | l :: ls =>
    if l = [] then parseRows m ls
    else if l.head? = some 35 then parseRows m ls
    else (parseRow l).bind fun
      | none => .ok (m, false)
      | some r => parseRows (m.addLayer r) ls

/-- `EGdsLayerMapParser::operator()` (src/extension/gds/EGdsLayerMap.cpp:43-52); `none` is a file that cannot be opened -/
def parseMapFile (m : LMap) : Option Bytes → Res (LMap × Bool)
  | none => .ok (m, false)
  | some b => parseRows m.clear (fileLines [] b)

/-- `CreateDatabase` up to the layers (src/extension/gds/ECadExtGdsHandler.cpp:19-56): `gdsRead` says if the gds file could be read, `path` is the name
of the layer map file and `file` its text.  The names of the databases afterwards, and the rows, if there is a file; the second `none` is the
result null. -/
def importRows (dbs : List String) (name : String) (gdsRead : Bool) (path : String) (file : Option Bytes) :
    List String × Res (Option (Option (List LayerRow))) :=
  if gdsRead then
    if name ∈ dbs then (dbs, .ok none)
    else
      (name :: dbs,
        if path = "" then .ok (some none)
        else (parseMapFile {} file).bind fun x => .ok (if x.2 then some (some x.1.layers) else none))
  else (dbs, .ok none)

end Ecad.Gds
