import Verif.KiCad.ObjModel
import Verif.Design.RegistryModel
/-!
`ECadExtKiCadHandler::CreateDatabase` (src/extension/kicad/ECadExtKiCadHandler.cpp:28-55, 335-387) from the text of the file to the database.
-/
namespace Ecad.KiCad

variable {K : Type} [Field K]

/-- a stackup layer as `CreateStackupLayer` makes it (src/EDataMgr.cpp:121-130), with its id in the layout -/
structure SLayer (K : Type) where
  name : String
  conducting : Bool
  elevation : K
  thickness : K
  conductingMat : String
  dielectricMat : String
  id : Int
  deriving DecidableEq

/-- What an import makes: the database with its unit, its cells by name (one), and the layout of the cell; the numbers are those of the primitives,
padstack instances, components and cell instances in the layout -/
structure Import (K : Type) where
  database : String
  millimeter : Bool
  cells : List String
  nets : Net.Coll
  layers : List (SLayer K)
  primitives : Nat
  padstacks : Nat
  components : Nat
  instances : Nat

/-- a material, or a default if there is none (src/extension/kicad/ECadExtKiCadHandler.cpp:362-363, src/basic/ECadAlias.h:72-73) -/
def matOr (dflt : String) (m : List Char) : String := if m.isEmpty then dflt else String.ofList m

/-- The loop of `CreateEcadLayers` (src/extension/kicad/ECadExtKiCadHandler.cpp:355-372): the vector of the layers so far, the elevation
reached, and the rest of the map; new layers have no id (-1) -/
def makeLayers : List (SLayer K) → K → List (List Char × KLayer K) → List (SLayer K)
  | acc, _, [] => acc
  | acc, el, e :: ls =>
    if e.2.id > 32 then makeLayers acc el ls
    else makeLayers (acc ++ [⟨String.ofList e.1, e.2.type == .conducting, el, e.2.thickness, matOr "copper" e.2.material,
      matOr "silicon" e.2.material, -1⟩]) (el - e.2.thickness) ls

/-- `AppendLayers` (src/collection/ELayerCollection.cpp:41-55) -/
def appendLayers : List (SLayer K) → List (SLayer K) → List (SLayer K)
  | l, [] => l
  | l, y :: ys => appendLayers (l ++ [{ y with id := (l.length : Int) }]) ys

/-- `CreateEcadObjects` (src/extension/kicad/ECadExtKiCadHandler.cpp:335-349): `ordN` and `ordL` are the orders in which the maps of the nets and
of the layers are walked through; nothing else of what has been collected is used -/
def createObjects (ordN : List (Nat × List Char) → List (Nat × List Char)) (ordL : List (List Char × KLayer K) → List (List Char × KLayer K))
    (name : String) (s : St K) : Import K :=
  ⟨name, true, [name], (createNets ({}, []) (ordN s.db.nets)).1, appendLayers [] (makeLayers [] 0 (ordL s.db.layers)), 0, 0, 0, 0⟩

/-- `CreateDatabase` (src/extension/kicad/ECadExtKiCadHandler.cpp:28-55): `file` is the text of the file, nothing if it cannot be read; `d` is the
new database object.  The result is the registry afterwards and what is returned: the outer `none` says that the reader has not ended with
this fuel, the inner one is the null pointer. -/
def createDatabase [DecidableEq K] (cv : Conv K) (mv : List Char → List Char) (junk : Char)
    (ordN : List (Nat × List Char) → List (Nat × List Char)) (ordL : List (List Char × KLayer K) → List (List Char × KLayer K))
    (fuel depth : Nat) (reg : Registry.Reg) (d : Nat) (name : String) (file : Option (List Char)) :
    Registry.Reg × Option (Res (Option (Import K))) :=
  match Registry.create reg name d with
  | (reg, none) => (reg, some (.ok none))
  | (reg, some _) =>
    match file with
    | none => (reg, some (.ok none))
    | some text =>
      (reg, (readTree junk fuel text).map fun t => (collect cv mv depth t.1).bind fun s => .ok (some (createObjects ordN ordL name s)))

end Ecad.KiCad
