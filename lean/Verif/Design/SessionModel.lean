import Verif.Gds.DesignModel
import Verif.KiCad.ImportModel
import Verif.Xfl.ImportModel
import Verif.Dmc.DesignModel
/-!
A session with the data manager: databases are created, loaded, removed, and made by the four imports (src/EDataMgr.cpp:38-94,
src/extension/ECadExtension.cpp:9-31).

Simplification: what the library and the platform do is collected in `Tools`; it is the same in the whole session.
-/
namespace Ecad.Session

/-- what the imports take from the library: orders of unordered containers, angles, conversions, bounds on the rounds of readers, values of
uninitialised variables (see the models of the imports) -/
structure Tools where
  rad : ℚ → ℚ × ℚ
  order : List Int → List Int
  cap : Nat
  gdsFuel : Nat
  cv : KiCad.Conv ℚ
  mv : List Char → List Char
  junkC : Char
  ordN : List (Nat × List Char) → List (Nat × List Char)
  ordL : List (List Char × KiCad.KLayer ℚ) → List (List Char × KiCad.KLayer ℚ)
  treeFuel : Nat
  depth : Nat
  ang : ℚ → Int
  lib : Xfl.Lib ℚ
  div : Nat
  R : Int → ℚ × ℚ
  junk : Int
  far : List (Int × Int)
  scale : ℚ

/-- what a database holds, as far as it was made at once -/
inductive Made
  | empty
  | archive (name : String)
  | gds (d : GdsD.Design)
  | kicad (i : KiCad.Import ℚ)
  | xfl (r : XflI.Result)
  | dmc (b : Dmc.Board)

/-- an import: the contents of its files, nothing for one that cannot be opened; `path` is the name of the layer map file -/
inductive Job
  | gds (file : Option (List Gds.Byte)) (path : String) (map : Option (List Nat))
  | kicad (file : Option (List Char))
  | xfl (file : Option (List Char))
  | dmc (dom dmc : Option (List Nat))

/-- `ECadExtGdsHandler::CreateDatabase` (src/extension/gds/ECadExtGdsHandler.cpp:19-82) with the registry: the file is read first, then the name is looked up, and the
database is made before the layer map file is read.  `d` is the new database object. -/
def importGds (T : Tools) (reg : Registry.Reg) (d : Nat) (name : String) (file : Option (List Gds.Byte)) (path : String) (map : Option (List Nat)) :
    Registry.Reg × Option (Res (Option Made)) :=
  match file with
  | none => (reg, some (.ok none))
  | some bytes =>
    match Gds.readFile T.cap T.gdsFuel bytes with
    | none => (reg, none)
    | some .ub => (reg, some .ub)
    | some .exn => (reg, some .exn)
    | some (.ok x) =>
      if !x.2 then (reg, some (.ok none))
      else
        match Registry.openDb reg name with
        | some _ => (reg, some (.ok none))
        | none =>
          match Registry.create reg name d with
          | (reg, none) => (reg, some (.ok none))
          | (reg, some _) =>
            (reg, some ((Gds.importRows [] name x.2 path map).2.bind fun
              | none => .ok none
              | some rows => (GdsD.fill T.rad T.order x.1 rows).bind fun d => .ok (some (.gds d))))

/-- `ECadExtXflHandler::CreateDatabase` (src/extension/xfl/ECadExtXflHandler.cpp:18-74) with the registry: the database is made after the file was read -/
def importXfl (T : Tools) (reg : Registry.Reg) (d : Nat) (name : String) (file : Option (List Char)) : Registry.Reg × Option (Res (Option Made)) :=
  match Registry.openDb reg name with
  | some _ => (reg, some (.ok none))
  | none =>
    match file with
    | none => (reg, some (.ok none))
    | some s =>
      if !(XflP.read s).2 then (reg, some (.ok none))
      else
        match Registry.create reg name d with
        | (reg, none) => (reg, some (.ok none))
        | (reg, some _) => (reg, some ((XflI.create T.ang T.lib T.div T.R false (some s)).bind fun r => .ok (r.map .xfl)))

/-- `CreateDatabaseFromGds`, `CreateDatabaseFromKiCad`, `CreateDatabaseFromXfl`, `CreateDatabaseFromDomDmc` (src/extension/ECadExtension.cpp:9-31): the registry
afterwards and what is returned; the outer `none`: a reader has not ended. -/
def importJob (T : Tools) (reg : Registry.Reg) (d : Nat) (name : String) : Job → Registry.Reg × Option (Res (Option Made))
  | .gds file path map => importGds T reg d name file path map
  | .kicad file =>
    let r := KiCad.createDatabase T.cv T.mv T.junkC T.ordN T.ordL T.treeFuel T.depth reg d name file
    (r.1, r.2.map fun x => x.bind fun i => .ok (i.map .kicad))
  | .xfl file => importXfl T reg d name file
  | .dmc dom dmc =>
    let r := Dmc.createDatabase T.junk T.far T.scale reg d name dom dmc
    (r.1, some (r.2.bind fun
      | .ok b => .ok (some (.dmc b))
      | .error _ => .ok none))

/-- a call of the data manager -/
inductive Call
  | create (name : String)
  | load (archive : Option String)
  | remove (name : String)
  | shutDown
  | import_ (name : String) (job : Job)

/-- the registry, and what the database objects were made to hold -/
structure St where
  reg : Registry.Reg := []
  made : List (Nat × Made) := []

/-- One call (src/EDataMgr.cpp:38-94): the state afterwards and what is returned, a database or null.  `d` is the object the call makes, if it makes one.  `none`: undefined
behaviour, or a reader that has not ended.  An exception leaves the registry as it is then; nothing is known of the object that was being filled. -/
def step (T : Tools) (s : St) (d : Nat) : Call → Option (St × Option Nat)
  | .create name =>
    let x := Registry.create s.reg name d
    some (⟨x.1, if x.2.isSome then s.made ++ [(d, .empty)] else s.made⟩, x.2)
  | .load a =>
    let x := Registry.load s.reg a d
    some (⟨x.1, if x.2.isSome then s.made ++ [(d, .archive (a.getD ""))] else s.made⟩, x.2)
  | .remove name => some (⟨(Registry.remove s.reg name).1, s.made⟩, none)
  | .shutDown => some (⟨[], s.made⟩, none)
  | .import_ name job =>
    let x := importJob T s.reg d name job
    match x.2 with
    | none => none
    | some .ub => none
    | some .exn => some (⟨x.1, s.made⟩, none)
    | some (.ok none) => some (⟨x.1, s.made⟩, none)
    | some (.ok (some m)) => some (⟨x.1, s.made ++ [(d, m)]⟩, some d)

/-- a session, the `n`-th call making object `n` if it makes one -/
def run (T : Tools) (s : St) (n : Nat) : List Call → Option St
  | [] => some s
  | c :: cs => (step T s n c).bind fun x => run T x.1 (n + 1) cs

end Ecad.Session
