import Verif.Basic.SmallModel
import Verif.Design.DatabaseModel
import Verif.Thermal.StackPrismModel
/-!
The material properties the prism network builders use: materials are made in the database under names, get properties, and are looked up by the ids
that the elements of a model carry.
-/
namespace Ecad.Mat
open Ecad.Material Ecad.Db

/-- `IMaterialProp` as a user can make them (src/EDataMgr.cpp:167-186, src/design/EMaterialProp.cpp:54-77, 168-195): one, three or nine values, a
table, or polynomials. What a table holds is left out, since nothing reads it. -/
inductive MProp (K : Type) where
  | one (a : K)
  | three (a b c : K)
  | nine (e : Nat → Nat → K)
  | table
  | poly (cs : List (List K))

/-- `EMaterialPropId::ThermalConductivity` (src/basic/ECadDef.h:86) -/
def pidK : Int := 14
/-- `EMaterialPropId::SpecificHeat` (src/basic/ECadDef.h:88) -/
def pidHeat : Int := 38
/-- `EMaterialPropId::MassDensity` (src/basic/ECadDef.h:87) -/
def pidRho : Int := 34
/-- `EMaterialPropId::Resistivity` (src/basic/ECadDef.h:85) -/
def pidRes : Int := 8

/-- the materials of a database: the database (C91), the properties of its materials and which are fluid, by object (`m_properties` and `m_type`,
src/design/EMaterialDef.h:33-36), and the next object -/
structure Lib (K : Type) where
  db : Database
  next : Nat
  props : List (Nat × Props (MProp K))
  types : List (Nat × Bool)

/-- a database without materials (src/design/EDatabase.cpp:46-54) -/
def Lib.empty {K : Type} : Lib K := ⟨Db.new 0, 1, [], []⟩

/-- Calls of a user: `CreateMaterialDef`, `SetProperty` and `SetMaterialType` of the material found by a name. -/
inductive MOp (K : Type) where
  | mat (name : String)
  | prop (name : String) (id : Int) (p : MProp K)
  | type (name : String) (fluid : Bool)

/-- replacing what an object holds -/
def updObj {V : Type} (l : List (Nat × V)) (o : Nat) (f : V → V) : List (Nat × V) := l.map fun e => if e.1 = o then (e.1, f e.2) else e

/-- One call: `CreateMaterialDef` (src/design/EDatabase.cpp:190-196; a new material has no properties and is rigid, src/design/EMaterialDef.h:35),
`SetProperty` (src/design/EMaterialDef.cpp:68-71), `SetMaterialType` (src/design/EMaterialDef.cpp:80-83). Nothing is called on a material that is not
found. -/
def Lib.step {K : Type} (l : Lib K) : MOp K → Res (Lib K)
  | .mat n => (Db.create l.db .materialDef n l.next).bind fun r =>
    match r.2 with
    | some _ => .ok ⟨r.1, l.next + 1, l.props ++ [(l.next, [])], l.types ++ [(l.next, false)]⟩
    | none => .ok ⟨r.1, l.next, l.props, l.types⟩
  | .prop n id p =>
    match Db.findByName l.db .materialDef n with
    | some x => .ok { l with props := updObj l.props x.obj fun m => setProperty m id p }
    | none => .ok l
  | .type n b =>
    match Db.findByName l.db .materialDef n with
    | some x => .ok { l with types := updObj l.types x.obj fun _ => b }
    | none => .ok l

/-- a history of calls -/
def Lib.run {K : Type} (l : Lib K) : List (MOp K) → Res (Lib K)
  | [] => .ok l
  | op :: ops => (l.step op).bind fun l' => Lib.run l' ops

/-- Copying the database (src/design/EDatabase.cpp:60-73): the materials are new objects with copies of the properties and the type
(src/design/EMaterialDef.cpp:41-51). -/
def Lib.copy {K : Type} (l : Lib K) : Lib K :=
  ⟨Db.assign (2 * l.next + 1) l.db (l.next + 1), 2 * l.next + 2, l.props.map fun e => (e.1 + (l.next + 1), e.2),
    l.types.map fun e => (e.1 + (l.next + 1), e.2)⟩

/-- The fluid materials of an extraction, by id (src/extraction/thermal/EThermalModelExtraction.cpp:217-222, 387-392). -/
def Lib.fluids {K : Type} (l : Lib K) : List Nat :=
  ((getColl l.db .materialDef).map fun c => c.defs.filterMap fun e => if UMap.find? l.types e.2.obj = some true then some e.2.matId else none).getD []

variable {K : Type} [Field K]

/-- the nine values of a tensor, row by row (src/design/EMaterialProp.cpp:54-57, 93-98; read at `row * 3 + col`, src/design/EMaterialProp.cpp:129) -/
def tensor (e : Nat → Nat → K) : List K := [e 0 0, e 0 1, e 0 2, e 1 0, e 1 1, e 1 2, e 2 0, e 2 1, e 2 2]

/-- `GetSimpleProperty` of a property (src/design/EMaterialProp.cpp:134-137, 215-220, src/design/EMaterialProp.h:76); `none` is the return value
`false`, with the value left as it was. -/
def MProp.simpleAt (p : MProp K) (t : K) : Res (Option K) :=
  match p with
  | .one a => getSimple [a]
  | .three a b c => getSimple [a, b, c]
  | .nine e => getSimple (tensor e)
  | .table => .ok none
  | .poly cs => (polySimple cs t).bind fun x => .ok (some x)

/-- `GetAnisotropicProperty` of a property (src/design/EMaterialProp.cpp:139-142, 222-227, src/design/EMaterialProp.h:77) -/
def MProp.anisoAt (p : MProp K) (t : K) (row : Nat) : Res (Option K) :=
  match p with
  | .one a => getAnisotropic [a] row
  | .three a b c => getAnisotropic [a, b, c] row
  | .nine e => getAnisotropic (tensor e) row
  | .table => .ok none
  | .poly cs => (polyAnisotropic cs t row).bind fun x => .ok (some x)

/-- The property of a material given by id: `FindMaterialDefById`, `GetProperty` (src/solver/thermal/utils/EPrismThermalNetworkBuilder.cpp:353-355,
365-366, 375-376, 385-386). Null pointers are used without a check in a release build. -/
def Lib.prop (l : Lib K) (mat : Nat) (id : Int) : Res (MProp K) :=
  match Db.findById l.db mat with
  | none => .ub
  | some o =>
    match UMap.find? l.props o with
    | none => .ub
    | some m =>
      match getProperty m id with
      | none => .ub
      | some p => .ok p

/-- a value that was set, or that is read without having been set -/
def initialised (x : Option K) : Res K :=
  match x with
  | some v => .ok v
  | none => .ub

/-- `GetMatThermalConductivity` (src/solver/thermal/utils/EPrismThermalNetworkBuilder.cpp:349-359), one of the three entries. The array is not
initialised. -/
def Lib.conductivity (l : Lib K) (mat : Nat) (t : K) (row : Nat) : Res K :=
  (l.prop mat pidK).bind fun p => (p.anisoAt t row).bind initialised

/-- `GetMatMassDensity`, `GetMatSpecificHeat` and `GetMatResistivity` (src/solver/thermal/utils/EPrismThermalNetworkBuilder.cpp:361-389): the value
starts as zero. -/
def Lib.scalar (l : Lib K) (id : Int) (mat : Nat) (t : K) : Res K :=
  (l.prop mat id).bind fun p => (p.simpleAt t).bind fun x => .ok (x.getD 0)

/-- the value of a lookup that succeeds -/
def valueOf (r : Res K) : K :=
  match r with
  | .ok v => v
  | _ => 1

/-- A prism model whose materials are those of a database. -/
def withLib (l : Lib K) (m : PrismT.PModel K) : PrismT.PModel K :=
  { m with
    k := fun mat t i => valueOf (l.conductivity mat t i), heat := fun mat t => valueOf (l.scalar pidHeat mat t)
    rho := fun mat t => valueOf (l.scalar pidRho mat t), resist := fun mat t => valueOf (l.scalar pidRes mat t) }

/-- the lookups for an element with a material, at a temperature: conductivities, specific heat, density, and the resistivity where there is a current
(src/solver/thermal/utils/EPrismThermalNetworkBuilder.cpp:70-75, 162-174, 318-323) -/
def Lib.lookups (l : Lib K) (mat : Nat) (t : K) (current : Bool) : Res Unit :=
  (l.scalar pidHeat mat t).bind fun _ => (l.scalar pidRho mat t).bind fun _ => (l.conductivity mat t 0).bind fun _ =>
  (l.conductivity mat t 1).bind fun _ => (l.conductivity mat t 2).bind fun _ =>
  if current then (l.scalar pidRes mat t).bind fun _ => .ok () else .ok ()

/-- one lookup after the other -/
def allOk : List (Res Unit) → Res Unit
  | [] => .ok ()
  | r :: rs => r.bind fun _ => allOk rs

/-- `Build` (src/solver/thermal/utils/EPrismThermalNetworkBuilder.cpp:21-51) with the materials looked up in the database. The lookups, which are made
element by element between the changes of the network, come first here: whether one of them goes wrong does not depend on the network. -/
def buildLib [LinearOrder K] (l : Lib K) (minR : K) (m : PrismT.PModel K) (iniT : List K) : Res (Option (Thermal.Network K)) :=
  if iniT.length ≠ m.total then .ok none
  else (allOk (m.prisms.zipIdx.map (fun p => l.lookups p.1.elem.cell.mat (iniT.getD p.2 0) false) ++
      m.lines.map fun x => l.lookups x.mat (iniT.getD x.id 0) (decide (x.current ≠ 0)))).bind fun _ =>
    (withLib l m).build minR iniT

/-- A stackup prism model whose materials are those of a database. -/
def withLibS (l : Lib K) (m : PrismT.SModel K) : PrismT.SModel K :=
  { m with
    k := fun mat t i => valueOf (l.conductivity mat t i), heat := fun mat t => valueOf (l.scalar pidHeat mat t)
    rho := fun mat t => valueOf (l.scalar pidRho mat t), resist := fun mat t => valueOf (l.scalar pidRes mat t) }

/-- `Build` for stackup prism models (src/solver/thermal/utils/EPrismThermalNetworkBuilder.cpp:21-51), which make the same lookups
(src/solver/thermal/utils/EStackupPrismThermalNetworkBuilder.cpp:39-44), with the lookups first as in `buildLib`. -/
def buildLibS [LinearOrder K] (l : Lib K) (minR : K) (m : PrismT.SModel K) (iniT : List K) : Res (Option (Thermal.Network K)) :=
  if iniT.length ≠ m.total then .ok none
  else (allOk (m.prisms.zipIdx.map (fun p => l.lookups p.1.base.elem.cell.mat (iniT.getD p.2 0) false) ++
      m.lines.map fun x => l.lookups x.mat (iniT.getD x.id 0) (decide (x.current ≠ 0)))).bind fun _ =>
    (withLibS l m).build minR iniT

end Ecad.Mat
