import Verif.Base.Res
/-!
Padstack definition data (src/design/EPadstackDefData.cpp).
-/
namespace Ecad.Pad

/-- `noLayer` (include/basic/ECadDef.h:71, `ELayerId`) -/
def noLayer : Int := -1

/-- the parameters of a pad, a via: shape (null: `none`), offset and rotation -/
structure Par (S : Type) where
  shape : Option S
  offset : Int × Int
  rotation : Int
  deriving DecidableEq, Repr

/-- `EPad` (src/design/EPadstackDefData.h:23-38).  Rotation and offset are abstract values that are only stored. -/
structure Pad (S : Type) where
  lyr : String
  par : Par S
  deriving DecidableEq, Repr

/-- `EBump` (src/design/EPadstackDefData.h:40-54) -/
structure Bump (S : Type) where
  shape : Option S
  thickness : Int
  material : String
  deriving DecidableEq, Repr

/-- `EPadstackDefData` (src/design/EPadstackDefData.h:57-) -/
structure Data (S : Type) where
  material : String
  pads : List (Pad S)
  via : Par S
  top : Bump S
  bot : Bump S
  deriving DecidableEq, Repr

variable {S : Type}

/-- default member values (src/design/EPadstackDefData.h:18-20, 34-37) -/
def Par.init : Par S := ⟨none, (0, 0), 0⟩

/-- default members (src/design/EPadstackDefData.h:50-52) -/
def Bump.init : Bump S := ⟨none, 0, ""⟩

/-- new data -/
def Data.init : Data S := ⟨"", [], Par.init, Bump.init, Bump.init⟩

/-- `SetLayers` (src/design/EPadstackDefData.cpp:109-114): `resize` keeps the first pads and adds empty ones,
then the names are overwritten. -/
def setLayers (d : Data S) (names : List String) : Data S :=
  { d with pads := names.zipIdx.map fun n =>
      ⟨n.1, match d.pads[n.2]? with
        | some p => p.par
        | none => Par.init⟩ }

/-- `SetPadParameters` by id (src/design/EPadstackDefData.cpp:116-126).  The id is compared as a signed number;
as an index it is converted to `size_t`, so that a negative one is far outside. -/
def setPad (d : Data S) (id : Int) (v : Par S) : Res (Bool × Data S) :=
  if id = noLayer then .ok (false, d)
  else if id ≥ d.pads.length then .ok (false, d)
  else if id < 0 then .ub
  else match d.pads[id.toNat]? with
    | none => .ub
    | some p => .ok (true, { d with pads := d.pads.set id.toNat ⟨p.lyr, v⟩ })

/-- `GetPadParameters` by id (src/design/EPadstackDefData.cpp:128-138); `none`: `false`, nothing written. -/
def getPad (d : Data S) (id : Int) : Res (Option (Par S)) :=
  if id = noLayer then .ok none
  else if id ≥ d.pads.length then .ok none
  else if id < 0 then .ub
  else match d.pads[id.toNat]? with
    | none => .ub
    | some p => .ok (some p.par)

/-- the loop of `GetPadLayerId` (src/design/EPadstackDefData.cpp:232-239) from position `i` -/
def padLayerFrom (name : String) : Nat → List (Pad S) → Int
  | _, [] => noLayer
  | i, p :: ps => if name = p.lyr then (i : Int) else padLayerFrom name (i + 1) ps

/-- `GetPadLayerId` (src/design/EPadstackDefData.cpp:232-239) -/
def padLayerId (d : Data S) (name : String) : Int := padLayerFrom name 0 d.pads

/-- `SetPadParameters` by name (src/design/EPadstackDefData.cpp:140-143) -/
def setPadN (d : Data S) (name : String) (v : Par S) : Res (Bool × Data S) := setPad d (padLayerId d name) v

/-- `GetPadParameters` by name (src/design/EPadstackDefData.cpp:145-148) -/
def getPadN (d : Data S) (name : String) : Res (Option (Par S)) := getPad d (padLayerId d name)

/-- `SetViaParameters` (src/design/EPadstackDefData.cpp:150-155) -/
def setVia (d : Data S) (v : Par S) : Data S := { d with via := v }

/-- `SetTopSolderBumpParameters` (src/design/EPadstackDefData.cpp:164-169) -/
def setTop (d : Data S) (shape : Option S) (th : Int) : Data S := { d with top := { d.top with shape := shape, thickness := th } }

/-- `SetBotSolderBallParameters` (src/design/EPadstackDefData.cpp:180-185) -/
def setBot (d : Data S) (shape : Option S) (th : Int) : Data S := { d with bot := { d.bot with shape := shape, thickness := th } }

/-- `SetTopSolderBumpMaterial`, `SetBotSolderBallMaterial` (src/design/EPadstackDefData.cpp:196-214) -/
def setTopMaterial (d : Data S) (m : String) : Data S := { d with top := { d.top with material := m } }

/-- see `setTopMaterial` -/
def setBotMaterial (d : Data S) (m : String) : Data S := { d with bot := { d.bot with material := m } }

/-- `GetTopSolderBumpParameters`, `hasTopSolderBump` (src/design/EPadstackDefData.cpp:171-178, 216-221) -/
def getTop (d : Data S) : Option (S × Int) := d.top.shape.map fun s => (s, d.top.thickness)

/-- `GetBotSolderBallParameters`, `hasBotSolderBall` (src/design/EPadstackDefData.cpp:187-194, 223-228) -/
def getBot (d : Data S) : Option (S × Int) := d.bot.shape.map fun s => (s, d.bot.thickness)

/-- calls that change the data -/
inductive Op (S : Type)
  | layers (names : List String)
  | pad (id : Int) (v : Par S)
  | padN (name : String) (v : Par S)
  | via (v : Par S)
  | top (shape : Option S) (th : Int)
  | bot (shape : Option S) (th : Int)
  | topMaterial (m : String)
  | botMaterial (m : String)

/-- one call -/
def step (d : Data S) : Op S → Res (Data S)
  | .layers names => .ok (setLayers d names)
  | .pad id v => (setPad d id v).bind fun r => .ok r.2
  | .padN name v => (setPadN d name v).bind fun r => .ok r.2
  | .via v => .ok (setVia d v)
  | .top s th => .ok (setTop d s th)
  | .bot s th => .ok (setBot d s th)
  | .topMaterial m => .ok (setTopMaterial d m)
  | .botMaterial m => .ok (setBotMaterial d m)

/-- a history of calls -/
def run (d : Data S) : List (Op S) → Res (Data S)
  | [] => .ok d
  | o :: os => (step d o).bind fun d' => run d' os

end Ecad.Pad
