import Verif.Design.ExtractModel
/-!
The two levels of the cache of models of a layout: thermal prism models are made from the layer cut model, which is itself kept in the collection of
models of the layout and has no flag to force a rebuild (src/design/ELayoutView.cpp:328-351,
src/extraction/thermal/EThermalModelExtraction.cpp:22-41, 183-189, 318-324).

Simplifications: what the generators make of a layout is a parameter; they end without undefined behaviour.  Layer cut models and prism models are
always made (src/extraction/geometry/EGeometryModelExtraction.cpp:140-146, src/extraction/thermal/EThermalModelExtraction.cpp:315, 478); grid models
may fail.
-/
namespace Ecad.Cache2
open Extract

/-- The generators: `cut` is `GenerateLayerCutModel` (src/extraction/geometry/EGeometryModelExtraction.cpp:16-146), `grid` is
`GenerateGridThermalModel` (src/extraction/thermal/EThermalModelExtraction.cpp:34-159), `prism` stands for `GeneratePrismThermalModel` and
`GenerateStackupPrismThermalModel` after the layer cut model was obtained (src/extraction/thermal/EThermalModelExtraction.cpp:191-316, 326-479):
these read the layer cut model, the layout and its database (fluid materials, units), and the settings. -/
structure Gens (L F D C : Type) where
  cut : L → CutS F → D
  grid : L → Settings F → Option C
  prism : L → Settings F → D → C

variable {L F D C : Type} [DecidableEq F]

/-- The collection of models (src/collection/EModelCollection.cpp:39-49), the layer cut model apart -/
structure St (F D C : Type) where
  cutM : Option (CutS F × D)
  models : Cache F C

/-- `ExtractLayerCutModel` (src/design/ELayoutView.cpp:328-338, src/model/geometry/ELayerCutModel.h:111) -/
def extractCut (G : Gens L F D C) (l : L) (st : St F D C) (s : CutS F) : St F D C × (CutS F × D) :=
  match st.cutM with
  | some m => if m.1.eq s then (st, m) else (⟨some (s, G.cut l s), st.models⟩, (s, G.cut l s))
  | none => (⟨some (s, G.cut l s), st.models⟩, (s, G.cut l s))

/-- `GenerateThermalModel` (src/extraction/thermal/EThermalModelExtraction.cpp:22-41, 183-188, 318-323) -/
def generate (G : Gens L F D C) (l : L) (st : St F D C) (s : Settings F) : St F D C × Option C :=
  match s with
  | .grid .. => (st, G.grid l s)
  | .prism _ _ _ cut =>
    let r := extractCut G l st cut
    (r.1, some (G.prism l s r.2.2))

/-- the second half of `ExtractThermalModel` (src/design/ELayoutView.cpp:349-350) -/
def rebuild (G : Gens L F D C) (l : L) (st : St F D C) (s : Settings F) : St F D C × Option (Extract.Model F C) :=
  let r := generate G l st s
  let c := addModel r.1.models s.modelType (r.2.map fun x => ⟨s, x⟩)
  (⟨r.1.cutM, c⟩, UMap.find? c s.modelType)

/-- `ExtractThermalModel` (src/design/ELayoutView.cpp:340-351) -/
def extractThermal (G : Gens L F D C) (l : L) (st : St F D C) (s : Settings F) : St F D C × Option (Extract.Model F C) :=
  match UMap.find? st.models s.modelType with
  | some m => if !s.base.forceRebuild && m.settings.eq s then (st, some m) else rebuild G l st s
  | none => rebuild G l st s

/-- The two kinds of calls -/
inductive Call (F : Type)
  | cut (s : CutS F)
  | thermal (s : Settings F)

/-- a call -/
def step (G : Gens L F D C) (st : St F D C) (e : L × Call F) : St F D C :=
  match e.2 with
  | .cut s => (extractCut G e.1 st s).1
  | .thermal s => (extractThermal G e.1 st s).1

/-- A history from a new layout on: the layout may be anything else at each call. -/
def after (G : Gens L F D C) (h : List (L × Call F)) : St F D C := h.foldl (step G) ⟨none, []⟩

end Ecad.Cache2
