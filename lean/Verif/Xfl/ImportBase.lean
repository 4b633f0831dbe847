import Verif.Xfl.ImportModel
import Verif.Xfl.ParserFileProps
import Verif.Xfl.DefProps
import Verif.Xfl.ViaProps
import Verif.Xfl.ShapeProps
import Verif.Net.Props
/-!
What an XFL file lists, section by section, and that this is what the handlers are given.
-/
namespace Ecad.XflI
open Ecad.Xfl Ecad.XflP
open Shp (Aff Shape)

/-! ### specification: what a file lists -/

/-- the unit given last: whether it is inch -/
def inchOf (F : List PSec) : Option Bool :=
  (F.filterMap fun | .unit t => some (t.map Char.toLower == "inch".toList) | _ => none).getLast?

/-- the scale given last -/
def scaleOf (F : List PSec) : Option ℚ := (F.filterMap fun | .scale q => some q | _ => none).getLast?

/-- the outline given last -/
def boardOf (F : List PSec) : Option (PBoard ℚ) := (F.filterMap fun | .board g => g | _ => none).getLast?

/-- the layers of all layer sections, in order; materials, template shapes, padstacks, vias, nets, routes likewise -/
def layersOf (F : List PSec) : List (PLay ℚ) := F.flatMap fun | .layer l => l | _ => []
def materialsOf (F : List PSec) : List (PMat ℚ) := F.flatMap fun | .material l => l.map Prod.snd | _ => []
def templatesOf (F : List PSec) : List (Int × Geo ℚ) := F.flatMap fun | .shape l => l | _ => []
def padstacksOf (F : List PSec) : List (Int × List (PPad ℚ)) := F.flatMap fun | .padstack l => l | _ => []
def viasOf (F : List PSec) : List (PVia ℚ) := F.flatMap fun | .via l => l | _ => []
def partsOf (F : List PSec) : List (Str × List (PPin ℚ)) := F.flatMap fun | .part l => l.map fun x => (x.1, x.2.map Prod.snd) | _ => []
def netsOf (F : List PSec) : List (PNet ℚ) := F.flatMap fun | .net l => l.map NetText.net | _ => []
def routesOf (F : List PSec) : List (Str × List (PObj ℚ)) := F.flatMap fun | .route l => l.map fun x => (x.1, x.2.map Prod.snd) | _ => []

/-! ### the handlers -/

theorem getLast?_or {α : Type} (l : List α) (x : α) (o : Option α) : ((x :: l).getLast?).or o = (l.getLast?).or (some x) := by
  cases l with
  | nil => rfl
  | cons a l => simp [List.getLast?_cons]

/-- entries of one kind are put at the end of their list -/
theorem fold_list {α : Type} (f : α → Ev ℚ) (g : Db → List α → Db) (h0 : ∀ d, g d [] = d) (h1 : ∀ d a l, g (handle d (f a)) l = g d (a :: l))
    (l : List α) (d : Db) : (l.map f).foldl handle d = g d l := by
  induction l generalizing d with
  | nil => exact (h0 d).symm
  | cons a l ih => rw [List.map_cons, List.foldl_cons, ih, h1]

/-- what a file lists after what is already there -/
def addAll (d : Db) (F : List PSec) : Db where
  unit := (inchOf F).or d.unit
  scale := (scaleOf F).or d.scale
  board := (boardOf F).or d.board
  nets := d.nets ++ netsOf F
  vias := d.vias ++ viasOf F
  parts := d.parts ++ partsOf F
  layers := d.layers ++ layersOf F
  routes := d.routes ++ routesOf F
  materials := d.materials ++ materialsOf F
  padstacks := d.padstacks ++ padstacksOf F
  templates := d.templates ++ templatesOf F

theorem fold_sec (x : PSec) (F : List PSec) (d : Db) : addAll ((secEvs x).foldl handle d) F = addAll d (x :: F) := by
  cases x with
  | version a b => rfl
  | unit t =>
    simp only [secEvs, List.foldl_cons, List.foldl_nil, handle, addAll, inchOf, scaleOf, boardOf, netsOf, viasOf, partsOf, layersOf, routesOf,
      materialsOf, padstacksOf, templatesOf, List.filterMap_cons, List.flatMap_cons, List.nil_append, getLast?_or]
  | designType t => rfl
  | scale q =>
    simp only [secEvs, List.foldl_cons, List.foldl_nil, handle, addAll, inchOf, scaleOf, boardOf, netsOf, viasOf, partsOf, layersOf, routesOf,
      materialsOf, padstacksOf, templatesOf, List.filterMap_cons, List.flatMap_cons, List.nil_append, getLast?_or]
  | material l =>
    have : ((l.map fun x => Ev.material x.2).foldl handle d) = { d with materials := d.materials ++ l.map Prod.snd } :=
      fold_list (fun x : Bool × PMat ℚ => Ev.material x.2) (fun d l => { d with materials := d.materials ++ l.map Prod.snd }) (by simp) (by simp [handle]) l d
    simp only [secEvs, this, addAll, inchOf, scaleOf, boardOf, netsOf, viasOf, partsOf, layersOf, routesOf,
      materialsOf, padstacksOf, templatesOf, List.filterMap_cons, List.flatMap_cons, List.nil_append, List.append_assoc]
  | layer l =>
    have : ((l.map Ev.layer).foldl handle d) = { d with layers := d.layers ++ l } :=
      fold_list Ev.layer (fun d l => { d with layers := d.layers ++ l }) (by simp) (by simp [handle]) l d
    simp only [secEvs, this, addAll, inchOf, scaleOf, boardOf, netsOf, viasOf, partsOf, layersOf, routesOf,
      materialsOf, padstacksOf, templatesOf, List.filterMap_cons, List.flatMap_cons, List.nil_append, List.append_assoc]
  | shape l =>
    have : ((l.map Ev.shape).foldl handle d) = { d with templates := d.templates ++ l } :=
      fold_list Ev.shape (fun d l => { d with templates := d.templates ++ l }) (by simp) (by simp [handle]) l d
    simp only [secEvs, this, addAll, inchOf, scaleOf, boardOf, netsOf, viasOf, partsOf, layersOf, routesOf,
      materialsOf, padstacksOf, templatesOf, List.filterMap_cons, List.flatMap_cons, List.nil_append, List.append_assoc]
  | board g =>
    cases g with
    | none => rfl
    | some b =>
      simp only [secEvs, Option.map_some, Option.toList_some, List.foldl_cons, List.foldl_nil, handle, addAll, inchOf, scaleOf, boardOf, netsOf, viasOf,
        partsOf, layersOf, routesOf, materialsOf, padstacksOf, templatesOf, List.filterMap_cons, List.flatMap_cons, List.nil_append, getLast?_or]
  | padstack l =>
    have : ((l.map Ev.padstack).foldl handle d) = { d with padstacks := d.padstacks ++ l } :=
      fold_list Ev.padstack (fun d l => { d with padstacks := d.padstacks ++ l }) (by simp) (by simp [handle]) l d
    simp only [secEvs, this, addAll, inchOf, scaleOf, boardOf, netsOf, viasOf, partsOf, layersOf, routesOf,
      materialsOf, padstacksOf, templatesOf, List.filterMap_cons, List.flatMap_cons, List.nil_append, List.append_assoc]
  | via l =>
    have : ((l.map Ev.via).foldl handle d) = { d with vias := d.vias ++ l } :=
      fold_list Ev.via (fun d l => { d with vias := d.vias ++ l }) (by simp) (by simp [handle]) l d
    simp only [secEvs, this, addAll, inchOf, scaleOf, boardOf, netsOf, viasOf, partsOf, layersOf, routesOf,
      materialsOf, padstacksOf, templatesOf, List.filterMap_cons, List.flatMap_cons, List.nil_append, List.append_assoc]
  | part l =>
    have : ((l.map fun x => Ev.part (x.1, x.2.map Prod.snd)).foldl handle d) = { d with parts := d.parts ++ l.map fun x => (x.1, x.2.map Prod.snd) } :=
      fold_list (fun x : Str × List (Bool × PPin ℚ) => Ev.part (x.1, x.2.map Prod.snd))
        (fun d l => { d with parts := d.parts ++ l.map fun x => (x.1, x.2.map Prod.snd) }) (by simp) (by simp [handle]) l d
    simp only [secEvs, this, addAll, inchOf, scaleOf, boardOf, netsOf, viasOf, partsOf, layersOf, routesOf,
      materialsOf, padstacksOf, templatesOf, List.filterMap_cons, List.flatMap_cons, List.nil_append, List.append_assoc]
  | net l =>
    have : ((l.map fun x => Ev.net x.net).foldl handle d) = { d with nets := d.nets ++ l.map NetText.net } :=
      fold_list (fun x : NetText => Ev.net x.net) (fun d l => { d with nets := d.nets ++ l.map NetText.net }) (by simp) (by simp [handle]) l d
    simp only [secEvs, this, addAll, inchOf, scaleOf, boardOf, netsOf, viasOf, partsOf, layersOf, routesOf,
      materialsOf, padstacksOf, templatesOf, List.filterMap_cons, List.flatMap_cons, List.nil_append, List.append_assoc]
  | route l =>
    have : ((l.map fun x => Ev.route (x.1, x.2.map Prod.snd)).foldl handle d) = { d with routes := d.routes ++ l.map fun x => (x.1, x.2.map Prod.snd) } :=
      fold_list (fun x : Str × List (Extra × PObj ℚ) => Ev.route (x.1, x.2.map Prod.snd))
        (fun d l => { d with routes := d.routes ++ l.map fun x => (x.1, x.2.map Prod.snd) }) (by simp) (by simp [handle]) l d
    simp only [secEvs, this, addAll, inchOf, scaleOf, boardOf, netsOf, viasOf, partsOf, layersOf, routesOf,
      materialsOf, padstacksOf, templatesOf, List.filterMap_cons, List.flatMap_cons, List.nil_append, List.append_assoc]
  | other w l => rfl

theorem fold_all (F : List PSec) (d : Db) : (F.flatMap secEvs).foldl handle d = addAll d F := by
  induction F generalizing d with
  | nil => simp [addAll, inchOf, scaleOf, boardOf, netsOf, viasOf, partsOf, layersOf, routesOf, materialsOf, padstacksOf, templatesOf]
  | cons x F ih => rw [List.flatMap_cons, List.foldl_append, ih, fold_sec]

/-- everything a file lists -/
def dbOf (F : List PSec) : Db where
  unit := inchOf F
  scale := scaleOf F
  board := boardOf F
  nets := netsOf F
  vias := viasOf F
  parts := partsOf F
  layers := layersOf F
  routes := routesOf F
  materials := materialsOf F
  padstacks := padstacksOf F
  templates := templatesOf F

theorem addAll_empty (F : List PSec) : addAll {} F = dbOf F := by
  simp [addAll, dbOf]

variable (ang : ℚ → Int) (lib : Lib ℚ) (div : Nat) (R : Int → ℚ × ℚ)

/-- The import of a file of sections is that of what the sections list. -/
theorem create_file (F : List PSec) (hF : ∀ x ∈ F, WfSec x) (s g : Str) (hs : Writes true (F.flatMap secToks) s) (hg : Gap g) :
    create ang lib div R false (some (s ++ g)) =
      match inchOf F, scaleOf F with
      | some inch, some sc => (build ang lib div R (dbOf F) inch sc).bind fun r => .ok (some r)
      | _, _ => .ub := by
  unfold create
  simp only [Bool.false_eq_true, if_false, c107_file_partial F hF s g hs hg, fold_all, addAll_empty, Bool.not_true]
  rfl

end Ecad.XflI
