import Verif.Base.Res
import Mathlib.Data.List.Sort
import Mathlib.Algebra.Order.Group.Abs
import Mathlib.Algebra.Order.Field.Basic
/-!
The layer stackup of a chip thermal model (src/model/thermal/EChipThermalModel.cpp:53-169).

Numbers are elements of an ordered field.  `math::EQ(a, b, tol)` of the library is `|a - b| ≤ tol`.  The recursion of
`GetLayerHeightThickness` need not end; it is given fuel, and `none` means that it has not ended.  A set of names is a list without
duplicates; `order` is the order in which the set is walked through, any permutation.
-/
namespace Ecad.Ctm

variable {K : Type} [Field K] [LinearOrder K]

/-- `ECTMv1Layer` (src/model/thermal/EChipThermalModel.h:8-14) -/
structure Lay (K : Type) where
  name : String
  elev : K
  thick : K
  deriving DecidableEq, Repr

/-- `ECTMv1ViaLayer` (src/model/thermal/EChipThermalModel.h:21-25); elevation and thickness are not looked at -/
structure ViaLay where
  name : String
  top : String
  bot : String
  deriving DecidableEq, Repr

/-- the loop over the via layers (src/model/thermal/EChipThermalModel.cpp:80-90); `f` is the recursive call.  `&&` does not look at the
bottom layer if the top layer is not found. -/
def viaLoop (f : String → Option (Option (K × K))) (name : String) : List ViaLay → Option (Option (K × K))
  | [] => some none
  | v :: vs =>
    if name = v.name then
      match f v.top with
      | none => none
      | some none => viaLoop f name vs
      | some (some t) =>
        match f v.bot with
        | none => none
        | some none => viaLoop f name vs
        | some (some b) => some (some (t.1 - t.2, t.1 - t.2 - b.1))
    else viaLoop f name vs

/-- `GetLayerHeightThickness` (src/model/thermal/EChipThermalModel.cpp:69-92) -/
def resolve (metals : List (Lay K)) (vias : List ViaLay) : Nat → String → Option (Option (K × K))
  | 0, _ => none
  | n + 1, name =>
    match metals.find? fun m => name = m.name with
    | some m => some (some (m.elev, m.thick))
    | none => viaLoop (resolve metals vias n) name vias

/-- the loop over the tech layers (src/model/thermal/EChipThermalModel.cpp:113-125) -/
def collect (f : String → Option (Option (K × K))) : List String → Option (List (Lay K))
  | [] => some []
  | n :: ns =>
    match f n with
    | none => none
    | some none => collect f ns
    | some (some p) => (collect f ns).map fun ls => ⟨n, p.1, p.2⟩ :: ls

/-- the inner loop (src/model/thermal/EChipThermalModel.cpp:140-146): the layers merged with `cur`, and the rest -/
def takeSame (tol : K) (cur : Lay K) : List (Lay K) → List (Lay K) × List (Lay K)
  | [] => ([], [])
  | b :: bs => if |cur.elev - b.elev| ≤ tol then (b :: (takeSame tol b bs).1, (takeSame tol b bs).2) else ([], b :: bs)

/-- the outer loop (src/model/thermal/EChipThermalModel.cpp:133-149): the merged layers, each as first and others; the fuel is the number
of layers -/
def merge (tol : K) : Nat → List (Lay K) → List (Lay K × List (Lay K))
  | 0, _ => []
  | _ + 1, [] => []
  | n + 1, a :: rest => (a, (takeSame tol a rest).1) :: merge tol n (takeSame tol a rest).2

/-- a layer of the stackup and the names of the layers merged in it -/
structure SLay (K : Type) where
  name : String
  elev : K
  thick : K
  names : List String
  deriving DecidableEq, Repr

/-- `getName` (src/model/thermal/EChipThermalModel.cpp:150-158) -/
def joinNames (order : List String → List String) (names : List String) : String := String.intercalate "_" (order names)

/-- names of a group, as a set -/
def namesOf (g : Lay K × List (Lay K)) : List String := ((g.1 :: g.2).map Lay.name).dedup

/-- the last loop (src/model/thermal/EChipThermalModel.cpp:160-168) -/
def layersOf (order : List String → List String) : List (Lay K × List (Lay K)) → List (SLay K)
  | [] => []
  | [g] => [⟨joinNames order (namesOf g), g.1.elev, (g.2.map Lay.thick).foldl max g.1.thick, namesOf g⟩]
  | g :: g' :: gs => ⟨joinNames order (namesOf g), g.1.elev, g.1.elev - g'.1.elev, namesOf g⟩ :: layersOf order (g' :: gs)

/-- `BuildLayerStackup` (src/model/thermal/EChipThermalModel.cpp:108-169), tolerance `tol` (129) -/
def build (order : List String → List String) (tol : K) (metals : List (Lay K)) (vias : List ViaLay) (tech : List String) (fuel : Nat) :
    Option (List (SLay K)) :=
  (collect (resolve metals vias fuel) tech).map fun ls =>
    layersOf order (merge tol ls.length (ls.insertionSort fun a b => b.elev ≤ a.elev))

/-- `GetLastMatelLayerInStackup` (src/model/thermal/EChipThermalModel.cpp:53-67) -/
def lastMetal (metals : List (Lay K)) (st : List (SLay K)) : String :=
  match st.reverse.find? fun s => s.names.any fun n => metals.any fun m => m.name = n with
  | some s => s.name
  | none => ""

end Ecad.Ctm
