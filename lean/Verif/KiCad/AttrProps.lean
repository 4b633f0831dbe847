import Verif.KiCad.BoardProps
/-!
C72: repeated attributes of a stackup layer.

The specification only looks at the texts of the attributes: for thickness and material the last one counts, for the type the last one that is known.
-/
namespace Ecad.KiCad.Attr

variable {K : Type} [Field K]

/-- the texts of the attributes with a key -/
def texts (key : String) (as : List Tree) : List (List Char) :=
  as.filterMap fun a => if a.value = key.toList then a.branches.head?.map Tree.value else none

/-- what the texts of layer types mean; other texts mean nothing -/
def meaning (s : List Char) : Option LType :=
  if s = "copper".toList then some .conducting
  else if s ∈ ["Top Silk Screen", "Bottom Silk Screen", "Top Solder Paste", "Bottom Solder Paste", "Top Solder Mask", "Bottom Solder Mask", "core",
    "mixed"].map String.toList then some .other
  else none

theorem setType_meaning (t : LType) (s : List Char) : setType t s = (meaning s).getD t := by
  unfold setType meaning
  by_cases hc : s = "copper".toList
  · subst hc
    rw [if_neg (by decide), if_pos rfl, if_pos rfl]
    rfl
  · simp only [if_neg hc, List.map_cons, List.map_nil, List.mem_cons, List.not_mem_nil, or_false]
    generalize "Top Silk Screen".toList = s0
    generalize "Bottom Silk Screen".toList = s1
    generalize "Top Solder Paste".toList = s2
    generalize "Bottom Solder Paste".toList = s3
    generalize "Top Solder Mask".toList = s4
    generalize "Bottom Solder Mask".toList = s5
    generalize "core".toList = s6
    generalize "mixed".toList = s7
    split_ifs <;> first | rfl | (exfalso; tauto)

theorem texts_cons (key : String) (a : Tree) (as : List Tree) :
    texts key (a :: as) = (if a.value = key.toList then a.branches.head?.map Tree.value else none).toList ++ texts key as := by
  unfold texts
  rw [List.filterMap_cons]
  cases (if a.value = key.toList then a.branches.head?.map Tree.value else none) <;> rfl

theorem last_step {A : Type} (o : Option A) (l : List A) (d : A) : ((o.toList ++ l).getLast?).getD d = l.getLast?.getD (o.getD d) := by
  cases o with
  | none => rfl
  | some a => rw [Option.toList_some, List.singleton_append, List.getLast?_cons]; rfl

/-- **C72**: a stackup layer whose attributes have values keeps its id, gets the last thickness and the last material named, and the last type
named that is known; what is not named stays as it was. -/
theorem c72_repeated (cv : Conv K) (as : List Tree) (h : ∀ a ∈ as, a.branches ≠ []) : ∀ l : KLayer K,
    layerAttrs cv l as = .ok
      { id := l.id
        type := (((texts "type" as).filterMap meaning).getLast?).getD l.type
        thickness := (((texts "thickness" as).map cv.num).getLast?).getD l.thickness
        material := (((texts "material" as).map cv.word).getLast?).getD l.material } := by
  induction as with
  | nil => intro l; rfl
  | cons a as ih =>
    intro l
    obtain ⟨v, vs, hv⟩ := List.exists_cons_of_ne_nil (h a List.mem_cons_self)
    have hfr : front a.branches = .ok v.value := by rw [hv]; rfl
    have hhd : a.branches.head?.map Tree.value = some v.value := by rw [hv]; rfl
    have step : layerAttr cv l a = .ok
        { id := l.id
          type := (((if a.value = "type".toList then a.branches.head?.map Tree.value else none).bind meaning)).getD l.type
          thickness := ((if a.value = "thickness".toList then a.branches.head?.map Tree.value else none).map cv.num).getD l.thickness
          material := ((if a.value = "material".toList then a.branches.head?.map Tree.value else none).map cv.word).getD l.material } := by
      rw [hhd, layerAttr, hfr]
      by_cases h1 : a.value = "type".toList
      · rw [if_pos h1, if_pos h1, if_neg (by rw [h1]; decide), if_neg (by rw [h1]; decide), Res.bind_ok, setType_meaning]
        rfl
      · rw [if_neg h1, if_neg h1]
        by_cases h2 : a.value = "thickness".toList
        · rw [if_pos h2, if_pos h2, if_neg (by rw [h2]; decide), Res.bind_ok]
          rfl
        · rw [if_neg h2, if_neg h2]
          by_cases h3 : a.value = "material".toList
          · rw [if_pos h3, if_pos h3, Res.bind_ok]
            rfl
          · rw [if_neg h3, if_neg h3]
            split_ifs
            · rw [Res.bind_ok]; rfl
            · rfl
    rw [layerAttrs, step, Res.bind_ok, ih fun b hb => h b (List.mem_cons_of_mem _ hb), texts_cons, texts_cons, texts_cons, List.filterMap_append,
      List.map_append, List.map_append]
    have e1 : ∀ o : Option (List Char), o.toList.filterMap meaning = (o.bind meaning).toList := by
      intro o
      cases o with
      | none => rfl
      | some s =>
        rw [Option.toList_some, Option.bind_some, List.filterMap_cons]
        cases meaning s <;> rfl
    have e2 : ∀ {B : Type} (f : List Char → B) (o : Option (List Char)), o.toList.map f = (o.map f).toList := by
      intro B f o
      cases o <;> rfl
    rw [e1, e2, e2, last_step, last_step, last_step]

/-- a layer of copper named a dielectric of an unknown kind afterwards stays conducting; its second thickness counts -/
example : texts "thickness" [.mk "type".toList [.mk "copper".toList []], .mk "thickness".toList [.mk "1".toList []],
      .mk "type".toList [.mk "prepreg".toList []], .mk "thickness".toList [.mk "2".toList []]] = ["1".toList, "2".toList] ∧
    (["copper".toList, "prepreg".toList].filterMap meaning) = [.conducting] := by
  constructor <;> decide +kernel

end Ecad.KiCad.Attr
