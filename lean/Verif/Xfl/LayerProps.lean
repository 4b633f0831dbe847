import Verif.Xfl.Model
import Verif.Naming.Lemmas
import Mathlib.Tactic.Ring
import Mathlib.Tactic.NormNum
import Mathlib.Algebra.Order.Ring.Rat
import Mathlib.Algebra.Field.Rat
import Mathlib.Algebra.BigOperators.Group.List.Basic
/-!
Layers and materials of imported XFL files (C85).
-/
namespace Ecad.Xfl

variable {K : Type} [Field K]

/-- total thickness of layers -/
def total (xs : List (XLayer K)) : K := (xs.map XLayer.thickness).sum

/-- number of layers that are not dielectric -/
def metals (xs : List (XLayer K)) : Nat := xs.countP fun x => x.type ≠ 'D'

/-- the material of the database for a material name of the file, or the default -/
def matOr (mats : List (String × String)) (name dflt : String) : String :=
  match UMap.find? mats name with
  | some n => n
  | none => dflt

theorem importLayers_append (mats : List (String × String)) (scale : K) (xs : List (XLayer K)) (x : XLayer K) :
    importLayers mats scale (xs ++ [x]) = layerStep mats scale (importLayers mats scale xs) x := by
  simp [importLayers]

/-- the loop variables after the layers `xs` -/
theorem layer_vars (mats : List (String × String)) (scale : K) (xs : List (XLayer K)) :
    (importLayers mats scale xs).id = (xs.length : Int) - 1 ∧
    (importLayers mats scale xs).xflLayerId = (xs.length : Int) + 1 ∧
    (importLayers mats scale xs).xflMetalId = (metals xs : Int) + 1 ∧
    (importLayers mats scale xs).elevation = - total xs ∧
    (importLayers mats scale xs).layers.length = xs.length := by
  induction xs using List.reverseRecOn with
  | nil => simp [importLayers, metals, total]
  | append_singleton xs x ih =>
    obtain ⟨h1, h2, h3, h4, h5⟩ := ih
    rw [importLayers_append]
    simp only [layerStep, h1, h2, h3, h4]
    refine ⟨?_, ?_, ?_, ?_, ?_⟩
    · simp
    · simp
    · by_cases h : x.type = 'D'
      · simp [h, metals]
      · simp [h, metals]
    · simp [total]; ring
    · simp [h5]

/-- C85: the imported stack has the layers of the file in order, with their names, kinds and scaled
thicknesses, the first at elevation 0 and each below the previous one without a gap, and with the
materials of the file or the default ones. -/
theorem c85_stack (mats : List (String × String)) (scale : K) (xs : List (XLayer K)) :
    (importLayers mats scale xs).layers.length = xs.length ∧
    ∀ (i : Nat) (x : XLayer K), xs[i]? = some x →
      ∃ y, (importLayers mats scale xs).layers[i]? = some y ∧ y.name = x.name ∧ (y.dielectric = true ↔ x.type = 'D') ∧
        y.thickness = x.thickness * scale ∧ y.elevation = - (total (xs.take i) * scale) ∧
        y.cmat = matOr mats x.cmat "copper" ∧ y.dmat = matOr mats x.dmat "silicon" := by
  refine ⟨(layer_vars mats scale xs).2.2.2.2, ?_⟩
  induction xs using List.reverseRecOn with
  | nil => simp
  | append_singleton xs z ih =>
    intro i x hi
    have hlen := (layer_vars mats scale xs).2.2.2.2
    have hel := (layer_vars mats scale xs).2.2.2.1
    rw [importLayers_append]
    simp only [layerStep]
    by_cases hlt : i < xs.length
    · rw [List.getElem?_append_left hlt] at hi
      obtain ⟨y, hy, hrest⟩ := ih i x hi
      refine ⟨y, ?_, ?_⟩
      · rw [List.getElem?_append_left (by omega)]; exact hy
      · rw [List.take_append_of_le_length (by omega)]; exact hrest
    · have hieq : i = xs.length := by
        have := (List.getElem?_eq_some_iff.1 hi).1
        simp at this; omega
      subst hieq
      simp only [List.getElem?_concat_length, Option.some.injEq] at hi
      subst hi
      refine ⟨_, by rw [← hlen]; exact List.getElem?_concat_length, rfl, by simp, rfl, ?_, ?_, ?_⟩
      · simp [hel]
      · simp only [matOr, defaultConductingMat]; cases UMap.find? mats z.cmat <;> rfl
      · simp only [matOr, defaultDielectricMat]; cases UMap.find? mats z.dmat <;> rfl

/-- consecutive layers touch -/
theorem c85_touch (mats : List (String × String)) (scale : K) (xs : List (XLayer K)) (i : Nat) (y y' : SLayer K)
    (h : (importLayers mats scale xs).layers[i]? = some y) (h' : (importLayers mats scale xs).layers[i + 1]? = some y') :
    y'.elevation = y.elevation - y.thickness := by
  have hlen := (layer_vars mats scale xs).2.2.2.2
  have h1 := (List.getElem?_eq_some_iff.1 h').1
  obtain ⟨x, hx⟩ : ∃ x, xs[i]? = some x := ⟨_, List.getElem?_eq_getElem (by omega)⟩
  obtain ⟨x', hx'⟩ : ∃ x, xs[i + 1]? = some x := ⟨_, List.getElem?_eq_getElem (by omega)⟩
  obtain ⟨z, hz, _, _, ht, he, _⟩ := (c85_stack mats scale xs).2 i x hx
  obtain ⟨z', hz', _, _, _, he', _⟩ := (c85_stack mats scale xs).2 (i + 1) x' hx'
  rw [h] at hz; rw [h'] at hz'
  obtain rfl := Option.some.inj hz
  obtain rfl := Option.some.inj hz'
  rw [he', he, ht]
  have : xs.take (i + 1) = xs.take i ++ [x] := by
    rw [List.take_add_one, hx]; rfl
  rw [this]
  simp [total]; ring

/-- C85: metal number `k` of the file is the layer that has `k - 1` metal layers above it and is not
dielectric, and there are no other metal numbers; layer number `k` is the `k`-th layer. -/
theorem c85_metal (mats : List (String × String)) (scale : K) (xs : List (XLayer K)) (k l : Int) :
    (UMap.find? (importLayers mats scale xs).metalMap k = some l ↔
      ∃ (i : Nat) (x : XLayer K), l = i ∧ xs[i]? = some x ∧ x.type ≠ 'D' ∧ k = metals (xs.take i) + 1) ∧
    (UMap.find? (importLayers mats scale xs).layerMap k = some l ↔ l = k - 1 ∧ 0 ≤ l ∧ l < xs.length) := by
  induction xs using List.reverseRecOn generalizing k l with
  | nil => simp [importLayers, UMap.find?]
  | append_singleton xs z ih =>
    obtain ⟨h1, h2, h3, h4, h5⟩ := layer_vars mats scale xs
    rw [importLayers_append]
    simp only [layerStep, h1, h2, h3]
    have hmono : ∀ i, metals (xs.take i) ≤ metals xs := fun i => (List.take_sublist i xs).countP_le
    have hstrict : ∀ (i : Nat) (x : XLayer K), xs[i]? = some x → x.type ≠ 'D' → metals (xs.take i) + 1 ≤ metals xs := by
      intro i x hx hD
      have : xs.take (i + 1) = xs.take i ++ [x] := by rw [List.take_add_one, hx]; rfl
      have h6 := hmono (i + 1)
      rw [this] at h6
      simpa [metals, hD] using h6
    constructor
    · have hold : (∃ (i : Nat) (x : XLayer K), l = i ∧ xs[i]? = some x ∧ x.type ≠ 'D' ∧ k = metals (xs.take i) + 1) ↔
          ∃ (i : Nat) (x : XLayer K), i < xs.length ∧ l = i ∧ (xs ++ [z])[i]? = some x ∧ x.type ≠ 'D' ∧ k = metals ((xs ++ [z]).take i) + 1 := by
        constructor
        · rintro ⟨i, x, a, b, c, d⟩
          have hlt := (List.getElem?_eq_some_iff.1 b).1
          exact ⟨i, x, hlt, a, by rw [List.getElem?_append_left hlt]; exact b, c, by rw [List.take_append_of_le_length (by omega)]; exact d⟩
        · rintro ⟨i, x, hlt, a, b, c, d⟩
          rw [List.getElem?_append_left hlt] at b
          rw [List.take_append_of_le_length (by omega)] at d
          exact ⟨i, x, a, b, c, d⟩
      by_cases hD : z.type = 'D'
      · simp only [hD, beq_self_eq_true, Bool.not_true, Bool.false_eq_true, if_false]
        rw [(ih k l).1, hold]
        constructor
        · rintro ⟨i, x, _, h⟩; exact ⟨i, x, h⟩
        · rintro ⟨i, x, a, b, c, d⟩
          refine ⟨i, x, ?_, a, b, c, d⟩
          by_contra hge
          have hieq : i = xs.length := by
            have := (List.getElem?_eq_some_iff.1 b).1
            simp at this; omega
          subst hieq
          simp only [List.getElem?_concat_length, Option.some.injEq] at b
          exact c (b ▸ hD)
      · have hD' : (z.type == 'D') = false := by simpa using hD
        simp only [hD', Bool.not_false, if_true]
        have hno : UMap.count (importLayers mats scale xs).metalMap ((metals xs : Int) + 1) = false := by
          rw [UMap.count_eq_false_iff, ← UMap.find?_eq_none_iff]
          by_contra hcon
          obtain ⟨v, hv⟩ := Option.ne_none_iff_exists'.1 hcon
          obtain ⟨i, x, _, hx, hc, hk⟩ := (ih _ v).1.1 hv
          have := hstrict i x hx hc
          omega
        simp only [UMap.emplace, hno, Bool.false_eq_true, if_false, UMap.find?_append]
        have hone : UMap.find? [((metals xs : Int) + 1, (xs.length : Int) - 1 + 1)] k =
            if (metals xs : Int) + 1 = k then some ((xs.length : Int)) else none := by
          rw [UMap.find?_cons]; simp [UMap.find?]
        rw [hone, Option.or_eq_some_iff, (ih k l).1, hold]
        constructor
        · rintro (⟨i, x, _, h⟩ | ⟨_, h⟩)
          · exact ⟨i, x, h⟩
          · split at h
            · next hk =>
              refine ⟨xs.length, z, (Option.some.inj h).symm, List.getElem?_concat_length, hD, ?_⟩
              simp [← hk]
            · simp at h
        · rintro ⟨i, x, a, b, c, d⟩
          by_cases hlt : i < xs.length
          · exact Or.inl ⟨i, x, hlt, a, b, c, d⟩
          · have hieq : i = xs.length := by
              have := (List.getElem?_eq_some_iff.1 b).1
              simp at this; omega
            subst hieq
            right
            simp only [List.take_left'] at d
            refine ⟨?_, by rw [if_pos d.symm, a]⟩
            rw [d]
            rw [UMap.find?_eq_none_iff, ← UMap.count_eq_false_iff]; exact hno
    · have hno : UMap.count (importLayers mats scale xs).layerMap ((xs.length : Int) + 1) = false := by
        rw [UMap.count_eq_false_iff, ← UMap.find?_eq_none_iff]
        by_contra hcon
        obtain ⟨v, hv⟩ := Option.ne_none_iff_exists'.1 hcon
        have := (ih _ v).2.1 hv
        omega
      simp only [UMap.emplace, hno, Bool.false_eq_true, if_false, UMap.find?_append]
      have hone : UMap.find? [((xs.length : Int) + 1, (xs.length : Int) - 1 + 1)] k =
          if (xs.length : Int) + 1 = k then some ((xs.length : Int)) else none := by
        rw [UMap.find?_cons]; simp [UMap.find?]
      rw [hone, Option.or_eq_some_iff, (ih k l).2]
      simp only [List.length_append, List.length_cons, List.length_nil]
      constructor
      · rintro (h | ⟨_, h⟩)
        · omega
        · split at h
          · next hk =>
            have := Option.some.inj h
            omega
          · simp at h
      · intro h
        by_cases hlt : l < xs.length
        · left; omega
        · right
          have hl : l = xs.length := by omega
          refine ⟨?_, by rw [if_pos (by omega), hl]⟩
          have hk : k = (xs.length : Int) + 1 := by omega
          rw [hk]
          rw [UMap.find?_eq_none_iff, ← UMap.count_eq_false_iff]; exact hno

/-! ### materials -/

/-- importing materials keeps what is there -/
theorem importMats_keep (xs : List (XMat K)) (db : List (String × Mat K)) (m : List (String × String)) (n : String) (v : Mat K) (a b : String)
    (h : UMap.find? db n = some v) (h' : UMap.find? m a = some b) :
    UMap.find? (importMats db m xs).1 n = some v ∧ UMap.find? (importMats db m xs).2 a = some b := by
  induction xs generalizing db m with
  | nil => exact ⟨h, h'⟩
  | cons x xs ih =>
    simp only [importMats]
    split
    · exact ih db m h h'
    · refine ih _ _ ?_ ?_
      · simp only [UMap.emplace]
        split
        · exact h
        · rw [UMap.find?_append, h]; rfl
      · simp only [UMap.emplace]
        split
        · exact h'
        · rw [UMap.find?_append, h']; rfl

theorem importMats_keep_db (xs : List (XMat K)) (db : List (String × Mat K)) (m : List (String × String)) (n : String) (v : Mat K)
    (h : UMap.find? db n = some v) : UMap.find? (importMats db m xs).1 n = some v := by
  induction xs generalizing db m with
  | nil => exact h
  | cons x xs ih =>
    simp only [importMats]
    split
    · exact ih db m h
    · refine ih _ _ ?_
      simp only [UMap.emplace]
      split
      · exact h
      · rw [UMap.find?_append, h]; rfl

/-- C85: the first material of the file with a given name is put into the database with its four values,
under the name by which the layers and vias that use it refer to it; definitions that were there before are
kept. -/
theorem c85_materials (db : List (String × Mat K)) (xs ys : List (XMat K)) (x : XMat K) (hx : ∀ y ∈ xs, y.name ≠ x.name) :
    ∃ n, UMap.find? (importMats db [] (xs ++ x :: ys)).2 x.name = some n ∧
      UMap.find? (importMats db [] (xs ++ x :: ys)).1 n = some ⟨x.conductivity, x.permittivity, x.permeability, x.lossTangent⟩ ∧
      UMap.find? db n = none ∧
      ∀ k v, UMap.find? db k = some v → UMap.find? (importMats db [] (xs ++ x :: ys)).1 k = some v := by
  have main : ∀ (xs : List (XMat K)) (db : List (String × Mat K)) (m : List (String × String)), (∀ y ∈ xs, y.name ≠ x.name) →
      UMap.find? m x.name = none →
      ∃ n, UMap.find? (importMats db m (xs ++ x :: ys)).2 x.name = some n ∧
        UMap.find? (importMats db m (xs ++ x :: ys)).1 n = some ⟨x.conductivity, x.permittivity, x.permeability, x.lossTangent⟩ ∧
        UMap.find? db n = none := by
    intro xs
    induction xs with
    | nil =>
      intro db m _ hm
      have hfresh : UMap.count db (Naming.nextName (UMap.keys db) x.name) = false := by
        rw [UMap.count_eq_false_iff]; exact Naming.nextName_not_mem _ _
      have hmc : UMap.count m x.name = false := by
        rw [UMap.count_eq_false_iff, ← UMap.find?_eq_none_iff]; exact hm
      have hdb : UMap.find? db (Naming.nextName (UMap.keys db) x.name) = none := by
        rw [UMap.find?_eq_none_iff, ← UMap.count_eq_false_iff]; exact hfresh
      refine ⟨Naming.nextName (UMap.keys db) x.name, ?_⟩
      simp only [List.nil_append, importMats, hfresh, Bool.false_eq_true, if_false]
      have hk := importMats_keep ys (UMap.emplace db (Naming.nextName (UMap.keys db) x.name) ⟨x.conductivity, x.permittivity, x.permeability, x.lossTangent⟩).1
        (UMap.emplace m x.name (Naming.nextName (UMap.keys db) x.name)).1 (Naming.nextName (UMap.keys db) x.name) _ x.name _
        (by simp only [UMap.emplace, hfresh, Bool.false_eq_true, if_false, UMap.find?_append, hdb, Option.none_or]
            rw [UMap.find?_cons, if_pos rfl])
        (by simp only [UMap.emplace, hmc, Bool.false_eq_true, if_false, UMap.find?_append, hm, Option.none_or]
            rw [UMap.find?_cons, if_pos rfl])
      exact ⟨hk.2, hk.1, hdb⟩
    | cons z xs ih =>
      intro db m hx hm
      simp only [List.cons_append, importMats]
      split
      · exact ih db m (fun y hy => hx y (List.mem_cons_of_mem _ hy)) hm
      · have hz := hx z List.mem_cons_self
        obtain ⟨n, a, b, c⟩ := ih (UMap.emplace db (Naming.nextName (UMap.keys db) z.name) ⟨z.conductivity, z.permittivity, z.permeability, z.lossTangent⟩).1
          (UMap.emplace m z.name (Naming.nextName (UMap.keys db) z.name)).1 (fun y hy => hx y (List.mem_cons_of_mem _ hy)) (by
            simp only [UMap.emplace]
            split
            · exact hm
            · rw [UMap.find?_append, hm, UMap.find?_cons, if_neg hz]; rfl)
        refine ⟨n, a, b, ?_⟩
        by_contra hcon
        obtain ⟨v, hv⟩ := Option.ne_none_iff_exists'.1 hcon
        simp only [UMap.emplace] at c
        split at c
        · rw [hv] at c; exact absurd c (by simp)
        · rw [UMap.find?_append, hv] at c; exact absurd c (by simp)
  obtain ⟨n, a, b, c⟩ := main xs db [] hx (by simp [UMap.find?])
  exact ⟨n, a, b, c, fun k v h => importMats_keep_db _ _ _ _ _ h⟩

/-! ### examples -/

/-- two metal layers with a dielectric between them -/
def exLayers : List (XLayer ℚ) := [⟨"top", 2, 'S', "cu", "air"⟩, ⟨"core", 10, 'D', "", "fr4"⟩, ⟨"bot", 3, 'P', "gold", ""⟩]

example : (importLayers [("cu", "cu1"), ("fr4", "fr4")] 100 exLayers).layers =
    [⟨"top", false, 0, 200, "cu1", "silicon"⟩, ⟨"core", true, -200, 1000, "copper", "fr4"⟩, ⟨"bot", false, -1200, 300, "copper", "silicon"⟩] := by
  decide +kernel
example : (importLayers [] 100 exLayers).metalMap = [(1, 0), (2, 2)] := by decide +kernel

/-- two materials with the same name, one of which is in the database already -/
example : importMats (K := ℚ) [("cu", ⟨1, 1, 1, 1⟩)] [] [⟨"cu", 2, 3, 4, 5⟩, ⟨"cu", 6, 7, 8, 9⟩] =
    ([("cu", ⟨1, 1, 1, 1⟩), ("cu1", ⟨2, 3, 4, 5⟩), ("cu2", ⟨6, 7, 8, 9⟩)], [("cu", "cu1")]) := by decide +kernel

end Ecad.Xfl
