import Verif.Thermal.QueryModel
import Mathlib.Tactic.Linarith
import Mathlib.Tactic.NormNum
import Mathlib.Algebra.Order.Ring.Rat
import Mathlib.Algebra.BigOperators.Group.List.Basic
/-!
C37, C38, C66.
-/
namespace Ecad.Query
open Ecad.Thermal

variable {K : Type} [Field K] [LinearOrder K] [IsStrictOrderedRing K]

/-! ### C37 -/

/-- A stack listed from the top: every layer is thick and the next one begins where it ends. -/
def Contiguous : List (Lyr K) → Prop
  | [] => True
  | [a] => 0 < a.thickness
  | a :: b :: ls => 0 < a.thickness ∧ b.elevation = a.elevation - a.thickness ∧ Contiguous (b :: ls)

/-- the height lies in the layer, bottom included -/
def Inside (h : K) (l : Lyr K) : Prop := l.elevation - l.thickness ≤ h ∧ h < l.elevation

theorem contiguous_tail {a : Lyr K} {ls : List (Lyr K)} (h : Contiguous (a :: ls)) : Contiguous ls := by
  cases ls with
  | nil => trivial
  | cons b ls => exact h.2.2

theorem contiguous_pos {a : Lyr K} {ls : List (Lyr K)} (h : Contiguous (a :: ls)) : 0 < a.thickness := by
  cases ls with
  | nil => exact h
  | cons b ls => exact h.1

/-- every layer lies below the bottom of the first one -/
theorem below {a : Lyr K} {ls : List (Lyr K)} (h : Contiguous (a :: ls)) :
    ∀ l ∈ ls, l.elevation ≤ a.elevation - a.thickness := by
  induction ls generalizing a with
  | nil => simp
  | cons b ls ih =>
    intro l hl
    have h2 := h.2.1
    rcases List.mem_cons.1 hl with rfl | hl
    · exact le_of_eq h2
    · have := ih h.2.2 l hl
      have := contiguous_pos h.2.2
      linarith

theorem loop_inside {ls : List (Lyr K)} (hc : Contiguous ls) (h : K) (i j : Nat) (l : Lyr K)
    (hj : ls[j]? = some l) (hin : Inside h l) : nearestLoop h i ls = some (i + j) := by
  induction ls generalizing i j with
  | nil => simp at hj
  | cons a ls ih =>
    unfold nearestLoop
    cases j with
    | zero =>
      simp at hj; subst hj
      unfold Inside at hin
      rw [if_pos hin]; simp
    | succ j =>
      simp at hj
      have hb := below hc l (List.mem_of_getElem? hj)
      have : ¬ (a.elevation - a.thickness ≤ h ∧ h < a.elevation) := by
        rintro ⟨h1, _⟩; have := hin.2; linarith
      rw [if_neg this, ih (contiguous_tail hc) (i + 1) j hj]
      congr 1; omega

theorem loop_outside {ls : List (Lyr K)} (h : K) (i : Nat) (hout : ∀ l ∈ ls, ¬ Inside h l) :
    nearestLoop h i ls = none := by
  induction ls generalizing i with
  | nil => rfl
  | cons a ls ih =>
    unfold nearestLoop
    have := hout a (by simp)
    unfold Inside at this
    rw [if_neg this]
    exact ih (i + 1) fun l hl => hout l (by simp [hl])

/-- A height below the top of a contiguous stack is inside one of its layers or below the last one. -/
theorem inside_or_below {ls : List (Lyr K)} (hc : Contiguous ls) (h : K) (a b : Lyr K)
    (ha : ls.head? = some a) (hb : ls.getLast? = some b) (ht : h < a.elevation) :
    (∃ (j : Nat) (l : Lyr K), ls[j]? = some l ∧ Inside h l) ∨ h < b.elevation - b.thickness := by
  induction ls generalizing a with
  | nil => simp at ha
  | cons c ls ih =>
    simp at ha; subst ha
    by_cases hin : c.elevation - c.thickness ≤ h
    · exact .inl ⟨0, c, rfl, hin, ht⟩
    · cases ls with
      | nil =>
        simp at hb; subst hb
        exact .inr (not_le.1 hin)
      | cons d ls =>
        rw [List.getLast?_cons_cons] at hb
        rcases ih hc.2.2 d rfl hb (by rw [hc.2.1]; exact not_le.1 hin) with ⟨j, l, h1, h2⟩ | h1
        · exact .inl ⟨j + 1, l, by simpa using h1, h2⟩
        · exact .inr h1

/-- all layers are above the bottom of the last -/
theorem above_last {ls : List (Lyr K)} (hc : Contiguous ls) (b : Lyr K) (hb : ls.getLast? = some b) :
    ∀ l ∈ ls, b.elevation - b.thickness ≤ l.elevation - l.thickness := by
  induction ls with
  | nil => simp
  | cons c ls ih =>
    cases ls with
    | nil => simp at hb; subst hb; simp
    | cons d ls =>
      rw [List.getLast?_cons_cons] at hb
      intro l hl
      have ih := ih hc.2.2 hb
      rcases List.mem_cons.1 hl with rfl | hl
      · have := ih d (by simp)
        have := contiguous_pos hc.2.2
        have := hc.2.1
        linarith
      · exact ih l hl

/-- **C37** for stackup prism models: for every contiguous stack and height there is exactly one answer: the top
layer at or above the top of the stack, the bottom layer below the stack, else the layer containing the
height. -/
theorem c37_stackup (layers : List (Lyr K)) (hc : Contiguous layers) (h : K) (a b : Lyr K)
    (ha : layers.head? = some a) (hb : layers.getLast? = some b) :
    (a.elevation ≤ h → nearestLayerS layers h = .ok 0) ∧
    (h < b.elevation - b.thickness → nearestLayerS layers h = .ok (layers.length - 1)) ∧
    (∀ (j : Nat) (l : Lyr K), layers[j]? = some l → Inside h l → nearestLayerS layers h = .ok j) ∧
    (a.elevation ≤ h ∨ h < b.elevation - b.thickness ∨
      ∃ (j : Nat) (l : Lyr K), layers[j]? = some l ∧ Inside h l) := by
  obtain ⟨ls, rfl⟩ : ∃ ls, layers = a :: ls := by
    cases layers with
    | nil => simp at ha
    | cons c ls => simp at ha; subst ha; exact ⟨ls, rfl⟩
  have htop : ∀ l ∈ a :: ls, l.elevation ≤ a.elevation := by
    intro l hl
    rcases List.mem_cons.1 hl with rfl | hl
    · exact le_refl _
    · have := below hc l hl; have := contiguous_pos hc; linarith
  refine ⟨fun h1 => ?_, fun h1 => ?_, fun j l h1 h2 => ?_, ?_⟩
  · unfold nearestLayerS; simp only; rw [if_pos h1]
  · have hlast := above_last hc b hb
    have hpos : b.elevation ≤ a.elevation := htop b (List.mem_of_getLast? hb)
    have hbt : 0 < b.thickness := by
      clear h1 hlast hpos htop ha
      induction ls generalizing a with
      | nil => simp at hb; subst hb; exact hc
      | cons c ls ih => rw [List.getLast?_cons_cons] at hb; exact ih c hc.2.2 hb
    unfold nearestLayerS; simp only
    rw [if_neg (by rw [ge_iff_le, not_le]; linarith), loop_outside]
    · rfl
    · intro l hl hin
      have := hlast l hl; have := hin.1; linarith
  · have := htop l (List.mem_of_getElem? h1)
    unfold nearestLayerS; simp only
    rw [if_neg (by rw [ge_iff_le, not_le]; have := h2.2; linarith), loop_inside hc h 0 j l h1 h2]
    simp
  · by_cases hh : a.elevation ≤ h
    · exact .inl hh
    · rcases inside_or_below hc h a b ha hb (not_le.1 hh) with h1 | h1
      · exact .inr (.inr h1)
      · exact .inr (.inl h1)

/-- The two queries agree except at the height of the top of the stack. -/
theorem nearest_agree (layers : List (Lyr K)) (h : K) (a : Lyr K) (ha : layers.head? = some a)
    (hne : h ≠ a.elevation) : nearestLayer layers h = nearestLayerS layers h := by
  cases layers with
  | nil => rfl
  | cons c ls =>
    simp at ha; subst ha
    unfold nearestLayer nearestLayerS; simp only
    by_cases h1 : h > c.elevation
    · rw [if_pos h1, if_pos (le_of_lt h1)]
    · rw [if_neg h1, if_neg]
      intro h2; exact hne (le_antisymm (not_lt.1 h1) h2)

/-- **C37** for prism models, for every height other than that of the top of the stack. Missing: that height,
see `c37_top_refuted`. -/
theorem c37_prism_partial (layers : List (Lyr K)) (hc : Contiguous layers) (h : K) (a b : Lyr K)
    (ha : layers.head? = some a) (hb : layers.getLast? = some b) (hne : h ≠ a.elevation) :
    (a.elevation < h → nearestLayer layers h = .ok 0) ∧
    (h < b.elevation - b.thickness → nearestLayer layers h = .ok (layers.length - 1)) ∧
    (∀ (j : Nat) (l : Lyr K), layers[j]? = some l → Inside h l → nearestLayer layers h = .ok j) ∧
    (a.elevation < h ∨ h < b.elevation - b.thickness ∨
      ∃ (j : Nat) (l : Lyr K), layers[j]? = some l ∧ Inside h l) := by
  rw [nearest_agree layers h a ha hne]
  obtain ⟨h1, h2, h3, h4⟩ := c37_stackup layers hc h a b ha hb
  refine ⟨fun h5 => h1 (le_of_lt h5), h2, h3, ?_⟩
  rcases h4 with h4 | h4
  · exact .inl (lt_of_le_of_ne h4 (Ne.symm hne))
  · exact .inr h4

/-- **C37 is false of the code for prism models**: at the height of the top of any contiguous stack of two
or more layers the bottom layer is returned. -/
theorem c37_top_refuted (a b : Lyr K) (ls : List (Lyr K)) (hc : Contiguous (a :: b :: ls)) :
    nearestLayer (a :: b :: ls) a.elevation = .ok ((a :: b :: ls).length - 1) ∧
      nearestLayer (a :: b :: ls) a.elevation ≠ .ok 0 := by
  have : nearestLayer (a :: b :: ls) a.elevation = .ok ((a :: b :: ls).length - 1) := by
    unfold nearestLayer; simp only
    rw [if_neg (lt_irrefl _), loop_outside]
    · rfl
    · intro l hl hin
      have h2 := hin.2
      rcases List.mem_cons.1 hl with rfl | hl
      · exact absurd h2 (lt_irrefl _)
      · have := below hc l hl; have := contiguous_pos hc; linarith
  refine ⟨this, ?_⟩
  rw [this]
  simp

/-- Without layers both queries read the front of an empty vector. -/
theorem c37_empty (h : K) : nearestLayer ([] : List (Lyr K)) h = .ub ∧ nearestLayerS ([] : List (Lyr K)) h = .ub :=
  ⟨rfl, rfl⟩

/-! the layers of a layout -/

/-- the stackup layers of a layout as a stack -/
def asStack (l : List (Util.Slab K)) : List (Lyr K) :=
  (l.filter (·.stackup)).map fun y => ⟨y.elev, y.thick⟩

omit [LinearOrder K] [IsStrictOrderedRing K] in
theorem fold_heights (l : List (Util.Slab K)) (m : List (Int × (K × K)))
    (hd : (l.map (·.id)).Nodup) (hn : ∀ y ∈ l, UMap.find? m y.id = none) :
    (∀ y ∈ l, UMap.find? (l.foldl (fun m y => (UMap.emplace m y.id (y.elev, y.thick)).1) m) y.id =
      some (y.elev, y.thick)) ∧
    ∀ (k : Int), (∀ y ∈ l, y.id ≠ k) →
      UMap.find? (l.foldl (fun m y => (UMap.emplace m y.id (y.elev, y.thick)).1) m) k = UMap.find? m k := by
  induction l generalizing m with
  | nil => exact ⟨by simp, fun k _ => rfl⟩
  | cons a l ih =>
    rw [List.map_cons, List.nodup_cons] at hd
    have hne : ∀ y ∈ l, y.id ≠ a.id := by
      intro y hy he; exact hd.1 (List.mem_map.2 ⟨y, hy, he⟩)
    have key : ∀ k, UMap.find? (UMap.emplace m a.id (a.elev, a.thick)).1 k =
        if a.id = k then some (a.elev, a.thick) else UMap.find? m k := by
      intro k
      rw [UMap.find?_emplace']
      by_cases hk : a.id = k
      · subst hk; simp [hn a (by simp)]
      · simp [hk, Ne.symm hk]
    obtain ⟨i1, i2⟩ := ih (UMap.emplace m a.id (a.elev, a.thick)).1 hd.2 (by
      intro y hy
      rw [key, if_neg (Ne.symm (hne y hy))]
      exact hn y (by simp [hy]))
    rw [List.foldl_cons]
    refine ⟨?_, ?_⟩
    · intro y hy
      rcases List.mem_cons.1 hy with rfl | hy
      · rw [i2 _ hne, key, if_pos rfl]
      · exact i1 y hy
    · intro k hk
      rw [i2 k fun y hy => hk y (by simp [hy]), key, if_neg (hk a (by simp))]

omit [LinearOrder K] [IsStrictOrderedRing K] in
theorem layerHeight_eq (l : List (Util.Slab K)) (hd : ((l.filter (·.stackup)).map (·.id)).Nodup)
    (y : Util.Slab K) (hy : y ∈ l.filter (·.stackup)) : Util.layerHeight l y.id = some (y.elev, y.thick) :=
  (fold_heights (l.filter (·.stackup)) [] hd (fun _ _ => rfl)).1 y hy

/-- **C37** for layouts: with distinct layer ids and a contiguous stackup, the layer found is the one whose
extent, top included, contains the height; none is found exactly for heights above the stackup and not
above its bottom. -/
theorem c37_layout (l : List (Util.Slab K)) (hd : ((l.filter (·.stackup)).map (·.id)).Nodup)
    (hc : Contiguous (asStack l)) (h : K) :
    (∀ y, searchStackup l h = some y ↔ y ∈ l ∧ y.stackup = true ∧ y.elev - y.thick < h ∧ h ≤ y.elev) ∧
    (∀ a b, (asStack l).head? = some a → (asStack l).getLast? = some b →
      (searchStackup l h = none ↔ a.elevation < h ∨ h ≤ b.elevation - b.thickness)) := by
  have hP : ∀ y ∈ l.filter (·.stackup), heightIn h (Util.layerHeight l y.id) = decide (y.elev - y.thick < h ∧ h ≤ y.elev) := by
    intro y hy; rw [layerHeight_eq l hd y hy]; rfl
  have hs : searchStackup l h = (l.filter (·.stackup)).find? fun y => decide (y.elev - y.thick < h ∧ h ≤ y.elev) := by
    unfold searchStackup Util.stackupLayers
    generalize l.filter (·.stackup) = s at hP
    induction s with
    | nil => rfl
    | cons a s ih =>
      rw [List.find?_cons, List.find?_cons, hP a (by simp), ih fun y hy => hP y (by simp [hy])]
  unfold asStack at hc ⊢
  rw [hs]
  generalize hgs : l.filter (·.stackup) = s at hc
  have hmem : ∀ y, y ∈ s ↔ y ∈ l ∧ y.stackup = true := by intro y; rw [← hgs, List.mem_filter]
  clear hs hP hd hgs
  constructor
  · intro y
    rw [← and_assoc, ← hmem]
    clear hmem
    induction s with
    | nil => simp
    | cons c s ih =>
      have ih := ih (contiguous_tail hc)
      have hb := below hc
      rw [List.find?_cons]
      by_cases hin : c.elev - c.thick < h ∧ h ≤ c.elev
      · rw [decide_eq_true hin]
        simp only [Option.some.injEq]
        constructor
        · rintro rfl; exact ⟨by simp, hin⟩
        · rintro ⟨hy, h1⟩
          rcases List.mem_cons.1 hy with rfl | hy
          · rfl
          · have := hb ⟨y.elev, y.thick⟩ (List.mem_map.2 ⟨y, hy, rfl⟩)
            simp only at this
            linarith [hin.1, h1.2]
      · rw [decide_eq_false hin]
        simp only
        rw [ih]
        constructor
        · rintro ⟨hy, h1⟩; exact ⟨by simp [hy], h1⟩
        · rintro ⟨hy, h1⟩
          rcases List.mem_cons.1 hy with rfl | hy
          · exact absurd h1 hin
          · exact ⟨hy, h1⟩
  · clear hmem
    induction s with
    | nil => intro a b ha; simp at ha
    | cons c s ih =>
      intro a b ha hb
      simp at ha
      have hpos := contiguous_pos hc
      simp only at hpos
      rw [List.find?_cons]
      cases s with
      | nil =>
        simp at hb
        subst ha hb
        by_cases hin : c.elev - c.thick < h ∧ h ≤ c.elev
        · rw [decide_eq_true hin]
          simp only [reduceCtorEq, false_iff, not_or, not_lt, not_le]
          exact ⟨hin.2, hin.1⟩
        · rw [decide_eq_false hin]
          simp only [List.find?_nil, true_iff]
          rw [not_and_or, not_lt, not_le] at hin
          tauto
      | cons d s =>
        have hc2 := hc.2.1
        simp only at hc2
        rw [List.map_cons, List.map_cons, List.getLast?_cons_cons] at hb
        have ih := ih hc.2.2 ⟨d.elev, d.thick⟩ b (by simp) (by simpa using hb)
        subst ha
        simp only at ih ⊢
        have hlast : b.elevation - b.thickness ≤ d.elev - d.thick :=
          above_last (contiguous_tail hc) b (by simpa using hb) ⟨d.elev, d.thick⟩ (by simp)
        have hdpos : 0 < d.thick := contiguous_pos (contiguous_tail hc)
        by_cases hin : c.elev - c.thick < h ∧ h ≤ c.elev
        · rw [decide_eq_true hin]
          simp only [reduceCtorEq, false_iff, not_or, not_lt, not_le]
          exact ⟨hin.2, by linarith [hin.1]⟩
        · rw [decide_eq_false hin]
          simp only
          rw [ih]
          rw [not_and_or, not_lt, not_le] at hin
          constructor
          · rintro (h1 | h1)
            · rcases hin with h2 | h2
              · rw [hc2] at h1; exact absurd (lt_of_le_of_lt h2 h1) (lt_irrefl _)
              · exact .inl h2
            · exact .inr h1
          · rintro (h1 | h1)
            · left; rw [hc2]; linarith
            · exact .inr h1

/-- example: a stack of three layers -/
example : Contiguous ([⟨0, 2⟩, ⟨-2, 1⟩, ⟨-3, 4⟩] : List (Lyr ℚ)) ∧
    nearestLayer ([⟨0, 2⟩, ⟨-2, 1⟩, ⟨-3, 4⟩] : List (Lyr ℚ)) (-2) = .ok 0 ∧
    nearestLayer ([⟨0, 2⟩, ⟨-2, 1⟩, ⟨-3, 4⟩] : List (Lyr ℚ)) (-5/2) = .ok 1 ∧
    nearestLayer ([⟨0, 2⟩, ⟨-2, 1⟩, ⟨-3, 4⟩] : List (Lyr ℚ)) 0 = .ok 2 ∧
    nearestLayerS ([⟨0, 2⟩, ⟨-2, 1⟩, ⟨-3, 4⟩] : List (Lyr ℚ)) 0 = .ok 0 := by
  refine ⟨by norm_num [Contiguous], ?_, ?_, ?_, ?_⟩ <;>
    norm_num [nearestLayer, nearestLayerS, nearestLoop]

/-- example: a via layer between is ignored, the top belongs to a layer, the bottom does not -/
example :
    let l : List (Util.Slab ℚ) := [⟨"top", 0, true, 0, 2⟩, ⟨"via", 1, false, 0, 9⟩, ⟨"bot", 2, true, -2, 1⟩]
    Contiguous (asStack l) ∧ ((l.filter (·.stackup)).map (·.id)).Nodup ∧
    (searchStackup l (-2)).map (·.id) = some 2 ∧ (searchStackup l (-3)).map (·.id) = none := by
  refine ⟨by norm_num [Contiguous, asStack], by decide +kernel, by decide +kernel, by decide +kernel⟩

/-! ### C38 -/

theorem mem_setInsert (a b : Nat) (l : List Nat) : b ∈ setInsert a l ↔ b = a ∨ b ∈ l := by
  induction l with
  | nil => simp [setInsert]
  | cons c l ih =>
    rw [setInsert]
    split_ifs with h1 h2
    · simp
    · rw [List.mem_cons, ih, List.mem_cons]; tauto
    · have : a = c := by omega
      subst this; simp

theorem sorted_setInsert (a : Nat) (l : List Nat) (h : l.Pairwise (· < ·)) : (setInsert a l).Pairwise (· < ·) := by
  induction l with
  | nil => simp [setInsert]
  | cons c l ih =>
    rw [List.pairwise_cons] at h
    rw [setInsert]
    split_ifs with h1 h2
    · rw [List.pairwise_cons]
      refine ⟨?_, List.pairwise_cons.2 h⟩
      intro b hb
      rcases List.mem_cons.1 hb with rfl | hb
      · exact h1
      · exact lt_trans h1 (h.1 b hb)
    · rw [List.pairwise_cons]
      refine ⟨?_, ih h.2⟩
      intro b hb
      rcases (mem_setInsert a b l).1 hb with rfl | hb
      · exact h2
      · exact h.1 b hb
    · exact List.pairwise_cons.2 h

theorem fold_setInsert (is s : List Nat) (h : s.Pairwise (· < ·)) :
    (is.foldl (fun s i => setInsert i s) s).Pairwise (· < ·) ∧
    ∀ b, b ∈ is.foldl (fun s i => setInsert i s) s ↔ b ∈ is ∨ b ∈ s := by
  induction is generalizing s with
  | nil => simp [h]
  | cons i is ih =>
    obtain ⟨h1, h2⟩ := ih (setInsert i s) (sorted_setInsert i s h)
    rw [List.foldl_cons]
    refine ⟨h1, fun b => ?_⟩
    rw [h2, mem_setInsert, List.mem_cons]; tauto

theorem find_probeMap (ps : List Nat) : ∀ (i : Nat) (m : List (Nat × Nat)), ps.Nodup →
    (∀ p ∈ ps, UMap.find? m p = none) →
    (∀ k, UMap.find? (probeMap i m ps) k = if k ∈ ps then some (i + ps.idxOf k) else UMap.find? m k) := by
  induction ps with
  | nil => intro i m _ _ k; simp [probeMap]
  | cons p ps ih =>
    intro i m hd hn k
    rw [List.nodup_cons] at hd
    have hp : UMap.find? m p = none := hn p (by simp)
    have key : ∀ k, UMap.find? (UMap.emplace m p i).1 k = if p = k then some i else UMap.find? m k := by
      intro k
      rw [UMap.find?_emplace']
      by_cases hk : p = k
      · subst hk; simp [hp]
      · simp [hk, Ne.symm hk]
    rw [probeMap, ih (i + 1) _ hd.2]
    · by_cases hk : k = p
      · subst hk
        rw [if_neg hd.1, key, if_pos rfl, if_pos (by simp)]
        simp
      · have hk' : p ≠ k := Ne.symm hk
        by_cases hm : k ∈ ps
        · rw [if_pos hm, if_pos (by simp [hm]), List.idxOf_cons_ne _ hk']
          congr 1; omega
        · rw [if_neg hm, if_neg (by simp [hk, hm]), key, if_neg hk']
    · intro q hq
      rw [key, if_neg (by rintro rfl; exact hd.1 hq)]
      exact hn q (by simp [hq])

theorem lookups_ok (m : List (Nat × Nat)) (is : List Nat) (f : Nat → Nat)
    (h : ∀ i ∈ is, UMap.find? m i = some (f i)) : lookups m is = .ok (is.map f) := by
  induction is with
  | nil => rfl
  | cons i is ih =>
    rw [lookups, h i (by simp), ih fun j hj => h j (by simp [hj])]
    rfl

/-- **C38**, the reordering: for every list of requests, in any order and with repetitions, the probes are the
requested nodes, each once and ascending, and the place noted for a request is that of its node: values taken
at the probes and put in the noted places are the values of the requested nodes. -/
theorem c38_permutation (indices : List Nat) : ∃ probs perm,
    probsAndPermutation indices = .ok (probs, perm) ∧ probs.Pairwise (· < ·) ∧ (∀ i, i ∈ probs ↔ i ∈ indices) ∧
    perm.map (fun k => probs[k]?) = indices.map some ∧
    ∀ (V : Type) (x : Nat → V), perm.map (fun k => (probs.map x)[k]?) = indices.map fun i => some (x i) := by
  obtain ⟨h1, h2⟩ := fold_setInsert indices [] List.Pairwise.nil
  generalize hps : indices.foldl (fun s i => setInsert i s) [] = probs at h1 h2
  have hd : probs.Nodup := h1.imp (fun h => ne_of_lt h)
  have hl := lookups_ok (probeMap 0 [] probs) indices (fun k => probs.idxOf k) (by
    intro i hi
    rw [find_probeMap probs 0 [] hd (fun _ _ => rfl), if_pos ((h2 i).2 (.inl hi))]
    rw [Nat.zero_add])
  refine ⟨probs, indices.map fun k => probs.idxOf k, ?_, h1, fun i => by rw [h2]; simp, ?_, ?_⟩
  · unfold probsAndPermutation
    simp only
    rw [hps, hl]; rfl
  · rw [List.map_map]
    apply List.map_congr_left
    intro i hi
    have hm := (h2 i).2 (.inl hi)
    show probs[probs.idxOf i]? = some i
    rw [List.getElem?_eq_getElem (List.idxOf_lt_length_iff.2 hm), List.getElem_idxOf]
  · intro V x
    rw [List.map_map]
    apply List.map_congr_left
    intro i hi
    have hm := (h2 i).2 (.inl hi)
    show (probs.map x)[probs.idxOf i]? = some (x i)
    rw [List.getElem?_map, List.getElem?_eq_getElem (List.idxOf_lt_length_iff.2 hm), List.getElem_idxOf]
    rfl

omit [LinearOrder K] [IsStrictOrderedRing K] in
theorem readAll_ok (get : List K → Nat → Res K) (hget : ∀ (x : List K) (i : Nat) (v : K), x[i]? = some v → get x i = .ok v)
    (x : List K) (probs : List Nat) (h : ∀ p ∈ probs, p < x.length) :
    readAll get x probs = .ok (probs.map fun p => x.getD p 0) := by
  induction probs with
  | nil => rfl
  | cons p ps ih =>
    have hp := h p (by simp)
    rw [readAll, hget x p x[p] (List.getElem?_eq_getElem hp), ih fun q hq => h q (by simp [hq])]
    simp [List.getD, List.getElem?_eq_getElem hp]

omit [LinearOrder K] [IsStrictOrderedRing K] in
theorem readAll_fail (get : List K → Nat → Res K) (bad : Res (List K)) (x : List K)
    (hget : ∀ (i : Nat) (v : K), x[i]? = some v → get x i = .ok v)
    (hbad : ∀ (i : Nat), x.length ≤ i → ∀ f : K → Res (List K), (get x i).bind f = bad)
    (hb : ∀ f : List K → Res (List K), bad.bind f = bad)
    (probs : List Nat) (p : Nat) (hp : p ∈ probs) (hx : x.length ≤ p) : readAll get x probs = bad := by
  induction probs with
  | nil => simp at hp
  | cons q ps ih =>
    rw [readAll]
    by_cases hq : x.length ≤ q
    · exact hbad q hq _
    · have hq' := not_le.1 hq
      rw [hget q x[q] (List.getElem?_eq_getElem hq')]
      rcases List.mem_cons.1 hp with rfl | hp
      · exact absurd hx hq
      · rw [Res.bind_ok, ih hp, hb]

omit [LinearOrder K] [IsStrictOrderedRing K] in
/-- **C38**, the values reported: for every state and every list of requests of existing nodes the transient
sample holds the time and then the values of the requested nodes in the order of the requests, the static
report those values, and so does the output of the reduced model; a request for a node that does not exist is
undefined behaviour in the transient solver and an exception in the static one. -/
theorem c38_values (x : List K) (probs : List Nat) (t : K) :
    ((∀ p ∈ probs, p < x.length) →
      transientRow x probs t = .ok (t :: probs.map fun p => x.getD p 0) ∧
      staticRow x probs = .ok (probs.map fun p => x.getD p 0)) ∧
    (∀ p ∈ probs, x.length ≤ p → transientRow x probs t = .ub ∧ staticRow x probs = .exn) := by
  have hi : ∀ (x : List K) (i : Nat) (v : K), x[i]? = some v → Res.index x i = .ok v := by
    intro x i v h; unfold Res.index; rw [h]
  have ha : ∀ (x : List K) (i : Nat) (v : K), x[i]? = some v → Res.at_ x i = .ok v := by
    intro x i v h; unfold Res.at_; rw [h]
  refine ⟨fun h => ⟨?_, ?_⟩, fun p hp hx => ⟨?_, ?_⟩⟩
  · unfold transientRow; rw [readAll_ok _ hi x probs h]; rfl
  · exact readAll_ok _ ha x probs h
  · unfold transientRow
    rw [readAll_fail Res.index .ub x (hi x) (by
      intro i h f; unfold Res.index; rw [List.getElem?_eq_none h]; rfl) (fun f => rfl) probs p hp hx]
    rfl
  · exact readAll_fail Res.at_ .exn x (ha x) (by
      intro i h f; unfold Res.at_; rw [List.getElem?_eq_none h]; rfl) (fun f => rfl) probs p hp hx

omit [LinearOrder K] [IsStrictOrderedRing K] in
theorem sum_column (x : Nat → K) (ps : List Nat) : ∀ (i j : Nat),
    ((ps.zipIdx i).map fun p => if p.2 = i + j then 1 * x p.1 else 0).sum = (ps[j]?.map x).getD 0 := by
  induction ps with
  | nil => intro i j; simp
  | cons p ps ih =>
    intro i j
    rw [List.zipIdx_cons, List.map_cons, List.sum_cons]
    cases j with
    | zero =>
      have : ((ps.zipIdx (i + 1)).map fun p => if p.2 = i + 0 then 1 * x p.1 else 0).sum = 0 := by
        apply List.sum_eq_zero
        intro v hv
        obtain ⟨q, hq, rfl⟩ := List.mem_map.1 hv
        have := List.le_snd_of_mem_zipIdx hq
        rw [if_neg (by omega)]
      rw [this]; simp
    | succ j =>
      have := ih (i + 1) j
      rw [show i + 1 + j = i + (j + 1) by omega] at this
      rw [this]
      simp

omit [LinearOrder K] [IsStrictOrderedRing K] in
/-- **C38** for the reduced solver: the outputs are the values of the requested nodes in order; without
requests those of all nodes. -/
theorem c38_reduced (nodes : Nat) (probs : List Nat) (x : Nat → K) :
    outputs nodes probs x = if probs = [] then (List.range nodes).map x else probs.map x := by
  unfold outputs lCols lTriplets
  by_cases h : probs = []
  · subst h
    simp only [List.isEmpty_nil, if_true]
    apply List.map_congr_left
    intro j hj
    rw [List.mem_range] at hj
    rw [List.map_map]
    have := sum_column (fun i => x i) (List.range nodes) 0 j
    rw [List.getElem?_range hj] at this
    simp only [Option.map_some, Option.getD_some] at this
    rw [← this]
    congr 1
    have hz : (List.range nodes).zipIdx = (List.range nodes).map fun i => (i, i) := by
      apply List.ext_getElem <;> simp
    rw [hz, List.map_map]
    apply List.map_congr_left
    intro i _
    simp
  · have he : probs.isEmpty = false := by cases probs <;> simp_all
    rw [he, if_neg h]
    simp only [Bool.false_eq_true, if_false]
    apply List.ext_getElem
    · simp
    · intro j h1 h2
      simp only [List.length_map, List.length_range] at h1
      rw [List.getElem_map, List.getElem_range, List.getElem_map, List.map_map]
      have := sum_column x probs 0 j
      rw [List.getElem?_eq_getElem h1] at this
      simp only [Option.map_some, Option.getD_some, Nat.zero_add] at this
      rw [← this]
      rfl

/-- example: unordered requests with a repetition -/
example : probsAndPermutation [7, 2, 7, 5] = .ok ([2, 5, 7], [2, 0, 2, 1]) ∧
    transientRow [(10 : ℚ), 11, 12, 13] [3, 0, 3] 1 = .ok [1, 13, 10, 13] ∧
    transientRow [(10 : ℚ), 11] [0, 2] 1 = .ub ∧ staticRow [(10 : ℚ), 11] [0, 2] = .exn ∧
    outputs 4 [3, 0, 3] (fun i => (i : ℚ) + 10) = [13, 10, 13] := by
  refine ⟨by decide +kernel, by decide +kernel, by decide +kernel, by decide +kernel, ?_⟩
  rw [c38_reduced, if_neg (by decide)]; norm_num

/-! ### C66 -/

theorem exists_min {A : Type} (f : A → Int) (l : List A) (h : l ≠ []) : ∃ e ∈ l, ∀ g ∈ l, f e ≤ f g := by
  induction l with
  | nil => exact absurd rfl h
  | cons a l ih =>
    by_cases hl : l = []
    · subst hl; exact ⟨a, by simp, by simp⟩
    · obtain ⟨e, he, hm⟩ := ih hl
      by_cases hc : f a ≤ f e
      · refine ⟨a, by simp, ?_⟩
        intro g hg
        rcases List.mem_cons.1 hg with rfl | hg
        · exact le_refl _
        · exact le_trans hc (hm g hg)
      · refine ⟨e, by simp [he], ?_⟩
        intro g hg
        rcases List.mem_cons.1 hg with rfl | hg
        · omega
        · exact hm g hg

/-- What the search tree of the library does: it yields one of the entries handed to it. -/
structure Picks (pick : List (Nat × Centre) → Option (Nat × Centre)) : Prop where
  some : ∀ (l : List (Nat × Centre)), l ≠ [] → ∃ e ∈ l, pick l = some e
  none : pick [] = none

/-- Prism `g` is a right answer for point `q` in layer `i`: it is number `j` of the layer, numbered after the
prisms of all layers before, and no prism of the layer has its centre nearer to `q`. -/
def Nearest (cs : List (List Centre)) (i : Nat) (q : Centre) (g : Nat) : Prop :=
  ∃ (l : List Centre) (j : Nat) (c : Centre), cs[i]? = some l ∧ l[j]? = some c ∧
    g = ((cs.take i).map List.length).sum + j ∧
    ∀ c' ∈ l, (c.x - q.x) ^ 2 + (c.y - q.y) ^ 2 ≤ (c'.x - q.x) ^ 2 + (c'.y - q.y) ^ 2

theorem nearest1_spec (pick : List (Nat × Centre) → Option (Nat × Centre)) (hp : Picks pick)
    (cs : List (List Centre)) (i : Nat) (l : List Centre) (hl : cs[i]? = some l) (hne : l ≠ []) (q : Centre) :
    ∃ g c, nearest1 pick (layerTree cs i) q = some (g, c) ∧ Nearest cs i q g := by
  have htree : layerTree cs i = (l.zipIdx (((cs.take i).map List.length).sum)).map fun p => (p.2, p.1) := by
    unfold layerTree; rw [hl]; rfl
  have hmem : ∀ c ∈ l, ∃ k, (k, c) ∈ layerTree cs i := by
    intro c hc
    obtain ⟨j, hj⟩ := List.mem_iff_getElem?.1 hc
    rw [htree]
    refine ⟨((cs.take i).map List.length).sum + j, List.mem_map.2
      ⟨(c, ((cs.take i).map List.length).sum + j), ?_, rfl⟩⟩
    rw [List.mk_add_mem_zipIdx_iff_getElem?]
    exact hj
  have htne : layerTree cs i ≠ [] := by
    cases l with
    | nil => exact absurd rfl hne
    | cons c l =>
      obtain ⟨k, hk⟩ := hmem c (by simp)
      exact List.ne_nil_of_mem hk
  obtain ⟨e, he, hmin⟩ := exists_min (fun e : Nat × Centre => dist2 e.2 q) (layerTree cs i) htne
  obtain ⟨e', he', hpk⟩ := hp.some ((layerTree cs i).filter fun e =>
      (layerTree cs i).all fun f => decide (dist2 e.2 q ≤ dist2 f.2 q)) (by
    apply List.ne_nil_of_mem (a := e)
    rw [List.mem_filter]
    refine ⟨he, ?_⟩
    rw [List.all_eq_true]
    intro f hf
    exact decide_eq_true (hmin f hf))
  obtain ⟨g, c⟩ := e'
  refine ⟨g, c, hpk, ?_⟩
  rw [List.mem_filter] at he'
  obtain ⟨h1, h2⟩ := he'
  rw [List.all_eq_true] at h2
  have h3 : (g, c) ∈ layerTree cs i := h1
  rw [htree] at h3
  obtain ⟨⟨c1, k⟩, h4, h5⟩ := List.mem_map.1 h3
  simp only [Prod.mk.injEq] at h5
  obtain ⟨rfl, rfl⟩ := h5
  rw [List.mem_zipIdx_iff_le_and_getElem?_sub] at h4
  refine ⟨l, k - ((cs.take i).map List.length).sum, c1, hl, h4.2, by have := h4.1; simp only at this; omega, ?_⟩
  intro c' hc'
  obtain ⟨k', hk'⟩ := hmem c' hc'
  have := of_decide_eq_true (h2 _ hk')
  unfold dist2 at this
  simp only at this
  nlinarith [this]

/-- **C66.** For either query of the layer, every stack and list of monitors: if every height finds a layer
that has prisms, there is one answer per monitor, in order, and it is a prism of the layer found for its
height whose centre is nearest to it.  Which of several nearest ones is left to the library. -/
theorem c66_monitors (near : List (Lyr K) → K → Res Nat) (pick : List (Nat × Centre) → Option (Nat × Centre))
    (hp : Picks pick) (layers : List (Lyr K)) (cs : List (List Centre)) (ms : List (Centre × K))
    (h : ∀ m ∈ ms, ∃ i l, near layers m.2 = .ok i ∧ cs[i]? = some l ∧ l ≠ []) :
    ∃ gs, searchElements near pick layers cs ms = .ok gs ∧
      List.Forall₂ (fun (m : Centre × K) g => ∃ i, near layers m.2 = .ok i ∧ Nearest cs i m.1 g) ms gs := by
  induction ms with
  | nil => exact ⟨[], rfl, .nil⟩
  | cons m ms ih =>
    obtain ⟨gs, h1, h2⟩ := ih fun m hm => h m (by simp [hm])
    obtain ⟨i, l, h3, h4, h5⟩ := h m (by simp)
    obtain ⟨g, c, h6, h7⟩ := nearest1_spec pick hp cs i l h4 h5 m.1
    refine ⟨g :: gs, ?_, .cons ⟨i, h3, h7⟩ h2⟩
    rw [searchElements, h1]
    have : monitor near pick layers cs m.1 m.2 = .ok g := by
      unfold monitor; rw [h3, Res.bind_ok, h6]
    rw [this]; rfl

/-- A monitor in a layer without prisms makes the whole search undefined behaviour. -/
theorem c66_empty_layer_refuted (near : List (Lyr K) → K → Res Nat)
    (pick : List (Nat × Centre) → Option (Nat × Centre)) (hp : Picks pick)
    (layers : List (Lyr K)) (cs : List (List Centre)) (m : Centre × K) (ms : List (Centre × K)) (i : Nat)
    (h : near layers m.2 = .ok i) (he : cs[i]? = some []) :
    searchElements near pick layers cs (m :: ms) = .ub := by
  rw [searchElements]
  have : monitor near pick layers cs m.1 m.2 = .ub := by
    unfold monitor
    rw [h, Res.bind_ok]
    have : layerTree cs i = [] := by unfold layerTree; rw [he]; rfl
    rw [this]; unfold nearest1; rw [List.filter_nil, hp.none]
  rw [this]; rfl

/-- example: two layers of two and three prisms; the second monitor is in the lower layer -/
example :
    let layers : List (Lyr ℚ) := [⟨0, 2⟩, ⟨-2, 1⟩]
    let cs : List (List Centre) := [[⟨0, 0⟩, ⟨5, 5⟩], [⟨0, 0⟩, ⟨9, 9⟩, ⟨4, 4⟩]]
    Picks List.head? ∧
    searchElements nearestLayer List.head? layers cs [(⟨4, 4⟩, -1), (⟨4, 5⟩, -5/2)] = .ok [1, 4] ∧
    searchElements nearestLayer List.head? layers [[], [⟨0, 0⟩]] [(⟨4, 4⟩, -1)] = .ub := by
  refine ⟨⟨?_, rfl⟩, by decide +kernel, by decide +kernel⟩
  intro l hl
  cases l with
  | nil => exact absurd rfl hl
  | cons a l => exact ⟨a, by simp, rfl⟩

end Ecad.Query
