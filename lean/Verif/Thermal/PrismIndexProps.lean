import Verif.Thermal.PrismModel
import Mathlib.Algebra.BigOperators.Group.List.Basic
/-!
C34: numbering of prism and line elements.  C36: blocks of elements for the threads.
-/
namespace Ecad.PrismT
open Ecad.Thermal

/-! ### offsets -/

theorem offsets_length (s : Nat) (sizes : List Nat) : (offsets s sizes).length = sizes.length + 1 := by
  induction sizes generalizing s with
  | nil => rfl
  | cons n l ih => simp [offsets, ih]

theorem offsets_get (s : Nat) (sizes : List Nat) (l : Nat) (hl : l ≤ sizes.length) :
    (offsets s sizes)[l]? = some (s + (sizes.take l).sum) := by
  induction sizes generalizing s l with
  | nil => simp at hl; subst hl; simp [offsets]
  | cons n t ih =>
    cases l with
    | zero => simp [offsets]
    | succ l =>
      simp only [offsets, List.getElem?_cons_succ, List.take_succ_cons, List.sum_cons]
      rw [ih (s + n) l (by simpa using hl)]
      congr 1; omega

theorem offsets_total (s : Nat) (sizes : List Nat) : totalPrisms (offsets s sizes) = s + sizes.sum := by
  unfold totalPrisms
  rw [List.getLastD_eq_getLast?, List.getLast?_eq_getElem?, offsets_length]
  simp only [Nat.add_sub_cancel]
  rw [offsets_get s sizes _ (le_refl _), List.take_length]
  rfl

theorem offsets_head (s : Nat) (sizes : List Nat) : ∃ t, offsets s sizes = s :: t := by
  cases sizes with
  | nil => exact ⟨[], rfl⟩
  | cons n l => exact ⟨_, rfl⟩

/-- the search from layer `lyr` on -/
theorem localFrom_spec (sizes : List Nat) : ∀ (s lyr index : Nat), s ≤ index →
    (∀ (l e : Nat) (n : Nat), sizes[l]? = some n → e < n → index = s + (sizes.take l).sum + e →
      localFrom index lyr (offsets s sizes) = .ok (lyr + l, e)) ∧
    (index < s + sizes.sum → ∃ l e n, sizes[l]? = some n ∧ e < n ∧ index = s + (sizes.take l).sum + e) ∧
    (s + sizes.sum ≤ index → localFrom index lyr (offsets s sizes) = .ub) := by
  induction sizes with
  | nil =>
    intro s lyr index h
    refine ⟨by simp, by simp; omega, ?_⟩
    intro _; rfl
  | cons n t ih =>
    intro s lyr index h
    obtain ⟨r, hr⟩ := offsets_head (s + n) t
    have step : localFrom index lyr (offsets s (n :: t)) =
        if s ≤ index ∧ index < s + n then .ok (lyr, index - s) else localFrom index (lyr + 1) (offsets (s + n) t) := by
      rw [offsets, hr, localFrom]
    refine ⟨?_, ?_, ?_⟩
    · intro l e k hk he hi
      rw [step]
      cases l with
      | zero =>
        simp at hk hi
        subst hk
        rw [if_pos (by omega)]
        simp; omega
      | succ l =>
        simp at hk hi
        rw [if_neg (by omega), (ih (s + n) (lyr + 1) index (by omega)).1 l e k hk he (by omega)]
        congr 2; omega
    · intro hlt
      by_cases hc : index < s + n
      · exact ⟨0, index - s, n, rfl, by omega, by simp; omega⟩
      · obtain ⟨l, e, k, hk, he, hi⟩ := (ih (s + n) (lyr + 1) index (by omega)).2.1 (by simp at hlt; omega)
        exact ⟨l + 1, e, k, by simpa using hk, he, by simp; omega⟩
    · intro hge
      simp at hge
      rw [step, if_neg (by omega)]
      exact (ih (s + n) (lyr + 1) index (by omega)).2.2 (by omega)

/-- **C34.** For every list of layer sizes: element `e` of layer `l` has as its number the sizes of the layers before plus
`e`; the inverse search returns `l` and `e`; every number below the total is the number of an element, and
numbers at or above the total are not searched for without undefined behaviour. -/
theorem c34_prisms (sizes : List Nat) :
    (∀ (l e n : Nat), sizes[l]? = some n → e < n →
      globalIndex (offsets 0 sizes) l e = .ok ((sizes.take l).sum + e) ∧ (sizes.take l).sum + e < sizes.sum ∧
      localIndex (offsets 0 sizes) ((sizes.take l).sum + e) = .ok (l, e)) ∧
    (∀ g, g < sizes.sum → ∃ l e n, sizes[l]? = some n ∧ e < n ∧ localIndex (offsets 0 sizes) g = .ok (l, e) ∧
      globalIndex (offsets 0 sizes) l e = .ok g) ∧
    (∀ g, sizes.sum ≤ g → localIndex (offsets 0 sizes) g = .ub) := by
  have glob : ∀ (l e n : Nat), sizes[l]? = some n → globalIndex (offsets 0 sizes) l e = .ok ((sizes.take l).sum + e) := by
    intro l e n hn
    have hl : l < sizes.length := (List.getElem?_eq_some_iff.1 hn).1
    unfold globalIndex Res.index
    rw [offsets_get 0 sizes l (by omega)]
    simp
  have loc : ∀ (l e n : Nat), sizes[l]? = some n → e < n → localIndex (offsets 0 sizes) ((sizes.take l).sum + e) = .ok (l, e) := by
    intro l e n hn he
    have := (localFrom_spec sizes 0 0 ((sizes.take l).sum + e) (by omega)).1 l e n hn he (by omega)
    rw [localIndex, this, Nat.zero_add]
  refine ⟨?_, ?_, ?_⟩
  · intro l e n hn he
    refine ⟨glob l e n hn, ?_, loc l e n hn he⟩
    by_contra hge
    have := (localFrom_spec sizes 0 0 ((sizes.take l).sum + e) (by omega)).2.2 (by omega)
    have h2 := loc l e n hn he
    rw [localIndex, this] at h2
    cases h2
  · intro g hg
    obtain ⟨l, e, n, hn, he, hi⟩ := (localFrom_spec sizes 0 0 g (by omega)).2.1 (by omega)
    rw [Nat.zero_add] at hi
    subst hi
    exact ⟨l, e, n, hn, he, loc l e n hn he, glob l e n hn⟩
  · intro g hg
    exact (localFrom_spec sizes 0 0 g (by omega)).2.2 (by omega)

/-- **C34, lines.** The n-th line is numbered after all prisms, in order; the number identifies it. -/
theorem c34_lines (sizes : List Nat) (n : Nat) :
    lineId (offsets 0 sizes) n = sizes.sum + n ∧ lineLocalIndex (offsets 0 sizes) (lineId (offsets 0 sizes) n) = n ∧
    isPrima (offsets 0 sizes) (lineId (offsets 0 sizes) n) = false ∧
    ∀ g, isPrima (offsets 0 sizes) g = true ↔ g < sizes.sum := by
  have ht := offsets_total 0 sizes
  rw [Nat.zero_add] at ht
  have e : lineId (offsets 0 sizes) n = sizes.sum + n := by unfold lineId; rw [ht]; omega
  refine ⟨e, ?_, ?_, ?_⟩
  · rw [e]; unfold lineLocalIndex; rw [ht, if_pos (by omega)]; omega
  · rw [e]; unfold isPrima; rw [ht]; simp
  · intro g; unfold isPrima; rw [ht]; simp

/-- layers of 3, 0, 0 and 2 elements -/
example : localIndex (offsets 0 [3, 0, 0, 2]) 3 = .ok (3, 0) ∧ globalIndex (offsets 0 [3, 0, 0, 2]) 3 1 = .ok 4 ∧
    localIndex (offsets 0 [3, 0, 0, 2]) 5 = .ub ∧ lineId (offsets 0 [3, 0, 0, 2]) 2 = 7 := by decide

/-! ### C36 -/

/-- the elements of the blocks one after the other -/
def blockElements (bs : List (Nat × Nat)) : List Nat := bs.flatMap fun b => List.range' b.1 (b.2 - b.1)

theorem full_blocks (b n : Nat) :
    blockElements ((List.range n).map fun i => (i * b, (i + 1) * b)) = List.range (n * b) := by
  unfold blockElements
  induction n with
  | zero => simp
  | succ n ih =>
    rw [List.range_succ, List.map_append, List.flatMap_append, ih]
    simp only [List.map_cons, List.map_nil, List.flatMap_cons, List.flatMap_nil, List.append_nil]
    have : (n + 1) * b - n * b = b := by rw [Nat.succ_mul]; omega
    rw [this, List.range_eq_range', List.range_eq_range', Nat.succ_mul, ← List.range'_append_1, Nat.zero_add]

/-- **C36.** For every number of elements and every number of threads the blocks, one after the other, list every element
exactly once, in order. -/
theorem c36_blocks (size n : Nat) (hn : 0 < n) : blockElements (threadBlocks size n) = List.range size := by
  unfold threadBlocks
  simp only
  have happ : ∀ a b, blockElements (a ++ b) = blockElements a ++ blockElements b := by
    intro a b; simp [blockElements]
  have hle : n * (size / n) ≤ size := Nat.mul_div_le size n
  by_cases hb : size / n > 0
  · rw [if_pos hb, if_pos hb, happ, full_blocks]
    by_cases he : n * (size / n) ≠ size
    · rw [if_pos he]
      simp only [blockElements, List.flatMap_cons, List.flatMap_nil, List.append_nil]
      rw [List.range_eq_range', List.range_eq_range']
      have h1 : size = n * (size / n) + (size - n * (size / n)) := by omega
      conv_rhs => rw [h1, ← List.range'_append_1]
      rw [Nat.zero_add]
    · rw [if_neg he]
      simp only [ne_eq, not_not] at he
      rw [he]; simp [blockElements]
  · rw [if_neg hb, if_neg hb]
    simp only [List.nil_append]
    by_cases he : 0 ≠ size
    · rw [if_pos he]
      simp [blockElements, List.range_eq_range']
    · rw [if_neg he]
      simp only [ne_eq, not_not] at he
      subst he; rfl

example : threadBlocks 11 4 = [(0, 2), (2, 4), (4, 6), (6, 8), (8, 11)] ∧ threadBlocks 3 8 = [(0, 3)] := by decide

end Ecad.PrismT
