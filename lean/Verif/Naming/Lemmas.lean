import Verif.Naming.Model
import Mathlib.Data.Finset.Card
import Mathlib.Data.Finset.Range
import Mathlib.Data.Finset.Image
namespace Ecad
namespace Naming

theorem natRepr_inj {m n : Nat} (h : Nat.repr m = Nat.repr n) : m = n := by
  have h1 : Nat.toDigits 10 m = Nat.toDigits 10 n := by
    rw [← Nat.toList_repr, ← Nat.toList_repr, h]
  have h2 := congrArg (fun l => Nat.ofDigitChars 10 l 0) h1
  simpa [Nat.ofDigitChars_ten_toDigits] using h2

theorem toString_nat_inj {m n : Nat} (h : toString m = toString n) : m = n :=
  natRepr_inj h

theorem string_append_left_cancel {a b c : String} (h : a ++ b = a ++ c) : b = c := by
  have := congrArg String.toList h
  simp only [String.toList_append, List.append_cancel_left_eq] at this
  exact String.toList_injective this

theorem cand_inj (key : String) : Function.Injective (fun n : Nat => key ++ toString n) := by
  intro m n h
  exact toString_nat_inj (string_append_left_cancel h)

theorem loop_some {count : String → Bool} {key : String} {fuel index : Nat} {r : String}
    (h : nextKeyLoop count key fuel index = some r) :
    ∃ n, index ≤ n ∧ r = key ++ toString n ∧ count r = false ∧
      ∀ m, index ≤ m → m < n → count (key ++ toString m) = true := by
  induction fuel generalizing index with
  | zero => simp [nextKeyLoop] at h
  | succ fuel ih =>
    simp only [nextKeyLoop] at h
    by_cases hc : count (key ++ toString index) = true
    · simp only [hc, Bool.not_true, Bool.false_eq_true, if_false] at h
      obtain ⟨n, h1, h2, h3, h4⟩ := ih h
      refine ⟨n, by omega, h2, h3, ?_⟩
      intro m hm hmn
      rcases Nat.lt_or_ge index m with h5 | h5
      · exact h4 m h5 hmn
      · have : m = index := by omega
        rw [this]; exact hc
    · simp only [Bool.not_eq_true] at hc
      simp only [hc, Bool.not_false, if_true, Option.some.injEq] at h
      exact ⟨index, le_rfl, h.symm, by rw [← h]; exact hc, fun m h1 h2 => by omega⟩

theorem loop_none {count : String → Bool} {key : String} {fuel index : Nat}
    (h : nextKeyLoop count key fuel index = none) :
    ∀ m, index ≤ m → m < index + fuel → count (key ++ toString m) = true := by
  induction fuel generalizing index with
  | zero => intro m h1 h2; omega
  | succ fuel ih =>
    simp only [nextKeyLoop] at h
    by_cases hc : count (key ++ toString index) = true
    · simp only [hc, Bool.not_true, Bool.false_eq_true, if_false] at h
      intro m h1 h2
      rcases Nat.lt_or_ge index m with h5 | h5
      · exact ih h m h5 (by omega)
      · have : m = index := by omega
        rw [this]; exact hc
    · simp only [Bool.not_eq_true] at hc
      simp only [hc, Bool.not_false, if_true, reduceCtorEq] at h

/-- The loop returns after at most (number of keys + 1) iterations. -/
theorem nextKey_terminates (keys : List String) (key : String) :
    ∃ r, nextKey keys key (keys.length + 1) = some r := by
  unfold nextKey
  by_cases hc : keys.contains key = true
  · simp only [hc, Bool.not_true, Bool.false_eq_true, if_false]
    cases hl : nextKeyLoop (fun k => keys.contains k) key (keys.length + 1) 1 with
    | some r => exact ⟨r, rfl⟩
    | none =>
      exfalso
      have h := loop_none hl
      have hsub : (Finset.range (keys.length + 1)).image (fun i => key ++ toString (i + 1))
          ⊆ keys.toFinset := by
        intro s hs
        simp only [Finset.mem_image, Finset.mem_range] at hs
        obtain ⟨i, hi, rfl⟩ := hs
        have := h (i + 1) (by omega) (by omega)
        simpa using this
      have hcard := Finset.card_le_card hsub
      rw [Finset.card_image_of_injective] at hcard
      · have := List.toFinset_card_le keys
        simp only [Finset.card_range] at hcard
        omega
      · intro a b hab
        have := cand_inj key hab
        omega
  · simp only [Bool.not_eq_true] at hc
    exact ⟨key, by rw [hc]; simp⟩

theorem loop_fuel_mono {count : String → Bool} {key : String} {fuel index : Nat} {r : String}
    (h : nextKeyLoop count key fuel index = some r) (k : Nat) :
    nextKeyLoop count key (fuel + k) index = some r := by
  induction fuel generalizing index with
  | zero => simp [nextKeyLoop] at h
  | succ fuel ih =>
    rw [Nat.add_right_comm]
    simp only [nextKeyLoop] at h ⊢
    by_cases hc : count (key ++ toString index) = true
    · simp only [hc, Bool.not_true, Bool.false_eq_true, if_false] at h ⊢
      exact ih h
    · simp only [Bool.not_eq_true] at hc
      simpa only [hc, Bool.not_false, if_true] using h

theorem nextKey_fuel_mono {keys : List String} {key : String} {fuel : Nat} {r : String}
    (h : nextKey keys key fuel = some r) (k : Nat) : nextKey keys key (fuel + k) = some r := by
  unfold nextKey at *
  split at h
  · rename_i hc; simp only [hc, if_true]; exact h
  · rename_i hc; simp only [hc, if_false]; exact loop_fuel_mono h k

theorem nextName_eq (keys : List String) (key : String) :
    nextKey keys key (keys.length + 1) = some (nextName keys key) := by
  obtain ⟨r, hr⟩ := nextKey_terminates keys key
  simp [nextName, hr]

theorem nextName_not_mem (keys : List String) (key : String) : nextName keys key ∉ keys := by
  have h := nextName_eq keys key
  unfold nextKey at h
  by_cases hc : keys.contains key = true
  · simp only [hc, Bool.not_true, Bool.false_eq_true, if_false] at h
    obtain ⟨n, _, _, h3, _⟩ := loop_some h
    simpa using h3
  · simp only [Bool.not_eq_true] at hc
    simp only [hc, Bool.not_false, if_true, Option.some.injEq] at h
    rw [← h]; simpa using hc

end Naming
end Ecad
