import Mathlib.Algebra.Order.Ring.Rat
import Mathlib.Algebra.Order.Field.Basic
import Mathlib.Data.Rat.Floor
import Mathlib.Tactic.Ring
import Mathlib.Tactic.Linarith
import Mathlib.Tactic.NormNum
/-!
`std::round` on exact numbers.
-/
namespace Ecad.Geom

/-- `std::round` (used at src/model/geometry/ELayerCutModel.cpp:141, 161 and
src/utility/EMetalFractionMapping.cpp:122-123): the nearest integer, halves away from zero. -/
def round (q : ℚ) : Int := if 0 ≤ q then ⌊q + 1 / 2⌋ else -⌊-q + 1 / 2⌋

theorem round_mono {p q : ℚ} (h : p ≤ q) : round p ≤ round q := by
  unfold round
  by_cases hp : 0 ≤ p
  · rw [if_pos hp, if_pos (hp.trans h)]
    exact Int.floor_mono (by linarith)
  · rw [if_neg hp]
    push Not at hp
    have h1 : 0 ≤ ⌊-p + 1 / 2⌋ := Int.floor_nonneg.2 (by linarith)
    by_cases hq : 0 ≤ q
    · rw [if_pos hq]
      have h2 : 0 ≤ ⌊q + 1 / 2⌋ := Int.floor_nonneg.2 (by linarith)
      omega
    · rw [if_neg hq]
      have : ⌊-q + 1 / 2⌋ ≤ ⌊-p + 1 / 2⌋ := Int.floor_mono (by linarith)
      omega

theorem round_int (z : Int) : round (z : ℚ) = z := by
  unfold round
  have h : ∀ z : Int, ⌊(z : ℚ) + 1 / 2⌋ = z := by
    intro z
    rw [Int.floor_eq_iff]
    constructor <;> linarith
  split
  · exact h z
  · have := h (-z)
    push_cast at this
    rw [this]
    omega

/-- rounding moves a number by one half at most -/
theorem round_close (q : ℚ) : |(round q : ℚ) - q| ≤ 1 / 2 := by
  unfold round
  split
  · have h1 := Int.floor_le (q + 1 / 2)
    have h2 := Int.lt_floor_add_one (q + 1 / 2)
    rw [abs_le]
    constructor <;> linarith
  · have h1 := Int.floor_le (-q + 1 / 2)
    have h2 := Int.lt_floor_add_one (-q + 1 / 2)
    push_cast
    rw [abs_le]
    constructor <;> linarith

/-- halves of integers: the two possible roundings -/
theorem round_half (z : Int) : round ((z : ℚ) / 2) = if 0 ≤ z then (z + 1) / 2 else -((-z + 1) / 2) := by
  unfold round
  have key : ∀ z : Int, ⌊(z : ℚ) / 2 + 1 / 2⌋ = (z + 1) / 2 := by
    intro z
    rw [Int.floor_eq_iff]
    have h := Int.mul_ediv_add_emod (z + 1) 2
    have h1 := Int.emod_nonneg (z + 1) (show (2 : Int) ≠ 0 by decide)
    have h2 := Int.emod_lt_of_pos (z + 1) (show (0 : Int) < 2 by decide)
    have e1 : 2 * ((z + 1) / 2) ≤ z + 1 := by omega
    have e2 : z + 1 < 2 * ((z + 1) / 2) + 2 := by omega
    have e1' : (2 : ℚ) * (((z + 1) / 2 : Int) : ℚ) ≤ z + 1 := by exact_mod_cast e1
    have e2' : (z : ℚ) + 1 < 2 * (((z + 1) / 2 : Int) : ℚ) + 2 := by exact_mod_cast e2
    constructor <;> linarith
  have hz : (0 : ℚ) ≤ (z : ℚ) / 2 ↔ 0 ≤ z := by
    rw [div_nonneg_iff]
    constructor
    · rintro (⟨h, _⟩ | ⟨_, h⟩)
      · exact_mod_cast h
      · norm_num at h
    · intro h
      exact Or.inl ⟨by exact_mod_cast h, by norm_num⟩
  by_cases h : 0 ≤ z
  · rw [if_pos (hz.2 h), if_pos h, key]
  · rw [if_neg (fun c => h (hz.1 c)), if_neg h]
    have := key (-z)
    push_cast at this
    rw [← this]
    congr 3
    ring

end Ecad.Geom
