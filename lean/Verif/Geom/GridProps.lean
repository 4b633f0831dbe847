import Verif.Geom.GridModel
import Mathlib.Tactic.FieldSimp
/-!
C25.
-/
namespace Ecad.Geom

/-- tile `i` of an axis: from `lo + i * stride` to, not including, `lo + (i + 1) * stride` -/
def Axis.InTile (a : Axis) (i : Nat) (p : Int) : Prop :=
  a.rlo + i * a.stride ≤ p ∧ p < a.rlo + (i + 1) * a.stride

theorem index_ok (a : Axis) (hs : 0 < a.stride) (p : Int) (h1 : a.rlo ≤ p) (h2 : p ≤ a.ehi) :
    ∃ i, a.index p = .ok (some i) ∧ a.InTile i p ∧ (i < a.grid ↔ p < a.ehi) ∧ i ≤ a.grid := by
  refine ⟨((p - a.rlo).tdiv a.stride).toNat, ?_, ?_⟩
  · rw [Axis.index, if_pos ⟨h1, h2⟩, if_neg (by omega)]
  · have hn : 0 ≤ p - a.rlo := by omega
    rw [Int.tdiv_eq_ediv_of_nonneg hn]
    have hq : 0 ≤ (p - a.rlo) / a.stride := Int.ediv_nonneg hn hs.le
    have e1 := Int.mul_ediv_add_emod (p - a.rlo) a.stride
    have e2 := Int.emod_nonneg (p - a.rlo) hs.ne'
    have e3 := Int.emod_lt_of_pos (p - a.rlo) hs
    unfold Axis.ehi at h2 ⊢
    unfold Axis.InTile
    generalize hqq : (p - a.rlo) / a.stride = q at *
    obtain ⟨n, rfl⟩ := Int.eq_ofNat_of_zero_le hq
    rw [Int.toNat_natCast]
    refine ⟨⟨by nlinarith, by nlinarith⟩, ⟨?_, ?_⟩, ?_⟩
    · intro h
      have : ((n : Int) + 1) ≤ a.grid := by omega
      nlinarith
    · intro h
      by_contra hc
      have : (a.grid : Int) ≤ n := by omega
      nlinarith
    · by_contra hc
      have : (a.grid : Int) + 1 ≤ n := by omega
      nlinarith

/-- **C25**, the part that holds: with positive strides, each point of the stored region not on its
upper bounds is mapped to a tile of the grid, and that tile contains the point; each point
outside is mapped to the invalid index. -/
theorem c25_index_partial (x y : Axis) (hx : 0 < x.stride) (hy : 0 < y.stride) (p : Int × Int) :
    (x.rlo ≤ p.1 → p.1 < x.ehi → y.rlo ≤ p.2 → p.2 < y.ehi →
      ∃ i j, getIndex x y p = .ok (some i, some j) ∧ i < x.grid ∧ j < y.grid ∧
        x.InTile i p.1 ∧ y.InTile j p.2) ∧
    ((p.1 < x.rlo ∨ x.ehi < p.1) → ∃ j, getIndex x y p = .ok (none, j)) := by
  refine ⟨?_, ?_⟩
  · intro h1 h2 h3 h4
    obtain ⟨i, i1, i2, i3, -⟩ := index_ok x hx p.1 h1 h2.le
    obtain ⟨j, j1, j2, j3, -⟩ := index_ok y hy p.2 h3 h4.le
    refine ⟨i, j, ?_, i3.2 h2, j3.2 h4, i2, j2⟩
    rw [getIndex, i1]; simp only [Res.bind]; rw [j1]
  · intro h
    have hn : x.index p.1 = .ok none := by rw [Axis.index, if_neg (by omega)]
    by_cases hq : y.rlo ≤ p.2 ∧ p.2 ≤ y.ehi
    · obtain ⟨j, j1, -⟩ := index_ok y hy p.2 hq.1 hq.2
      exact ⟨some j, by rw [getIndex, hn]; simp only [Res.bind]; rw [j1]⟩
    · exact ⟨none, by rw [getIndex, hn]; simp only [Res.bind]; rw [Axis.index, if_neg hq]⟩

/-- Different tiles do not overlap, so the tile of a point is the only one containing it. -/
theorem c25_tile_unique (a : Axis) {i j : Nat} {p : Int} (hi : a.InTile i p) (hj : a.InTile j p) : i = j := by
  unfold Axis.InTile at hi hj
  rcases Nat.lt_trichotomy i j with h | h | h
  · have : (i : Int) + 1 ≤ j := by omega
    have hs : 0 < a.stride := by nlinarith
    nlinarith
  · exact h
  · have : (j : Int) + 1 ≤ i := by omega
    have hs : 0 < a.stride := by nlinarith
    nlinarith

/-- The full claim fails on the upper bound of every region: the bound is accepted and mapped to the
index one past the last tile. -/
theorem c25_bound_refuted (a : Axis) (hs : 0 < a.stride) :
    a.index a.ehi = .ok (some a.grid) := by
  have hle : a.rlo ≤ a.ehi := by
    unfold Axis.ehi
    have : (0 : Int) ≤ a.grid := by omega
    nlinarith
  obtain ⟨i, i1, -, i3, i4⟩ := index_ok a hs a.ehi hle (le_refl _)
  rw [i1]
  have : ¬ i < a.grid := by rw [i3]; omega
  have : i = a.grid := by omega
  rw [this]

theorem stride_bounds (a : Axis) (hg : 0 < a.grid) :
    2 * (a.rhi - a.rlo) - a.grid ≤ 2 * (a.stride * a.grid) ∧
    2 * (a.stride * a.grid) ≤ 2 * (a.rhi - a.rlo) + a.grid := by
  have hg' : (0 : ℚ) < (a.grid : ℚ) := by exact_mod_cast hg
  have h := round_close (((a.rhi - a.rlo : Int) : ℚ) / (a.grid : ℚ))
  have hst : a.stride = round (((a.rhi - a.rlo : Int) : ℚ) / (a.grid : ℚ)) := rfl
  rw [← hst, abs_le] at h
  obtain ⟨h1, h2⟩ := h
  have e : ((a.rhi - a.rlo : Int) : ℚ) / (a.grid : ℚ) * a.grid = ((a.rhi - a.rlo : Int) : ℚ) := by
    field_simp
  have k1 := mul_le_mul_of_nonneg_right h1 hg'.le
  have k2 := mul_le_mul_of_nonneg_right h2 hg'.le
  rw [sub_mul, e] at k1 k2
  constructor
  · have : (2 * ((a.rhi - a.rlo : Int) : ℚ) - a.grid) ≤ 2 * ((a.stride : ℚ) * a.grid) := by linarith
    exact_mod_cast this
  · have : 2 * ((a.stride : ℚ) * a.grid) ≤ (2 * ((a.rhi - a.rlo : Int) : ℚ) + a.grid) := by linarith
    exact_mod_cast this

/-- The stored region begins where the extended layout box does and ends at most half a tile number of
units away from its end. -/
theorem c25_region_close (a : Axis) (hg : 0 < a.grid) :
    a.rlo = a.lo - a.extLo ∧ a.ehi = a.rlo + a.grid * a.stride ∧
    2 * (a.hi + a.extHi) - a.grid ≤ 2 * a.ehi ∧ 2 * a.ehi ≤ 2 * (a.hi + a.extHi) + a.grid := by
  have := stride_bounds a hg
  have hr : a.rhi = a.hi + a.extHi := rfl
  refine ⟨rfl, ?_, ?_⟩
  · unfold Axis.ehi; rw [mul_comm]
  · unfold Axis.ehi
    constructor <;> omega

/-- The stored region equals the requested one exactly if the tiles divide it evenly. -/
theorem c25_region_exact (a : Axis) (hg : 0 < a.grid) :
    a.ehi = a.hi + a.extHi ↔ (a.grid : Int) ∣ (a.hi + a.extHi) - (a.lo - a.extLo) := by
  change a.ehi = a.rhi ↔ (a.grid : Int) ∣ a.rhi - a.rlo
  constructor
  · intro h
    unfold Axis.ehi at h
    exact ⟨a.stride, by rw [mul_comm]; omega⟩
  · rintro ⟨k, hk⟩
    have hg' : (0 : ℚ) < (a.grid : ℚ) := by exact_mod_cast hg
    have : a.stride = k := by
      unfold Axis.stride
      rw [hk]
      have : (((a.grid : Int) * k : Int) : ℚ) / (a.grid : ℚ) = (k : ℚ) := by
        push_cast
        field_simp
      rw [this, round_int]
    unfold Axis.ehi
    rw [this, mul_comm]
    omega

/-- The layout is not always covered: for each number of tiles from three on, a layout one unit longer
than the number of tiles loses its far edge, which is mapped to the invalid index. -/
theorem c25_cover_refuted (g : Nat) (hg : 3 ≤ g) (lo : Int) :
    let a : Axis := ⟨lo, lo + (g + 1), 0, 0, g⟩
    a.stride = 1 ∧ a.index a.hi = .ok none := by
  intro a
  have hb := stride_bounds a (show 0 < g by omega)
  have e1 : a.rhi - a.rlo = g + 1 := by simp only [a, Axis.rhi, Axis.rlo]; omega
  have e2 : (a.grid : Int) = g := rfl
  rw [e1, e2] at hb
  have hs : a.stride = 1 := by
    have hg' : (3 : Int) ≤ g := by omega
    have h1 : 0 < a.stride := by
      by_contra hc
      push Not at hc
      nlinarith [hb.1]
    have h2 : a.stride < 2 := by
      by_contra hc
      push Not at hc
      nlinarith [hb.2]
    omega
  refine ⟨hs, ?_⟩
  rw [Axis.index, if_neg]
  unfold Axis.ehi
  rw [hs]
  simp only [a, Axis.rlo]
  omega

/-- A region shorter than half the number of tiles has stride zero, and asking for the tile of its lower
bound divides by zero. -/
theorem c25_zero_stride_refuted (a : Axis) (h0 : a.rlo ≤ a.rhi) (h : 2 * (a.rhi - a.rlo) < a.grid) :
    a.stride = 0 ∧ a.index a.rlo = .ub := by
  have hg : 0 < a.grid := by omega
  have hb := stride_bounds a hg
  have hs : a.stride = 0 := by
    have hg' : (0 : Int) < a.grid := by omega
    rcases lt_trichotomy a.stride 0 with hc | hc | hc
    · exfalso
      have h1 : a.stride ≤ -1 := by omega
      have h3 : (0 : ℚ) ≤ ((a.rhi - a.rlo : Int) : ℚ) / (a.grid : ℚ) := by
        apply div_nonneg
        · exact_mod_cast (by omega : (0 : Int) ≤ a.rhi - a.rlo)
        · exact_mod_cast hg'.le
      have := round_mono h3
      have h4 : round 0 = 0 := by have := round_int 0; simpa using this
      rw [h4] at this
      unfold Axis.stride at h1
      omega
    · exact hc
    · exfalso
      have h1 : 1 ≤ a.stride := by omega
      nlinarith [hb.2]
  refine ⟨hs, ?_⟩
  rw [Axis.index, if_pos, if_pos hs]
  unfold Axis.ehi
  rw [hs]
  constructor <;> omega

/-- The stored metal fraction of a tile is in [0, 1] whatever is mapped. -/
theorem c25_fraction_range (solids holes : List ℚ) :
    0 ≤ clampFraction solids holes ∧ clampFraction solids holes ≤ 1 := by
  unfold clampFraction
  simp only
  generalize solids.sum - holes.sum = r
  by_cases h1 : r < 0
  · rw [if_pos h1]; norm_num
  · rw [if_neg h1]
    push Not at h1
    by_cases h2 : r > 1
    · rw [if_pos h2]; norm_num
    · rw [if_neg h2]
      push Not at h2
      exact ⟨h1, h2⟩

/-- example: a board of a hundred by sixty units on ten by seven tiles -/
def exX : Axis := ⟨0, 100, 0, 0, 10⟩
def exY : Axis := ⟨0, 60, 5, 5, 7⟩
example : exX.stride = 10 ∧ exY.stride = 10 ∧ exY.ehi = 65 ∧ getIndex exX exY (99, 64) = .ok (some 9, some 6) ∧
    getIndex exX exY (100, 64) = .ok (some 10, some 6) := by decide +kernel

end Ecad.Geom
