import Verif.Thermal.LinSolveModel
import Verif.Thermal.ResponseProps
import Mathlib.Tactic.LinearCombination
/-!
C154: the linear solvers.  Elimination.
-/
namespace Ecad.LinSolve
open Ecad.Thermal Finset

variable {K : Type} [Field K] [LinearOrder K]

/-- product of a matrix and a vector -/
def app (n : Nat) (M : Nat → Nat → K) (v : Nat → K) (i : Nat) : K := ∑ j ∈ range n, M i j * v j

/-- quadratic form -/
def form (n : Nat) (M : Nat → Nat → K) (u v : Nat → K) : K := dot n u (app n M v)

/-- positive definite: the form is positive unless the vector is zero -/
def PosDef (n : Nat) (M : Nat → Nat → K) : Prop := ∀ u : Nat → K, (∃ i < n, u i ≠ 0) → 0 < form n M u u

/-- the matrix after the elimination of the first unknown -/
def schur (M : Nat → Nat → K) (i j : Nat) : K := M (i + 1) (j + 1) - M (i + 1) 0 * M (j + 1) 0 / M 0 0

omit [LinearOrder K] in
theorem form_schur {n : Nat} {M : Nat → Nat → K} (hs : ∀ i j, M i j = M j i) (hd : M 0 0 ≠ 0) (u : Nat → K) :
    form (n + 1) M u u = form n (schur M) (fun i => u (i + 1)) (fun i => u (i + 1)) + (M 0 0 * u 0 + ∑ j ∈ range n, M (j + 1) 0 * u (j + 1)) ^ 2 / M 0 0 := by
  have h1 : form (n + 1) M u u = M 0 0 * u 0 ^ 2 + 2 * u 0 * (∑ j ∈ range n, M (j + 1) 0 * u (j + 1)) +
      ∑ i ∈ range n, u (i + 1) * ∑ j ∈ range n, M (i + 1) (j + 1) * u (j + 1) := by
    unfold form dot app
    rw [Finset.sum_range_succ', Finset.sum_range_succ']
    have e1 : ∑ j ∈ range n, M 0 (j + 1) * u (j + 1) = ∑ j ∈ range n, M (j + 1) 0 * u (j + 1) := Finset.sum_congr rfl fun j _ => by rw [hs 0]
    have e2 : ∑ i ∈ range n, u (i + 1) * ∑ j ∈ range (n + 1), M (i + 1) j * u j =
        ∑ i ∈ range n, u (i + 1) * (∑ j ∈ range n, M (i + 1) (j + 1) * u (j + 1)) + u 0 * ∑ i ∈ range n, M (i + 1) 0 * u (i + 1) := by
      rw [Finset.mul_sum, ← Finset.sum_add_distrib]
      refine Finset.sum_congr rfl fun i _ => ?_
      rw [Finset.sum_range_succ']
      ring
    rw [e1, e2]
    ring
  have h2 : form n (schur M) (fun i => u (i + 1)) (fun i => u (i + 1)) =
      (∑ i ∈ range n, u (i + 1) * ∑ j ∈ range n, M (i + 1) (j + 1) * u (j + 1)) - (∑ j ∈ range n, M (j + 1) 0 * u (j + 1)) ^ 2 / M 0 0 := by
    unfold form dot app schur
    have : ∀ i, ∑ j ∈ range n, (M (i + 1) (j + 1) - M (i + 1) 0 * M (j + 1) 0 / M 0 0) * u (j + 1) =
        (∑ j ∈ range n, M (i + 1) (j + 1) * u (j + 1)) - M (i + 1) 0 / M 0 0 * ∑ j ∈ range n, M (j + 1) 0 * u (j + 1) := by
      intro i
      rw [Finset.mul_sum, ← Finset.sum_sub_distrib]
      exact Finset.sum_congr rfl fun j _ => by ring
    simp only [this, mul_sub, Finset.sum_sub_distrib]
    congr 1
    rw [pow_two, div_eq_mul_inv, mul_assoc, Finset.sum_mul]
    exact Finset.sum_congr rfl fun i _ => by ring
  rw [h1, h2]
  field_simp
  ring

omit [LinearOrder K] in
theorem schur_symm {M : Nat → Nat → K} (hs : ∀ i j, M i j = M j i) (i j : Nat) : schur M i j = schur M j i := by
  unfold schur
  rw [hs (i + 1) (j + 1)]
  ring

theorem posDef_pivot [IsStrictOrderedRing K] {n : Nat} {M : Nat → Nat → K} (h : PosDef (n + 1) M) : 0 < M 0 0 := by
  have := h (fun i => if i = 0 then 1 else 0) ⟨0, by omega, by simp⟩
  unfold form dot app at this
  rw [Finset.sum_range_succ', Finset.sum_range_succ'] at this
  simpa using this

theorem posDef_schur [IsStrictOrderedRing K] {n : Nat} {M : Nat → Nat → K} (hs : ∀ i j, M i j = M j i) (h : PosDef (n + 1) M) : PosDef n (schur M) := by
  have hd := posDef_pivot h
  rintro u ⟨i, hi, hu⟩
  let v : Nat → K := fun k => match k with
    | 0 => -(∑ j ∈ range n, M (j + 1) 0 * u j) / M 0 0
    | k + 1 => u k
  have h1 := h v ⟨i + 1, by omega, hu⟩
  rw [form_schur hs hd.ne'] at h1
  have h2 : M 0 0 * v 0 + ∑ j ∈ range n, M (j + 1) 0 * v (j + 1) = 0 := by
    show M 0 0 * (-(∑ j ∈ range n, M (j + 1) 0 * u j) / M 0 0) + ∑ j ∈ range n, M (j + 1) 0 * u j = 0
    field_simp
    ring
  rw [h2] at h1
  simpa using h1

/-- what elimination returns solves the system -/
theorem elim_solves {ok : K → Bool} (hok : ∀ d, ok d = true → d ≠ 0) : ∀ (n : Nat) {M : Nat → Nat → K} {b x : Nat → K}, (∀ i j, M i j = M j i) → elim ok n M b = some x →
    ∀ i < n, app n M x i = b i := by
  intro n
  induction n with
  | zero => intro M b x _ _ i hi; omega
  | succ n ih =>
    intro M b x hs h i hi
    unfold elim at h
    split_ifs at h with hp
    have hd := hok _ hp
    rw [Option.map_eq_some_iff] at h
    obtain ⟨y, hy, rfl⟩ := h
    have key := ih (M := schur M) (schur_symm hs) hy
    unfold app at key ⊢
    rw [Finset.sum_range_succ']
    simp only
    match i, hi with
    | 0, _ =>
      have e1 : ∑ j ∈ range n, M 0 (j + 1) * y j = ∑ j ∈ range n, M (j + 1) 0 * y j := Finset.sum_congr rfl fun j _ => by rw [hs 0]
      rw [e1]
      field_simp
      ring
    | i + 1, hi =>
      have h1 := key i (by omega)
      unfold schur at h1
      have h2 : ∑ j ∈ range n, (M (i + 1) (j + 1) - M (i + 1) 0 * M (j + 1) 0 / M 0 0) * y j =
          (∑ j ∈ range n, M (i + 1) (j + 1) * y j) - M (i + 1) 0 / M 0 0 * ∑ j ∈ range n, M (j + 1) 0 * y j := by
        rw [Finset.mul_sum, ← Finset.sum_sub_distrib]
        exact Finset.sum_congr rfl fun j _ => by ring
      rw [h2] at h1
      linear_combination h1

/-- elimination of a positive definite matrix meets positive pivots only -/
theorem elim_total [IsStrictOrderedRing K] {ok : K → Bool} (hok : ∀ d, 0 < d → ok d = true) : ∀ (n : Nat) {M : Nat → Nat → K} (b : Nat → K), (∀ i j, M i j = M j i) → PosDef n M →
    ∃ x, elim ok n M b = some x := by
  intro n
  induction n with
  | zero => intro M b _ _; exact ⟨_, rfl⟩
  | succ n ih =>
    intro M b hs h
    obtain ⟨y, hy⟩ := ih (M := schur M) (fun i => b (i + 1) - M (i + 1) 0 * b 0 / M 0 0) (schur_symm hs) (posDef_schur hs h)
    unfold elim
    rw [if_pos (hok _ (posDef_pivot h))]
    unfold schur at hy
    rw [hy]
    exact ⟨_, rfl⟩

/-- a matrix all of whose pivots are positive is positive definite -/
theorem posDef_of_llt [IsStrictOrderedRing K] : ∀ (n : Nat) {M : Nat → Nat → K} {b x : Nat → K}, (∀ i j, M i j = M j i) → llt n M b = some x → PosDef n M := by
  intro n
  induction n with
  | zero => rintro M b x _ _ u ⟨i, hi, _⟩; omega
  | succ n ih =>
    intro M b x hs h
    unfold llt elim at h
    split_ifs at h with hp
    have hd : 0 < M 0 0 := by simpa using hp
    rw [Option.map_eq_some_iff] at h
    obtain ⟨y, hy, -⟩ := h
    have hS : PosDef n (schur M) := ih (M := schur M) (schur_symm hs) hy
    rintro u ⟨i, hi, hu⟩
    rw [form_schur hs hd.ne']
    by_cases ht : ∃ i < n, u (i + 1) ≠ 0
    · have := hS (fun i => u (i + 1)) ht
      have h2 : 0 ≤ (M 0 0 * u 0 + ∑ j ∈ range n, M (j + 1) 0 * u (j + 1)) ^ 2 / M 0 0 := div_nonneg (sq_nonneg _) hd.le
      linarith
    · push Not at ht
      have h1 : form n (schur M) (fun i => u (i + 1)) (fun i => u (i + 1)) = 0 := by
        unfold form dot
        exact Finset.sum_eq_zero fun i hi => by beta_reduce; rw [ht i (Finset.mem_range.1 hi)]; ring
      have h2 : ∑ j ∈ range n, M (j + 1) 0 * u (j + 1) = 0 := Finset.sum_eq_zero fun i hi => by rw [ht i (Finset.mem_range.1 hi)]; ring
      have h3 : u 0 ≠ 0 := by
        match i, hi, hu with
        | 0, _, hu => exact hu
        | i + 1, hi, hu => exact absurd (ht i (by omega)) hu
      rw [h1, h2, add_zero, zero_add]
      positivity

/-! ### reordering -/

/-- `σ` reorders the first `n` numbers, `τ` is its inverse -/
def Reorders (n : Nat) (σ τ : Nat → Nat) : Prop := (∀ i < n, σ i < n ∧ τ (σ i) = i) ∧ ∀ i < n, τ i < n ∧ σ (τ i) = i

omit [LinearOrder K] in
theorem sum_reorder {n : Nat} {σ τ : Nat → Nat} (h : Reorders n σ τ) (f : Nat → K) : ∑ i ∈ range n, f (σ i) = ∑ i ∈ range n, f i :=
  Finset.sum_nbij' σ τ (fun i hi => Finset.mem_range.2 (h.1 i (Finset.mem_range.1 hi)).1) (fun i hi => Finset.mem_range.2 (h.2 i (Finset.mem_range.1 hi)).1)
    (fun i hi => (h.1 i (Finset.mem_range.1 hi)).2) (fun i hi => (h.2 i (Finset.mem_range.1 hi)).2) fun _ _ => rfl

omit [LinearOrder K] in
theorem app_reorder {n : Nat} {σ τ : Nat → Nat} (h : Reorders n σ τ) (M : Nat → Nat → K) (y : Nat → K) (i : Nat) :
    app n (fun i j => M (σ i) (σ j)) y i = app n M (fun j => y (τ j)) (σ i) := by
  unfold app
  rw [← sum_reorder h fun j => M (σ i) j * y (τ j)]
  exact Finset.sum_congr rfl fun j hj => by rw [(h.1 j (Finset.mem_range.1 hj)).2]

omit [LinearOrder K] in
theorem form_reorder {n : Nat} {σ τ : Nat → Nat} (h : Reorders n σ τ) (M : Nat → Nat → K) (u : Nat → K) :
    form n (fun i j => M (σ i) (σ j)) u u = form n M (fun j => u (τ j)) (fun j => u (τ j)) := by
  unfold form dot
  rw [← sum_reorder h fun i => u (τ i) * app n M (fun j => u (τ j)) i]
  refine Finset.sum_congr rfl fun i hi => ?_
  rw [app_reorder h, (h.1 i (Finset.mem_range.1 hi)).2]

theorem posDef_reorder {n : Nat} {σ τ : Nat → Nat} (h : Reorders n σ τ) {M : Nat → Nat → K} : PosDef n (fun i j => M (σ i) (σ j)) ↔ PosDef n M := by
  constructor
  · rintro hp u ⟨i, hi, hu⟩
    have := hp (fun j => u (σ j)) ⟨τ i, (h.2 i hi).1, by simpa [(h.2 i hi).2] using hu⟩
    rw [form_reorder h] at this
    have e : form n M (fun j => u (σ (τ j))) (fun j => u (σ (τ j))) = form n M u u := by
      unfold form dot app
      refine Finset.sum_congr rfl fun i hi => ?_
      beta_reduce
      rw [(h.2 i (Finset.mem_range.1 hi)).2]
      congr 1
      exact Finset.sum_congr rfl fun j hj => by rw [(h.2 j (Finset.mem_range.1 hj)).2]
    rwa [e] at this
  · rintro hp u ⟨i, hi, hu⟩
    rw [form_reorder h]
    exact hp _ ⟨σ i, (h.1 i hi).1, by rw [(h.1 i hi).2]; exact hu⟩

omit [LinearOrder K] in
theorem lower_eq {M : Nat → Nat → K} (hs : ∀ i j, M i j = M j i) : lower M = M := by
  funext i j
  unfold lower
  split_ifs
  · rfl
  · exact hs j i

/-- a factorisation in any order, of a symmetric positive definite matrix, gives the solution -/
theorem reordered_solves [IsStrictOrderedRing K] {ok : K → Bool} (h0 : ∀ d, ok d = true → d ≠ 0) (h1 : ∀ d, 0 < d → ok d = true) {n : Nat} {σ τ : Nat → Nat}
    (h : Reorders n σ τ) {M : Nat → Nat → K} (hs : ∀ i j, M i j = M j i) (hp : PosDef n M) (b : Nat → K) :
    ∃ x, reordered (elim ok) σ τ n M b = some x ∧ ∀ i < n, app n M x i = b i := by
  have hs' : ∀ i j, M (σ i) (σ j) = M (σ j) (σ i) := fun i j => hs _ _
  obtain ⟨y, hy⟩ := elim_total h1 n (M := fun i j => M (σ i) (σ j)) (fun i => b (σ i)) hs' ((posDef_reorder h).2 hp)
  refine ⟨fun i => y (τ i), by unfold reordered; rw [lower_eq hs, hy]; rfl, fun i hi => ?_⟩
  have := elim_solves h0 n hs' hy (τ i) (h.2 i hi).1
  rw [app_reorder h, (h.2 i hi).2] at this
  exact this

end Ecad.LinSolve
