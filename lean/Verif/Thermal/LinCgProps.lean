import Verif.Thermal.LinSolveProps
import Mathlib.LinearAlgebra.Dimension.Constructions
import Mathlib.LinearAlgebra.FiniteDimensional.Basic
/-!
C154: the linear solvers.  Conjugate gradients.
-/
namespace Ecad.LinSolve
open Ecad.Thermal Finset

variable {K : Type} [Field K] [LinearOrder K]

/-- a symmetric positive definite system with a positive diagonal preconditioner -/
structure Sys (n : Nat) (A : (Nat → K) → Nat → K) (d : Nat → K) : Prop where
  add : ∀ u v i, A (fun k => u k + v k) i = A u i + A v i
  smul : ∀ a u i, A (fun k => a * u k) i = a * A u i
  symm : ∀ u v, dot n u (A v) = dot n v (A u)
  pos : ∀ u : Nat → K, (∃ i < n, u i ≠ 0) → 0 < dot n u (A u)
  diag : ∀ i < n, 0 < d i

section
omit [LinearOrder K]

theorem dot_comm (n : Nat) (u v : Nat → K) : dot n u v = dot n v u := Finset.sum_congr rfl fun i _ => mul_comm _ _

theorem dot_lin (n : Nat) (u v w : Nat → K) (a : K) : dot n (fun i => u i + a * v i) w = dot n u w + a * dot n v w := by
  unfold dot
  rw [Finset.mul_sum, ← Finset.sum_add_distrib]
  exact Finset.sum_congr rfl fun i _ => by ring

theorem dot_sub (n : Nat) (u v w : Nat → K) (a : K) : dot n (fun i => u i - a * v i) w = dot n u w - a * dot n v w := by
  unfold dot
  rw [Finset.mul_sum, ← Finset.sum_sub_distrib]
  exact Finset.sum_congr rfl fun i _ => by ring

theorem dot_diag (n : Nat) (d u v : Nat → K) : dot n u (fun i => d i * v i) = dot n v fun i => d i * u i := Finset.sum_congr rfl fun i _ => by ring

end

/-- the states after full rounds, without a look at the threshold -/
def st (n : Nat) (A : (Nat → K) → Nat → K) (d b : Nat → K) : Nat → CG K
  | 0 => CG.init n A d b
  | k + 1 => ((st n A d b k).move n A).turn n d

section
omit [LinearOrder K]
variable (n : Nat) (A : (Nat → K) → Nat → K) (d b : Nat → K)

theorem st_abs : ∀ k, (st n A d b k).abs = dot n (st n A d b k).r fun i => d i * (st n A d b k).r i
  | 0 => rfl
  | _ + 1 => rfl

theorem st_r (k : Nat) : (st n A d b (k + 1)).r = fun i => (st n A d b k).r i - (st n A d b k).abs / dot n (st n A d b k).p (A (st n A d b k).p) * A (st n A d b k).p i := rfl

theorem st_p (k : Nat) : (st n A d b (k + 1)).p = fun i => d i * (st n A d b (k + 1)).r i + (st n A d b (k + 1)).abs / (st n A d b k).abs * (st n A d b k).p i := rfl

theorem st_x (k : Nat) : (st n A d b (k + 1)).x = fun i => (st n A d b k).x i + (st n A d b k).abs / dot n (st n A d b k).p (A (st n A d b k).p) * (st n A d b k).p i := rfl

end

variable [IsStrictOrderedRing K] {n : Nat} {A : (Nat → K) → Nat → K} {d : Nat → K}

theorem dot_diag_pos (h : Sys n A d) {u : Nat → K} (hu : ∃ i < n, u i ≠ 0) : 0 < dot n u fun i => d i * u i := by
  obtain ⟨i, hi, hu⟩ := hu
  unfold dot
  refine Finset.sum_pos' (fun j hj => ?_) ⟨i, Finset.mem_range.2 hi, ?_⟩
  · have := h.diag j (Finset.mem_range.1 hj)
    nlinarith [mul_nonneg this.le (mul_self_nonneg (u j))]
  · have := h.diag i hi
    have h2 : 0 < u i * u i := lt_of_le_of_ne (mul_self_nonneg _) (Ne.symm (mul_self_ne_zero.2 hu))
    nlinarith [mul_pos this h2]

omit [LinearOrder K] [IsStrictOrderedRing K] in
/-- the residual is what is left of the right hand side -/
theorem st_residual (hadd : ∀ u v i, A (fun k => u k + v k) i = A u i + A v i) (hsmul : ∀ a u i, A (fun k => a * u k) i = a * A u i) (b : Nat → K) :
    ∀ k i, (st n A d b k).r i = b i - A (st n A d b k).x i := by
  intro k
  induction k with
  | zero => intro i; rfl
  | succ k ih =>
    intro i
    rw [st_r, st_x]
    beta_reduce
    rw [hadd (st n A d b k).x fun j => (st n A d b k).abs / dot n (st n A d b k).p (A (st n A d b k).p) * (st n A d b k).p j, hsmul, ih i]
    ring

/-- the relations between residuals and directions -/
structure Inv (n : Nat) (A : (Nat → K) → Nat → K) (d b : Nat → K) (k : Nat) : Prop where
  res : ∀ i j, i < j → j ≤ k → dot n (st n A d b j).r (fun l => d l * (st n A d b i).r l) = 0
  conj : ∀ i j, i < j → j ≤ k → dot n (st n A d b j).p (A (st n A d b i).p) = 0
  orth : ∀ i j, i < j → j ≤ k → dot n (st n A d b j).r (st n A d b i).p = 0
  same : ∀ j, j ≤ k → dot n (st n A d b j).r (st n A d b j).p = (st n A d b j).abs

/-- the residual of a state is not zero -/
def Left (n : Nat) (A : (Nat → K) → Nat → K) (d b : Nat → K) (k : Nat) : Prop := ∃ i < n, (st n A d b k).r i ≠ 0

theorem abs_pos' (h : Sys n A d) {b : Nat → K} {k : Nat} (hl : Left n A d b k) : 0 < (st n A d b k).abs := by
  rw [st_abs]
  exact dot_diag_pos h hl

theorem curv_pos (h : Sys n A d) {b : Nat → K} {k : Nat} (hl : Left n A d b k) (hs : dot n (st n A d b k).r (st n A d b k).p = (st n A d b k).abs) :
    0 < dot n (st n A d b k).p (A (st n A d b k).p) := by
  refine h.pos _ ?_
  by_contra hc
  push Not at hc
  have h0 : dot n (st n A d b k).r (st n A d b k).p = 0 := Finset.sum_eq_zero fun i hi => by rw [hc i (Finset.mem_range.1 hi), mul_zero]
  have := abs_pos' h hl
  rw [← hs, h0] at this
  exact lt_irrefl _ this

theorem inv_all (h : Sys n A d) (b : Nat → K) : ∀ k, (∀ j < k, Left n A d b j) → Inv n A d b k := by
  intro k
  induction k with
  | zero =>
    intro _
    refine ⟨fun i j h1 h2 => by omega, fun i j h1 h2 => by omega, fun i j h1 h2 => by omega, fun j hj => ?_⟩
    rw [Nat.le_zero.1 hj]
    rfl
  | succ k ih =>
    intro hl
    have I := ih fun j hj => hl j (by omega)
    have ha := abs_pos' h (hl k (by omega))
    have hc := curv_pos h (hl k (by omega)) (I.same k le_rfl)
    have orth' : ∀ i, i ≤ k → dot n (st n A d b (k + 1)).r (st n A d b i).p = 0 := by
      intro i hi
      rw [st_r, dot_sub, dot_comm n (A _), h.symm (st n A d b i).p (st n A d b k).p]
      rcases Nat.lt_or_ge i k with hik | hik
      · rw [I.orth i k hik le_rfl, I.conj i k hik le_rfl]
        ring
      · have : i = k := by omega
        subst this
        rw [I.same i le_rfl]
        field_simp
        ring
    have res' : ∀ i, i ≤ k → dot n (st n A d b (k + 1)).r (fun l => d l * (st n A d b i).r l) = 0 := by
      intro i hi
      cases i with
      | zero => exact orth' 0 hi
      | succ i =>
        have h1 := orth' (i + 1) hi
        rw [st_p, dot_comm, dot_lin, dot_comm n (st n A d b i).p, orth' i (by omega), mul_zero, add_zero, dot_comm] at h1
        exact h1
    have same' : dot n (st n A d b (k + 1)).r (st n A d b (k + 1)).p = (st n A d b (k + 1)).abs := by
      rw [st_p, dot_comm, dot_lin, dot_comm n (st n A d b k).p, orth' k le_rfl, mul_zero, add_zero, dot_comm, ← st_abs]
    have conj' : ∀ i, i ≤ k → dot n (st n A d b (k + 1)).p (A (st n A d b i).p) = 0 := by
      intro i hi
      have hai := abs_pos' h (hl i (by omega))
      have hci := curv_pos h (hl i (by omega)) (I.same i hi)
      -- the direction through the residuals
      have e1 : (st n A d b i).abs / dot n (st n A d b i).p (A (st n A d b i).p) * dot n (fun l => d l * (st n A d b (k + 1)).r l) (A (st n A d b i).p) =
          dot n (fun l => d l * (st n A d b (k + 1)).r l) (st n A d b i).r - dot n (fun l => d l * (st n A d b (k + 1)).r l) (st n A d b (i + 1)).r := by
        rw [st_r n A d b i, dot_comm n _ (fun l => (st n A d b i).r l - _ * A (st n A d b i).p l), dot_sub, dot_comm n (st n A d b i).r, dot_comm n (A (st n A d b i).p)]
        ring
      have e2 : dot n (fun l => d l * (st n A d b (k + 1)).r l) (st n A d b i).r = 0 := by
        rw [dot_comm, dot_diag]
        exact res' i hi
      rw [e2, zero_sub] at e1
      rw [st_p, dot_lin]
      rcases Nat.lt_or_ge i k with hik | hik
      · rw [I.conj i k hik le_rfl, mul_zero, add_zero]
        have e3 : dot n (fun l => d l * (st n A d b (k + 1)).r l) (st n A d b (i + 1)).r = 0 := by
          rw [dot_comm, dot_diag]
          exact res' (i + 1) (by omega)
        rw [e3, neg_zero] at e1
        have : (st n A d b i).abs / dot n (st n A d b i).p (A (st n A d b i).p) ≠ 0 := (div_pos hai hci).ne'
        exact (mul_eq_zero.1 e1).resolve_left this
      · have : i = k := by omega
        subst this
        have e3 : dot n (fun l => d l * (st n A d b (i + 1)).r l) (st n A d b (i + 1)).r = (st n A d b (i + 1)).abs := by
          rw [dot_comm, ← st_abs]
        rw [e3] at e1
        field_simp at e1 ⊢
        linear_combination e1
    refine ⟨fun i j h1 h2 => ?_, fun i j h1 h2 => ?_, fun i j h1 h2 => ?_, fun j hj => ?_⟩
    · rcases Nat.lt_or_ge j (k + 1) with hj | hj
      · exact I.res i j h1 (by omega)
      · have : j = k + 1 := by omega
        subst this
        exact res' i (by omega)
    · rcases Nat.lt_or_ge j (k + 1) with hj | hj
      · exact I.conj i j h1 (by omega)
      · have : j = k + 1 := by omega
        subst this
        exact conj' i (by omega)
    · rcases Nat.lt_or_ge j (k + 1) with hj | hj
      · exact I.orth i j h1 (by omega)
      · have : j = k + 1 := by omega
        subst this
        exact orth' i (by omega)
    · rcases Nat.lt_or_ge j (k + 1) with hj' | hj'
      · exact I.same j (by omega)
      · have : j = k + 1 := by omega
        subst this
        exact same'

/-- there are no more residuals than unknowns -/
theorem few (h : Sys n A d) {b : Nat → K} {k : Nat} (hl : ∀ j ≤ k, Left n A d b j) : k < n := by
  have I := inv_all h b k fun j hj => hl j (by omega)
  let v : Fin (k + 1) → Fin n → K := fun j i => (st n A d b j).r i
  have hli : LinearIndependent K v := by
    rw [linearIndependent_iff']
    intro s g hg j hj
    have h1 : ∑ x : Fin n, (∑ i ∈ s, g i * v i x) * (d x * v j x) = 0 := by
      refine Finset.sum_eq_zero fun x _ => ?_
      have := congrFun hg x
      simp only [Finset.sum_apply, Pi.smul_apply, smul_eq_mul, Pi.zero_apply] at this
      rw [this, zero_mul]
    have h2 : ∑ x : Fin n, (∑ i ∈ s, g i * v i x) * (d x * v j x) = ∑ i ∈ s, g i * dot n (st n A d b i).r fun l => d l * (st n A d b j).r l := by
      simp only [Finset.sum_mul]
      rw [Finset.sum_comm]
      refine Finset.sum_congr rfl fun i _ => ?_
      unfold dot
      rw [Finset.mul_sum, ← Fin.sum_univ_eq_sum_range (fun x => g i * ((st n A d b i).r x * (d x * (st n A d b j).r x))) n]
      exact Finset.sum_congr rfl fun x _ => by show g i * (st n A d b i).r x * _ = _; ring
    rw [h1, Finset.sum_eq_single j] at h2
    · rw [← st_abs] at h2
      exact (mul_eq_zero.1 h2.symm).resolve_right (abs_pos' h (hl j (by omega))).ne'
    · intro i _ hij
      have hij' : (i : Nat) ≠ j := fun e => hij (Fin.ext e)
      rcases Nat.lt_or_ge (j : Nat) i with hlt | hge
      · rw [I.res j i hlt (by omega), mul_zero]
      · rw [dot_diag, I.res i j (by omega) (by omega), mul_zero]
    · exact fun hn => absurd hj hn
  have := hli.fintype_card_le_finrank
  rw [Fintype.card_fin, Module.finrank_fin_fun] at this
  omega

omit [IsStrictOrderedRing K] in
/-- a residual that is not below the threshold is not zero -/
theorem left_of {b : Nat → K} {thr : K} (ht : 0 < thr) {k : Nat} (hr : ¬ dot n (st n A d b k).r (st n A d b k).r < thr) : Left n A d b k := by
  by_contra hc
  unfold Left at hc
  push Not at hc
  apply hr
  have : dot n (st n A d b k).r (st n A d b k).r = 0 := Finset.sum_eq_zero fun i hi => by rw [hc i (Finset.mem_range.1 hi), mul_zero]
  rw [this]
  exact ht

theorem rounds_end (h : Sys n A d) {b : Nat → K} {thr : K} (ht : 0 < thr) : ∀ (left k : Nat), n ≤ left + k →
    (∀ j ≤ k, ¬ dot n (st n A d b j).r (st n A d b j).r < thr) →
    ∃ m, k < m ∧ m ≤ n ∧ CG.rounds n A d thr left (st n A d b k) = some (st n A d b m).x ∧ dot n (st n A d b m).r (st n A d b m).r < thr := by
  intro left
  induction left with
  | zero =>
    intro k hk hr
    have := few h fun j hj => left_of ht (hr j hj)
    omega
  | succ left ih =>
    intro k hk hr
    have hkn := few h fun j hj => left_of ht (hr j hj)
    have I := inv_all h b k fun j hj => left_of ht (hr j (by omega))
    have hc := curv_pos h (left_of ht (hr k le_rfl)) (I.same k le_rfl)
    have ha := abs_pos' h (left_of ht (hr k le_rfl))
    unfold CG.rounds
    rw [if_neg hc.ne']
    have hr1 : ((st n A d b k).move n A).r = (st n A d b (k + 1)).r := rfl
    have hx1 : ((st n A d b k).move n A).x = (st n A d b (k + 1)).x := rfl
    have ha1 : ((st n A d b k).move n A).abs = (st n A d b k).abs := rfl
    have hs1 : ((st n A d b k).move n A).turn n d = st n A d b (k + 1) := rfl
    simp only [hr1, hx1, ha1, hs1]
    by_cases hlt : dot n (st n A d b (k + 1)).r (st n A d b (k + 1)).r < thr
    · rw [if_pos hlt]
      exact ⟨k + 1, by omega, by omega, rfl, hlt⟩
    · rw [if_neg hlt, if_neg ha.ne']
      obtain ⟨m, m1, m2, m3, m4⟩ := ih (k + 1) (by omega) fun j hj => by
        rcases Nat.lt_or_ge j (k + 1) with hj' | hj'
        · exact hr j (by omega)
        · have : j = k + 1 := by omega
          subst this
          exact hlt
      exact ⟨m, by omega, m2, m3, m4⟩

/-- the exact solution is reached after no more rounds than there are unknowns -/
theorem cg_exact (h : Sys n A d) (b : Nat → K) : ∃ k ≤ n, ∀ i < n, A (st n A d b k).x i = b i := by
  by_contra hc
  push Not at hc
  have := few h (b := b) (k := n) fun j hj => by
    obtain ⟨i, hi, hne⟩ := hc j hj
    refine ⟨i, hi, ?_⟩
    rw [st_residual h.add h.smul]
    exact fun e => hne (sub_eq_zero.1 e).symm
  omega

/-- conjugate gradients of a symmetric positive definite system end with a residual below the threshold, after no more rounds than there are unknowns -/
theorem cg_ends (h : Sys n A d) (b : Nat → K) {tol : K → K} (ht : ∀ v, 0 < v → 0 < tol v) :
    ∃ x, conjugate n A d tol b = some x ∧ ((∀ i < n, A x i = b i) ∨ dot n (fun i => b i - A x i) (fun i => b i - A x i) < tol (dot n b b)) := by
  have hb0 : 0 ≤ dot n b b := Finset.sum_nonneg fun i _ => mul_self_nonneg _
  unfold conjugate
  by_cases hb : dot n b b = 0
  · rw [if_pos hb]
    refine ⟨_, rfl, .inl fun i hi => ?_⟩
    have h1 : A (fun _ => 0) i = 0 := by
      have := h.smul 0 (fun _ => 0) i
      simpa using this
    have h2 := (Finset.sum_eq_zero_iff_of_nonneg fun i _ => mul_self_nonneg (b i)).1 hb i (Finset.mem_range.2 hi)
    rw [h1, mul_self_eq_zero.1 h2]
  · rw [if_neg hb]
    have hpos := ht _ (lt_of_le_of_ne hb0 (Ne.symm hb))
    have hres : ∀ k, (fun i => b i - A (st n A d b k).x i) = (st n A d b k).r := fun k => funext fun i => (st_residual h.add h.smul b k i).symm
    by_cases hlt : dot n (st n A d b 0).r (st n A d b 0).r < tol (dot n b b)
    · refine ⟨(st n A d b 0).x, ?_, .inr (by rw [hres]; exact hlt)⟩
      have hlt' : dot n (CG.init n A d b).r (CG.init n A d b).r < tol (dot n b b) := hlt
      dsimp only
      rw [if_pos hlt']
      rfl
    · obtain ⟨m, -, -, m3, m4⟩ := rounds_end h hpos (2 * n) 0 (by omega) fun j hj => by rw [Nat.le_zero.1 hj]; exact hlt
      refine ⟨(st n A d b m).x, ?_, .inr (by rw [hres]; exact m4)⟩
      have hlt' : ¬ dot n (CG.init n A d b).r (CG.init n A d b).r < tol (dot n b b) := hlt
      dsimp only
      rw [if_neg hlt']
      exact m3

end Ecad.LinSolve
