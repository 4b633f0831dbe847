import Verif.Thermal.MidModel
import Verif.Thermal.ResponseProps
import Verif.Thermal.TransientProps
import Mathlib.Tactic.Module
import Mathlib.Algebra.Module.LinearMap.End
/-!
C150: the fixed step integrator of the transient solver.
-/
namespace Ecad.Mid
open Ecad.Thermal Ecad.Response Finset

variable {K : Type} [Field K] [LinearOrder K] [IsStrictOrderedRing K]

/-! ## specification -/

/-- grounded networks all nodes of which have a heat capacity -/
structure Sound (net : Network K) : Prop where
  grounded : Grounded net
  capacity : ∀ i < net.length, 0 < cOf net i

/-- the step is at most `δ` times the time constant of every node, its capacity over the sum of all conductances at it -/
def Fits (net : Network K) (dt δ : K) : Prop := ∀ i < net.length, dt * entry (gTriplets net) i i ≤ δ * cOf net i

/-- temperatures after `k` steps of length `dt` from time 0 -/
def after (net : Network K) (refT : K) (exc : K → Nat → K) (dt : K) (x : Nat → K) (k : Nat) : Nat → K := march (rhs net refT exc) 0 dt x k

/-- full power at all times -/
def full : K → Nat → K := fun _ _ => 1

/-! ## the step as a polynomial -/

omit [LinearOrder K] [IsStrictOrderedRing K] in
theorem mul_add' (ts : Triplets K) (x y : Nat → K) (i : Nat) : mulVec ts (x + y) i = mulVec ts x i + mulVec ts y i := by
  induction ts with
  | nil => simp [mulVec]
  | cons t ts ih =>
    rw [mulVec_cons, mulVec_cons, mulVec_cons, ih]
    split
    · rw [Pi.add_apply]; ring
    · ring

omit [LinearOrder K] [IsStrictOrderedRing K] in
theorem mul_smul' (ts : Triplets K) (a : K) (x : Nat → K) (i : Nat) : mulVec ts (a • x) i = a * mulVec ts x i := by
  induction ts with
  | nil => simp [mulVec]
  | cons t ts ih =>
    rw [mulVec_cons, mulVec_cons, ih]
    split
    · rw [Pi.smul_apply, smul_eq_mul]; ring
    · ring

/-- the linear part of the derivative -/
def lin (net : Network K) : (Nat → K) →ₗ[K] (Nat → K) where
  toFun w i := -(if cOf net i > 0 then 1 / cOf net i else 0) * mulVec (gTriplets net) w i
  map_add' x y := by funext i; rw [mul_add']; simp only [Pi.add_apply]; ring
  map_smul' a x := by funext i; rw [mul_smul']; simp only [Pi.smul_apply, smul_eq_mul, RingHom.id_apply]; ring

/-- what does not depend on the temperatures -/
def src (net : Network K) (refT : K) (exc : Nat → K) : Nat → K := fun i =>
  (if cOf net i > 0 then 1 / cOf net i else 0) * (hfOf net i * exc i + htcOf net i * refT)

theorem rhs_eq (net : Network K) (refT : K) (exc : K → Nat → K) (t : K) (x : Nat → K) : rhs net refT exc t x = lin net x + src net refT (exc t) := by
  funext i
  rw [rhs, derivative_eq, Pi.add_apply]
  simp only [lin, src, LinearMap.coe_mk, AddHom.coe_mk]
  ring

omit [LinearOrder K] [IsStrictOrderedRing K] in
theorem midStep_fun (f : K → (Nat → K) → Nat → K) (t dt : K) (x : Nat → K) :
    midStep f t dt x = (1 / 2 : K) • ((x + (dt / 2) • f t x) + (x + (2 * (dt / 2)) • f (t + dt / 2) (x + (dt / 2) • f t x)) +
      (dt / 2) • f (t + dt / 2 + dt / 2) (x + (2 * (dt / 2)) • f (t + dt / 2) (x + (dt / 2) • f t x))) := by
  funext i
  simp only [midStep, Pi.smul_apply, Pi.add_apply, smul_eq_mul]
  have e1 : (fun i => x i + dt / 2 * f t x i) = x + (dt / 2) • f t x := by funext j; simp
  rw [e1]
  have e2 : (fun i => x i + 2 * (dt / 2) * f (t + dt / 2) (x + (dt / 2) • f t x) i) = x + (2 * (dt / 2)) • f (t + dt / 2) (x + (dt / 2) • f t x) := by
    funext j; simp
  rw [e2]
  ring

/-- A step for an affine derivative -/
theorem midStep_affine (A : (Nat → K) →ₗ[K] (Nat → K)) (b : K → Nat → K) (t dt : K) (x : Nat → K) :
    midStep (fun t x => A x + b t) t dt x =
      (x + dt • A x + (dt ^ 2 / 2) • A (A x) + (dt ^ 3 / 8) • A (A (A x))) +
      ((dt / 4) • (b t + dt • A (b t) + (dt ^ 2 / 2) • A (A (b t))) +
        (dt / 4) • ((2 : K) • b (t + dt / 2) + dt • A (b (t + dt / 2))) + (dt / 4) • b (t + dt / 2 + dt / 2)) := by
  rw [midStep_fun]
  simp only [map_add, map_smul, smul_add]
  module

/-- the error after a step as a function of that before -/
def prop (net : Network K) (dt : K) (w : Nat → K) : Nat → K :=
  w + dt • lin net w + (dt ^ 2 / 2) • lin net (lin net w) + (dt ^ 3 / 8) • lin net (lin net (lin net w))

/-- the mean of the derivative over a step -/
def gain (net : Network K) (dt : K) (w : Nat → K) : Nat → K := w + (dt / 2) • lin net w + (dt ^ 2 / 8) • lin net (lin net w)

theorem step_eq (net : Network K) (refT : K) (exc : K → Nat → K) (t dt : K) (x : Nat → K) : midStep (rhs net refT exc) t dt x = prop net dt x +
      ((dt / 4) • (src net refT (exc t) + dt • lin net (src net refT (exc t)) + (dt ^ 2 / 2) • lin net (lin net (src net refT (exc t)))) +
        (dt / 4) • ((2 : K) • src net refT (exc (t + dt / 2)) + dt • lin net (src net refT (exc (t + dt / 2)))) +
        (dt / 4) • src net refT (exc (t + dt / 2 + dt / 2))) := by
  have : rhs net refT exc = fun t x => lin net x + src net refT (exc t) := by funext t x; exact rhs_eq _ _ _ _ _
  rw [this, midStep_affine (lin net) (fun t => src net refT (exc t))]
  rfl

/-- a step at full power -/
theorem step_full (net : Network K) (refT : K) (t dt : K) (x : Nat → K) :
    midStep (rhs net refT full) t dt x = x + dt • gain net dt (rhs net refT full 0 x) := by
  have hfull : ∀ t : K, full t = fun _ => (1 : K) := fun _ => rfl
  rw [step_eq, rhs_eq]
  simp only [hfull, prop, gain, map_add, smul_add]
  module

theorem prop_gain (net : Network K) (dt : K) (w : Nat → K) : prop net dt w = w + dt • gain net dt (lin net w) := by
  simp only [prop, gain]
  module

theorem prop_add (net : Network K) (dt : K) (v w : Nat → K) : prop net dt (v + w) = prop net dt v + prop net dt w := by
  simp only [prop, map_add]
  module

theorem prop_smul (net : Network K) (dt a : K) (w : Nat → K) : prop net dt (a • w) = a • prop net dt w := by
  simp only [prop, map_smul]
  module

theorem prop_sub (net : Network K) (dt : K) (v w : Nat → K) : prop net dt (v - w) = prop net dt v - prop net dt w := by
  simp only [prop, map_sub]
  module

/-- differences of steps -/
theorem step_sub (net : Network K) (refT : K) (exc : K → Nat → K) (t dt : K) (x y : Nat → K) :
    midStep (rhs net refT exc) t dt x - midStep (rhs net refT exc) t dt y = prop net dt (x - y) := by
  rw [step_eq, step_eq, prop_sub]
  module

/-! ## signs -/

/-- nowhere negative on the nodes -/
def NN (n : Nat) (w : Nat → K) : Prop := ∀ i < n, 0 ≤ w i

theorem off_diag {net : Network K} (h : Grounded net) {i j : Nat} (hij : i ≠ j) : entry (gTriplets net) i j ≤ 0 := by
  rw [entry_eq_bil, bil_g]
  have h1 : ((edges net).map fun e => e.2.2 * (delta i e.1 - delta i e.2.1) * (delta j e.1 - delta j e.2.1)).sum ≤ (0 : K) := by
    have : ∀ l : List K, (∀ z ∈ l, z ≤ 0) → l.sum ≤ 0 := by
      intro l
      induction l with
      | nil => simp
      | cons a l ih =>
        intro hl
        rw [List.sum_cons]
        have := hl a (by simp)
        have := ih fun z hz => hl z (by simp [hz])
        linarith
    refine this _ fun z hz => ?_
    obtain ⟨e, he, rfl⟩ := List.mem_map.1 hz
    have := (edge_pos h he).le
    unfold delta
    split_ifs <;> first | (exfalso; omega) | linarith
  have h2 : ∑ k ∈ range net.length, htcOf net k * delta i k * delta j k = (0 : K) := by
    refine Finset.sum_eq_zero fun k _ => ?_
    unfold delta
    by_cases a1 : k = i
    · have : k ≠ j := fun e => hij (a1 ▸ e)
      simp [this]
    · simp [a1]
  rw [h2, add_zero]
  exact h1

theorem lin_at {net : Network K} (h : Sound net) (w : Nat → K) {i : Nat} (hi : i < net.length) :
    cOf net i * lin net w i = -mulVec (gTriplets net) w i := by
  have hc := h.capacity i hi
  simp only [lin, LinearMap.coe_mk, AddHom.coe_mk, if_pos hc]
  field_simp

theorem mul_entries {net : Network K} (h : Grounded net) (w : Nat → K) (i : Nat) :
    mulVec (gTriplets net) w i = ∑ j ∈ range net.length, entry (gTriplets net) i j * w j :=
  mulVec_eq_entries _ _ _ _ fun _ ht => (mem_gTriplets h.inRange ht).2

theorem lin_congr {net : Network K} (h : Grounded net) {v w : Nat → K} (hv : ∀ i < net.length, v i = w i) : lin net v = lin net w := by
  funext i
  simp only [lin, LinearMap.coe_mk, AddHom.coe_mk]
  rw [mul_entries h, mul_entries h]
  congr 1
  exact Finset.sum_congr rfl fun j hj => by rw [hv j (Finset.mem_range.1 hj)]

/-- with the step bounded by the time constants, the linear part is not negative after a shift -/
theorem shift_nonneg {net : Network K} (h : Sound net) {dt δ : K} (h0 : 0 ≤ dt) (hf : Fits net dt δ) {w : Nat → K} (hw : NN net.length w) :
    NN net.length (dt • lin net w + δ • w) := by
  intro i hi
  have hc := h.capacity i hi
  have e : cOf net i * (dt • lin net w + δ • w) i = (δ * cOf net i - dt * entry (gTriplets net) i i) * w i +
      ∑ j ∈ (range net.length).erase i, dt * -entry (gTriplets net) i j * w j := by
    simp only [Pi.add_apply, Pi.smul_apply, smul_eq_mul]
    rw [mul_add, mul_left_comm, lin_at h w hi, mul_entries h.grounded, ← Finset.add_sum_erase _ _ (Finset.mem_range.2 hi)]
    have : ∑ j ∈ (range net.length).erase i, dt * -entry (gTriplets net) i j * w j = -(dt * ∑ j ∈ (range net.length).erase i, entry (gTriplets net) i j * w j) := by
      rw [Finset.mul_sum, ← Finset.sum_neg_distrib]
      exact Finset.sum_congr rfl fun j _ => by ring
    rw [this]
    ring
  have hn : 0 ≤ cOf net i * (dt • lin net w + δ • w) i := by
    rw [e]
    refine add_nonneg (mul_nonneg (sub_nonneg.2 (hf i hi)) (hw i hi)) (Finset.sum_nonneg fun j hj => ?_)
    obtain ⟨h1, h2⟩ := Finset.mem_erase.1 hj
    exact mul_nonneg (mul_nonneg h0 (neg_nonneg.2 (off_diag h.grounded (Ne.symm h1)))) (hw j (Finset.mem_range.1 h2))
  exact nonneg_of_mul_nonneg_right hn hc

theorem Fits.mono {net : Network K} (h : Sound net) {dt δ δ' : K} (hf : Fits net dt δ) (hd : δ ≤ δ') : Fits net dt δ' :=
  fun i hi => (hf i hi).trans (mul_le_mul_of_nonneg_right hd (h.capacity i hi).le)

/-- the mean of the derivative keeps the sign -/
theorem gain_nonneg {net : Network K} (h : Sound net) {dt δ : K} (h0 : 0 ≤ dt) (hf : Fits net dt δ) (hd : δ ≤ 2) {w : Nat → K} (hw : NN net.length w) :
    ∀ i < net.length, (1 - δ / 2 + δ ^ 2 / 8) * w i ≤ gain net dt w i := by
  intro i hi
  have h1 := shift_nonneg h h0 hf hw
  have h2 := shift_nonneg h h0 hf h1
  have e : gain net dt w = (1 - δ / 2 + δ ^ 2 / 8) • w + (1 / 2 - δ / 4) • (dt • lin net w + δ • w) +
      (1 / 8 : K) • (dt • lin net (dt • lin net w + δ • w) + δ • (dt • lin net w + δ • w)) := by
    simp only [gain, map_add, map_smul]
    module
  rw [e]
  simp only [Pi.add_apply, Pi.smul_apply, smul_eq_mul]
  have a1 := h1 i hi
  have a2 := h2 i hi
  simp only [Pi.add_apply, Pi.smul_apply, smul_eq_mul] at a1 a2
  have : 0 ≤ (1 / 2 - δ / 4) * (dt * lin net w i + δ * w i) := mul_nonneg (by linarith) a1
  linarith

/-- a step keeps the order -/
theorem prop_nonneg {net : Network K} (h : Sound net) {dt : K} (h0 : 0 ≤ dt) (hf : Fits net dt (4 / 3)) {w : Nat → K} (hw : NN net.length w) :
    NN net.length (prop net dt w) := by
  intro i hi
  have h1 := shift_nonneg h h0 hf hw
  have h2 := shift_nonneg h h0 hf h1
  have h3 := shift_nonneg h h0 hf h2
  have e : prop net dt w = (7 / 27 : K) • w + (1 / 3 : K) • (dt • lin net w + (4 / 3 : K) • w) + (1 / 8 : K) •
      (dt • lin net (dt • lin net (dt • lin net w + (4 / 3 : K) • w) + (4 / 3 : K) • (dt • lin net w + (4 / 3 : K) • w)) +
        (4 / 3 : K) • (dt • lin net (dt • lin net w + (4 / 3 : K) • w) + (4 / 3 : K) • (dt • lin net w + (4 / 3 : K) • w))) := by
    simp only [prop, map_add, map_smul]
    module
  rw [e]
  have a0 := hw i hi
  have a1 := h1 i hi
  have a3 := h3 i hi
  rw [Pi.add_apply, Pi.add_apply, Pi.smul_apply, Pi.smul_apply, Pi.smul_apply, smul_eq_mul, smul_eq_mul, smul_eq_mul]
  linarith

/-! ## steady states -/

theorem lin_out (net : Network K) (w : Nat → K) {i : Nat} (hi : net.length ≤ i) : lin net w i = 0 := by
  have : cOf net i = 0 := by unfold cOf; rw [List.getElem?_eq_none hi]
  simp only [lin, LinearMap.coe_mk, AddHom.coe_mk, this, gt_iff_lt, lt_irrefl, if_false, neg_zero, zero_mul]

theorem rhs_out (net : Network K) (refT : K) (exc : K → Nat → K) (t : K) (x : Nat → K) {i : Nat} (hi : net.length ≤ i) : rhs net refT exc t x i = 0 := by
  have : cOf net i = 0 := by unfold cOf; rw [List.getElem?_eq_none hi]
  rw [rhs, derivative_eq, this]
  simp

/-- the product weighted with the capacities -/
def dot (net : Network K) (v w : Nat → K) : K := ∑ i ∈ range net.length, cOf net i * v i * w i

theorem dot_lin {net : Network K} (h : Sound net) (v w : Nat → K) : dot net v (lin net w) = -bil (gTriplets net) v w := by
  unfold dot
  rw [← bil_eq_sum net.length v w _ fun _ ht => (mem_gTriplets h.grounded.inRange ht).1, ← Finset.sum_neg_distrib]
  refine Finset.sum_congr rfl fun i hi => ?_
  rw [mul_assoc, mul_left_comm, lin_at h w (Finset.mem_range.1 hi)]
  ring

theorem lin_symm {net : Network K} (h : Sound net) (v w : Nat → K) : dot net (lin net v) w = dot net v (lin net w) := by
  have : dot net (lin net v) w = dot net w (lin net v) := Finset.sum_congr rfl fun i _ => by ring
  rw [this, dot_lin h, dot_lin h, bil_comm]

theorem dot_self {net : Network K} (h : Sound net) {w : Nat → K} (hw : dot net w w ≤ 0) : ∀ i < net.length, w i = 0 := by
  intro i hi
  have h1 : ∀ j ∈ range net.length, 0 ≤ cOf net j * w j * w j := fun j hj => by
    rw [mul_assoc]; exact mul_nonneg (h.capacity j (Finset.mem_range.1 hj)).le (mul_self_nonneg _)
  have h2 := (Finset.sum_eq_zero_iff_of_nonneg h1).1 (le_antisymm hw (Finset.sum_nonneg h1)) i (Finset.mem_range.2 hi)
  rw [mul_assoc] at h2
  exact mul_self_eq_zero.1 ((mul_eq_zero.1 h2).resolve_left (h.capacity i hi).ne')

/-- the mean of a derivative is zero only if the derivative is -/
theorem gain_zero {net : Network K} (h : Sound net) (dt : K) {w : Nat → K} (hz : ∀ i < net.length, gain net dt w i = 0) : ∀ i < net.length, w i = 0 := by
  refine dot_self h ?_
  have e0 : dot net w (gain net dt w) = 0 := Finset.sum_eq_zero fun i hi => by rw [hz i (Finset.mem_range.1 hi), mul_zero]
  have e1 : dot net w (gain net dt w) = dot net w w + dt / 2 * dot net w (lin net w) + dt ^ 2 / 8 * dot net (lin net w) (lin net w) := by
    rw [lin_symm h w (lin net w)]
    simp only [dot, gain, Pi.add_apply, Pi.smul_apply, smul_eq_mul, Finset.mul_sum, ← Finset.sum_add_distrib]
    exact Finset.sum_congr rfl fun i _ => by ring
  have e2 : 0 ≤ dot net (dt • lin net w + (2 : K) • w) (dt • lin net w + (2 : K) • w) :=
    Finset.sum_nonneg fun i hi => by rw [mul_assoc]; exact mul_nonneg (h.capacity i (Finset.mem_range.1 hi)).le (mul_self_nonneg _)
  have e3 : dot net (dt • lin net w + (2 : K) • w) (dt • lin net w + (2 : K) • w) =
      dt ^ 2 * dot net (lin net w) (lin net w) + 4 * dt * dot net w (lin net w) + 4 * dot net w w := by
    simp only [dot, Pi.add_apply, Pi.smul_apply, smul_eq_mul, Finset.mul_sum, ← Finset.sum_add_distrib]
    exact Finset.sum_congr rfl fun i _ => by ring
  linarith

theorem steady_iff {net : Network K} (h : Sound net) (refT : K) (x : Nat → K) :
    (∀ i < net.length, rhs net refT full 0 x i = 0) ↔ Solves net refT x :=
  (c60_transient h.grounded.inRange refT (fun _ => 1) x).2.2.2 h.capacity

/-- **C150, steady states**: whatever the length of the step, a step changes nothing exactly if the temperatures are the steady ones. -/
theorem c150_steady {net : Network K} (h : Sound net) (refT : K) (t : K) {dt : K} (hd : 0 < dt) (x : Nat → K) :
    (∀ i < net.length, midStep (rhs net refT full) t dt x i = x i) ↔ Solves net refT x := by
  rw [← steady_iff h, step_full]
  constructor
  · intro hs
    refine gain_zero h dt fun i hi => ?_
    have := hs i hi
    simp only [Pi.add_apply, Pi.smul_apply, smul_eq_mul, add_eq_left, mul_eq_zero, hd.ne', false_or] at this
    exact this
  · intro hz i hi
    have : rhs net refT full 0 x = 0 := by
      funext j
      by_cases hj : j < net.length
      · exact hz j hj
      · exact rhs_out _ _ _ _ _ (by omega)
    rw [this]
    simp [gain]

/-! ## errors -/

/-- the steady state stands still in all steps -/
theorem after_steady {net : Network K} (h : Sound net) {refT dt : K} {s : Nat → K} (hs : Solves net refT s) (t : K) :
    midStep (rhs net refT full) t dt s = s := by
  have : rhs net refT full 0 s = 0 := by
    funext j
    by_cases hj : j < net.length
    · exact (steady_iff h refT s).2 hs j hj
    · exact rhs_out _ _ _ _ _ (by omega)
  rw [step_full, this]
  simp [gain]

theorem after_succ (net : Network K) (refT : K) (exc : K → Nat → K) (dt : K) (x : Nat → K) (k : Nat) :
    after net refT exc dt x (k + 1) = midStep (rhs net refT exc) (0 + k * dt) dt (after net refT exc dt x k) := rfl

theorem error_succ {net : Network K} (h : Sound net) {refT dt : K} {s : Nat → K} (hs : Solves net refT s) (x : Nat → K) (k : Nat) :
    after net refT full dt x (k + 1) - s = prop net dt (after net refT full dt x k - s) := by
  rw [after_succ, ← step_sub net refT full (0 + k * dt) dt, after_steady h hs]

/-! ## order -/

/-- **C150, order**: with steps of at most 4/3 of the time constant of every node, what starts no colder stays no colder, under any excitation. -/
theorem c150_order {net : Network K} (h : Sound net) {refT dt : K} (h0 : 0 ≤ dt) (hf : Fits net dt (4 / 3)) (exc : K → Nat → K) {x y : Nat → K}
    (hxy : ∀ i < net.length, x i ≤ y i) (k : Nat) : ∀ i < net.length, after net refT exc dt x k i ≤ after net refT exc dt y k i := by
  induction k with
  | zero => exact hxy
  | succ k ih =>
    intro i hi
    have := prop_nonneg h h0 hf (w := after net refT exc dt y k - after net refT exc dt x k) (fun j hj => sub_nonneg.2 (ih j hj)) i hi
    rw [← step_sub net refT exc (0 + k * dt) dt] at this
    exact sub_nonneg.1 this

/-- **C150, excitation**: with steps of at most the time constant of every node, more heat and a hotter start make no node colder. -/
theorem c150_excitation {net : Network K} (h : Sound net) {refT dt : K} (h0 : 0 ≤ dt) (hf : Fits net dt 1) {exc exc' : K → Nat → K}
    (he : ∀ t, ∀ i < net.length, hfOf net i * exc t i ≤ hfOf net i * exc' t i) {x y : Nat → K} (hxy : ∀ i < net.length, x i ≤ y i) (k : Nat) :
    ∀ i < net.length, after net refT exc dt x k i ≤ after net refT exc' dt y k i := by
  have hsrc : ∀ t, NN net.length (src net refT (exc' t) - src net refT (exc t)) := by
    intro t i hi
    have hc := h.capacity i hi
    have : (src net refT (exc' t) - src net refT (exc t)) i = 1 / cOf net i * (hfOf net i * exc' t i - hfOf net i * exc t i) := by
      simp only [Pi.sub_apply, src, if_pos hc]
      ring
    rw [this]
    exact mul_nonneg (by positivity) (sub_nonneg.2 (he t i hi))
  induction k with
  | zero => exact hxy
  | succ k ih =>
    intro i hi
    rw [after_succ, after_succ, ← sub_nonneg, ← Pi.sub_apply]
    generalize 0 + (k : K) * dt = t
    have e : midStep (rhs net refT exc') t dt (after net refT exc' dt y k) - midStep (rhs net refT exc) t dt (after net refT exc dt x k) =
        prop net dt (after net refT exc' dt y k - after net refT exc dt x k) +
        ((dt / 8) • ((src net refT (exc' t) - src net refT (exc t)) +
            (dt • lin net (dt • lin net (src net refT (exc' t) - src net refT (exc t)) + (1 : K) • (src net refT (exc' t) - src net refT (exc t))) +
              (1 : K) • (dt • lin net (src net refT (exc' t) - src net refT (exc t)) + (1 : K) • (src net refT (exc' t) - src net refT (exc t))))) +
          (dt / 4) • ((src net refT (exc' (t + dt / 2)) - src net refT (exc (t + dt / 2))) +
            (dt • lin net (src net refT (exc' (t + dt / 2)) - src net refT (exc (t + dt / 2))) + (1 : K) • (src net refT (exc' (t + dt / 2)) - src net refT (exc (t + dt / 2))))) +
          (dt / 4) • (src net refT (exc' (t + dt / 2 + dt / 2)) - src net refT (exc (t + dt / 2 + dt / 2)))) := by
      rw [step_eq, step_eq, prop_sub]
      simp only [map_add, map_smul, map_sub]
      module
    rw [e]
    have a1 := prop_nonneg h h0 (hf.mono h (by norm_num)) (w := after net refT exc' dt y k - after net refT exc dt x k) (fun j hj => sub_nonneg.2 (ih j hj)) i hi
    have a2 := hsrc t i hi
    have a3 := shift_nonneg h h0 hf (shift_nonneg h h0 hf (hsrc t)) i hi
    have a4 := hsrc (t + dt / 2) i hi
    have a5 := shift_nonneg h h0 hf (hsrc (t + dt / 2)) i hi
    have a6 := hsrc (t + dt / 2 + dt / 2) i hi
    refine add_nonneg a1 (add_nonneg (add_nonneg ?_ ?_) ?_)
    · exact mul_nonneg (by linarith) (add_nonneg a2 a3)
    · exact mul_nonneg (by linarith) (add_nonneg a4 a5)
    · exact mul_nonneg (by linarith) a6

/-- **C150, heating up**: with steps of at most 4/3 of the time constant of every node, at full power without heat sinks no node cools from one step to the
next when all start at the temperature of the surroundings, and none gets above its steady temperature. -/
theorem c150_heating {net : Network K} (h : Sound net) (hpos : ∀ n ∈ net, 0 ≤ n.hf) {refT dt : K} (h0 : 0 ≤ dt) (hf : Fits net dt (4 / 3)) {s : Nat → K}
    (hs : Solves net refT s) (k : Nat) : ∀ i < net.length, refT ≤ after net refT full dt (fun _ => refT) k i ∧
      after net refT full dt (fun _ => refT) k i ≤ after net refT full dt (fun _ => refT) (k + 1) i ∧
      after net refT full dt (fun _ => refT) k i ≤ s i := by
  have hrate : ∀ k, NN net.length (rhs net refT full 0 (after net refT full dt (fun _ => refT) k)) := by
    intro k
    induction k with
    | zero =>
      intro i hi
      show 0 ≤ derivative net refT (fun _ => 1) (fun _ => refT) i
      rw [derivative_eq, if_pos (h.capacity i hi), const_mulVec net refT i hi]
      have : 0 ≤ hfOf net i := by
        unfold hfOf
        rw [List.getElem?_eq_getElem hi]
        exact hpos _ (List.getElem_mem hi)
      have := h.capacity i hi
      have e : hfOf net i * 1 + htcOf net i * refT - htcOf net i * refT = hfOf net i := by ring
      rw [e]
      positivity
    | succ k ih =>
      have e : rhs net refT full 0 (after net refT full dt (fun _ => refT) (k + 1)) =
          prop net dt (rhs net refT full 0 (after net refT full dt (fun _ => refT) k)) := by
        rw [after_succ, step_full]
        generalize after net refT full dt (fun _ => refT) k = z
        rw [prop_gain, rhs_eq, rhs_eq]
        simp only [map_add, map_smul, gain]
        module
      rw [e]
      exact prop_nonneg h h0 hf ih
  have hup : ∀ k, ∀ i < net.length, after net refT full dt (fun _ => refT) k i ≤ after net refT full dt (fun _ => refT) (k + 1) i := by
    intro k i hi
    have hg := gain_nonneg h h0 hf (by norm_num) (hrate k) i hi
    have hp := hrate k i hi
    rw [after_succ, step_full, Pi.add_apply, Pi.smul_apply, smul_eq_mul]
    have : 0 ≤ gain net dt (rhs net refT full 0 (after net refT full dt (fun _ => refT) k)) i := by
      refine le_trans (mul_nonneg ?_ hp) hg
      norm_num
    have := mul_nonneg h0 this
    linarith
  intro i hi
  refine ⟨?_, hup k i hi, ?_⟩
  · induction k with
    | zero => exact le_rfl
    | succ k ih => exact ih.trans (hup k i hi)
  · have hle : ∀ k, ∀ i < net.length, after net refT full dt (fun _ => refT) k i ≤ s i := by
      intro k
      induction k with
      | zero => exact lower_bound h.grounded hs hpos
      | succ k ih =>
        intro i hi
        have e := error_succ (dt := dt) h hs (fun _ => refT) k
        have := prop_nonneg h h0 hf (w := s - after net refT full dt (fun _ => refT) k) (fun j hj => sub_nonneg.2 (ih j hj)) i hi
        have e2 : prop net dt (s - after net refT full dt (fun _ => refT) k) = s - after net refT full dt (fun _ => refT) (k + 1) := by
          rw [← neg_sub, show -(after net refT full dt (fun _ => refT) k - s) = (-1 : K) • (after net refT full dt (fun _ => refT) k - s) by module,
            prop_smul, ← e]
          module
        rw [e2] at this
        exact sub_nonneg.1 this
    exact hle k i hi

/-! ## approach -/

/-- **C150, approach**: with steps of at most 4/3 of the time constant of every node there is a rate below one by which the temperatures approach the
steady ones with every step, from whatever start. -/
theorem c150_approach {net : Network K} (h : Sound net) {dt : K} (h0 : 0 < dt) (hf : Fits net dt (4 / 3)) : ∃ θ, 0 ≤ θ ∧ θ < 1 ∧ ∀ (refT : K) (s x : Nat → K),
    Solves net refT s → ∃ M, ∀ k, ∀ i < net.length, |after net refT full dt x k i - s i| ≤ M * θ ^ k := by
  have hsame := withHF_same net fun i => cOf net i
  obtain ⟨u, hu⟩ := c30_exists (grounded_same hsame h.grounded) (0 : K)
  have hu' : ∀ i < net.length, mulVec (gTriplets net) u i = cOf net i := by
    intro i hi
    have := (solves_iff 0 u).1 hu i (by rw [← hsame.length]; exact hi)
    rw [withHF_hf _ _ hi, mul_zero, add_zero, mulVec_eq_bil, ← bil_same hsame, ← mulVec_eq_bil] at this
    exact this
  have hnn : NN net.length u := comparison h.grounded fun i hi => by rw [hu' i hi]; exact (h.capacity i hi).le
  have hlin : ∀ i < net.length, lin net u i = -1 := by
    intro i hi
    have := lin_at h u hi
    rw [hu' i hi] at this
    have hc := h.capacity i hi
    have : cOf net i * (lin net u i + 1) = 0 := by linarith
    have := (mul_eq_zero.1 this).resolve_left hc.ne'
    linarith
  have hdrop : ∀ i < net.length, prop net dt u i ≤ u i - 5 / 9 * dt := by
    intro i hi
    have hone := gain_nonneg h h0.le hf (by norm_num) (w := fun i => -lin net u i) (fun j hj => by beta_reduce; rw [hlin j hj]; norm_num) i hi
    rw [prop_gain, Pi.add_apply, Pi.smul_apply, smul_eq_mul]
    have e : gain net dt (fun i => -lin net u i) = -gain net dt (lin net u) := by
      have : (fun i => -lin net u i) = -lin net u := rfl
      rw [this]
      simp only [gain, map_neg]
      module
    rw [e, Pi.neg_apply, hlin i hi] at hone
    have : gain net dt (lin net u) i ≤ -(5 / 9) := by norm_num at hone ⊢; linarith
    have := mul_le_mul_of_nonneg_left this h0.le
    linarith
  have hlow : ∀ i < net.length, 5 / 9 * dt ≤ u i := fun i hi => by
    have := prop_nonneg h h0.le hf hnn i hi
    have := hdrop i hi
    linarith
  let U := 1 + ∑ i ∈ range net.length, u i
  have hU : 0 < U := add_pos_of_pos_of_nonneg one_pos (Finset.sum_nonneg fun i hi => hnn i (Finset.mem_range.1 hi))
  have huU : ∀ i < net.length, u i ≤ U := fun i hi => by
    have := Finset.single_le_sum (f := u) (fun j hj => hnn j (Finset.mem_range.1 hj)) (Finset.mem_range.2 hi)
    show u i ≤ 1 + ∑ i ∈ range net.length, u i
    linarith
  let θ := max (1 - 5 / 9 * dt / U) (1 / 2)
  have hθ : ∀ i < net.length, prop net dt u i ≤ θ * u i := by
    intro i hi
    refine (hdrop i hi).trans (le_trans ?_ (mul_le_mul_of_nonneg_right (le_max_left _ _) (hnn i hi)))
    have h1 : 5 / 9 * dt / U * u i ≤ 5 / 9 * dt := by
      rw [div_mul_eq_mul_div, div_le_iff₀ hU]
      exact mul_le_mul_of_nonneg_left (huU i hi) (by linarith)
    linarith
  refine ⟨θ, le_trans (by norm_num) (le_max_right _ _), max_lt ?_ (by norm_num), fun refT s x hs => ?_⟩
  · have : 0 < 5 / 9 * dt / U := div_pos (by linarith) hU
    linarith
  have hd : 0 < 5 / 9 * dt := by linarith
  let M0 := (∑ i ∈ range net.length, |x i - s i|) / (5 / 9 * dt)
  have hM0 : 0 ≤ M0 := div_nonneg (Finset.sum_nonneg fun _ _ => abs_nonneg _) hd.le
  have hθ0 : 0 ≤ θ := le_trans (by norm_num) (le_max_right _ _)
  have key : ∀ k, ∀ i < net.length, |after net refT full dt x k i - s i| ≤ M0 * θ ^ k * u i := by
    intro k
    induction k with
    | zero =>
      intro i hi
      rw [pow_zero, mul_one]
      show |x i - s i| ≤ M0 * u i
      have h1 := Finset.single_le_sum (f := fun i => |x i - s i|) (fun j _ => abs_nonneg _) (Finset.mem_range.2 hi)
      have h2 : M0 * (5 / 9 * dt) ≤ M0 * u i := mul_le_mul_of_nonneg_left (hlow i hi) hM0
      have h3 : M0 * (5 / 9 * dt) = ∑ i ∈ range net.length, |x i - s i| := div_mul_cancel₀ _ hd.ne'
      beta_reduce at h1
      linarith
    | succ k ih =>
      intro i hi
      have e := congrFun (error_succ (dt := dt) h hs x k) i
      rw [Pi.sub_apply] at e
      rw [e, abs_le]
      have hmk : 0 ≤ M0 * θ ^ k := mul_nonneg hM0 (pow_nonneg hθ0 k)
      have hpu : M0 * θ ^ k * prop net dt u i ≤ M0 * θ ^ (k + 1) * u i := by
        have := mul_le_mul_of_nonneg_left (hθ i hi) hmk
        rw [pow_succ]
        linarith
      have b1 := prop_nonneg h h0.le hf (w := (M0 * θ ^ k) • u - (after net refT full dt x k - s)) (fun j hj => by
        have := (abs_le.1 (ih j hj)).2
        simp only [Pi.sub_apply, Pi.smul_apply, smul_eq_mul]
        linarith) i hi
      have b2 := prop_nonneg h h0.le hf (w := (M0 * θ ^ k) • u + (after net refT full dt x k - s)) (fun j hj => by
        have := (abs_le.1 (ih j hj)).1
        simp only [Pi.sub_apply, Pi.add_apply, Pi.smul_apply, smul_eq_mul]
        linarith) i hi
      rw [prop_sub, prop_smul, Pi.sub_apply, Pi.smul_apply, smul_eq_mul] at b1
      rw [prop_add, prop_smul, Pi.add_apply, Pi.smul_apply, smul_eq_mul] at b2
      constructor <;> linarith
  refine ⟨M0 * U, fun k i hi => (key k i hi).trans ?_⟩
  have := mul_le_mul_of_nonneg_left (huU i hi) (mul_nonneg hM0 (pow_nonneg hθ0 k))
  linarith

/-! ## modes -/

/-- the factor of a step for an error that decays at the rate `p` per step -/
def factor (p : K) : K := 1 - p + p ^ 2 / 2 - p ^ 3 / 8

theorem dot_prop {net : Network K} (h : Sound net) {lam : K} {w : Nat → K} (hw : ∀ i < net.length, mulVec (gTriplets net) w i = lam * cOf net i * w i)
    (dt : K) (e : Nat → K) : dot net w (prop net dt e) = factor (dt * lam) * dot net w e := by
  have hl : ∀ v, dot net w (lin net v) = -lam * dot net w v := by
    intro v
    rw [← lin_symm h]
    unfold dot
    rw [Finset.mul_sum]
    refine Finset.sum_congr rfl fun i hi => ?_
    rw [lin_at h w (Finset.mem_range.1 hi), hw i (Finset.mem_range.1 hi)]
    ring
  have e1 : dot net w (prop net dt e) = dot net w e + dt * dot net w (lin net e) + dt ^ 2 / 2 * dot net w (lin net (lin net e)) +
      dt ^ 3 / 8 * dot net w (lin net (lin net (lin net e))) := by
    simp only [dot, prop, Pi.add_apply, Pi.smul_apply, smul_eq_mul, Finset.mul_sum, ← Finset.sum_add_distrib]
    exact Finset.sum_congr rfl fun i _ => by ring
  rw [e1, hl, hl, hl, factor]
  simp only [hl]
  ring

/-- **C150, modes**: the part of the error in a mode of the network with rate `lam` changes by the factor `1 - p + p²/2 - p³/8` with every step, `p` the
step times the rate. -/
theorem c150_mode {net : Network K} (h : Sound net) {lam : K} {w : Nat → K} (hw : ∀ i < net.length, mulVec (gTriplets net) w i = lam * cOf net i * w i)
    {refT dt : K} {s : Nat → K} (hs : Solves net refT s) (x : Nat → K) (k : Nat) :
    ∑ i ∈ range net.length, cOf net i * w i * (after net refT full dt x k i - s i) =
      (1 - dt * lam + (dt * lam) ^ 2 / 2 - (dt * lam) ^ 3 / 8) ^ k * ∑ i ∈ range net.length, cOf net i * w i * (x i - s i) := by
  have : ∀ k, dot net w (after net refT full dt x k - s) = factor (dt * lam) ^ k * dot net w (x - s) := by
    intro k
    induction k with
    | zero => rw [pow_zero, one_mul]; rfl
    | succ k ih => rw [error_succ h hs, dot_prop h hw, ih, pow_succ]; ring
  exact this k

/-- **C150 is false of the code** for coarse steps: if the step is four times the time of a mode or more, the part of the error in this mode at least triples
with every step; from the temperature of the surroundings this happens whenever the heat flows feed the mode. -/
theorem c150_coarse_refuted {net : Network K} (h : Sound net) {lam : K} {w : Nat → K} (hw : ∀ i < net.length, mulVec (gTriplets net) w i = lam * cOf net i * w i)
    {refT dt : K} (h4 : 4 ≤ dt * lam) {s : Nat → K} (hs : Solves net refT s) :
    (∀ x k, 3 ^ k * |∑ i ∈ range net.length, cOf net i * w i * (x i - s i)| ≤
      |∑ i ∈ range net.length, cOf net i * w i * (after net refT full dt x k i - s i)|) ∧
    lam * ∑ i ∈ range net.length, cOf net i * w i * (refT - s i) = -∑ i ∈ range net.length, w i * hfOf net i := by
  constructor
  · intro x k
    rw [c150_mode h hw hs, abs_mul, abs_pow]
    refine mul_le_mul_of_nonneg_right (pow_le_pow_left₀ (by norm_num) ?_ k) (abs_nonneg _)
    rw [abs_of_nonpos]
    · nlinarith [sq_nonneg (dt * lam), mul_nonneg (sub_nonneg.2 h4) (sq_nonneg (dt * lam))]
    · nlinarith [sq_nonneg (dt * lam), mul_nonneg (sub_nonneg.2 h4) (sq_nonneg (dt * lam))]
  · rw [Finset.mul_sum]
    have e1 : ∀ i ∈ range net.length, lam * (cOf net i * w i * (refT - s i)) = -((s i - refT) * mulVec (gTriplets net) w i) := fun i hi => by
      rw [hw i (Finset.mem_range.1 hi)]; ring
    rw [Finset.sum_congr rfl e1, Finset.sum_neg_distrib, bil_eq_sum net.length _ _ _ fun _ ht => (mem_gTriplets h.grounded.inRange ht).1, bil_comm,
      ← bil_eq_sum net.length _ _ _ fun _ ht => (mem_gTriplets h.grounded.inRange ht).1]
    congr 1
    exact Finset.sum_congr rfl fun i hi => by rw [rise hs (Finset.mem_range.1 hi)]

/-! ## energy -/

/-- **C150, energy**: with every step the heat stored grows by the step times a mean, with weights 1/4, 1/2 and 1/4, of what flows in less what is given off at
the three temperatures of the step. -/
theorem c150_energy {net : Network K} (h : Sound net) (refT : K) (exc : K → Nat → K) (t dt : K) (x : Nat → K) : ∃ x1 x2 : Nat → K,
    ∑ i ∈ range net.length, cOf net i * (midStep (rhs net refT exc) t dt x i - x i) =
      dt * ((1 / 4) * (∑ i ∈ range net.length, hfOf net i * exc t i - ∑ i ∈ range net.length, htcOf net i * (x i - refT)) +
        (1 / 2) * (∑ i ∈ range net.length, hfOf net i * exc (t + dt / 2) i - ∑ i ∈ range net.length, htcOf net i * (x1 i - refT)) +
        (1 / 4) * (∑ i ∈ range net.length, hfOf net i * exc (t + dt / 2 + dt / 2) i - ∑ i ∈ range net.length, htcOf net i * (x2 i - refT))) ∧
    (∀ i, x1 i = x i + dt / 2 * rhs net refT exc t x i) ∧ ∀ i, x2 i = x i + dt * rhs net refT exc (t + dt / 2) x1 i := by
  have he := fun t z => (c60_transient h.grounded.inRange refT (exc t) z).2.2.1 h.capacity
  let x1 : Nat → K := fun i => x i + dt / 2 * rhs net refT exc t x i
  let x2 : Nat → K := fun i => x i + dt * rhs net refT exc (t + dt / 2) x1 i
  refine ⟨x1, x2, ?_, fun _ => rfl, fun _ => rfl⟩
  rw [← he t x, ← he (t + dt / 2) x1, ← he (t + dt / 2 + dt / 2) x2]
  simp only [Finset.mul_sum, ← Finset.sum_add_distrib]
  refine Finset.sum_congr rfl fun i _ => ?_
  have ex2 : (fun i => x i + 2 * (dt / 2) * rhs net refT exc (t + dt / 2) x1 i) = x2 := by
    funext j
    show x j + 2 * (dt / 2) * _ = x j + dt * _
    ring
  have : midStep (rhs net refT exc) t dt x i = (x1 i + x2 i + dt / 2 * rhs net refT exc (t + dt / 2 + dt / 2) x2 i) / 2 := by
    rw [← ex2]
    rfl
  rw [this]
  show cOf net i * ((x i + dt / 2 * rhs net refT exc t x i + (x i + dt * rhs net refT exc (t + dt / 2) x1 i) +
    dt / 2 * rhs net refT exc (t + dt / 2 + dt / 2) x2 i) / 2 - x i) = _
  simp only [rhs]
  ring

end Ecad.Mid
