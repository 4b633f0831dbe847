import Verif.Thermal.MidRealProps
import Mathlib.Analysis.Calculus.MeanValue
import Mathlib.Topology.UniformSpace.HeineCantor
/-!
C150, continued: excitations that change with time.
-/
namespace Ecad.Mid
open Ecad.Thermal Ecad.Response Ecad.Decay Finset

/-- **C150, starts are forgotten**: under any excitation, the temperatures from any two starts tend to each other if and only if the step fits the modes. -/
theorem c150_forget {net : Network ℝ} (h : Sound net) (refT : ℝ) {dt : ℝ} (h0 : 0 < dt) (exc : ℝ → Nat → ℝ) :
    (∀ x y : Nat → ℝ, ∀ i < net.length, Filter.Tendsto (fun k => after net refT exc dt x k i - after net refT exc dt y k i) Filter.atTop (nhds 0)) ↔
    ∀ lam w, Mode net lam w → (dt * lam) ^ 3 < 4 * (dt * lam) ^ 2 - 8 * (dt * lam) + 16 := by
  obtain ⟨s, hs⟩ := c30_exists h.grounded refT
  have hd : ∀ x y k, after net refT exc dt x k - after net refT exc dt y k = after net refT full dt (x - y + s) k - s := by
    intro x y k
    induction k with
    | zero => simp [after, march]
    | succ k ih => rw [error_succ h hs, ← ih, after_succ, after_succ, step_sub]
  have hd' : ∀ x y k i, after net refT exc dt x k i - after net refT exc dt y k i = after net refT full dt (x - y + s) k i - s i := fun x y k i =>
    congrFun (hd x y k) i
  rw [← c150_stable h h0 hs]
  simp only [hd']
  constructor
  · intro hall x i hi
    have := (hall (x - s) 0 i hi).add_const (s i)
    simpa using this
  · intro hall x y i hi
    have := (hall (x - y + s) i hi).sub_const (s i)
    simpa using this

/-! ## a bound of the operator -/

noncomputable def coef (net : Network ℝ) (i j : Nat) : ℝ := -(if cOf net i > 0 then 1 / cOf net i else 0) * entry (gTriplets net) i j

theorem lin_sum {net : Network ℝ} (h : Grounded net) (w : Nat → ℝ) (i : Nat) : lin net w i = ∑ j ∈ range net.length, coef net i j * w j := by
  simp only [lin, LinearMap.coe_mk, AddHom.coe_mk]
  rw [mul_entries h, Finset.mul_sum]
  exact Finset.sum_congr rfl fun j _ => by rw [coef]; ring

/-- all nodes within a bound -/
def Within (n : Nat) (w : Nat → ℝ) (E : ℝ) : Prop := ∀ i < n, |w i| ≤ E

theorem lin_bound {net : Network ℝ} (h : Grounded net) : ∃ L : ℝ, 0 ≤ L ∧ ∀ w E, Within net.length w E → 0 ≤ E → Within net.length (lin net w) (L * E) := by
  refine ⟨∑ i ∈ range net.length, ∑ j ∈ range net.length, |coef net i j|, Finset.sum_nonneg fun _ _ => Finset.sum_nonneg fun _ _ => abs_nonneg _, ?_⟩
  intro w E hw hE i hi
  rw [lin_sum h]
  refine (Finset.abs_sum_le_sum_abs _ _).trans ?_
  have h1 : ∑ j ∈ range net.length, |coef net i j * w j| ≤ (∑ j ∈ range net.length, |coef net i j|) * E := by
    rw [Finset.sum_mul]
    refine Finset.sum_le_sum fun j hj => ?_
    rw [abs_mul]
    exact mul_le_mul_of_nonneg_left (hw j (Finset.mem_range.1 hj)) (abs_nonneg _)
  refine h1.trans (mul_le_mul_of_nonneg_right ?_ hE)
  exact Finset.single_le_sum (f := fun i => ∑ j ∈ range net.length, |coef net i j|) (fun _ _ => Finset.sum_nonneg fun _ _ => abs_nonneg _)
    (Finset.mem_range.2 hi)

theorem Within.add {n : Nat} {v w : Nat → ℝ} {a b : ℝ} (hv : Within n v a) (hw : Within n w b) : Within n (v + w) (a + b) :=
  fun i hi => (abs_add_le _ _).trans (add_le_add (hv i hi) (hw i hi))

theorem Within.smul {n : Nat} {v : Nat → ℝ} {a : ℝ} {c : ℝ} (hc : 0 ≤ c) (hv : Within n v a) : Within n (c • v) (c * a) := fun i hi => by
  rw [Pi.smul_apply, smul_eq_mul, abs_mul, abs_of_nonneg hc]
  exact mul_le_mul_of_nonneg_left (hv i hi) hc

theorem Within.mono {n : Nat} {v : Nat → ℝ} {a b : ℝ} (hv : Within n v a) (hab : a ≤ b) : Within n v b := fun i hi => (hv i hi).trans hab

/-- a step as a mean of three rates -/
theorem step_mean (net : Network ℝ) (refT : ℝ) (exc : ℝ → Nat → ℝ) (t dt : ℝ) (x : Nat → ℝ) :
    midStep (rhs net refT exc) t dt x = x + dt • ((1 / 4 : ℝ) • rhs net refT exc t x +
      (1 / 2 : ℝ) • rhs net refT exc (t + dt / 2) (x + (dt / 2) • rhs net refT exc t x) +
      (1 / 4 : ℝ) • rhs net refT exc (t + dt) (x + dt • rhs net refT exc (t + dt / 2) (x + (dt / 2) • rhs net refT exc t x))) := by
  have e1 : (fun i => x i + dt / 2 * rhs net refT exc t x i) = x + (dt / 2) • rhs net refT exc t x := rfl
  have e2 : (fun i => x i + 2 * (dt / 2) * rhs net refT exc (t + dt / 2) (x + (dt / 2) • rhs net refT exc t x) i) =
      x + dt • rhs net refT exc (t + dt / 2) (x + (dt / 2) • rhs net refT exc t x) := by
    funext i
    simp only [Pi.add_apply, Pi.smul_apply, smul_eq_mul]
    ring
  funext i
  unfold midStep
  dsimp only
  rw [e1, e2, add_assoc t, add_halves]
  simp only [Pi.add_apply, Pi.smul_apply, smul_eq_mul]
  have := congrFun e2 i
  simp only [Pi.add_apply, Pi.smul_apply, smul_eq_mul] at this
  rw [this]
  ring

theorem prop_bound {net : Network ℝ} {L : ℝ} (hL : 0 ≤ L) (hb : ∀ w E, Within net.length w E → 0 ≤ E → Within net.length (lin net w) (L * E)) {dt : ℝ}
    (hd : 0 ≤ dt) {e : Nat → ℝ} {E : ℝ} (he : Within net.length e E) (hE : 0 ≤ E) : Within net.length (prop net dt e) (Real.exp (dt * L) * E) := by
  have h1 := hb _ _ he hE
  have h2 := hb _ _ h1 (by positivity)
  have h3 := hb _ _ h2 (by positivity)
  have hp : prop net dt e = e + dt • lin net e + (dt ^ 2 / 2) • lin net (lin net e) + (dt ^ 3 / 8) • lin net (lin net (lin net e)) := rfl
  rw [hp]
  refine (((he.add (h1.smul hd)).add (h2.smul (by positivity))).add (h3.smul (by positivity))).mono ?_
  have hx : 0 ≤ dt * L := mul_nonneg hd hL
  have hexp : 1 + dt * L + (dt * L) ^ 2 / 2 + (dt * L) ^ 3 / 6 ≤ Real.exp (dt * L) := by
    have := Real.sum_le_exp_of_nonneg hx 4
    simp only [Finset.sum_range_succ, Finset.sum_range_zero, Nat.factorial, pow_zero, pow_one] at this
    norm_num at this
    linarith
  have h6 : (dt * L) ^ 3 / 8 ≤ (dt * L) ^ 3 / 6 := by
    have : 0 ≤ (dt * L) ^ 3 := by positivity
    linarith
  calc E + dt * (L * E) + dt ^ 2 / 2 * (L * (L * E)) + dt ^ 3 / 8 * (L * (L * (L * E))) = (1 + dt * L + (dt * L) ^ 2 / 2 + (dt * L) ^ 3 / 8) * E := by ring
    _ ≤ _ := mul_le_mul_of_nonneg_right (by linarith) hE

/-! ## the error of a step -/

/-- the temperatures change by the rate at some time between -/
theorem mean_value {net : Network ℝ} {refT : ℝ} {exc : ℝ → Nat → ℝ} {y : ℝ → Nat → ℝ} (hy : Follows net refT exc y) {t a : ℝ} (ht : 0 ≤ t) (ha : 0 < a) {i : Nat}
    (hi : i < net.length) : ∃ s, t < s ∧ s < t + a ∧ y (t + a) i - y t i = a * rhs net refT exc s (y s) i := by
  obtain ⟨s, hs, he⟩ := exists_hasDerivAt_eq_slope (fun s => y s i) (fun s => rhs net refT exc s (y s) i) (show t < t + a by linarith)
    ((hy.cont i hi).mono fun s hs => Set.mem_Ici.2 (ht.trans hs.1)) (fun s hs => hy.deriv s (lt_of_le_of_lt ht hs.1) i hi)
  refine ⟨s, hs.1, hs.2, ?_⟩
  rw [add_sub_cancel_left] at he
  rw [he, mul_div_cancel₀ _ ha.ne']

theorem rhs_add {net : Network ℝ} (refT : ℝ) (exc : ℝ → Nat → ℝ) (t : ℝ) (x z : Nat → ℝ) :
    rhs net refT exc t x = rhs net refT exc t z + lin net (x - z) := by
  rw [rhs_eq, rhs_eq, map_sub]
  abel

theorem step_error {net : Network ℝ} {L : ℝ} (hL : 0 ≤ L) (hb : ∀ w E, Within net.length w E → 0 ≤ E → Within net.length (lin net w) (L * E)) {refT : ℝ}
    {exc : ℝ → Nat → ℝ} {y : ℝ → Nat → ℝ} (hy : Follows net refT exc y) {t dt M ε : ℝ} (ht : 0 ≤ t) (hd : 0 < dt) (hM : 0 ≤ M)
    (hg : ∀ s, t ≤ s → s ≤ t + dt → Within net.length (rhs net refT exc s (y s)) M)
    (hε : ∀ s, t ≤ s → s ≤ t + dt → Within net.length (rhs net refT exc s (y s) - rhs net refT exc t (y t)) ε) :
    Within net.length (midStep (rhs net refT exc) t dt (y t) - y (t + dt)) (dt * (2 * ε + L * dt * M + L ^ 2 * dt ^ 2 * M / 4)) := by
  set g := fun s => rhs net refT exc s (y s) with hgd
  have hmove : ∀ a, 0 < a → a ≤ dt → Within net.length (y t - y (t + a)) (a * M) := by
    intro a ha had i hi
    obtain ⟨s, s1, s2, he⟩ := mean_value hy ht ha hi
    rw [Pi.sub_apply, abs_sub_comm, he, abs_mul, abs_of_pos ha]
    exact mul_le_mul_of_nonneg_left (hg s s1.le (by linarith) i hi) ha.le
  have hgt : Within net.length (g t) M := hg t le_rfl (by linarith)
  -- the first point
  set x1 := y t + (dt / 2) • g t with hx1
  have d1 : Within net.length (x1 - y (t + dt / 2)) (dt * M) := by
    have := ((hmove (dt / 2) (by linarith) (by linarith)).add (hgt.smul (show 0 ≤ dt / 2 by linarith)))
    rw [show x1 - y (t + dt / 2) = y t - y (t + dt / 2) + (dt / 2) • g t by rw [hx1]; abel]
    exact this.mono (by linarith)
  have r1 := hb _ _ d1 (by positivity)
  set w1 := rhs net refT exc (t + dt / 2) x1 with hw1
  have ew1 : w1 = g (t + dt / 2) + lin net (x1 - y (t + dt / 2)) := rhs_add refT exc _ _ _
  have bw1 : Within net.length w1 (M + L * (dt * M)) := by
    rw [ew1]
    exact (hg _ (by linarith) (by linarith)).add r1
  -- the second point
  set x2 := y t + dt • w1 with hx2
  have d2 : Within net.length (x2 - y (t + dt)) (dt * M + dt * (M + L * (dt * M))) := by
    have := (hmove dt hd le_rfl).add (bw1.smul hd.le)
    rw [show x2 - y (t + dt) = y t - y (t + dt) + dt • w1 by rw [hx2]; abel]
    exact this
  have r2 := hb _ _ d2 (by positivity)
  have ew2 : rhs net refT exc (t + dt) x2 = g (t + dt) + lin net (x2 - y (t + dt)) := rhs_add refT exc _ _ _
  rw [step_mean]
  intro i hi
  have h1 := r1 i hi
  have h2 := r2 i hi
  obtain ⟨s, s1, s2, he⟩ := mean_value hy ht hd hi
  have a0 := hε s s1.le s2.le i hi
  have a1 := hε (t + dt / 2) (by linarith) (by linarith) i hi
  have a2 := hε (t + dt) (by linarith) (by linarith) i hi
  have hε0 := (abs_nonneg _).trans a0
  show |(y t + dt • ((1 / 4 : ℝ) • g t + (1 / 2 : ℝ) • w1 + (1 / 4 : ℝ) • rhs net refT exc (t + dt) x2) - y (t + dt)) i| ≤ _
  rw [ew2, ew1]
  simp only [Pi.add_apply, Pi.sub_apply, Pi.smul_apply, smul_eq_mul] at a0 a1 a2 ⊢
  have e : y t i + dt * (1 / 4 * g t i + 1 / 2 * (g (t + dt / 2) i + lin net (x1 - y (t + dt / 2)) i) + 1 / 4 * (g (t + dt) i + lin net (x2 - y (t + dt)) i)) -
      y (t + dt) i = dt * (1 / 2 * (g (t + dt / 2) i - g t i) + 1 / 4 * (g (t + dt) i - g t i) - (g s i - g t i) +
        1 / 2 * lin net (x1 - y (t + dt / 2)) i + 1 / 4 * lin net (x2 - y (t + dt)) i) := by
    have : y (t + dt) i = y t i + dt * g s i := by rw [← he]; ring
    rw [this]
    ring
  rw [e, abs_mul, abs_of_pos hd]
  refine mul_le_mul_of_nonneg_left ?_ hd.le
  rw [abs_le] at a0 a1 a2 h1 h2 ⊢
  constructor <;> nlinarith [a0.1, a0.2, a1.1, a1.2, a2.1, a2.2, h1.1, h1.2, h2.1, h2.2]

theorem after_zero (net : Network ℝ) (refT : ℝ) (exc : ℝ → Nat → ℝ) (x : Nat → ℝ) (k : Nat) : after net refT exc 0 x k = x := by
  induction k with
  | zero => rfl
  | succ k ih =>
    rw [after_succ, ih, step_mean, zero_smul, add_zero]

/-- the rates over time are continuous -/
theorem rate_cont {net : Network ℝ} (h : Grounded net) {refT : ℝ} {exc : ℝ → Nat → ℝ} {y : ℝ → Nat → ℝ} (hy : Follows net refT exc y)
    (he : ∀ i < net.length, ContinuousOn (fun t => hfOf net i * exc t i) (Set.Ici 0)) {i : Nat} (hi : i < net.length) :
    ContinuousOn (fun s => rhs net refT exc s (y s) i) (Set.Ici 0) := by
  have e : (fun s => rhs net refT exc s (y s) i) = fun s => ∑ j ∈ range net.length, coef net i j * y s j +
      (if cOf net i > 0 then 1 / cOf net i else 0) * (hfOf net i * exc s i + htcOf net i * refT) := by
    funext s
    rw [rhs_eq, Pi.add_apply, lin_sum h]
    rfl
  rw [e]
  refine ContinuousOn.add (continuousOn_finsetSum _ fun j hj => continuousOn_const.mul (hy.cont j (Finset.mem_range.1 hj))) ?_
  exact continuousOn_const.mul ((he i hi).add continuousOn_const)

/-- **C150, short steps under changing power**: under excitations that are continuous in time, the temperatures reached at a time after `k` steps of equal
length tend to those of the exact course from the same start as `k` grows. -/
theorem c150_course {net : Network ℝ} (h : Grounded net) {refT : ℝ} {exc : ℝ → Nat → ℝ} {y : ℝ → Nat → ℝ} (hy : Follows net refT exc y)
    (he : ∀ i < net.length, ContinuousOn (fun t => hfOf net i * exc t i) (Set.Ici 0)) {x : Nat → ℝ} (hx : ∀ i < net.length, y 0 i = x i) {t : ℝ} (ht : 0 ≤ t) :
    ∀ i < net.length, Filter.Tendsto (fun k : ℕ => after net refT exc (t / k) x k i) Filter.atTop (nhds (y t i)) := by
  intro i hi
  rcases ht.eq_or_lt with rfl | ht
  · simp only [zero_div, after_zero, hx i hi]
    exact tendsto_const_nhds
  obtain ⟨L, hL, hb⟩ := lin_bound h
  set g := fun s => rhs net refT exc s (y s) with hgd
  have hsub : Set.Icc 0 t ⊆ Set.Ici (0 : ℝ) := fun s hs => hs.1
  -- a bound of the rates
  have hM : ∃ M : ℝ, 0 ≤ M ∧ ∀ s ∈ Set.Icc 0 t, Within net.length (g s) M := by
    have : ∀ j, ∃ M : ℝ, 0 ≤ M ∧ (j < net.length → ∀ s ∈ Set.Icc 0 t, |g s j| ≤ M) := by
      intro j
      by_cases hj : j < net.length
      · obtain ⟨C, hC⟩ := isCompact_Icc.exists_bound_of_continuousOn ((rate_cont h hy he hj).mono hsub)
        exact ⟨C, (norm_nonneg _).trans (hC 0 ⟨le_rfl, ht.le⟩), fun _ s hs => hC s hs⟩
      · exact ⟨0, le_rfl, fun hj' => absurd hj' hj⟩
    choose m hm0 hm using this
    refine ⟨∑ j ∈ range net.length, m j, Finset.sum_nonneg fun j _ => hm0 j, fun s hs j hj => ?_⟩
    exact (hm j hj s hs).trans (Finset.single_le_sum (fun j _ => hm0 j) (Finset.mem_range.2 hj))
  obtain ⟨M, hM0, hM⟩ := hM
  -- their variation
  have hδ : ∀ ε > 0, ∃ δ > 0, ∀ s ∈ Set.Icc 0 t, ∀ s' ∈ Set.Icc 0 t, |s' - s| < δ → Within net.length (g s' - g s) ε := by
    intro ε hε
    have : ∀ j, ∃ δ > 0, j < net.length → ∀ s ∈ Set.Icc 0 t, ∀ s' ∈ Set.Icc 0 t, |s' - s| < δ → |g s' j - g s j| ≤ ε := by
      intro j
      by_cases hj : j < net.length
      · have huc := isCompact_Icc.uniformContinuousOn_of_continuous ((rate_cont h hy he hj).mono hsub)
        rw [Metric.uniformContinuousOn_iff] at huc
        obtain ⟨δ, hδ, hd⟩ := huc ε hε
        exact ⟨δ, hδ, fun _ s hs s' hs' hss => (hd s' hs' s hs (by rw [Real.dist_eq]; exact hss)).le⟩
      · exact ⟨1, one_pos, fun hj' => absurd hj' hj⟩
    choose d hd0 hd using this
    have hfin : ∀ n : Nat, ∃ δ > 0, ∀ j < n, δ ≤ d j := by
      intro n
      induction n with
      | zero => exact ⟨1, one_pos, fun j hj => absurd hj (Nat.not_lt_zero j)⟩
      | succ n ih =>
        obtain ⟨δ, h1, h2⟩ := ih
        refine ⟨min δ (d n), lt_min h1 (hd0 n), fun j hj => ?_⟩
        rcases Nat.lt_succ_iff_lt_or_eq.1 hj with hj | rfl
        · exact (min_le_left _ _).trans (h2 j hj)
        · exact min_le_right _ _
    obtain ⟨δ, h1, h2⟩ := hfin net.length
    exact ⟨δ, h1, fun s hs s' hs' hss j hj => hd j hj s hs s' hs' (hss.trans_le (h2 j hj))⟩
  rw [Metric.tendsto_atTop]
  intro η hη
  -- the error allowed in a step, per time
  set ρ := η / (2 * (t * Real.exp (t * L))) with hρ
  have hρ0 : 0 < ρ := by positivity
  obtain ⟨δ, hδ0, hδ⟩ := hδ (ρ / 4) (by positivity)
  have hsmall : ∀ᶠ k : ℕ in Filter.atTop, t / k < δ ∧ L * (t / k) * M + L ^ 2 * (t / k) ^ 2 * M / 4 ≤ ρ / 2 ∧ 0 < k := by
    have hz : Filter.Tendsto (fun k : ℕ => t / (k : ℝ)) Filter.atTop (nhds 0) := tendsto_const_div_atTop_nhds_zero_nat t
    have hz2 : Filter.Tendsto (fun k : ℕ => L * (t / k) * M + L ^ 2 * (t / k) ^ 2 * M / 4) Filter.atTop (nhds (L * 0 * M + L ^ 2 * 0 ^ 2 * M / 4)) :=
      ((hz.const_mul L).mul_const M).add (((((hz.pow 2).const_mul (L ^ 2)).mul_const M)).div_const 4)
    rw [show L * 0 * M + L ^ 2 * 0 ^ 2 * M / 4 = 0 by ring] at hz2
    exact (hz.eventually_lt_const hδ0).and ((hz2.eventually_le_const (by positivity)).and (Filter.eventually_gt_atTop 0))
  obtain ⟨N, hN⟩ := Filter.eventually_atTop.1 hsmall
  refine ⟨N, fun k hk => ?_⟩
  obtain ⟨k1, k2, k3⟩ := hN k hk
  set dt := t / (k : ℝ) with hdt
  have hk0 : (0 : ℝ) < k := by exact_mod_cast k3
  have hd : 0 < dt := div_pos ht hk0
  have hkt : k * dt = t := by rw [hdt]; field_simp
  have hall : ∀ j : Nat, j ≤ k → Within net.length (after net refT exc dt x j - y (j * dt)) (ρ * (j * dt) * Real.exp (j * dt * L)) := by
    intro j
    induction j with
    | zero =>
      intro _ i hi
      simp [after, march, hx i hi]
    | succ j ih =>
      intro hj
      have hj' : ((j : ℝ) + 1) * dt ≤ t := by
        rw [← hkt]
        exact mul_le_mul_of_nonneg_right (by exact_mod_cast hj) hd.le
      have hjd : 0 ≤ (j : ℝ) * dt := by positivity
      have h1 := prop_bound hL hb hd.le (ih (by omega)) (by positivity)
      have h2 := step_error hL hb hy hjd hd hM0 (fun s s1 s2 => hM s ⟨hjd.trans s1, by linarith⟩)
        (fun s s1 s2 => hδ (j * dt) ⟨hjd, by linarith⟩ s ⟨hjd.trans s1, by linarith⟩ (by rw [abs_of_nonneg (by linarith)]; linarith))
      have e : after net refT exc dt x (j + 1) - y ((j + 1 : Nat) * dt) = prop net dt (after net refT exc dt x j - y (j * dt)) +
          (midStep (rhs net refT exc) (j * dt) dt (y (j * dt)) - y (j * dt + dt)) := by
        rw [after_succ, zero_add, ← step_sub net refT exc (j * dt) dt, show ((j + 1 : Nat) : ℝ) * dt = j * dt + dt by push_cast; ring]
        abel
      rw [e]
      refine (h1.add h2).mono ?_
      have hE : Real.exp (((j + 1 : Nat) : ℝ) * dt * L) = Real.exp (dt * L) * Real.exp (j * dt * L) := by
        rw [← Real.exp_add]
        congr 1
        push_cast
        ring
      have hE1 : 1 ≤ Real.exp (dt * L) * Real.exp (j * dt * L) := by
        rw [← Real.exp_add]
        exact Real.one_le_exp (by positivity)
      rw [hE]
      have h3 : dt * (2 * (ρ / 4) + L * dt * M + L ^ 2 * dt ^ 2 * M / 4) ≤ dt * ρ := mul_le_mul_of_nonneg_left (by linarith) hd.le
      have h4 : dt * ρ ≤ dt * ρ * (Real.exp (dt * L) * Real.exp (j * dt * L)) := le_mul_of_one_le_right (by positivity) hE1
      push_cast
      nlinarith [h3, h4]
  have := hall k le_rfl i hi
  rw [hkt] at this
  rw [Real.dist_eq]
  refine lt_of_le_of_lt this ?_
  have : ρ * t * Real.exp (t * L) = η / 2 := by
    rw [hρ]
    field_simp
  rw [this]
  linarith

/-- one node with a pulse that fades: the hypotheses of `c150_course` -/
example : Grounded [(⟨0, none, 1, 1, 1, []⟩ : Node ℝ)] ∧ Follows [⟨0, none, 1, 1, 1, []⟩] (25 : ℝ) (fun t _ => Real.exp (-t)) (fun t _ => 25 + t * Real.exp (-t)) ∧
    ∀ i < 1, ContinuousOn (fun t : ℝ => hfOf [⟨0, none, 1, 1, 1, []⟩] i * Real.exp (-t)) (Set.Ici 0) := by
  have hg : Grounded [(⟨0, none, 1, 1, 1, []⟩ : Node ℝ)] := by
    refine ⟨?_, ?_, ?_, ?_⟩
    · intro i n hn e he
      match i, hn with
      | 0, hn => injection hn with hn; subst hn; simp at he
    · intro n hn e he
      simp at hn
      subst hn
      simp at he
    · intro n hn
      simp at hn
      subst hn
      simp
    · intro i hi
      simp at hi
      subst hi
      exact ⟨0, .refl, by simp [htcOf]⟩
  have hp : Proper [(⟨0, none, 1, 1, 1, []⟩ : Node ℝ)] := by
    refine ⟨hg, fun i hi => ?_⟩
    simp at hi
    subst hi
    simp [cOf]
  refine ⟨hg, ⟨?_, ?_⟩, fun i _ => (continuous_const.mul (Real.continuous_exp.comp continuous_neg)).continuousOn⟩
  · intro i _
    exact (continuous_const.add (continuous_id.mul (Real.continuous_exp.comp continuous_neg))).continuousOn
  · intro t _ i hi
    have h1 := rate hp 25 (fun _ => Real.exp (-t)) (fun _ => 25 + t * Real.exp (-t)) hi
    rw [const_mulVec _ _ _ hi] at h1
    simp at hi
    subst hi
    simp only [cOf, hfOf, htcOf, List.getElem?_cons_zero, one_mul] at h1
    rw [h1]
    have := ((hasDerivAt_id t).mul ((hasDerivAt_neg t).exp)).const_add 25
    rw [show Real.exp (-t) + 25 - (25 + t * Real.exp (-t)) = 1 * Real.exp (-t) + t * (Real.exp (-t) * -1) by ring]
    exact this

end Ecad.Mid
