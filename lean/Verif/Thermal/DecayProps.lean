import Verif.Thermal.ResponseProps
import Mathlib.Analysis.Calculus.Deriv.MeanValue
import Mathlib.Analysis.Calculus.Deriv.Pow
import Mathlib.Topology.Order.Lattice
import Mathlib.Topology.Order.OrderClosed
import Mathlib.Analysis.SpecialFunctions.ExpDeriv
import Mathlib.Analysis.SpecialFunctions.Exp
import Mathlib.Topology.MetricSpace.ProperSpace
import Mathlib.Topology.MetricSpace.ProperSpace.Real
/-!
C127: Temperatures that follow the derivative the transient solver integrates tend to the steady state, with a rate that depends on the network only;
those with no less heat, or a hotter start, are never colder; and with heat switched on at the temperature of the surroundings they only
rise, and stay below the steady state.
-/
namespace Ecad.Decay
open Ecad.Thermal Ecad.Response Finset

/-! ## specification -/

/-- Temperatures over time that follow the derivative the solver integrates, under excitation `exc`
(src/solver/thermal/network/ThermalNetworkSolver.h:207-229; the steps in time are the library's) -/
structure Follows (net : Network ℝ) (refT : ℝ) (exc : ℝ → Nat → ℝ) (x : ℝ → Nat → ℝ) : Prop where
  cont : ∀ i < net.length, ContinuousOn (fun t => x t i) (Set.Ici 0)
  deriv : ∀ t, 0 < t → ∀ i < net.length, HasDerivAt (fun s => x s i) (derivative net refT (exc t) (x t) i) t

/-- grounded networks all nodes of which have a heat capacity -/
structure Proper (net : Network ℝ) : Prop where
  grounded : Grounded net
  capacity : ∀ i < net.length, 0 < cOf net i

/-- the distance of two temperatures, weighted with the capacities -/
noncomputable def apart (net : Network ℝ) (x y : Nat → ℝ) : ℝ := ∑ i ∈ range net.length, cOf net i * (x i - y i) ^ 2

/-! ## rates -/

theorem rate {net : Network ℝ} (h : Proper net) (refT : ℝ) (exc x : Nat → ℝ) {i : Nat} (hi : i < net.length) :
    cOf net i * derivative net refT exc x i = hfOf net i * exc i + htcOf net i * refT - mulVec (gTriplets net) x i := by
  have hc := h.capacity i hi
  rw [derivative_eq, if_pos hc, ← mul_assoc, mul_one_div, div_self hc.ne', one_mul]

theorem rate_sub {net : Network ℝ} (h : Proper net) (refT : ℝ) (exc exc' x y : Nat → ℝ) {i : Nat} (hi : i < net.length) :
    cOf net i * (derivative net refT exc x i - derivative net refT exc' y i) =
      hfOf net i * (exc i - exc' i) - mulVec (gTriplets net) (fun k => x k - y k) i := by
  rw [mul_sub, rate h _ _ _ hi, rate h _ _ _ hi]
  have := bil_sub (gTriplets net) (delta i) x y
  rw [← mulVec_eq_bil, ← mulVec_eq_bil, ← mulVec_eq_bil] at this
  rw [this]
  ring

/-- functions with derivatives that are not positive do not grow -/
theorem falls {f f' : ℝ → ℝ} (hc : ContinuousOn f (Set.Ici 0)) (hd : ∀ t, 0 < t → HasDerivAt f (f' t) t) (hn : ∀ t, 0 < t → f' t ≤ 0) :
    AntitoneOn f (Set.Ici 0) := by
  refine antitoneOn_of_deriv_nonpos (convex_Ici 0) hc ?_ ?_
  · rw [interior_Ici]
    exact fun t ht => (hd t ht).differentiableAt.differentiableWithinAt
  · rw [interior_Ici]
    intro t ht
    rw [(hd t ht).deriv]
    exact hn t ht

/-! ## the rate of a network -/

theorem bil_scale (ts : Triplets ℝ) (a : ℝ) (w : Nat → ℝ) : bil ts (fun i => a * w i) (fun i => a * w i) = a ^ 2 * bil ts w w := by
  unfold bil
  induction ts with
  | nil => simp
  | cons t ts ih =>
    simp only [List.map_cons, List.sum_cons, ih]
    ring

/-- the energy of a function is at least a part of its size -/
theorem coercive {net : Network ℝ} (h : Proper net) : ∃ r, 0 < r ∧ ∀ w : Nat → ℝ,
    r * ∑ i ∈ range net.length, cOf net i * w i ^ 2 ≤ bil (gTriplets net) w w := by
  let n := net.length
  let ext : (Fin n → ℝ) → Nat → ℝ := fun v i => if hi : i < n then v ⟨i, hi⟩ else 0
  have hloc : ∀ w : Nat → ℝ, bil (gTriplets net) w w = bil (gTriplets net) (ext fun i => w i) (ext fun i => w i) := by
    intro w
    rw [← bil_eq_sum n w w _ fun t ht => (mem_gTriplets h.grounded.inRange ht).1,
      ← bil_eq_sum n (ext fun i => w i) _ _ fun t ht => (mem_gTriplets h.grounded.inRange ht).1]
    refine Finset.sum_congr rfl fun i hi => ?_
    have hi' : i < n := Finset.mem_range.1 hi
    rw [mulVec_eq_entries n _ i _ fun t ht => (mem_gTriplets h.grounded.inRange ht).2,
      mulVec_eq_entries n _ i _ fun t ht => (mem_gTriplets h.grounded.inRange ht).2]
    congr 1
    · simp [ext, hi']
    · refine Finset.sum_congr rfl fun j hj => ?_
      have hj' : j < n := Finset.mem_range.1 hj
      simp [ext, hj']
  by_cases hn : n = 0
  · refine ⟨1, one_pos, fun w => ?_⟩
    have : range net.length = ∅ := by rw [show net.length = 0 from hn]; rfl
    rw [this, Finset.sum_empty, mul_zero]
    exact bil_nonneg h.grounded w
  have hpos : 0 < n := Nat.pos_of_ne_zero hn
  have : Nonempty (Fin n) := ⟨⟨0, hpos⟩⟩
  have hcont : Continuous fun v : Fin n → ℝ => bil (gTriplets net) (ext v) (ext v) := by
    unfold bil
    have hext : ∀ i, Continuous fun v : Fin n → ℝ => ext v i := by
      intro i
      by_cases hi : i < n
      · simp only [ext, hi, dif_pos]
        exact continuous_apply _
      · simp only [ext, hi, dif_neg, not_false_eq_true]
        exact continuous_const
    generalize gTriplets net = ts
    induction ts with
    | nil => exact continuous_const
    | cons t ts ih =>
      simp only [List.map_cons, List.sum_cons]
      exact (((hext _).mul continuous_const).mul (hext _)).add ih
  have hne : (Metric.sphere (0 : Fin n → ℝ) 1).Nonempty := by
    refine ⟨fun _ => 1, ?_⟩
    rw [mem_sphere_zero_iff_norm]
    simp
  obtain ⟨v, hv, hmin⟩ := (isCompact_sphere (0 : Fin n → ℝ) 1).exists_isMinOn hne hcont.continuousOn
  have hm : 0 < bil (gTriplets net) (ext v) (ext v) := by
    rcases (bil_nonneg h.grounded (ext v)).lt_or_eq with hlt | he
    · exact hlt
    exfalso
    have hz := energy_zero h.grounded (w := ext v) (by rw [← bil_g, ← he])
    have : v = 0 := by
      funext i
      have := hz i i.2
      simpa [ext] using this
    rw [this] at hv
    simp at hv
  have hC : 0 < ∑ i ∈ range net.length, cOf net i :=
    Finset.sum_pos (fun i hi => h.capacity i (Finset.mem_range.1 hi)) ⟨0, Finset.mem_range.2 hpos⟩
  refine ⟨bil (gTriplets net) (ext v) (ext v) / ∑ i ∈ range net.length, cOf net i, div_pos hm hC, fun w => ?_⟩
  let u : Fin n → ℝ := fun i => w i
  have hsize : ∑ i ∈ range net.length, cOf net i * w i ^ 2 ≤ (∑ i ∈ range net.length, cOf net i) * ‖u‖ ^ 2 := by
    rw [Finset.sum_mul]
    refine Finset.sum_le_sum fun i hi => ?_
    have hi' : i < n := Finset.mem_range.1 hi
    refine mul_le_mul_of_nonneg_left ?_ (h.capacity i hi').le
    have := norm_le_pi_norm u ⟨i, hi'⟩
    rw [Real.norm_eq_abs] at this
    calc w i ^ 2 = |w i| ^ 2 := (sq_abs _).symm
      _ ≤ ‖u‖ ^ 2 := pow_le_pow_left₀ (abs_nonneg _) this 2
  have hhom : bil (gTriplets net) (ext v) (ext v) * ‖u‖ ^ 2 ≤ bil (gTriplets net) w w := by
    rw [hloc w]
    by_cases hu : ‖u‖ = 0
    · rw [hu]
      simp only [ne_eq, OfNat.ofNat_ne_zero, not_false_eq_true, zero_pow, mul_zero]
      exact bil_nonneg h.grounded _
    · have hun : 0 < ‖u‖ := lt_of_le_of_ne (norm_nonneg _) (Ne.symm hu)
      have hs : ‖u‖⁻¹ • u ∈ Metric.sphere (0 : Fin n → ℝ) 1 := by
        rw [mem_sphere_zero_iff_norm, norm_smul, norm_inv, norm_norm, inv_mul_cancel₀ hu]
      have := hmin hs
      have hsc : bil (gTriplets net) (ext (‖u‖⁻¹ • u)) (ext (‖u‖⁻¹ • u)) = (‖u‖⁻¹) ^ 2 * bil (gTriplets net) (ext u) (ext u) := by
        have hext : ∀ i, ext (‖u‖⁻¹ • u) i = ‖u‖⁻¹ * ext u i := by
          intro i
          by_cases hi : i < n
          · simp [ext, hi]
          · simp [ext, hi]
        rw [show ext (‖u‖⁻¹ • u) = fun i => ‖u‖⁻¹ * ext u i from funext hext]
        exact bil_scale _ _ _
      have hle : bil (gTriplets net) (ext v) (ext v) ≤ (‖u‖⁻¹) ^ 2 * bil (gTriplets net) (ext u) (ext u) := by
        rw [← hsc]
        exact this
      calc bil (gTriplets net) (ext v) (ext v) * ‖u‖ ^ 2 ≤ (‖u‖⁻¹) ^ 2 * bil (gTriplets net) (ext u) (ext u) * ‖u‖ ^ 2 :=
            mul_le_mul_of_nonneg_right hle (sq_nonneg _)
        _ = bil (gTriplets net) (ext u) (ext u) := by field_simp
  calc _ ≤ bil (gTriplets net) (ext v) (ext v) / (∑ i ∈ range net.length, cOf net i) * ((∑ i ∈ range net.length, cOf net i) * ‖u‖ ^ 2) :=
        mul_le_mul_of_nonneg_left hsize (div_pos hm hC).le
    _ = bil (gTriplets net) (ext v) (ext v) * ‖u‖ ^ 2 := by field_simp
    _ ≤ _ := hhom

/-! ## distances -/

theorem apart_cont {net : Network ℝ} {refT : ℝ} {exc exc' : ℝ → Nat → ℝ} {x y : ℝ → Nat → ℝ} (hx : Follows net refT exc x)
    (hy : Follows net refT exc' y) : ContinuousOn (fun t => apart net (x t) (y t)) (Set.Ici 0) := by
  unfold apart
  refine continuousOn_finset_sum _ fun i hi => ?_
  have hi' := Finset.mem_range.1 hi
  exact continuousOn_const.mul (((hx.cont i hi').sub (hy.cont i hi')).pow 2)

theorem apart_deriv {net : Network ℝ} (h : Proper net) {refT : ℝ} {exc : ℝ → Nat → ℝ} {x y : ℝ → Nat → ℝ} (hx : Follows net refT exc x)
    (hy : Follows net refT exc y) {t : ℝ} (ht : 0 < t) :
    HasDerivAt (fun t => apart net (x t) (y t)) (-2 * bil (gTriplets net) (fun k => x t k - y t k) (fun k => x t k - y t k)) t := by
  have hd : HasDerivAt (fun t => apart net (x t) (y t))
      (∑ i ∈ range net.length, cOf net i * (2 * (x t i - y t i) * (derivative net refT (exc t) (x t) i - derivative net refT (exc t) (y t) i))) t := by
    unfold apart
    refine HasDerivAt.fun_sum fun i hi => ?_
    have hi' := Finset.mem_range.1 hi
    have := ((hx.deriv t ht i hi').sub (hy.deriv t ht i hi')).pow 2
    simpa using this.const_mul (cOf net i)
  convert hd using 1
  rw [← bil_eq_sum net.length _ _ _ fun t ht => (mem_gTriplets h.grounded.inRange ht).1, Finset.mul_sum]
  refine Finset.sum_congr rfl fun i hi => ?_
  have := rate_sub h refT (exc t) (exc t) (x t) (y t) (Finset.mem_range.1 hi)
  rw [sub_self, mul_zero, zero_sub] at this
  rw [show cOf net i * (2 * (x t i - y t i) * (derivative net refT (exc t) (x t) i - derivative net refT (exc t) (y t) i)) =
    2 * (x t i - y t i) * (cOf net i * (derivative net refT (exc t) (x t) i - derivative net refT (exc t) (y t) i)) by ring, this]
  ring

/-- the steady state stands still -/
theorem steady_follows {net : Network ℝ} (h : Proper net) {refT : ℝ} {s : Nat → ℝ} (hs : Solves net refT s) :
    Follows net refT (fun _ _ => 1) fun _ => s := by
  refine ⟨fun i _ => continuousOn_const, fun t _ i hi => ?_⟩
  have := ((c60_transient h.grounded.inRange refT (fun _ => 1) s).2.2.2 h.capacity).2 hs i hi
  rw [this]
  exact hasDerivAt_const t (s i)

/-! ## the claim -/

/-- C127, approach: there is a positive rate of the network such that any two temperatures under the same excitation come closer by at least this
rate, from whatever temperatures they start. -/
theorem c127_approach {net : Network ℝ} (h : Proper net) : ∃ r, 0 < r ∧ ∀ (refT : ℝ) (exc : ℝ → Nat → ℝ) (x y : ℝ → Nat → ℝ),
    Follows net refT exc x → Follows net refT exc y →
    ∀ t, 0 ≤ t → apart net (x t) (y t) ≤ apart net (x 0) (y 0) * Real.exp (-(r * t)) := by
  obtain ⟨r, hr, hE⟩ := coercive h
  refine ⟨2 * r, by linarith, fun refT exc x y hx hy t ht => ?_⟩
  have hanti : AntitoneOn (fun t => apart net (x t) (y t) * Real.exp (2 * r * t)) (Set.Ici 0) := by
    refine falls (f' := fun t => -2 * bil (gTriplets net) (fun k => x t k - y t k) (fun k => x t k - y t k) * Real.exp (2 * r * t) +
      apart net (x t) (y t) * (Real.exp (2 * r * t) * (2 * r))) ?_ ?_ ?_
    · exact (apart_cont hx hy).mul (Real.continuous_exp.comp (continuous_const.mul continuous_id)).continuousOn
    · intro t ht
      refine (apart_deriv h hx hy ht).mul ?_
      have := ((hasDerivAt_id t).const_mul (2 * r)).exp
      simpa using this
    · intro t _
      have h1 := hE fun k => x t k - y t k
      have h2 : apart net (x t) (y t) = ∑ i ∈ range net.length, cOf net i * (x t i - y t i) ^ 2 := rfl
      rw [← h2] at h1
      have h3 := Real.exp_pos (2 * r * t)
      have : -2 * bil (gTriplets net) (fun k => x t k - y t k) (fun k => x t k - y t k) * Real.exp (2 * r * t) +
          apart net (x t) (y t) * (Real.exp (2 * r * t) * (2 * r)) =
          2 * (r * apart net (x t) (y t) - bil (gTriplets net) (fun k => x t k - y t k) (fun k => x t k - y t k)) * Real.exp (2 * r * t) := by ring
      rw [this]
      exact mul_nonpos_of_nonpos_of_nonneg (by linarith) h3.le
  have := hanti (Set.mem_Ici.2 le_rfl) (Set.mem_Ici.2 ht) ht
  simp only [mul_zero, Real.exp_zero, mul_one] at this
  rw [Real.exp_neg, ← div_eq_mul_inv, le_div_iff₀ (Real.exp_pos _)]
  exact this

/-- C127, steady state: under full excitation the temperatures of all nodes tend to the steady state, from whatever temperatures they start. -/
theorem c127_steady {net : Network ℝ} (h : Proper net) {refT : ℝ} {s : Nat → ℝ} (hs : Solves net refT s) {x : ℝ → Nat → ℝ}
    (hx : Follows net refT (fun _ _ => 1) x) : ∀ i < net.length, Filter.Tendsto (fun t => x t i) Filter.atTop (nhds (s i)) := by
  obtain ⟨r, hr, hE⟩ := c127_approach h
  intro i hi
  have hc := h.capacity i hi
  have hbound : ∀ t, 0 ≤ t → (x t i - s i) ^ 2 ≤ apart net (x 0) s / cOf net i * Real.exp (-(r * t)) := by
    intro t ht
    have h1 := hE refT _ x _ hx (steady_follows h hs) t ht
    have h2 : cOf net i * (x t i - s i) ^ 2 ≤ apart net (x t) s := by
      unfold apart
      exact Finset.single_le_sum (f := fun i => cOf net i * (x t i - s i) ^ 2)
        (fun k hk => mul_nonneg (h.capacity k (Finset.mem_range.1 hk)).le (sq_nonneg _)) (Finset.mem_range.2 hi)
    rw [div_mul_eq_mul_div, le_div_iff₀ hc, mul_comm]
    exact h2.trans h1
  have hexp : Filter.Tendsto (fun t : ℝ => apart net (x 0) s / cOf net i * Real.exp (-(r * t))) Filter.atTop (nhds 0) := by
    have h1 : Filter.Tendsto (fun t : ℝ => r * t) Filter.atTop Filter.atTop := Filter.tendsto_id.const_mul_atTop hr
    have h2 := (Real.tendsto_exp_neg_atTop_nhds_zero.comp h1).const_mul (apart net (x 0) s / cOf net i)
    simpa [Function.comp_def] using h2
  have hsq : Filter.Tendsto (fun t => (x t i - s i) ^ 2) Filter.atTop (nhds 0) := by
    refine tendsto_of_tendsto_of_tendsto_of_le_of_le' tendsto_const_nhds hexp (Filter.Eventually.of_forall fun t => sq_nonneg _) ?_
    filter_upwards [Filter.eventually_ge_atTop 0] with t ht using hbound t ht
  have habs : Filter.Tendsto (fun t => |x t i - s i|) Filter.atTop (nhds 0) := by
    have := (Real.continuous_sqrt.tendsto 0).comp hsq
    simpa [Function.comp_def, Real.sqrt_sq_eq_abs] using this
  rw [tendsto_iff_dist_tendsto_zero]
  simpa [Real.dist_eq] using habs

/-- the square of the negative part and its derivative -/
theorem neg_sq (u : ℝ) : HasDerivAt (fun v : ℝ => min v 0 ^ 2) (2 * min u 0) u := by
  rcases lt_trichotomy u 0 with hu | hu | hu
  · have h1 : HasDerivAt (fun v : ℝ => v ^ 2) (2 * u) u := by simpa using hasDerivAt_pow 2 u
    rw [min_eq_left hu.le]
    refine h1.congr_of_eventuallyEq ?_
    filter_upwards [eventually_lt_nhds hu] with v hv
    rw [min_eq_left hv.le]
  · subst hu
    rw [min_self, mul_zero, hasDerivAt_iff_isLittleO]
    simp only [min_self, ne_eq, OfNat.ofNat_ne_zero, not_false_eq_true, zero_pow, sub_zero, smul_zero]
    have h1 : (fun v : ℝ => min v 0 ^ 2) =O[nhds 0] fun v : ℝ => v ^ 2 := by
      refine Asymptotics.IsBigO.of_bound 1 (Filter.Eventually.of_forall fun v => ?_)
      rw [one_mul, Real.norm_eq_abs, Real.norm_eq_abs, abs_of_nonneg (sq_nonneg _), abs_of_nonneg (sq_nonneg _)]
      rcases le_total v 0 with hv | hv
      · rw [min_eq_left hv]
      · rw [min_eq_right hv]
        simpa using sq_nonneg v
    refine h1.trans_isLittleO ?_
    simpa using Asymptotics.isLittleO_pow_pow (𝕜 := ℝ) (show 1 < 2 by norm_num)
  · rw [min_eq_right hu.le, mul_zero]
    refine (hasDerivAt_const u (0 : ℝ)).congr_of_eventuallyEq ?_
    filter_upwards [eventually_gt_nhds hu] with v hv
    rw [min_eq_right hv.le]
    simp

/-- C127, comparison: temperatures that start nowhere colder, with nowhere less heat at any time, are never colder. -/
theorem c127_comparison {net : Network ℝ} (h : Proper net) {refT : ℝ} {exc exc' : ℝ → Nat → ℝ} {x y : ℝ → Nat → ℝ}
    (hx : Follows net refT exc x) (hy : Follows net refT exc' y) (h0 : ∀ i < net.length, x 0 i ≤ y 0 i)
    (he : ∀ t, 0 < t → ∀ i < net.length, hfOf net i * exc t i ≤ hfOf net i * exc' t i) :
    ∀ t, 0 ≤ t → ∀ i < net.length, x t i ≤ y t i := by
  have hanti : AntitoneOn (fun t => ∑ i ∈ range net.length, cOf net i * min (y t i - x t i) 0 ^ 2) (Set.Ici 0) := by
    refine falls (f' := fun t => ∑ i ∈ range net.length, cOf net i * (2 * min (y t i - x t i) 0 *
      (derivative net refT (exc' t) (y t) i - derivative net refT (exc t) (x t) i))) ?_ ?_ ?_
    · refine continuousOn_finset_sum _ fun i hi => ?_
      have hi' := Finset.mem_range.1 hi
      exact continuousOn_const.mul (((continuous_id.min continuous_const).comp_continuousOn ((hy.cont i hi').sub (hx.cont i hi'))).pow 2)
    · intro t ht
      refine HasDerivAt.fun_sum fun i hi => ?_
      have hi' := Finset.mem_range.1 hi
      have h1 := (hy.deriv t ht i hi').sub (hx.deriv t ht i hi')
      exact ((neg_sq (y t i - x t i)).comp t h1).const_mul (cOf net i)
    · intro t ht
      let w : Nat → ℝ := fun i => min (y t i - x t i) 0
      have e1 : ∑ i ∈ range net.length, cOf net i * (2 * min (y t i - x t i) 0 *
          (derivative net refT (exc' t) (y t) i - derivative net refT (exc t) (x t) i)) =
          2 * ∑ i ∈ range net.length, w i * (hfOf net i * (exc' t i - exc t i)) - 2 * bil (gTriplets net) w (fun k => y t k - x t k) := by
        rw [← bil_eq_sum net.length _ _ _ fun t ht => (mem_gTriplets h.grounded.inRange ht).1, Finset.mul_sum, Finset.mul_sum, ← Finset.sum_sub_distrib]
        refine Finset.sum_congr rfl fun i hi => ?_
        have := rate_sub h refT (exc' t) (exc t) (y t) (x t) (Finset.mem_range.1 hi)
        rw [show cOf net i * (2 * min (y t i - x t i) 0 * (derivative net refT (exc' t) (y t) i - derivative net refT (exc t) (x t) i)) =
          2 * w i * (cOf net i * (derivative net refT (exc' t) (y t) i - derivative net refT (exc t) (x t) i)) by simp only [w]; ring, this]
        ring
      have e2 : ∑ i ∈ range net.length, w i * (hfOf net i * (exc' t i - exc t i)) ≤ 0 := by
        refine Finset.sum_nonpos fun i hi => ?_
        have := he t ht i (Finset.mem_range.1 hi)
        exact mul_nonpos_of_nonpos_of_nonneg (min_le_right _ _) (by rw [mul_sub]; linarith)
      have e3 : 0 ≤ bil (gTriplets net) w (fun k => y t k - x t k) := by
        rw [bil_g]
        have hterm : ∀ a b : ℝ, 0 ≤ (min a 0 - min b 0) * (a - b) := by
          intro a b
          rcases le_total a 0 with ha | ha <;> rcases le_total b 0 with hb | hb
          · rw [min_eq_left ha, min_eq_left hb]; exact mul_self_nonneg _
          · rw [min_eq_left ha, min_eq_right hb]; nlinarith
          · rw [min_eq_right ha, min_eq_left hb]; nlinarith
          · rw [min_eq_right ha, min_eq_right hb]; simp
        have hself : ∀ a : ℝ, 0 ≤ min a 0 * a := by
          intro a
          rcases le_total a 0 with ha | ha
          · rw [min_eq_left ha]; exact mul_self_nonneg _
          · rw [min_eq_right ha]; simp
        refine add_nonneg (List.sum_nonneg ?_) (Finset.sum_nonneg fun i _ => ?_)
        · intro z hz
          rw [List.mem_map] at hz
          obtain ⟨e, hee, rfl⟩ := hz
          rw [mul_assoc]
          exact mul_nonneg (edge_pos h.grounded hee).le (hterm _ _)
        · rw [mul_assoc]
          exact mul_nonneg (htc_nonneg h.grounded i) (hself _)
      rw [e1]
      linarith
  intro t ht i hi
  have h1 := hanti (Set.mem_Ici.2 le_rfl) (Set.mem_Ici.2 ht) ht
  dsimp only at h1
  rw [Finset.sum_eq_zero (s := range net.length) (f := fun i => cOf net i * min (y 0 i - x 0 i) 0 ^ 2)] at h1
  · have h2 : cOf net i * min (y t i - x t i) 0 ^ 2 ≤ 0 := by
      refine le_trans ?_ h1
      exact Finset.single_le_sum (f := fun i => cOf net i * min (y t i - x t i) 0 ^ 2)
        (fun k hk => mul_nonneg (h.capacity k (Finset.mem_range.1 hk)).le (sq_nonneg _)) (Finset.mem_range.2 hi)
    have hc := h.capacity i hi
    have h3 : min (y t i - x t i) 0 ^ 2 = 0 := by
      have := sq_nonneg (min (y t i - x t i) 0)
      by_contra hne
      have hp : 0 < min (y t i - x t i) 0 ^ 2 := lt_of_le_of_ne this (Ne.symm hne)
      have := mul_pos hc hp
      linarith
    rw [sq_eq_zero_iff, min_eq_right_iff] at h3
    linarith
  · intro k hk
    have := h0 k (Finset.mem_range.1 hk)
    rw [min_eq_right (by linarith)]
    simp

/-- C127, heating up: from the temperature of the surroundings and with no node cooled, under any excitation between none and full, no
node is ever colder than the surroundings or hotter than in the steady state of full excitation; under full excitation no temperature ever falls. -/
theorem c127_heating {net : Network ℝ} (h : Proper net) (hf : ∀ n ∈ net, 0 ≤ n.hf) {refT : ℝ} {s : Nat → ℝ} (hs : Solves net refT s)
    {exc : ℝ → Nat → ℝ} {x : ℝ → Nat → ℝ} (hx : Follows net refT exc x) (h0 : ∀ i < net.length, x 0 i = refT)
    (he : ∀ t, 0 < t → ∀ i, 0 ≤ exc t i ∧ exc t i ≤ 1) :
    (∀ t, 0 ≤ t → ∀ i < net.length, refT ≤ x t i ∧ x t i ≤ s i) ∧
    ((∀ t i, exc t i = 1) → ∀ t t', 0 ≤ t → t ≤ t' → ∀ i < net.length, x t i ≤ x t' i) := by
  have hfi : ∀ i, 0 ≤ hfOf net i := by
    intro i
    unfold hfOf
    cases hn : net[i]? with
    | none => exact le_refl _
    | some n => exact hf n (List.mem_of_getElem? hn)
  have hlow := lower_bound h.grounded hs hf
  have hconst : Follows net refT (fun _ _ => 0) fun _ _ => refT := by
    refine ⟨fun i _ => continuousOn_const, fun t _ i hi => ?_⟩
    have : derivative net refT (fun _ => 0) (fun _ => refT) i = 0 := by
      have h1 := rate h refT (fun _ => 0) (fun _ => refT) hi
      rw [const_mulVec net refT i hi, mul_zero, zero_add, sub_self] at h1
      exact (mul_eq_zero.1 h1).resolve_left (h.capacity i hi).ne'
    rw [this]
    exact hasDerivAt_const t refT
  have hb : ∀ t, 0 ≤ t → ∀ i < net.length, refT ≤ x t i ∧ x t i ≤ s i := by
    intro t ht i hi
    constructor
    · exact c127_comparison h hconst hx (fun i hi => (h0 i hi).ge)
        (fun t ht i _ => by rw [mul_zero]; exact mul_nonneg (hfi i) (he t ht i).1) t ht i hi
    · exact c127_comparison h hx (steady_follows h hs) (fun i hi => by rw [h0 i hi]; exact hlow i hi)
        (fun t ht i _ => mul_le_mul_of_nonneg_left (he t ht i).2 (hfi i)) t ht i hi
  refine ⟨hb, fun hone t t' ht htt i hi => ?_⟩
  have hshift : Follows net refT exc fun u => x (u + (t' - t)) := by
    refine ⟨fun i hi => ?_, fun u hu i hi => ?_⟩
    · refine (hx.cont i hi).comp (continuous_id.add continuous_const).continuousOn fun u hu => ?_
      rw [Set.mem_Ici] at hu
      show 0 ≤ u + (t' - t)
      linarith
    · have h1 := hx.deriv (u + (t' - t)) (by linarith) i hi
      have h2 : exc (u + (t' - t)) = exc u := by
        funext k
        rw [hone, hone]
      rw [h2] at h1
      exact h1.comp_add_const u (t' - t)
  have := c127_comparison h hx hshift (fun i hi => by
    rw [h0 i hi]
    exact (hb (0 + (t' - t)) (by linarith) i hi).1) (fun _ _ _ _ => by
    simp only [hone, le_refl]) t ht i hi
  rwa [show t + (t' - t) = t' by ring] at this

/-! ## example -/

/-- one node of capacity 1 heated with 1 W, cooled with 1 W per kelvin: it warms up by one kelvin, the difference falls with time constant 1 -/
example : Proper [⟨0, none, 1, 1, 1, []⟩] ∧ Solves [⟨0, none, 1, 1, 1, []⟩] (25 : ℝ) (fun _ => 26) ∧
    Follows [⟨0, none, 1, 1, 1, []⟩] (25 : ℝ) (fun _ _ => 1) (fun t _ => 26 - Real.exp (-t)) := by
  have hg : Grounded [(⟨0, none, 1, 1, 1, []⟩ : Node ℝ)] := by
    refine ⟨?_, ?_, ?_, ?_⟩
    · intro i n hn e he
      match i, hn with
      | 0, hn => injection hn with hn; subst hn; simp at he
    · intro n hn e he
      simp at hn
      subst hn
      simp at he
    · intro n hn
      simp at hn
      subst hn
      simp
    · intro i hi
      simp at hi
      subst hi
      exact ⟨0, .refl, by simp [htcOf]⟩
  have hp : Proper [(⟨0, none, 1, 1, 1, []⟩ : Node ℝ)] := by
    refine ⟨hg, fun i hi => ?_⟩
    simp at hi
    subst hi
    simp [cOf]
  refine ⟨hp, ?_, ?_, ?_⟩
  · rw [solves_iff]
    intro i hi
    rw [const_mulVec _ _ _ hi]
    simp at hi
    subst hi
    simp [hfOf, htcOf]
    norm_num
  · intro i _
    exact (continuous_const.sub (Real.continuous_exp.comp continuous_neg)).continuousOn
  · intro t _ i hi
    have h1 := rate hp 25 (fun _ => 1) (fun _ => 26 - Real.exp (-t)) hi
    rw [const_mulVec _ _ _ hi] at h1
    simp at hi
    subst hi
    simp only [cOf, hfOf, htcOf, List.getElem?_cons_zero, one_mul] at h1
    rw [h1]
    have := ((hasDerivAt_neg t).exp).const_sub 26
    rw [show (1 : ℝ) + 25 - (26 - Real.exp (-t)) = -(Real.exp (-t) * -1) by ring]
    exact this

end Ecad.Decay
