import Verif.Thermal.MidProps
import Verif.Thermal.DecayProps
import Mathlib.Analysis.Matrix.Spectrum
import Mathlib.Analysis.SpecialFunctions.Complex.LogBounds
/-!
C150, continued: exactly when the fixed steps are stable, and their limit for short steps.
-/
namespace Ecad.Mid
open Ecad.Thermal Ecad.Response Ecad.Decay Finset

/-! ## modes -/

/-- a mode of the network: a temperature profile that decays at the rate `lam` -/
structure Mode (net : Network ℝ) (lam : ℝ) (w : Nat → ℝ) : Prop where
  eigen : ∀ i < net.length, mulVec (gTriplets net) w i = lam * cOf net i * w i
  nonzero : ∃ i < net.length, w i ≠ 0

theorem sound_of_proper {net : Network ℝ} (h : Proper net) : Sound net := ⟨h.grounded, h.capacity⟩

theorem entry_symm (net : Network ℝ) (i j : Nat) : entry (gTriplets net) i j = entry (gTriplets net) j i := by
  rw [entry_eq_bil, entry_eq_bil, bil_comm]

theorem dot_pos {net : Network ℝ} (h : Sound net) {w : Nat → ℝ} (hw : ∃ i < net.length, w i ≠ 0) : 0 < dot net w w := by
  by_contra hc
  obtain ⟨i, hi, hne⟩ := hw
  exact hne (dot_self h (not_lt.1 hc) i hi)

theorem mode_dot {net : Network ℝ} (h : Sound net) {lam : ℝ} {w : Nat → ℝ} (hw : Mode net lam w) (v : Nat → ℝ) :
    bil (gTriplets net) w v = lam * dot net w v := by
  rw [bil_comm, ← bil_eq_sum net.length _ _ _ fun _ ht => (mem_gTriplets h.grounded.inRange ht).1, dot, Finset.mul_sum]
  exact Finset.sum_congr rfl fun i hi => by rw [hw.eigen i (Finset.mem_range.1 hi)]; ring

theorem mode_pos {net : Network ℝ} (h : Sound net) {lam : ℝ} {w : Nat → ℝ} (hw : Mode net lam w) : 0 < lam := by
  have h1 := dot_pos h hw.nonzero
  have h2 : 0 < bil (gTriplets net) w w := by
    rcases (bil_nonneg h.grounded w).lt_or_eq with hlt | he
    · exact hlt
    · obtain ⟨i, hi, hne⟩ := hw.nonzero
      exact absurd (energy_zero h.grounded (w := w) (by rw [← bil_g, ← he]) i hi) hne
  rw [mode_dot h hw] at h2
  exact pos_of_mul_pos_left h2 h1.le

/-- every profile is a combination of modes -/
theorem modes {net : Network ℝ} (h : Sound net) : ∃ (w : Fin net.length → Nat → ℝ) (lam : Fin net.length → ℝ), (∀ j, Mode net (lam j) (w j)) ∧
    ∀ e : Nat → ℝ, ∀ i < net.length, e i = ∑ j, dot net (w j) e * w j i := by
  let n := net.length
  let r : Fin n → ℝ := fun i => Real.sqrt (cOf net i)
  have hr : ∀ i : Fin n, 0 < r i := fun i => Real.sqrt_pos.2 (h.capacity i i.2)
  have hrr : ∀ i : Fin n, r i * r i = cOf net i := fun i => Real.mul_self_sqrt (h.capacity i i.2).le
  let S : Matrix (Fin n) (Fin n) ℝ := Matrix.of fun i k => entry (gTriplets net) i k / (r i * r k)
  have hS : S.IsHermitian := by
    ext i k
    simp only [S, Matrix.conjTranspose_apply, Matrix.of_apply, star_trivial]
    rw [entry_symm, mul_comm]
  let v : Fin n → Fin n → ℝ := fun j => (hS.eigenvectorBasis j : EuclideanSpace ℝ (Fin n)).ofLp
  let w : Fin n → Nat → ℝ := fun j i => if hi : i < n then v j ⟨i, hi⟩ / r ⟨i, hi⟩ else 0
  have hwi : ∀ j (i : Fin n), w j i = v j i / r i := fun j i => by simp [w]
  have hdot : ∀ j (e : Nat → ℝ), dot net (w j) e = ∑ i : Fin n, v j i * (r i * e i) := by
    intro j e
    unfold dot
    rw [Finset.sum_range]
    refine Finset.sum_congr rfl fun i _ => ?_
    rw [hwi, ← hrr]
    have := (hr i).ne'
    field_simp
  have hexp : ∀ e : Nat → ℝ, ∀ i < n, e i = ∑ j, dot net (w j) e * w j i := by
    intro e i hi
    let x : EuclideanSpace ℝ (Fin n) := WithLp.toLp 2 fun i => r i * e i
    have hx := hS.eigenvectorBasis.sum_repr' x
    have hxi := congrArg (fun z : EuclideanSpace ℝ (Fin n) => z.ofLp ⟨i, hi⟩) hx
    have e1 : (∑ j, inner ℝ (hS.eigenvectorBasis j) x • hS.eigenvectorBasis j : EuclideanSpace ℝ (Fin n)).ofLp ⟨i, hi⟩ =
        ∑ j, inner ℝ (hS.eigenvectorBasis j) x * v j ⟨i, hi⟩ := by
      simp [v]
    have e2 : ∀ j, inner ℝ (hS.eigenvectorBasis j) x = dot net (w j) e := by
      intro j
      rw [hdot, PiLp.inner_apply]
      refine Finset.sum_congr rfl fun k _ => ?_
      simp [v, x]
      ring
    beta_reduce at hxi
    rw [e1] at hxi
    have e3 : x.ofLp ⟨i, hi⟩ = r ⟨i, hi⟩ * e i := rfl
    rw [e3] at hxi
    have hri := (hr ⟨i, hi⟩).ne'
    have : e i = (∑ j, inner ℝ (hS.eigenvectorBasis j) x * v j ⟨i, hi⟩) / r ⟨i, hi⟩ := by rw [hxi]; field_simp
    rw [this, Finset.sum_div]
    refine Finset.sum_congr rfl fun j _ => ?_
    rw [e2, show w j i = v j ⟨i, hi⟩ / r ⟨i, hi⟩ from hwi j ⟨i, hi⟩]
    ring
  refine ⟨w, hS.eigenvalues, fun j => ⟨fun i hi => ?_, ?_⟩, hexp⟩
  · have he := congrFun (hS.mulVec_eigenvectorBasis j) ⟨i, hi⟩
    have e1 : (S.mulVec (v j)) ⟨i, hi⟩ = hS.eigenvalues j * v j ⟨i, hi⟩ := by
      simpa [v] using he
    rw [mul_entries h.grounded, Finset.sum_range]
    have e2 : ∀ k : Fin n, entry (gTriplets net) i k * w j k = r ⟨i, hi⟩ * (S ⟨i, hi⟩ k * v j k) := by
      intro k
      rw [hwi]
      simp only [S, Matrix.of_apply]
      have := (hr ⟨i, hi⟩).ne'
      have := (hr k).ne'
      field_simp
    rw [Finset.sum_congr rfl fun k _ => e2 k, ← Finset.mul_sum]
    have e3 : ∑ k, S ⟨i, hi⟩ k * v j k = hS.eigenvalues j * v j ⟨i, hi⟩ := by
      rw [← e1]; rfl
    rw [e3, show w j i = v j ⟨i, hi⟩ / r ⟨i, hi⟩ from hwi j ⟨i, hi⟩, show cOf net i = r ⟨i, hi⟩ * r ⟨i, hi⟩ from (hrr ⟨i, hi⟩).symm]
    have := (hr ⟨i, hi⟩).ne'
    field_simp
  · by_contra hc
    push Not at hc
    have hv : hS.eigenvectorBasis j = 0 := by
      ext i
      have := hc i i.2
      rw [hwi] at this
      have := (div_eq_zero_iff.1 this).resolve_right (hr i).ne'
      simpa [v] using this
    have := hS.eigenvectorBasis.orthonormal.1 j
    rw [hv] at this
    simp at this

theorem mode_after {net : Network ℝ} (h : Sound net) {lam : ℝ} {w : Nat → ℝ} (hw : Mode net lam w) {refT dt : ℝ} {s : Nat → ℝ} (hs : Solves net refT s)
    (x : Nat → ℝ) (k : Nat) : dot net w (after net refT full dt x k - s) = factor (dt * lam) ^ k * dot net w (x - s) := c150_mode h hw.eigen hs x k

/-- the error after `k` steps -/
theorem error_modes {net : Network ℝ} {w : Fin net.length → Nat → ℝ} {lam : Fin net.length → ℝ} (h : Sound net) (hm : ∀ j, Mode net (lam j) (w j))
    (hexp : ∀ e : Nat → ℝ, ∀ i < net.length, e i = ∑ j, dot net (w j) e * w j i) {refT dt : ℝ} {s : Nat → ℝ} (hs : Solves net refT s) (x : Nat → ℝ) (k : Nat)
    {i : Nat} (hi : i < net.length) : after net refT full dt x k i - s i = ∑ j, factor (dt * lam j) ^ k * dot net (w j) (x - s) * w j i := by
  have := hexp (after net refT full dt x k - s) i hi
  rw [Pi.sub_apply] at this
  rw [this]
  exact Finset.sum_congr rfl fun j _ => by rw [mode_after h (hm j) hs]

/-! ## stability -/

theorem factor_small {p : ℝ} (hp : 0 < p) : |factor p| < 1 ↔ p ^ 3 < 4 * p ^ 2 - 8 * p + 16 := by
  unfold factor
  rw [abs_lt]
  constructor
  · rintro ⟨h1, -⟩; linarith
  · intro h
    refine ⟨by linarith, ?_⟩
    nlinarith [sq_nonneg (p - 2), mul_pos hp hp, mul_nonneg hp.le (sq_nonneg (p - 2))]

/-- **C150, exactly**: the temperatures tend to the steady ones from every start if and only if the product `p` of the step and the rate is such that
`p³ < 4p² - 8p + 16` for all modes of the network. -/
theorem c150_stable {net : Network ℝ} (h : Sound net) {refT dt : ℝ} (h0 : 0 < dt) {s : Nat → ℝ} (hs : Solves net refT s) :
    (∀ x : Nat → ℝ, ∀ i < net.length, Filter.Tendsto (fun k => after net refT full dt x k i) Filter.atTop (nhds (s i))) ↔
    ∀ lam w, Mode net lam w → (dt * lam) ^ 3 < 4 * (dt * lam) ^ 2 - 8 * (dt * lam) + 16 := by
  constructor
  · intro hall lam w hw
    rw [← factor_small (mul_pos h0 (mode_pos h hw))]
    by_contra hc
    have hlim : Filter.Tendsto (fun k => dot net w (after net refT full dt (s + w) k - s)) Filter.atTop (nhds 0) := by
      have : ∀ i ∈ range net.length, Filter.Tendsto (fun k => cOf net i * w i * (after net refT full dt (s + w) k i - s i)) Filter.atTop (nhds 0) := by
        intro i hi
        have := ((hall (s + w) i (Finset.mem_range.1 hi)).sub_const (s i)).const_mul (cOf net i * w i)
        rwa [sub_self, mul_zero] at this
      have := tendsto_finsetSum _ this
      rwa [Finset.sum_const_zero] at this
    have hlow : ∀ k, dot net w w ≤ |dot net w (after net refT full dt (s + w) k - s)| := by
      intro k
      have hp := dot_pos h hw.nonzero
      rw [mode_after h hw hs, show s + w - s = w by simp, abs_mul, abs_pow, abs_of_pos hp]
      exact le_mul_of_one_le_left hp.le (one_le_pow₀ (not_lt.1 hc))
    have h2 := hlim.abs
    rw [abs_zero] at h2
    have := ge_of_tendsto' h2 hlow
    exact absurd (dot_pos h hw.nonzero) (not_lt.2 this)
  · intro hall x i hi
    obtain ⟨w, lam, hm, hexp⟩ := modes h
    have hz : Filter.Tendsto (fun k => after net refT full dt x k i - s i) Filter.atTop (nhds 0) := by
      have e : (fun k => after net refT full dt x k i - s i) = fun k => ∑ j, factor (dt * lam j) ^ k * dot net (w j) (x - s) * w j i :=
        funext fun k => error_modes h hm hexp hs x k hi
      rw [e]
      have : ∀ j ∈ (Finset.univ : Finset (Fin net.length)), Filter.Tendsto (fun k => factor (dt * lam j) ^ k * dot net (w j) (x - s) * w j i) Filter.atTop (nhds 0) := by
        intro j _
        have h1 := (factor_small (mul_pos h0 (mode_pos h (hm j)))).2 (hall _ _ (hm j))
        have := ((tendsto_pow_atTop_nhds_zero_of_abs_lt_one h1).mul_const (dot net (w j) (x - s))).mul_const (w j i)
        rwa [zero_mul, zero_mul] at this
      have := tendsto_finsetSum _ this
      rwa [Finset.sum_const_zero] at this
    have := hz.add_const (s i)
    simpa using this

/-- some mode is as fast as any node -/
theorem fast_mode {net : Network ℝ} (h : Sound net) {i : Nat} (hi : i < net.length) : ∃ lam w, Mode net lam w ∧ entry (gTriplets net) i i ≤ lam * cOf net i := by
  obtain ⟨w, lam, hm, hexp⟩ := modes h
  by_contra hc
  push Not at hc
  have hd : ∀ v : Nat → ℝ, dot net v (delta i) = cOf net i * v i := by
    intro v
    unfold dot
    rw [Finset.sum_eq_single i]
    · simp [delta]
    · intro b _ hb; simp [delta, hb]
    · intro hn; exact absurd (Finset.mem_range.2 hi) hn
  have e1 : (1 : ℝ) = ∑ j, cOf net i * w j i * w j i := by
    have := hexp (delta i) i hi
    rw [show (delta i i : ℝ) = 1 by simp [delta]] at this
    rw [this]
    exact Finset.sum_congr rfl fun j _ => by rw [hd]
  have e2 : entry (gTriplets net) i i = ∑ j, lam j * cOf net i * (cOf net i * w j i * w j i) := by
    have hme := mulVec_eq_bil (gTriplets net) (delta i) i
    rw [entry_eq_bil, ← hme]
    have hcg : mulVec (gTriplets net) (delta i) i = mulVec (gTriplets net) (fun k => ∑ j, dot net (w j) (delta i) * w j k) i := by
      rw [mul_entries h.grounded, mul_entries h.grounded]
      exact Finset.sum_congr rfl fun k hk => by rw [← hexp (delta i) k (Finset.mem_range.1 hk)]
    rw [hcg, mul_entries h.grounded]
    simp only [Finset.mul_sum]
    rw [Finset.sum_comm]
    refine Finset.sum_congr rfl fun j _ => ?_
    have := (hm j).eigen i hi
    rw [mul_entries h.grounded] at this
    have e3 : ∑ k ∈ range net.length, entry (gTriplets net) i k * (dot net (w j) (delta i) * w j k) =
        dot net (w j) (delta i) * ∑ k ∈ range net.length, entry (gTriplets net) i k * w j k := by
      rw [Finset.mul_sum]
      exact Finset.sum_congr rfl fun k _ => by ring
    rw [e3, this, hd]
    ring
  have hne : ∃ j, w j i ≠ 0 := by
    by_contra hcc
    push Not at hcc
    simp [hcc] at e1
  obtain ⟨j0, hj0⟩ := hne
  have hlt : ∑ j, lam j * cOf net i * (cOf net i * w j i * w j i) < ∑ j, entry (gTriplets net) i i * (cOf net i * w j i * w j i) := by
    refine Finset.sum_lt_sum (fun j _ => ?_) ⟨j0, Finset.mem_univ _, ?_⟩
    · refine mul_le_mul_of_nonneg_right (hc _ _ (hm j)).le ?_
      rw [mul_assoc]
      exact mul_nonneg (h.capacity i hi).le (mul_self_nonneg _)
    · refine mul_lt_mul_of_pos_right (hc _ _ (hm j0)) ?_
      rw [mul_assoc]
      exact mul_pos (h.capacity i hi) (mul_self_pos.2 hj0)
  rw [← e2, ← Finset.mul_sum, ← e1, mul_one] at hlt
  exact lt_irrefl _ hlt

/-- **C150 is false of the code** for steps of four time constants of a node or more: there is a profile such that the temperatures leave all bounds from
every start that has a part of it. -/
theorem c150_node_refuted {net : Network ℝ} (h : Sound net) {dt : ℝ} {i : Nat} (hi : i < net.length)
    (h4 : 4 * cOf net i ≤ dt * entry (gTriplets net) i i) (h0 : 0 < dt) : ∃ w : Nat → ℝ, (∃ i < net.length, w i ≠ 0) ∧ ∀ (refT : ℝ) (s x : Nat → ℝ),
      Solves net refT s → ∑ i ∈ range net.length, cOf net i * w i * (x i - s i) ≠ 0 → ∀ M : ℝ, ∃ k, ∃ j < net.length, M < |after net refT full dt x k j - s j| := by
  obtain ⟨lam, w, hw, hl⟩ := fast_mode h hi
  have hc := h.capacity i hi
  have hp : 4 ≤ dt * lam := by
    have h1 := mul_le_mul_of_nonneg_left hl h0.le
    have h2 : 4 * cOf net i ≤ dt * lam * cOf net i := by linarith
    exact le_of_mul_le_mul_right h2 hc
  refine ⟨w, hw.nonzero, fun refT s x hs hne M => ?_⟩
  by_contra hcon
  push Not at hcon
  have h3 := (c150_coarse_refuted h hw.eigen hp hs).1 x
  have hb : ∀ k, |∑ i ∈ range net.length, cOf net i * w i * (after net refT full dt x k i - s i)| ≤ ∑ i ∈ range net.length, |cOf net i * w i| * M := by
    intro k
    refine (Finset.abs_sum_le_sum_abs _ _).trans (Finset.sum_le_sum fun j hj => ?_)
    rw [abs_mul]
    exact mul_le_mul_of_nonneg_left (hcon k j (Finset.mem_range.1 hj)) (abs_nonneg _)
  have hpos := abs_pos.2 hne
  obtain ⟨k, hk⟩ := pow_unbounded_of_one_lt ((∑ i ∈ range net.length, |cOf net i * w i| * M) / |∑ i ∈ range net.length, cOf net i * w i * (x i - s i)|)
    (show (1 : ℝ) < 3 by norm_num)
  rw [div_lt_iff₀ hpos] at hk
  have := (h3 k).trans (hb k)
  linarith

/-! ## short steps -/

/-- a mode of the exact course -/
theorem mode_exact {net : Network ℝ} (h : Proper net) {lam : ℝ} {w : Nat → ℝ} (hw : Mode net lam w) {refT : ℝ} {s : Nat → ℝ} (hs : Solves net refT s)
    {y : ℝ → Nat → ℝ} (hy : Follows net refT (fun _ _ => 1) y) {t : ℝ} (ht : 0 ≤ t) :
    dot net w (y t - s) = Real.exp (-(t * lam)) * dot net w (y 0 - s) := by
  have hS := sound_of_proper h
  have hcont : ContinuousOn (fun t => dot net w (y t - s)) (Set.Ici 0) := by
    unfold dot
    refine continuousOn_finsetSum _ fun i hi => ?_
    exact continuousOn_const.mul ((hy.cont i (Finset.mem_range.1 hi)).sub continuousOn_const)
  have hder : ∀ t, 0 < t → HasDerivAt (fun t => dot net w (y t - s)) (-lam * dot net w (y t - s)) t := by
    intro t ht
    have h1 : HasDerivAt (fun t => dot net w (y t - s)) (∑ i ∈ range net.length, cOf net i * w i * derivative net refT (fun _ => 1) (y t) i) t := by
      unfold dot
      refine HasDerivAt.fun_sum fun i hi => ?_
      exact ((hy.deriv t ht i (Finset.mem_range.1 hi)).sub_const (s i)).const_mul (cOf net i * w i)
    convert h1 using 1
    have hz := steady_follows h hs
    have e : ∀ i ∈ range net.length, cOf net i * w i * derivative net refT (fun _ => 1) (y t) i =
        -(w i * mulVec (gTriplets net) (fun k => y t k - s k) i) := by
      intro i hi
      have h2 := rate_sub h refT (fun _ => 1) (fun _ => 1) (y t) s (Finset.mem_range.1 hi)
      have h3 : derivative net refT (fun _ => 1) s i = 0 := (steady_iff hS refT s).2 hs i (Finset.mem_range.1 hi)
      rw [h3, sub_zero, sub_self, mul_zero, zero_sub] at h2
      rw [mul_right_comm, h2]
      ring
    rw [Finset.sum_congr rfl e, Finset.sum_neg_distrib, bil_eq_sum net.length _ _ _ fun _ ht => (mem_gTriplets h.grounded.inRange ht).1, mode_dot hS hw]
    simp only [dot, Pi.sub_apply]
    ring
  have hE : ∀ t, HasDerivAt (fun t : ℝ => Real.exp (t * lam)) (Real.exp (t * lam) * lam) t := fun t => by
    have := (hasDerivAt_id t).mul_const lam
    simpa using this.exp
  have hc2 : ContinuousOn (fun t => dot net w (y t - s) * Real.exp (t * lam)) (Set.Ici 0) :=
    hcont.mul (Real.continuous_exp.comp (continuous_id.mul continuous_const)).continuousOn
  have hd2 : ∀ t, 0 < t → HasDerivAt (fun t => dot net w (y t - s) * Real.exp (t * lam)) 0 t := by
    intro t ht
    have := (hder t ht).mul (hE t)
    have e : -lam * dot net w (y t - s) * Real.exp (t * lam) + dot net w (y t - s) * (Real.exp (t * lam) * lam) = 0 := by ring
    rw [e] at this
    exact this
  have a1 := falls hc2 hd2 (fun _ _ => le_rfl) (Set.mem_Ici.2 le_rfl) (Set.mem_Ici.2 ht) ht
  have a2 := falls hc2.neg (fun t ht => (hd2 t ht).neg) (fun _ _ => by simp) (Set.mem_Ici.2 le_rfl) (Set.mem_Ici.2 ht) ht
  beta_reduce at a1
  simp only [Pi.neg_apply, neg_le_neg_iff] at a2
  have := le_antisymm a1 a2
  rw [zero_mul, Real.exp_zero, mul_one] at this
  rw [← this, mul_comm (Real.exp _), mul_assoc, ← Real.exp_add, add_neg_cancel, Real.exp_zero, mul_one]

theorem factor_tends (p : ℝ) : Filter.Tendsto (fun k : ℕ => factor (p / k) ^ k) Filter.atTop (nhds (Real.exp (-p))) := by
  have e : (fun k : ℕ => factor (p / k) ^ k) = fun k : ℕ => (1 + (-(p / k) + (p / k) ^ 2 / 2 - (p / k) ^ 3 / 8)) ^ k := by
    funext k
    unfold factor
    congr 1
    ring
  rw [e]
  refine Real.tendsto_one_add_pow_exp_of_tendsto ?_
  have hinv : Filter.Tendsto (fun k : ℕ => (k : ℝ)⁻¹) Filter.atTop (nhds 0) := tendsto_inv_atTop_nhds_zero_nat
  have h2 : Filter.Tendsto (fun k : ℕ => -p + p ^ 2 / 2 * (k : ℝ)⁻¹ - p ^ 3 / 8 * ((k : ℝ)⁻¹ * (k : ℝ)⁻¹)) Filter.atTop
      (nhds (-p + p ^ 2 / 2 * 0 - p ^ 3 / 8 * (0 * 0))) :=
    ((hinv.const_mul _).const_add _).sub ((hinv.mul hinv).const_mul _)
  rw [show -p + p ^ 2 / 2 * 0 - p ^ 3 / 8 * (0 * 0) = -p by ring] at h2
  refine h2.congr' ?_
  filter_upwards [Filter.eventually_gt_atTop 0] with k hk
  have : (k : ℝ) ≠ 0 := by exact_mod_cast hk.ne'
  field_simp

/-- **C150, short steps**: at full power, the temperatures reached at a time after `k` steps of equal length tend to those of the exact course from the same
start as `k` grows. -/
theorem c150_fine {net : Network ℝ} (h : Proper net) {refT : ℝ} {y : ℝ → Nat → ℝ} (hy : Follows net refT (fun _ _ => 1) y) {x : Nat → ℝ}
    (hx : ∀ i < net.length, y 0 i = x i) {t : ℝ} (ht : 0 ≤ t) : ∀ i < net.length,
      Filter.Tendsto (fun k : ℕ => after net refT full (t / k) x k i) Filter.atTop (nhds (y t i)) := by
  intro i hi
  have hS := sound_of_proper h
  obtain ⟨s, hs⟩ := c30_exists h.grounded refT
  obtain ⟨w, lam, hm, hexp⟩ := modes hS
  have e1 : ∀ k : ℕ, after net refT full (t / k) x k i = s i + ∑ j, factor (t * lam j / k) ^ k * dot net (w j) (x - s) * w j i := by
    intro k
    have := error_modes hS hm hexp hs (dt := t / k) x k hi
    rw [show ∑ j, factor (t * lam j / k) ^ k * dot net (w j) (x - s) * w j i = ∑ j, factor (t / k * lam j) ^ k * dot net (w j) (x - s) * w j i from
      Finset.sum_congr rfl fun j _ => by rw [div_mul_eq_mul_div], ← this]
    ring
  have hd0 : ∀ j, dot net (w j) (y 0 - s) = dot net (w j) (x - s) := fun j =>
    Finset.sum_congr rfl fun k hk => by rw [Pi.sub_apply, Pi.sub_apply, hx k (Finset.mem_range.1 hk)]
  have e2 : y t i = s i + ∑ j, Real.exp (-(t * lam j)) * dot net (w j) (x - s) * w j i := by
    have := hexp (y t - s) i hi
    rw [Pi.sub_apply] at this
    have h2 : ∑ j, dot net (w j) (y t - s) * w j i = ∑ j, Real.exp (-(t * lam j)) * dot net (w j) (x - s) * w j i :=
      Finset.sum_congr rfl fun j _ => by rw [mode_exact h (hm j) hs hy ht, hd0]
    rw [← h2, ← this]
    ring
  rw [e2]
  refine (Filter.Tendsto.const_add (s i) (tendsto_finsetSum _ fun j _ => ?_)).congr fun k => (e1 k).symm
  exact ((factor_tends (t * lam j)).mul_const _).mul_const _

/-- **C150, limit**: with steps of at most 4/3 of the time constant of every node the temperatures tend to the steady ones from every start. -/
theorem c150_limit {net : Network ℝ} (h : Sound net) {refT dt : ℝ} (h0 : 0 < dt) (hf : Fits net dt (4 / 3)) {s : Nat → ℝ} (hs : Solves net refT s) (x : Nat → ℝ) :
    ∀ i < net.length, Filter.Tendsto (fun k => after net refT full dt x k i) Filter.atTop (nhds (s i)) := by
  intro i hi
  obtain ⟨θ, t0, t1, ht⟩ := c150_approach h h0 hf
  obtain ⟨M, hM⟩ := ht refT s x hs
  rw [tendsto_iff_dist_tendsto_zero]
  refine squeeze_zero (fun _ => dist_nonneg) (fun k => ?_) (g := fun k => M * θ ^ k) ?_
  · rw [Real.dist_eq]
    exact hM k i hi
  · have := (tendsto_pow_atTop_nhds_zero_of_lt_one t0 t1).const_mul M
    rwa [mul_zero] at this

end Ecad.Mid
