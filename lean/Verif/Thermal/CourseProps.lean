import Verif.Thermal.DecayProps
import Verif.Thermal.LayoutResponseProps
import Mathlib.Analysis.SpecialFunctions.Exponential
import Mathlib.MeasureTheory.Integral.IntervalIntegral.FundThmCalculus
import Mathlib.Topology.Algebra.Module.FiniteDimension
import Mathlib.Analysis.Calculus.Deriv.Mul
import Mathlib.Analysis.Calculus.Deriv.Prod
/-!
C136: The temperatures of a layout over time: what the transient solver integrates, from the extraction of the grid model over the network to the
derivative, has exactly one solution, which tends to the steady temperatures and obeys the laws of heat.
-/
namespace Ecad.Course
open Ecad.Thermal Ecad.Decay Ecad.Response Finset

/-! ## existence -/

theorem mulVec_add (ts : Triplets ℝ) (x y : Nat → ℝ) (i : Nat) : mulVec ts (fun k => x k + y k) i = mulVec ts x i + mulVec ts y i := by
  unfold mulVec
  induction ts with
  | nil => simp
  | cons t ts ih =>
    simp only [List.map_cons, List.sum_cons, ih]
    split_ifs <;> ring

theorem mulVec_smul (ts : Triplets ℝ) (a : ℝ) (x : Nat → ℝ) (i : Nat) : mulVec ts (fun k => a * x k) i = a * mulVec ts x i := by
  unfold mulVec
  induction ts with
  | nil => simp
  | cons t ts ih =>
    simp only [List.map_cons, List.sum_cons, ih]
    split_ifs <;> ring

/-- a vector as temperatures of all numbers -/
def ext {n : Nat} (v : Fin n → ℝ) (i : Nat) : ℝ := if hi : i < n then v ⟨i, hi⟩ else 0

/-- linear systems of differential equations have solutions -/
theorem linear_solution {n : Nat} (A : (Fin n → ℝ) →L[ℝ] (Fin n → ℝ)) (b : ℝ → Fin n → ℝ) (hb : Continuous b) (v : Fin n → ℝ) :
    ∃ y : ℝ → Fin n → ℝ, y 0 = v ∧ ∀ t, HasDerivAt y (A (y t) + b t) t := by
  have hE : ∀ t : ℝ, HasDerivAt (fun u : ℝ => NormedSpace.exp (u • A)) (A * NormedSpace.exp (t • A)) t := fun t => hasDerivAt_exp_smul_const' A t
  have hcont : Continuous fun u : ℝ => NormedSpace.exp (u • A) := continuous_iff_continuousAt.2 fun t => (hE t).continuousAt
  have hf : Continuous fun s : ℝ => (NormedSpace.exp ((-s) • A)) (b s) := (hcont.comp continuous_neg).clm_apply hb
  refine ⟨fun t => NormedSpace.exp (t • A) (v + ∫ s in (0 : ℝ)..t, (NormedSpace.exp ((-s) • A)) (b s)), ?_, fun t => ?_⟩
  · simp
  · have hI := (hf.integral_hasStrictDerivAt 0 t).hasDerivAt
    have := (hE t).clm_apply (hI.const_add v)
    refine this.congr_deriv ?_
    have hinv : NormedSpace.exp (t • A) * NormedSpace.exp ((-t) • A) = 1 := by
      letI : NormedAlgebra ℚ ((Fin n → ℝ) →L[ℝ] (Fin n → ℝ)) := NormedAlgebra.restrictScalars ℚ ℝ _
      rw [← NormedSpace.exp_add_of_commute]
      · rw [← add_smul]
        simp
      · exact ((Commute.refl A).smul_left t).smul_right (-t)
    have h2 := congrArg (fun L : (Fin n → ℝ) →L[ℝ] (Fin n → ℝ) => L (b t)) hinv
    simp only [ContinuousLinearMap.mul_apply, ContinuousLinearMap.one_apply] at h2
    rw [h2]
    rfl

/-- C136: for every start and every continuous excitation there are temperatures that follow the derivative of the solver. -/
theorem follows_exists {net : Network ℝ} (h : Proper net) (refT : ℝ) (exc : ℝ → Nat → ℝ) (he : ∀ i, Continuous fun t => exc t i) (x0 : Nat → ℝ) :
    ∃ x, Follows net refT exc x ∧ ∀ i < net.length, x 0 i = x0 i := by
  let L : (Fin net.length → ℝ) →ₗ[ℝ] (Fin net.length → ℝ) :=
    { toFun := fun v i => -(1 / cOf net i * mulVec (gTriplets net) (ext v) i)
      map_add' := by
        intro v w
        funext i
        have : ext (v + w) = fun k => ext v k + ext w k := by
          funext k
          unfold ext
          split_ifs <;> simp
        simp only [Pi.add_apply, this, mulVec_add]
        ring
      map_smul' := by
        intro a v
        funext i
        have : ext (a • v) = fun k => a * ext v k := by
          funext k
          unfold ext
          split_ifs <;> simp
        simp only [Pi.smul_apply, this, mulVec_smul, smul_eq_mul, RingHom.id_apply]
        ring }
  obtain ⟨y, y0, hy⟩ := linear_solution (LinearMap.toContinuousLinearMap L)
    (fun t i => 1 / cOf net i * (hfOf net i * exc t i + htcOf net i * refT))
    (continuous_pi fun i => continuous_const.mul ((continuous_const.mul (he i)).add continuous_const)) (fun i => x0 i)
  have hd : ∀ t, ∀ i < net.length, HasDerivAt (fun s => ext (y s) i) (derivative net refT (exc t) (ext (y t)) i) t := by
    intro t i hi
    have h1 := (hasDerivAt_pi.1 (hy t)) ⟨i, hi⟩
    have e : (fun s => ext (y s) i) = fun s => y s ⟨i, hi⟩ := by
      funext s
      unfold ext
      rw [dif_pos hi]
    rw [e]
    refine h1.congr_deriv ?_
    rw [derivative_eq, if_pos (h.capacity i hi)]
    simp only [Pi.add_apply, LinearMap.coe_toContinuousLinearMap', L, LinearMap.coe_mk, AddHom.coe_mk]
    ring
  refine ⟨fun t => ext (y t), ⟨fun i hi t _ => (hd t i hi).continuousAt.continuousWithinAt, fun t _ i hi => hd t i hi⟩, fun i hi => ?_⟩
  show ext (y 0) i = x0 i
  unfold ext
  rw [dif_pos hi, y0]

/-! ## comparison of two networks -/

theorem bil_sign {net : Network ℝ} (h : Grounded net) (d : Nat → ℝ) : 0 ≤ bil (gTriplets net) (fun k => min (d k) 0) d := by
  rw [bil_g]
  have hterm : ∀ a b : ℝ, 0 ≤ (min a 0 - min b 0) * (a - b) := by
    intro a b
    rcases le_total a 0 with ha | ha <;> rcases le_total b 0 with hb | hb
    · rw [min_eq_left ha, min_eq_left hb]; exact mul_self_nonneg _
    · rw [min_eq_left ha, min_eq_right hb]; nlinarith
    · rw [min_eq_right ha, min_eq_left hb]; nlinarith
    · rw [min_eq_right ha, min_eq_right hb]; simp
  have hself : ∀ a : ℝ, 0 ≤ min a 0 * a := by
    intro a
    rcases le_total a 0 with ha | ha
    · rw [min_eq_left ha]; exact mul_self_nonneg _
    · rw [min_eq_right ha]; simp
  refine add_nonneg (List.sum_nonneg ?_) (Finset.sum_nonneg fun i _ => ?_)
  · intro z hz
    rw [List.mem_map] at hz
    obtain ⟨e, hee, rfl⟩ := hz
    rw [mul_assoc]
    exact mul_nonneg (edge_pos h hee).le (hterm _ _)
  · rw [mul_assoc]
    exact mul_nonneg (htc_nonneg h i) (hself _)

/-- temperatures `d` whose rate is at least that of cooling off, and that start above zero, stay there -/
theorem stays {net : Network ℝ} (h : Proper net) {d d' : ℝ → Nat → ℝ} (hc : ∀ i < net.length, ContinuousOn (fun t => d t i) (Set.Ici 0))
    (hd : ∀ t, 0 < t → ∀ i < net.length, HasDerivAt (fun s => d s i) (d' t i) t) (h0 : ∀ i < net.length, 0 ≤ d 0 i)
    (hr : ∀ t, 0 < t → ∀ i < net.length, -mulVec (gTriplets net) (d t) i ≤ cOf net i * d' t i) :
    ∀ t, 0 ≤ t → ∀ i < net.length, 0 ≤ d t i := by
  have hanti : AntitoneOn (fun t => ∑ i ∈ range net.length, cOf net i * min (d t i) 0 ^ 2) (Set.Ici 0) := by
    refine falls (f' := fun t => ∑ i ∈ range net.length, cOf net i * (2 * min (d t i) 0 * d' t i)) ?_ ?_ ?_
    · refine continuousOn_finset_sum _ fun i hi => ?_
      exact continuousOn_const.mul (((continuous_id.min continuous_const).comp_continuousOn (hc i (Finset.mem_range.1 hi))).pow 2)
    · intro t ht
      refine HasDerivAt.fun_sum fun i hi => ?_
      exact ((Decay.neg_sq (d t i)).comp t (hd t ht i (Finset.mem_range.1 hi))).const_mul (cOf net i)
    · intro t ht
      have h3 := bil_sign h.grounded (d t)
      rw [← bil_eq_sum net.length _ _ _ fun t ht => (mem_gTriplets h.grounded.inRange ht).1] at h3
      have : ∑ i ∈ range net.length, cOf net i * (2 * min (d t i) 0 * d' t i) ≤
          ∑ i ∈ range net.length, -2 * (min (d t i) 0 * mulVec (gTriplets net) (d t) i) := by
        refine Finset.sum_le_sum fun i hi => ?_
        have h4 := hr t ht i (Finset.mem_range.1 hi)
        have h5 : min (d t i) 0 ≤ 0 := min_le_right _ _
        nlinarith
      rw [← Finset.mul_sum] at this
      linarith
  intro t ht i hi
  have h1 := hanti (Set.mem_Ici.2 le_rfl) (Set.mem_Ici.2 ht) ht
  dsimp only at h1
  rw [Finset.sum_eq_zero (s := range net.length) (f := fun i => cOf net i * min (d 0 i) 0 ^ 2)] at h1
  · have h2 : cOf net i * min (d t i) 0 ^ 2 ≤ 0 := by
      refine le_trans ?_ h1
      exact Finset.single_le_sum (f := fun i => cOf net i * min (d t i) 0 ^ 2)
        (fun k hk => mul_nonneg (h.capacity k (Finset.mem_range.1 hk)).le (sq_nonneg _)) (Finset.mem_range.2 hi)
    have hc := h.capacity i hi
    have h3 : min (d t i) 0 ^ 2 = 0 := by
      have := sq_nonneg (min (d t i) 0)
      by_contra hne
      have hp : 0 < min (d t i) 0 ^ 2 := lt_of_le_of_ne this (Ne.symm hne)
      have := mul_pos hc hp
      linarith
    rw [sq_eq_zero_iff, min_eq_right_iff] at h3
    exact h3
  · intro k hk
    rw [min_eq_right (h0 k (Finset.mem_range.1 hk))]
    simp

theorem mulVec_sub (ts : Triplets ℝ) (x y : Nat → ℝ) (i : Nat) : mulVec ts (fun k => x k - y k) i = mulVec ts x i - mulVec ts y i := by
  unfold mulVec
  induction ts with
  | nil => simp
  | cons t ts ih =>
    simp only [List.map_cons, List.sum_cons, ih]
    split_ifs <;> ring

theorem mulVec_htc {a b : Network ℝ} (hl : a.length = b.length) (hns : a.map Node.ns = b.map Node.ns) (x : Nat → ℝ) {i : Nat} (hi : i < a.length) :
    mulVec (gTriplets b) x i = mulVec (gTriplets a) x i + (htcOf b i - htcOf a i) * x i := by
  rw [mulVec_eq_bil, mulVec_eq_bil, bil_g, bil_g, edges_same (show SameNs b a from hns.symm), ← hl]
  have : ∀ c : Network ℝ, ∑ k ∈ range a.length, htcOf c k * delta i k * x k = htcOf c i * x i := by
    intro c
    rw [Finset.sum_eq_single i]
    · simp [delta]
    · intro k _ hk
      simp [delta, hk]
    · intro hn
      exact absurd (Finset.mem_range.2 hi) hn
  rw [this, this]
  ring

/-- two networks of the same capacities and resistors, the second with no less heat: it is never colder -/
theorem power_course {a b : Network ℝ} (ha : Proper a) (hb : Proper b) (hl : a.length = b.length) (hns : a.map Node.ns = b.map Node.ns)
    (hh : ∀ i, htcOf a i = htcOf b i) (hcap : ∀ i < a.length, cOf a i = cOf b i) {refT : ℝ} {exc exc' x y : ℝ → Nat → ℝ} (hx : Follows a refT exc x)
    (hy : Follows b refT exc' y) (h0 : ∀ i < a.length, x 0 i ≤ y 0 i) (he : ∀ t, 0 < t → ∀ i < a.length, hfOf a i * exc t i ≤ hfOf b i * exc' t i) :
    ∀ t, 0 ≤ t → ∀ i < a.length, x t i ≤ y t i := by
  intro t ht i hi
  rw [← sub_nonneg]
  refine stays ha (d := fun t i => y t i - x t i) (d' := fun t i => derivative b refT (exc' t) (y t) i - derivative a refT (exc t) (x t) i) (fun i hi => (hy.cont i (hl ▸ hi)).sub (hx.cont i hi))
    (fun t ht i hi => (hy.deriv t ht i (hl ▸ hi)).sub (hx.deriv t ht i hi)) (fun i hi => sub_nonneg.2 (h0 i hi)) ?_ t ht i hi
  intro t ht i hi
  have h1 := rate ha refT (exc t) (x t) hi
  have h2 := rate hb refT (exc' t) (y t) (i := i) (hl ▸ hi)
  have h3 := mulVec_htc hl hns (y t) hi
  rw [← hcap i hi] at h2
  have h4 := he t ht i hi
  have h5 := hh i
  rw [mul_sub, h1, h2, mulVec_sub, h3, h5]
  linarith

/-- two networks of the same capacities, resistors and heat, the second cooled no less: it is never warmer, if nowhere colder than the surroundings -/
theorem cooling_course {a b : Network ℝ} (ha : Proper a) (hb : Proper b) (hl : a.length = b.length) (hns : a.map Node.ns = b.map Node.ns)
    (hh : ∀ i, htcOf a i ≤ htcOf b i) (hcap : ∀ i < a.length, cOf a i = cOf b i) (hf : ∀ i < a.length, hfOf a i = hfOf b i) {refT : ℝ}
    {exc x y : ℝ → Nat → ℝ} (hx : Follows a refT exc x) (hy : Follows b refT exc y) (h0 : ∀ i < a.length, y 0 i ≤ x 0 i)
    (hlow : ∀ t, 0 ≤ t → ∀ i < a.length, refT ≤ x t i) : ∀ t, 0 ≤ t → ∀ i < a.length, y t i ≤ x t i := by
  intro t ht i hi
  rw [← sub_nonneg]
  refine stays hb (d := fun t i => x t i - y t i) (d' := fun t i => derivative a refT (exc t) (x t) i - derivative b refT (exc t) (y t) i) (fun i hi => (hx.cont i (hl ▸ hi)).sub (hy.cont i hi))
    (fun t ht i hi => (hx.deriv t ht i (hl ▸ hi)).sub (hy.deriv t ht i hi)) (fun i hi => sub_nonneg.2 (h0 i (hl ▸ hi))) ?_ t ht i (hl ▸ hi)
  intro t ht i hi'
  have hi : i < a.length := hl ▸ hi'
  have h1 := rate ha refT (exc t) (x t) hi
  have h2 := rate hb refT (exc t) (y t) hi'
  have h3 := mulVec_htc hl hns (x t) hi
  rw [hcap i hi, hf i hi] at h1
  have h4 := hlow t ht.le i hi
  have h5 := hh i
  rw [mul_sub, h1, h2, mulVec_sub, h3]
  nlinarith

/-- from the temperature of the surroundings and with no heat taken away no node gets colder than it -/
theorem above {net : Network ℝ} (h : Proper net) {refT : ℝ} {exc x : ℝ → Nat → ℝ} (hx : Follows net refT exc x) (h0 : ∀ i < net.length, refT ≤ x 0 i)
    (he : ∀ t, 0 < t → ∀ i < net.length, 0 ≤ hfOf net i * exc t i) : ∀ t, 0 ≤ t → ∀ i < net.length, refT ≤ x t i := by
  intro t ht i hi
  rw [← sub_nonneg]
  refine stays h (d := fun t i => x t i - refT) (d' := fun t i => derivative net refT (exc t) (x t) i) (fun i hi => (hx.cont i hi).sub continuousOn_const)
    (fun t ht i hi => by simpa using (hx.deriv t ht i hi).sub_const refT) (fun i hi => sub_nonneg.2 (h0 i hi)) ?_ t ht i hi
  intro t ht i hi
  rw [rate h _ _ _ hi, mulVec_sub, const_mulVec net refT i hi]
  linarith [he t ht i hi]

/-- the heat stored in a network grows by what flows in less what is given off -/
theorem energy {net : Network ℝ} (h : Proper net) {refT : ℝ} {exc x : ℝ → Nat → ℝ} (hx : Follows net refT exc x) {t : ℝ} (ht : 0 < t) :
    HasDerivAt (fun s => ∑ i ∈ range net.length, cOf net i * (x s i - refT))
      (∑ i ∈ range net.length, hfOf net i * exc t i - ∑ i ∈ range net.length, htcOf net i * (x t i - refT)) t := by
  have h1 : HasDerivAt (fun s => ∑ i ∈ range net.length, cOf net i * (x s i - refT)) (∑ i ∈ range net.length, cOf net i * derivative net refT (exc t) (x t) i) t := by
    refine HasDerivAt.fun_sum fun i hi => ?_
    exact ((hx.deriv t ht i (Finset.mem_range.1 hi)).sub_const refT).const_mul _
  refine h1.congr_deriv ?_
  have h2 := bil_eq_sum net.length (fun _ => 1) (fun k => x t k) _ fun t ht => (mem_gTriplets h.grounded.inRange ht).1
  rw [bil_g] at h2
  simp only [sub_self, mul_zero, zero_mul, List.map_const', List.sum_replicate, smul_zero, zero_add, one_mul, mul_one] at h2
  rw [Finset.sum_congr rfl fun i hi => rate h refT (exc t) (x t) (Finset.mem_range.1 hi), Finset.sum_sub_distrib, Finset.sum_add_distrib, h2]
  simp only [mul_sub, Finset.sum_sub_distrib]
  ring

end Ecad.Course
