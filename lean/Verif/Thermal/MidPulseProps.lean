import Verif.Thermal.MidCourseProps
/-!
C150, continued: excitations with jumps, as pulses have them.
-/
namespace Ecad.Mid
open Ecad.Thermal Ecad.Response Ecad.Decay Finset

/-! ## specification -/

/-- temperatures over time that follow the derivative of the network, except for the times in `B` -/
structure FollowsOff (net : Network ℝ) (refT : ℝ) (exc : ℝ → Nat → ℝ) (B : Finset ℝ) (y : ℝ → Nat → ℝ) : Prop where
  cont : ∀ i < net.length, ContinuousOn (fun t => y t i) (Set.Ici 0)
  deriv : ∀ t, 0 < t → t ∉ B → ∀ i < net.length, HasDerivAt (fun s => y s i) (derivative net refT (exc t) (y t) i) t

/-- bounded up to time `T`, and uniformly continuous between the times in `B` -/
def Pieces (f : ℝ → ℝ) (B : Finset ℝ) (T : ℝ) : Prop :=
  (∃ M, ∀ s, 0 ≤ s → s ≤ T → |f s| ≤ M) ∧
  ∀ ε > 0, ∃ δ > 0, ∀ s s', 0 ≤ s → s ≤ s' → s' ≤ T → s' - s < δ → (∀ b ∈ B, ¬(s ≤ b ∧ b ≤ s')) → |f s' - f s| ≤ ε

/-! ## functions in pieces -/

theorem Pieces.of_cont {f : ℝ → ℝ} {T : ℝ} (B : Finset ℝ) (h : ContinuousOn f (Set.Icc 0 T)) : Pieces f B T := by
  constructor
  · obtain ⟨C, hC⟩ := isCompact_Icc.exists_bound_of_continuousOn h
    exact ⟨C, fun s s0 s1 => hC s ⟨s0, s1⟩⟩
  · intro ε hε
    have huc := isCompact_Icc.uniformContinuousOn_of_continuous h
    rw [Metric.uniformContinuousOn_iff] at huc
    obtain ⟨δ, hδ, hd⟩ := huc ε hε
    refine ⟨δ, hδ, fun s s' s0 ss s1 hlt _ => ?_⟩
    exact (hd s' ⟨s0.trans ss, s1⟩ s ⟨s0, ss.trans s1⟩ (by rw [Real.dist_eq, abs_of_nonneg (by linarith)]; exact hlt)).le

theorem Pieces.add {f g : ℝ → ℝ} {B : Finset ℝ} {T : ℝ} (hf : Pieces f B T) (hg : Pieces g B T) : Pieces (fun s => f s + g s) B T := by
  obtain ⟨⟨M, hM⟩, hf⟩ := hf
  obtain ⟨⟨N, hN⟩, hg⟩ := hg
  refine ⟨⟨M + N, fun s s0 s1 => (abs_add_le _ _).trans (add_le_add (hM s s0 s1) (hN s s0 s1))⟩, fun ε hε => ?_⟩
  obtain ⟨δ, d0, hd⟩ := hf (ε / 2) (by linarith)
  obtain ⟨δ', d0', hd'⟩ := hg (ε / 2) (by linarith)
  refine ⟨min δ δ', lt_min d0 d0', fun s s' s0 ss s1 hlt hb => ?_⟩
  have h1 := hd s s' s0 ss s1 (hlt.trans_le (min_le_left _ _)) hb
  have h2 := hd' s s' s0 ss s1 (hlt.trans_le (min_le_right _ _)) hb
  rw [show f s' + g s' - (f s + g s) = (f s' - f s) + (g s' - g s) by ring]
  exact (abs_add_le _ _).trans (by linarith)

theorem Pieces.const_mul {f : ℝ → ℝ} {B : Finset ℝ} {T : ℝ} (c : ℝ) (hf : Pieces f B T) : Pieces (fun s => c * f s) B T := by
  obtain ⟨⟨M, hM⟩, hf⟩ := hf
  refine ⟨⟨|c| * M, fun s s0 s1 => by rw [abs_mul]; exact mul_le_mul_of_nonneg_left (hM s s0 s1) (abs_nonneg _)⟩, fun ε hε => ?_⟩
  obtain ⟨δ, d0, hd⟩ := hf (ε / (|c| + 1)) (by positivity)
  refine ⟨δ, d0, fun s s' s0 ss s1 hlt hb => ?_⟩
  have h1 := hd s s' s0 ss s1 hlt hb
  rw [← mul_sub, abs_mul]
  calc |c| * |f s' - f s| ≤ (|c| + 1) * (ε / (|c| + 1)) := mul_le_mul (by linarith) h1 (abs_nonneg _) (by positivity)
    _ = ε := by field_simp

theorem rate_pieces {net : Network ℝ} (h : Grounded net) {refT : ℝ} {exc : ℝ → Nat → ℝ} {B : Finset ℝ} {y : ℝ → Nat → ℝ} (hy : FollowsOff net refT exc B y) {T : ℝ}
    (he : ∀ i < net.length, Pieces (fun t => hfOf net i * exc t i) B T) {i : Nat} (hi : i < net.length) : Pieces (fun s => rhs net refT exc s (y s) i) B T := by
  have e : (fun s => rhs net refT exc s (y s) i) = fun s => ∑ j ∈ range net.length, coef net i j * y s j +
      (if cOf net i > 0 then 1 / cOf net i else 0) * (hfOf net i * exc s i + htcOf net i * refT) := by
    funext s
    rw [rhs_eq, Pi.add_apply, lin_sum h]
    rfl
  rw [e]
  refine Pieces.add (Pieces.of_cont B ?_) (((he i hi).add (Pieces.of_cont B continuousOn_const)).const_mul _)
  exact continuousOn_finsetSum _ fun j hj => continuousOn_const.mul ((hy.cont j (Finset.mem_range.1 hj)).mono fun s hs => hs.1)

/-! ## changes -/

/-- a bound of the derivative, except for finitely many times -/
theorem change_le (f f' : ℝ → ℝ) (B : Finset ℝ) {M : ℝ} (hM : 0 ≤ M) : ∀ a b : ℝ, a ≤ b → ContinuousOn f (Set.Icc a b) →
    (∀ s, a < s → s < b → s ∉ B → HasDerivAt f (f' s) s) → (∀ s, a < s → s < b → |f' s| ≤ M) → |f b - f a| ≤ M * (b - a) := by
  induction B using Finset.induction_on with
  | empty =>
    intro a b hab hc hd hm
    rcases hab.eq_or_lt with rfl | hab
    · simp
    obtain ⟨s, hs, he⟩ := exists_hasDerivAt_eq_slope f f' hab hc (fun s hs => hd s hs.1 hs.2 (by simp))
    have hba : 0 < b - a := by linarith
    rw [eq_div_iff hba.ne'] at he
    rw [← he, abs_mul, abs_of_pos hba]
    exact mul_le_mul_of_nonneg_right (hm s hs.1 hs.2) hba.le
  | insert p B hp ih =>
    intro a b hab hc hd hm
    by_cases hin : a < p ∧ p < b
    · have h1 := ih a p hin.1.le (hc.mono fun s hs => ⟨hs.1, hs.2.trans hin.2.le⟩)
        (fun s s1 s2 hs => hd s s1 (s2.trans hin.2) (by simp [hs, s2.ne])) (fun s s1 s2 => hm s s1 (s2.trans hin.2))
      have h2 := ih p b hin.2.le (hc.mono fun s hs => ⟨hin.1.le.trans hs.1, hs.2⟩)
        (fun s s1 s2 hs => hd s (hin.1.trans s1) s2 (by simp [hs, s1.ne'])) (fun s s1 s2 => hm s (hin.1.trans s1) s2)
      rw [show f b - f a = (f b - f p) + (f p - f a) by ring]
      exact (abs_add_le _ _).trans (by linarith)
    · refine ih a b hab hc (fun s s1 s2 hs => hd s s1 s2 ?_) hm
      simp only [Finset.mem_insert, not_or]
      exact ⟨fun h => hin (h ▸ ⟨s1, s2⟩), hs⟩

/-! ## the error of a step -/

theorem step_error_off {net : Network ℝ} {L : ℝ} (hL : 0 ≤ L) (hb : ∀ w E, Within net.length w E → 0 ≤ E → Within net.length (lin net w) (L * E)) {refT : ℝ}
    {exc : ℝ → Nat → ℝ} {B : Finset ℝ} {y : ℝ → Nat → ℝ} (hy : FollowsOff net refT exc B y) {t dt M V : ℝ} (ht : 0 ≤ t) (hd : 0 < dt) (hM : 0 ≤ M)
    (hg : ∀ s, t ≤ s → s ≤ t + dt → Within net.length (rhs net refT exc s (y s)) M)
    (hV : Within net.length (y t - y (t + dt) + dt • ((1 / 4 : ℝ) • rhs net refT exc t (y t) + (1 / 2 : ℝ) • rhs net refT exc (t + dt / 2) (y (t + dt / 2)) +
      (1 / 4 : ℝ) • rhs net refT exc (t + dt) (y (t + dt)))) (dt * V)) :
    Within net.length (midStep (rhs net refT exc) t dt (y t) - y (t + dt)) (dt * (V + L * dt * M + L ^ 2 * dt ^ 2 * M / 4)) := by
  set g := fun s => rhs net refT exc s (y s) with hgd
  have hmove : ∀ a, 0 < a → a ≤ dt → Within net.length (y t - y (t + a)) (a * M) := by
    intro a ha had i hi
    have := change_le (fun s => y s i) (fun s => g s i) B hM t (t + a) (by linarith) ((hy.cont i hi).mono fun s hs => Set.mem_Ici.2 (ht.trans hs.1))
      (fun s s1 s2 hs => hy.deriv s (lt_of_le_of_lt ht s1) hs i hi) (fun s s1 s2 => hg s s1.le (by linarith) i hi)
    rw [Pi.sub_apply, abs_sub_comm]
    rw [add_sub_cancel_left, mul_comm] at this
    exact this
  have hgt : Within net.length (g t) M := hg t le_rfl (by linarith)
  set x1 := y t + (dt / 2) • g t with hx1
  have d1 : Within net.length (x1 - y (t + dt / 2)) (dt * M) := by
    have := ((hmove (dt / 2) (by linarith) (by linarith)).add (hgt.smul (show 0 ≤ dt / 2 by linarith)))
    rw [show x1 - y (t + dt / 2) = y t - y (t + dt / 2) + (dt / 2) • g t by rw [hx1]; abel]
    exact this.mono (by linarith)
  have r1 := hb _ _ d1 (by positivity)
  set w1 := rhs net refT exc (t + dt / 2) x1 with hw1
  have ew1 : w1 = g (t + dt / 2) + lin net (x1 - y (t + dt / 2)) := rhs_add refT exc _ _ _
  have bw1 : Within net.length w1 (M + L * (dt * M)) := by
    rw [ew1]
    exact (hg _ (by linarith) (by linarith)).add r1
  set x2 := y t + dt • w1 with hx2
  have d2 : Within net.length (x2 - y (t + dt)) (dt * M + dt * (M + L * (dt * M))) := by
    have := (hmove dt hd le_rfl).add (bw1.smul hd.le)
    rw [show x2 - y (t + dt) = y t - y (t + dt) + dt • w1 by rw [hx2]; abel]
    exact this
  have r2 := hb _ _ d2 (by positivity)
  have ew2 : rhs net refT exc (t + dt) x2 = g (t + dt) + lin net (x2 - y (t + dt)) := rhs_add refT exc _ _ _
  have e : midStep (rhs net refT exc) t dt (y t) - y (t + dt) =
      (y t - y (t + dt) + dt • ((1 / 4 : ℝ) • g t + (1 / 2 : ℝ) • g (t + dt / 2) + (1 / 4 : ℝ) • g (t + dt))) +
      (dt • ((1 / 2 : ℝ) • lin net (x1 - y (t + dt / 2))) + dt • ((1 / 4 : ℝ) • lin net (x2 - y (t + dt)))) := by
    rw [step_mean]
    show y t + dt • ((1 / 4 : ℝ) • g t + (1 / 2 : ℝ) • w1 + (1 / 4 : ℝ) • rhs net refT exc (t + dt) x2) - y (t + dt) = _
    rw [ew2, ew1]
    module
  rw [e]
  refine (hV.add (((r1.smul (show (0 : ℝ) ≤ 1 / 2 by norm_num)).smul hd.le).add ((r2.smul (show (0 : ℝ) ≤ 1 / 4 by norm_num)).smul hd.le))).mono (le_of_eq ?_)
  ring

/-- few steps have one of the times in them -/
theorem few {dt : ℝ} (hd : 0 < dt) (B : Finset ℝ) (k : Nat) :
    ((range k).filter fun j : Nat => ∃ b ∈ B, (j : ℝ) * dt ≤ b ∧ b ≤ (j : ℝ) * dt + dt).card ≤ 2 * B.card := by
  classical
  have hsub : ((range k).filter fun j : Nat => ∃ b ∈ B, (j : ℝ) * dt ≤ b ∧ b ≤ (j : ℝ) * dt + dt) ⊆
      B.biUnion fun b => ({⌊b / dt⌋₊, ⌊b / dt⌋₊ - 1} : Finset Nat) := by
    intro j hj
    obtain ⟨-, b, hb, h1, h2⟩ := Finset.mem_filter.1 hj
    rw [Finset.mem_biUnion]
    refine ⟨b, hb, ?_⟩
    have l1 : (j : ℝ) ≤ b / dt := (le_div_iff₀ hd).2 h1
    have l2 : b / dt ≤ (j : ℝ) + 1 := (div_le_iff₀ hd).2 (by linarith)
    have m1 : j ≤ ⌊b / dt⌋₊ := Nat.le_floor l1
    have m2 : ⌊b / dt⌋₊ ≤ j + 1 := by
      have h0 : 0 ≤ b / dt := (Nat.cast_nonneg j).trans l1
      have := (Nat.floor_le h0).trans l2
      exact_mod_cast this
    simp only [Finset.mem_insert, Finset.mem_singleton]
    omega
  refine (Finset.card_le_card hsub).trans (Finset.card_biUnion_le.trans ?_)
  calc ∑ b ∈ B, ({⌊b / dt⌋₊, ⌊b / dt⌋₊ - 1} : Finset Nat).card ≤ ∑ _b ∈ B, 2 := Finset.sum_le_sum fun b _ => Finset.card_le_two
    _ = 2 * B.card := by rw [Finset.sum_const, smul_eq_mul, mul_comm]

/-- steps without and with jumps -/
theorem mean_error {net : Network ℝ} {refT : ℝ} {exc : ℝ → Nat → ℝ} {B : Finset ℝ} {y : ℝ → Nat → ℝ} (hy : FollowsOff net refT exc B y) {t dt M : ℝ} (ht : 0 ≤ t)
    (hd : 0 < dt) (hM : 0 ≤ M) (hg : ∀ s, t ≤ s → s ≤ t + dt → Within net.length (rhs net refT exc s (y s)) M) :
    Within net.length (y t - y (t + dt) + dt • ((1 / 4 : ℝ) • rhs net refT exc t (y t) + (1 / 2 : ℝ) • rhs net refT exc (t + dt / 2) (y (t + dt / 2)) +
      (1 / 4 : ℝ) • rhs net refT exc (t + dt) (y (t + dt)))) (dt * (2 * M)) ∧
    ∀ ε, (∀ b ∈ B, ¬(t ≤ b ∧ b ≤ t + dt)) → (∀ s, t ≤ s → s ≤ t + dt → Within net.length (rhs net refT exc s (y s) - rhs net refT exc t (y t)) ε) →
      Within net.length (y t - y (t + dt) + dt • ((1 / 4 : ℝ) • rhs net refT exc t (y t) + (1 / 2 : ℝ) • rhs net refT exc (t + dt / 2) (y (t + dt / 2)) +
        (1 / 4 : ℝ) • rhs net refT exc (t + dt) (y (t + dt)))) (dt * (2 * ε)) := by
  constructor
  · have h1 : Within net.length (y t - y (t + dt)) (dt * M) := by
      intro i hi
      have := change_le (fun s => y s i) (fun s => rhs net refT exc s (y s) i) B hM t (t + dt) (by linarith)
        ((hy.cont i hi).mono fun s hs => Set.mem_Ici.2 (ht.trans hs.1))
        (fun s s1 s2 hs => hy.deriv s (lt_of_le_of_lt ht s1) hs i hi) (fun s s1 s2 => hg s s1.le s2.le i hi)
      rw [Pi.sub_apply, abs_sub_comm]
      rw [add_sub_cancel_left, mul_comm] at this
      exact this
    have q : (0 : ℝ) ≤ 1 / 4 := by norm_num
    have q' : (0 : ℝ) ≤ 1 / 2 := by norm_num
    refine (h1.add (((((hg t le_rfl (by linarith)).smul q).add ((hg (t + dt / 2) (by linarith) (by linarith)).smul q')).add
      ((hg (t + dt) (by linarith) le_rfl).smul q)).smul hd.le)).mono (le_of_eq ?_)
    ring
  · intro ε hno hε i hi
    obtain ⟨s, hs, he⟩ := exists_hasDerivAt_eq_slope (fun s => y s i) (fun s => rhs net refT exc s (y s) i) (show t < t + dt by linarith)
      ((hy.cont i hi).mono fun s hs => Set.mem_Ici.2 (ht.trans hs.1))
      (fun s hs => hy.deriv s (lt_of_le_of_lt ht hs.1) (fun hb => hno s hb ⟨hs.1.le, hs.2.le⟩) i hi)
    rw [add_sub_cancel_left, eq_div_iff hd.ne'] at he
    have a0 := hε s hs.1.le hs.2.le i hi
    have a1 := hε (t + dt / 2) (by linarith) (by linarith) i hi
    have a2 := hε (t + dt) (by linarith) (by linarith) i hi
    have hε0 := (abs_nonneg _).trans a0
    simp only [Pi.add_apply, Pi.sub_apply, Pi.smul_apply, smul_eq_mul] at a0 a1 a2 ⊢
    have e : y t i - y (t + dt) i + dt * (1 / 4 * rhs net refT exc t (y t) i + 1 / 2 * rhs net refT exc (t + dt / 2) (y (t + dt / 2)) i +
        1 / 4 * rhs net refT exc (t + dt) (y (t + dt)) i) =
        dt * (1 / 2 * (rhs net refT exc (t + dt / 2) (y (t + dt / 2)) i - rhs net refT exc t (y t) i) +
          1 / 4 * (rhs net refT exc (t + dt) (y (t + dt)) i - rhs net refT exc t (y t) i) -
          (rhs net refT exc s (y s) i - rhs net refT exc t (y t) i)) := by
      have : y (t + dt) i = y t i + rhs net refT exc s (y s) i * dt := by rw [he]; ring
      rw [this]
      ring
    rw [e, abs_mul, abs_of_pos hd]
    refine mul_le_mul_of_nonneg_left ?_ hd.le
    rw [abs_le] at a0 a1 a2 ⊢
    constructor <;> linarith [a0.1, a0.2, a1.1, a1.2, a2.1, a2.2]

/-- **C150, short steps under pulses**: under excitations that are bounded and continuous between finitely many jumps, the temperatures reached at a time after
`k` steps of equal length tend to those of the exact course from the same start as `k` grows, wherever the jumps lie. -/
theorem c150_pulses {net : Network ℝ} (h : Grounded net) {refT : ℝ} {exc : ℝ → Nat → ℝ} {B : Finset ℝ} {y : ℝ → Nat → ℝ} (hy : FollowsOff net refT exc B y) {t : ℝ}
    (ht : 0 ≤ t) (he : ∀ i < net.length, Pieces (fun s => hfOf net i * exc s i) B t) {x : Nat → ℝ} (hx : ∀ i < net.length, y 0 i = x i) :
    ∀ i < net.length, Filter.Tendsto (fun k : ℕ => after net refT exc (t / k) x k i) Filter.atTop (nhds (y t i)) := by
  intro i hi
  rcases ht.eq_or_lt with rfl | ht
  · simp only [zero_div, after_zero, hx i hi]
    exact tendsto_const_nhds
  obtain ⟨L, hL, hb⟩ := lin_bound h
  set g := fun s => rhs net refT exc s (y s) with hgd
  have hp : ∀ j < net.length, Pieces (fun s => g s j) B t := fun j hj => rate_pieces h hy he hj
  have hM : ∃ M : ℝ, 0 ≤ M ∧ ∀ s, 0 ≤ s → s ≤ t → Within net.length (g s) M := by
    have : ∀ j, ∃ M : ℝ, 0 ≤ M ∧ (j < net.length → ∀ s, 0 ≤ s → s ≤ t → |g s j| ≤ M) := by
      intro j
      by_cases hj : j < net.length
      · obtain ⟨C, hC⟩ := (hp j hj).1
        exact ⟨C, (abs_nonneg _).trans (hC 0 le_rfl ht.le), fun _ s s0 s1 => hC s s0 s1⟩
      · exact ⟨0, le_rfl, fun hj' => absurd hj' hj⟩
    choose m hm0 hm using this
    refine ⟨∑ j ∈ range net.length, m j, Finset.sum_nonneg fun j _ => hm0 j, fun s s0 s1 j hj => ?_⟩
    exact (hm j hj s s0 s1).trans (Finset.single_le_sum (fun j _ => hm0 j) (Finset.mem_range.2 hj))
  obtain ⟨M, hM0, hM⟩ := hM
  have hδ : ∀ ε > 0, ∃ δ > 0, ∀ s s', 0 ≤ s → s ≤ s' → s' ≤ t → s' - s < δ → (∀ b ∈ B, ¬(s ≤ b ∧ b ≤ s')) → Within net.length (g s' - g s) ε := by
    intro ε hε
    have : ∀ j, ∃ δ > 0, j < net.length → ∀ s s', 0 ≤ s → s ≤ s' → s' ≤ t → s' - s < δ → (∀ b ∈ B, ¬(s ≤ b ∧ b ≤ s')) → |g s' j - g s j| ≤ ε := by
      intro j
      by_cases hj : j < net.length
      · obtain ⟨δ, d0, hd⟩ := (hp j hj).2 ε hε
        exact ⟨δ, d0, fun _ => hd⟩
      · exact ⟨1, one_pos, fun hj' => absurd hj' hj⟩
    choose d hd0 hd using this
    have hfin : ∀ n : Nat, ∃ δ > 0, ∀ j < n, δ ≤ d j := by
      intro n
      induction n with
      | zero => exact ⟨1, one_pos, fun j hj => absurd hj (Nat.not_lt_zero j)⟩
      | succ n ih =>
        obtain ⟨δ, h1, h2⟩ := ih
        refine ⟨min δ (d n), lt_min h1 (hd0 n), fun j hj => ?_⟩
        rcases Nat.lt_succ_iff_lt_or_eq.1 hj with hj | rfl
        · exact (min_le_left _ _).trans (h2 j hj)
        · exact min_le_right _ _
    obtain ⟨δ, h1, h2⟩ := hfin net.length
    exact ⟨δ, h1, fun s s' s0 ss s1 hlt hno j hj => hd j hj s s' s0 ss s1 (hlt.trans_le (h2 j hj)) hno⟩
  rw [Metric.tendsto_atTop]
  intro η hη
  set ρ := η / (4 * (t * Real.exp (t * L))) with hρ
  have hρ0 : 0 < ρ := by positivity
  obtain ⟨δ, hδ0, hδ⟩ := hδ (ρ / 4) (by positivity)
  have hsmall : ∀ᶠ k : ℕ in Filter.atTop, t / k < δ ∧ L * (t / k) * M + L ^ 2 * (t / k) ^ 2 * M / 4 ≤ ρ / 2 ∧
      2 * M * (t / k) * (2 * B.card) * Real.exp (t * L) < η / 2 ∧ 0 < k := by
    have hz : Filter.Tendsto (fun k : ℕ => t / (k : ℝ)) Filter.atTop (nhds 0) := tendsto_const_div_atTop_nhds_zero_nat t
    have hz2 : Filter.Tendsto (fun k : ℕ => L * (t / k) * M + L ^ 2 * (t / k) ^ 2 * M / 4) Filter.atTop (nhds (L * 0 * M + L ^ 2 * 0 ^ 2 * M / 4)) :=
      ((hz.const_mul L).mul_const M).add (((((hz.pow 2).const_mul (L ^ 2)).mul_const M)).div_const 4)
    rw [show L * 0 * M + L ^ 2 * 0 ^ 2 * M / 4 = 0 by ring] at hz2
    have hz3 : Filter.Tendsto (fun k : ℕ => 2 * M * (t / k) * (2 * B.card) * Real.exp (t * L)) Filter.atTop
        (nhds (2 * M * 0 * (2 * B.card) * Real.exp (t * L))) := ((hz.const_mul (2 * M)).mul_const _).mul_const _
    rw [show 2 * M * 0 * (2 * B.card) * Real.exp (t * L) = 0 by ring] at hz3
    exact (hz.eventually_lt_const hδ0).and ((hz2.eventually_le_const (by positivity)).and
      ((hz3.eventually_lt_const (by positivity)).and (Filter.eventually_gt_atTop 0)))
  obtain ⟨N, hN⟩ := Filter.eventually_atTop.1 hsmall
  refine ⟨N, fun k hk => ?_⟩
  obtain ⟨k1, k2, k4, k3⟩ := hN k hk
  set dt := t / (k : ℝ) with hdt
  have hk0 : (0 : ℝ) < k := by exact_mod_cast k3
  have hd : 0 < dt := div_pos ht hk0
  have hkt : k * dt = t := by rw [hdt]; field_simp
  let S : Nat → Nat := fun k => ((range k).filter fun j : Nat => ∃ b ∈ B, (j : ℝ) * dt ≤ b ∧ b ≤ (j : ℝ) * dt + dt).card
  have hS : ∀ j, S (j + 1) = S j + if ∃ b ∈ B, (j : ℝ) * dt ≤ b ∧ b ≤ (j : ℝ) * dt + dt then 1 else 0 := by
    intro j
    show (Finset.filter _ (range (j + 1))).card = _
    rw [Finset.range_add_one, Finset.filter_insert]
    split_ifs
    · rw [Finset.card_insert_of_notMem (by simp)]
    · rfl
  have hall : ∀ j : Nat, j ≤ k → Within net.length (after net refT exc dt x j - y (j * dt)) ((ρ * (j * dt) + 2 * M * dt * S j) * Real.exp (j * dt * L)) := by
    intro j
    induction j with
    | zero =>
      intro _ i hi
      simp [after, march, hx i hi, S]
    | succ j ih =>
      intro hj
      have hj' : ((j : ℝ) + 1) * dt ≤ t := by
        rw [← hkt]
        exact mul_le_mul_of_nonneg_right (by exact_mod_cast hj) hd.le
      have hjd : 0 ≤ (j : ℝ) * dt := by positivity
      have h1 := prop_bound hL hb hd.le (ih (by omega)) (by positivity)
      have hgs : ∀ s, (j : ℝ) * dt ≤ s → s ≤ j * dt + dt → Within net.length (rhs net refT exc s (y s)) M := fun s s1 s2 => hM s (hjd.trans s1) (by linarith)
      obtain ⟨m1, m2⟩ := mean_error hy hjd hd hM0 hgs
      have h2 : Within net.length (midStep (rhs net refT exc) (j * dt) dt (y (j * dt)) - y (j * dt + dt))
          (dt * (ρ + 2 * M * if ∃ b ∈ B, (j : ℝ) * dt ≤ b ∧ b ≤ (j : ℝ) * dt + dt then 1 else 0)) := by
        by_cases hst : ∃ b ∈ B, (j : ℝ) * dt ≤ b ∧ b ≤ (j : ℝ) * dt + dt
        · refine (step_error_off hL hb hy hjd hd hM0 hgs m1).mono ?_
          rw [if_pos hst]
          exact mul_le_mul_of_nonneg_left (by linarith) hd.le
        · have hno : ∀ b ∈ B, ¬((j : ℝ) * dt ≤ b ∧ b ≤ j * dt + dt) := fun b hb' hc => hst ⟨b, hb', hc⟩
          refine (step_error_off hL hb hy hjd hd hM0 hgs (m2 (ρ / 4) hno fun s s1 s2 =>
            hδ (j * dt) s hjd s1 (by linarith) (by linarith) fun b hb' hc => hno b hb' ⟨hc.1, hc.2.trans s2⟩)).mono ?_
          rw [if_neg hst]
          exact mul_le_mul_of_nonneg_left (by linarith) hd.le
      have e : after net refT exc dt x (j + 1) - y ((j + 1 : Nat) * dt) = prop net dt (after net refT exc dt x j - y (j * dt)) +
          (midStep (rhs net refT exc) (j * dt) dt (y (j * dt)) - y (j * dt + dt)) := by
        rw [after_succ, zero_add, ← step_sub net refT exc (j * dt) dt, show ((j + 1 : Nat) : ℝ) * dt = j * dt + dt by push_cast; ring]
        abel
      rw [e]
      refine (h1.add h2).mono ?_
      have hE : Real.exp (((j + 1 : Nat) : ℝ) * dt * L) = Real.exp (dt * L) * Real.exp (j * dt * L) := by
        rw [← Real.exp_add]
        congr 1
        push_cast
        ring
      have hE1 : 1 ≤ Real.exp (dt * L) * Real.exp (j * dt * L) := by
        rw [← Real.exp_add]
        exact Real.one_le_exp (by positivity)
      rw [hE, hS]
      have hc : (0 : ℝ) ≤ if ∃ b ∈ B, (j : ℝ) * dt ≤ b ∧ b ≤ (j : ℝ) * dt + dt then 1 else 0 := by split_ifs <;> norm_num
      push_cast
      generalize (if ∃ b ∈ B, (j : ℝ) * dt ≤ b ∧ b ≤ (j : ℝ) * dt + dt then (1 : ℝ) else 0) = c at hc ⊢
      have h4 : dt * (ρ + 2 * M * c) ≤ dt * (ρ + 2 * M * c) * (Real.exp (dt * L) * Real.exp (j * dt * L)) := le_mul_of_one_le_right (by positivity) hE1
      nlinarith [h4]
  have := hall k le_rfl i hi
  rw [hkt] at this
  rw [Real.dist_eq]
  refine lt_of_le_of_lt this ?_
  have e1 : ρ * t * Real.exp (t * L) = η / 4 := by
    rw [hρ]
    field_simp
  have hSk : (S k : ℝ) ≤ 2 * B.card := by exact_mod_cast few hd B k
  have e2 : 2 * M * dt * S k * Real.exp (t * L) ≤ 2 * M * dt * (2 * B.card) * Real.exp (t * L) :=
    mul_le_mul_of_nonneg_right (mul_le_mul_of_nonneg_left hSk (by positivity)) (Real.exp_pos _).le
  rw [add_mul, e1]
  linarith

/-! ## example: one node, heated for a second -/

noncomputable def pulse : ℝ → Nat → ℝ := fun t _ => if t < 1 then 1 else 0

noncomputable def exCourse : ℝ → Nat → ℝ := fun t _ => if t ≤ 1 then 26 - Real.exp (-t) else 25 + (Real.exp 1 - 1) * Real.exp (-t)

noncomputable def exOne : Network ℝ := [⟨0, none, 1, 1, 1, []⟩]

theorem ex_proper : Proper exOne := by
  have hg : Grounded exOne := by
    refine ⟨?_, ?_, ?_, ?_⟩
    · intro i n hn e he
      match i, hn with
      | 0, hn => injection hn with hn; subst hn; simp at he
    · intro n hn e he
      simp [exOne] at hn
      subst hn
      simp at he
    · intro n hn
      simp [exOne] at hn
      subst hn
      simp
    · intro i hi
      simp [exOne] at hi
      subst hi
      exact ⟨0, .refl, by simp [htcOf, exOne]⟩
  refine ⟨hg, fun i hi => ?_⟩
  simp [exOne] at hi
  subst hi
  simp [cOf, exOne]

/-- the hypotheses of `c150_pulses` -/
example : FollowsOff exOne 25 pulse {1} exCourse ∧ ∀ i < exOne.length, Pieces (fun s => hfOf exOne i * pulse s i) {1} 2 := by
  have hf : ∀ i < exOne.length, hfOf exOne i = 1 := by
    intro i hi
    simp [exOne] at hi
    subst hi
    simp [hfOf, exOne]
  refine ⟨⟨fun i _ => Continuous.continuousOn ?_, fun t _ ht i hi => ?_⟩, fun i hi => ⟨⟨1, fun s _ _ => ?_⟩, fun ε hε => ⟨1, one_pos, fun s s' _ ss _ _ hno => ?_⟩⟩⟩
  · refine Continuous.if_le ?_ ?_ continuous_id continuous_const ?_
    · exact continuous_const.sub (Real.continuous_exp.comp continuous_neg)
    · exact continuous_const.add (continuous_const.mul (Real.continuous_exp.comp continuous_neg))
    · intro t ht
      have ht : t = 1 := ht
      subst ht
      have : Real.exp 1 * Real.exp (-1) = 1 := by
        rw [← Real.exp_add]
        simp
      linarith
  · have hne : t ≠ 1 := by simpa using ht
    have h1 := rate ex_proper 25 (pulse t) (exCourse t) hi
    have hc : exCourse t = fun _ => exCourse t 0 := rfl
    rw [hc, const_mulVec _ _ _ hi] at h1
    simp [exOne] at hi
    subst hi
    simp only [cOf, hfOf, htcOf, exOne, List.getElem?_cons_zero, one_mul] at h1
    rw [hc]
    show HasDerivAt (fun s => exCourse s 0) (derivative [⟨0, none, 1, 1, 1, []⟩] 25 (pulse t) (fun _ => exCourse t 0) 0) t
    rw [h1]
    rcases lt_or_gt_of_ne hne with h | h
    · have e : pulse t 0 + 25 - exCourse t 0 = -(Real.exp (-t) * -1) := by
        simp only [pulse, exCourse, if_pos h, if_pos h.le]
        ring
      rw [e]
      refine (((hasDerivAt_neg t).exp).const_sub 26).congr_of_eventuallyEq ?_
      filter_upwards [Iio_mem_nhds h] with s hs
      simp only [exCourse, if_pos (le_of_lt (Set.mem_Iio.1 hs))]
    · have e : pulse t 0 + 25 - exCourse t 0 = (Real.exp 1 - 1) * (Real.exp (-t) * -1) := by
        simp only [pulse, exCourse, if_neg (not_lt.2 h.le), if_neg (not_le.2 h)]
        ring
      rw [e]
      refine ((((hasDerivAt_neg t).exp).const_mul (Real.exp 1 - 1)).const_add 25).congr_of_eventuallyEq ?_
      filter_upwards [Ioi_mem_nhds h] with s hs
      simp only [exCourse, if_neg (not_le.2 (Set.mem_Ioi.1 hs))]
  · rw [hf i hi]
    simp only [pulse]
    split_ifs <;> simp
  · rw [hf i hi]
    have h1 := hno 1 (by simp)
    have : pulse s' i = pulse s i := by
      simp only [pulse]
      by_cases hs : s < 1
      · have : s' < 1 := by
          by_contra h
          exact h1 ⟨hs.le, not_lt.1 h⟩
        rw [if_pos hs, if_pos this]
      · rw [if_neg hs, if_neg (by linarith [not_lt.1 hs])]
    beta_reduce
    rw [this]
    simpa using hε.le

end Ecad.Mid
