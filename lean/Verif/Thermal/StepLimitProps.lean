import Verif.Thermal.StepHeatProps
/-!
C147, continued: where heating up leads to.
-/
namespace Ecad.Step
open Ecad.Thermal Ecad.Response Ecad.Decay Ecad.Course Finset

section
variable {build : List ℝ → Res (Option (Network ℝ))} {net : Network ℝ} {P : List ℝ → Nat → ℝ} {refT step : ℝ} {x : ℝ → Nat → ℝ}

theorem steady_above (h : Powered build net P) (hP : Grows net.length P) {S : Nat → ℝ} (hS : Steady build net.length refT S) : ∀ i < net.length, refT ≤ S i := by
  obtain ⟨a, h1, h2⟩ := hS
  obtain ⟨g1, g2, g3, g4⟩ := powered_net h (vec_length _ _) h1
  have hn := g1.length
  intro i hi
  refine lower_bound g2.grounded h2 (fun m hm => ?_) i (by omega)
  obtain ⟨j, hj⟩ := List.getElem?_of_mem hm
  have hlt := (List.getElem?_eq_some_iff.1 hj).1
  have e : hfOf a j = m.hf := by unfold hfOf; rw [hj]
  rw [← e, g4 j (by omega)]
  exact (hP S S (fun _ _ => le_rfl) j (by omega)).1

/-- values of a course at times that grow without bound tend to its limit -/
theorem tends_at {f : ℝ → ℝ} {l : ℝ} (hf : Filter.Tendsto f Filter.atTop (nhds l)) (hs : 0 < step) {τ : Nat → ℝ} (hτ : ∀ k : Nat, k * step ≤ τ k) :
    Filter.Tendsto (fun k => f (τ k)) Filter.atTop (nhds l) := by
  refine hf.comp (Filter.tendsto_atTop_mono hτ ?_)
  exact (tendsto_natCast_atTop_atTop (R := ℝ)).atTop_mul_const hs

theorem mulVec_tends {a : Network ℝ} (hg : Grounded a) {u : Nat → Nat → ℝ} {L : Nat → ℝ}
    (hu : ∀ j < a.length, Filter.Tendsto (fun k => u k j) Filter.atTop (nhds (L j))) (i : Nat) :
    Filter.Tendsto (fun k => mulVec (gTriplets a) (u k) i) Filter.atTop (nhds (mulVec (gTriplets a) L i)) := by
  have e : ∀ z : Nat → ℝ, mulVec (gTriplets a) z i = ∑ j ∈ range a.length, entry (gTriplets a) i j * z j :=
    fun z => mulVec_eq_entries a.length z i _ (fun t ht => (mem_gTriplets hg.inRange ht).2)
  simp only [e]
  exact tendsto_finset_sum _ fun j hj => (hu j (Finset.mem_range.1 hj)).const_mul _

/-- temperatures that tend to a limit tend to steady temperatures -/
theorem limit_steady (h : Powered build net P) (hs : 0 < step) (hc : Smooth net.length P) {T0 : Nat → ℝ}
    (hx : Stepped build net.length refT step (fun _ _ => 1) T0 x) {L : Nat → ℝ}
    (hL : ∀ i < net.length, Filter.Tendsto (fun t => x t i) Filter.atTop (nhds (L i))) : Steady build net.length refT L := by
  obtain ⟨b, b1, b2, b3, b4⟩ := h.built (vec net.length L) (vec_length _ _)
  refine ⟨b, b1, ?_⟩
  rw [solves_iff]
  intro i hi
  have hi' : i < net.length := by rw [b2.length]; exact hi
  rw [same_mulVec b2 _ hi', b4 i hi', ← b2.htc i]
  -- a time in each step at which the rate is the mean rate
  have hmean : ∀ k : Nat, ∃ τ : ℝ, k * step ≤ τ ∧ P (vec net.length (x (k * step))) i + htcOf net i * refT - mulVec (gTriplets net) (x τ) i =
      cOf net i * ((x (((k + 1 : Nat) : ℝ) * step) i - x (k * step) i) / step) := by
    intro k
    obtain ⟨a, c, a1, a2, a3, a4, a5, a6, a7⟩ := powered_step h hx k
    have hn := a2.length
    obtain ⟨s, hs1, hs2⟩ := exists_hasDerivAt_eq_slope (fun s => c s i) (fun s => derivative a refT (fun _ => 1) (c s) i) hs
      ((a6.cont i (by omega)).mono fun s hs => hs.1) (fun s hs => a6.deriv s hs.1 i (by omega))
    refine ⟨k * step + s, by linarith [hs1.1], ?_⟩
    have h1 := rate a3 refT (fun _ => 1) (c s) (i := i) (by omega)
    rw [a5 i hi', ← a2.htc i, same_mulVec a2 _ hi', mul_one, a4 i hi', hs2] at h1
    have e0 := a7 0 le_rfl hs.le i hi'
    have e1 := a7 step hs.le le_rfl i hi'
    rw [add_zero] at e0
    rw [next_step, e0, e1, mulVec_on h.proper.grounded (fun l hl => a7 s hs1.1.le hs1.2.le l hl) i, ← h1, sub_zero]
  choose τ hτ1 hτ2 using hmean
  have t1 : Filter.Tendsto (fun k : Nat => P (vec net.length (x (k * step))) i + htcOf net i * refT - mulVec (gTriplets net) (x (τ k)) i) Filter.atTop
      (nhds (P (vec net.length L) i + htcOf net i * refT - mulVec (gTriplets net) L i)) := by
    refine ((hc (fun k => x (k * step)) L (fun j hj => tends_at (hL j hj) hs fun k => le_rfl) i hi').add_const _).sub ?_
    exact mulVec_tends h.proper.grounded (fun j hj => tends_at (hL j hj) hs hτ1) i
  have t2 : Filter.Tendsto (fun k : Nat => cOf net i * ((x (((k + 1 : Nat) : ℝ) * step) i - x (k * step) i) / step)) Filter.atTop
      (nhds (cOf net i * ((L i - L i) / step))) := by
    refine (((tends_at (hL i hi') hs fun k => ?_).sub (tends_at (hL i hi') hs fun k => le_rfl)).div_const step).const_mul _
    rw [next_step]
    linarith
  simp only [hτ2] at t1
  have := tendsto_nhds_unique t1 t2
  rw [sub_self, zero_div, mul_zero] at this
  linarith

/-- C147, limit: with heat flows that grow with temperature and depend continuously on it, heating up from the temperature of the surroundings
either stays bounded, and then tends to temperatures that are steady in their own network and nowhere above any other such temperatures. -/
theorem c147_limit (h : Powered build net P) (hs : 0 < step) (hP : Grows net.length P) (hc : Smooth net.length P)
    (hx : Stepped build net.length refT step (fun _ _ => 1) (fun _ => refT) x) (hM : ∃ M, ∀ t, 0 ≤ t → ∀ i < net.length, x t i ≤ M) :
    ∃ L, (∀ i < net.length, Filter.Tendsto (fun t => x t i) Filter.atTop (nhds (L i))) ∧ Steady build net.length refT L ∧
      ∀ S, Steady build net.length refT S → ∀ i < net.length, L i ≤ S i := by
  obtain ⟨M, hM⟩ := hM
  have hmono := c147_heating h hs hP hx
  have hlim : ∀ i < net.length, Filter.Tendsto (fun t => x t i) Filter.atTop (nhds (⨆ t, x (max t 0) i)) := by
    intro i hi
    have hm : Monotone fun t => x (max t 0) i := fun t t' htt => hmono _ _ (le_max_right _ _) (max_le_max_right 0 htt) i hi
    have hb : BddAbove (Set.range fun t => x (max t 0) i) := by
      refine ⟨M, ?_⟩
      rintro _ ⟨t, rfl⟩
      exact hM _ (le_max_right _ _) i hi
    refine (tendsto_atTop_ciSup hm hb).congr' ?_
    filter_upwards [Filter.eventually_ge_atTop (0 : ℝ)] with t ht
    show x (max t 0) i = _
    rw [max_eq_left ht]
  refine ⟨fun i => ⨆ t, x (max t 0) i, hlim, limit_steady h hs hc hx hlim, fun S hS i hi => ?_⟩
  refine le_of_tendsto (hlim i hi) ?_
  filter_upwards [Filter.eventually_ge_atTop (0 : ℝ)] with t ht
  exact c147_bound h hs hP (fun _ _ _ _ => ⟨zero_le_one, le_rfl⟩) hS (steady_above h hP hS) hx t ht i hi

/-- C147, runaway: heating up stays bounded exactly if there are temperatures that are steady in their own network. -/
theorem c147_runaway (h : Powered build net P) (hs : 0 < step) (hP : Grows net.length P) (hc : Smooth net.length P)
    (hx : Stepped build net.length refT step (fun _ _ => 1) (fun _ => refT) x) :
    (∃ M, ∀ t, 0 ≤ t → ∀ i < net.length, x t i ≤ M) ↔ ∃ S, Steady build net.length refT S := by
  constructor
  · intro hM
    obtain ⟨L, -, hL, -⟩ := c147_limit h hs hP hc hx hM
    exact ⟨L, hL⟩
  · rintro ⟨S, hS⟩
    refine ⟨∑ i ∈ range net.length, |S i|, fun t ht i hi => ?_⟩
    refine (c147_bound h hs hP (fun _ _ _ _ => ⟨zero_le_one, le_rfl⟩) hS (steady_above h hP hS) hx t ht i hi).trans ?_
    exact (le_abs_self _).trans (Finset.single_le_sum (f := fun i => |S i|) (fun _ _ => abs_nonneg _) (Finset.mem_range.2 hi))

end

end Ecad.Step
