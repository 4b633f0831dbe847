import Verif.Thermal.StepCourseProps
/-!
C147, continued: models of fixed resistances and capacities whose heat flows grow with temperature. Stronger sources give hotter courses; heating up
from the surroundings never falls, tends to the least steady temperatures if there are any, and grows beyond all bounds otherwise.
-/
namespace Ecad.Step
open Ecad.Thermal Ecad.Response Ecad.Decay Ecad.Course Finset

section
variable {build build' : List ℝ → Res (Option (Network ℝ))} {net : Network ℝ} {P P' : List ℝ → Nat → ℝ} {refT step : ℝ} {exc exc' : ℝ → Nat → ℝ}
  {T0 T0' : Nat → ℝ} {x y : ℝ → Nat → ℝ}

theorem powered_net (h : Powered build net P) {T : List ℝ} (hT : T.length = net.length) {net' : Network ℝ} (hb : build T = .ok (some net')) :
    Same net net' ∧ Proper net' ∧ (∀ i < net.length, cOf net' i = cOf net i) ∧ ∀ i < net.length, hfOf net' i = P T i := by
  obtain ⟨a, h1, h2, h3, h4⟩ := h.built T hT
  rw [hb] at h1
  injection h1 with h1
  injection h1 with h1
  subst h1
  refine ⟨h2, ⟨grounded_same h2 h.proper.grounded, fun i hi => ?_⟩, h3, h4⟩
  rw [← h2.length] at hi
  rw [h3 i hi]
  exact h.proper.capacity i hi

theorem powered_builds (h : Powered build net P) : Builds build net.length := by
  intro T hT
  obtain ⟨a, h1, h2, h3, h4⟩ := h.built T hT
  exact ⟨a, h1, h2.length.symm, (powered_net h hT h1).2.1⟩

theorem powered_step (h : Powered build net P) (hx : Stepped build net.length refT step exc T0 x) (k : Nat) : ∃ net' c,
    build (vec net.length (x (k * step))) = .ok (some net') ∧ Same net net' ∧ Proper net' ∧ (∀ i < net.length, cOf net' i = cOf net i) ∧
    (∀ i < net.length, hfOf net' i = P (vec net.length (x (k * step))) i) ∧ Follows net' refT (fun t => exc (k * step + t)) c ∧
    ∀ t, 0 ≤ t → t ≤ step → ∀ i < net.length, x (k * step + t) i = c t i := by
  obtain ⟨net', c, h1, h2, h3⟩ := hx.each k
  obtain ⟨g1, g2, g3, g4⟩ := powered_net h (vec_length _ _) h1
  exact ⟨net', c, h1, g1, g2, g3, g4, h2, h3⟩

theorem same_map {a b : Network ℝ} (h : Same a b) : a.map Node.ns = b.map Node.ns := sameNs_of h.length h.ns

theorem same_mulVec {a b : Network ℝ} (h : Same a b) (z : Nat → ℝ) {i : Nat} (hi : i < a.length) : mulVec (gTriplets b) z i = mulVec (gTriplets a) z i := by
  rw [mulVec_htc h.length (same_map h) z hi, h.htc i, sub_self, zero_mul, add_zero]

/-- C147, comparison: with heat flows that are not smaller at temperatures that are not lower, excitations that are not smaller and a start that is
nowhere colder, no node is ever colder. -/
theorem c147_power (h : Powered build net P) (h' : Powered build' net P') (hs : 0 < step)
    (hP : ∀ T T' : Nat → ℝ, (∀ i < net.length, T i ≤ T' i) → ∀ i < net.length, P (vec net.length T) i ≤ P' (vec net.length T') i ∧ 0 ≤ P' (vec net.length T') i)
    (he : ∀ t, 0 ≤ t → ∀ i < net.length, 0 ≤ exc t i ∧ exc t i ≤ exc' t i) (h0 : ∀ i < net.length, T0 i ≤ T0' i)
    (hx : Stepped build net.length refT step exc T0 x) (hy : Stepped build' net.length refT step exc' T0' y) :
    ∀ t, 0 ≤ t → ∀ i < net.length, x t i ≤ y t i := by
  have hone : ∀ k : Nat, (∀ i < net.length, x (k * step) i ≤ y (k * step) i) → ∀ t, 0 ≤ t → t ≤ step → ∀ i < net.length,
      x (k * step + t) i ≤ y (k * step + t) i := by
    intro k hk t t0 t1 i hi
    obtain ⟨a, c, a1, a2, a3, a4, a5, a6, a7⟩ := powered_step h hx k
    obtain ⟨b, d, b1, b2, b3, b4, b5, b6, b7⟩ := powered_step h' hy k
    rw [a7 t t0 t1 i hi, b7 t t0 t1 i hi]
    have hl : a.length = b.length := a2.length.symm.trans b2.length
    have hn := a2.length
    refine power_course a3 b3 hl ((same_map a2).symm.trans (same_map b2)) (fun j => (a2.htc j).symm.trans (b2.htc j)) (fun j hj => ?_) a6 b6
      (fun j hj => ?_) (fun u hu j hj => ?_) t t0 i (by omega)
    · rw [a4 j (by omega), b4 j (by omega)]
    · have e1 := a7 0 le_rfl hs.le j (by omega)
      have e2 := b7 0 le_rfl hs.le j (by omega)
      rw [add_zero] at e1 e2
      rw [← e1, ← e2]
      exact hk j (by omega)
    · rw [a5 j (by omega), b5 j (by omega)]
      obtain ⟨p1, p2⟩ := hP _ _ hk j (by omega)
      obtain ⟨e1, e2⟩ := he (k * step + u) (add_nonneg (mul_nonneg (Nat.cast_nonneg k) hs.le) hu.le) j (by omega)
      exact mul_le_mul p1 e2 e1 p2
  have hk : ∀ (k : Nat), ∀ i < net.length, x (k * step) i ≤ y (k * step) i := by
    intro k
    induction k with
    | zero =>
      intro i hi
      rw [Nat.cast_zero, zero_mul, hx.start i hi, hy.start i hi]
      exact h0 i hi
    | succ k ih =>
      intro i hi
      rw [next_step]
      exact hone k ih step hs.le le_rfl i hi
  intro t ht i hi
  obtain ⟨k, r, r0, r1, rfl⟩ := in_step hs ht
  exact hone k (hk k) r r0 r1.le i hi

/-- C147, bound: with heat flows that grow with temperature and excitations between none and full, no node that starts nowhere above steady
temperatures ever gets above them. -/
theorem c147_bound (h : Powered build net P) (hs : 0 < step) (hP : Grows net.length P) (he : ∀ t, 0 ≤ t → ∀ i < net.length, 0 ≤ exc t i ∧ exc t i ≤ 1)
    {S : Nat → ℝ} (hS : Steady build net.length refT S) (h0 : ∀ i < net.length, T0 i ≤ S i) (hx : Stepped build net.length refT step exc T0 x) :
    ∀ t, 0 ≤ t → ∀ i < net.length, x t i ≤ S i := by
  have hy := (c147_standstill (refT := refT) (powered_builds h) hs S).2 hS
  refine c147_power h h hs (fun T T' hT i hi => ⟨(hP T T' hT i hi).2, (hP T' T' (fun _ _ => le_rfl) i hi).1⟩) he h0 hx hy

/-- a network in which no node cools at the start does not cool later -/
theorem climbs {a : Network ℝ} (ha : Proper a) {z : ℝ → Nat → ℝ} (hz : Follows a refT (fun _ _ => 1) z)
    (hr : ∀ i < a.length, mulVec (gTriplets a) (z 0) i ≤ hfOf a i + htcOf a i * refT) :
    ∀ t t', 0 ≤ t → t ≤ t' → ∀ i < a.length, z t i ≤ z t' i := by
  have hup : ∀ t, 0 ≤ t → ∀ i < a.length, z 0 i ≤ z t i := by
    intro t ht i hi
    rw [← sub_nonneg]
    refine stays ha (d := fun t i => z t i - z 0 i) (d' := fun t i => derivative a refT (fun _ => 1) (z t) i)
      (fun i hi => (hz.cont i hi).sub continuousOn_const) (fun t ht i hi => by simpa using (hz.deriv t ht i hi).sub_const (z 0 i))
      (fun i hi => by simp) ?_ t ht i hi
    intro t ht i hi
    rw [rate ha _ _ _ hi, mulVec_sub]
    linarith [hr i hi]
  intro t t' ht htt i hi
  have hshift : Follows a refT (fun _ _ => 1) fun u => z (u + (t' - t)) := by
    refine ⟨fun i hi => ?_, fun u hu i hi => ?_⟩
    · refine (hz.cont i hi).comp (continuous_id.add continuous_const).continuousOn fun u hu => ?_
      rw [Set.mem_Ici] at hu
      show 0 ≤ u + (t' - t)
      linarith
    · exact (hz.deriv (u + (t' - t)) (by linarith) i hi).comp_add_const u (t' - t)
  have := c127_comparison ha hz hshift (fun i hi => hup (0 + (t' - t)) (by linarith) i hi) (fun _ _ _ _ => le_rfl) t ht i hi
  rwa [show t + (t' - t) = t' by ring] at this

/-- C147, heating up: with heat flows that grow with temperature, from the temperature of the surroundings and under full excitation no
temperature ever falls. -/
theorem c147_heating (h : Powered build net P) (hs : 0 < step) (hP : Grows net.length P)
    (hx : Stepped build net.length refT step (fun _ _ => 1) (fun _ => refT) x) : ∀ t t', 0 ≤ t → t ≤ t' → ∀ i < net.length, x t i ≤ x t' i := by
  have hstep : ∀ k : Nat, (∀ i < net.length, mulVec (gTriplets net) (x (k * step)) i ≤ P (vec net.length (x (k * step))) i + htcOf net i * refT) →
      ∀ t t', 0 ≤ t → t ≤ t' → t' ≤ step → ∀ i < net.length, x (k * step + t) i ≤ x (k * step + t') i := by
    intro k hk t t' t0 tt t1 i hi
    obtain ⟨a, c, a1, a2, a3, a4, a5, a6, a7⟩ := powered_step h hx k
    rw [a7 t t0 (by linarith) i hi, a7 t' (by linarith) t1 i hi]
    have hn := a2.length
    refine climbs a3 a6 (fun j hj => ?_) t t' t0 tt i (by omega)
    rw [a5 j (by omega), ← a2.htc j, same_mulVec a2 _ (by omega)]
    refine le_trans (le_of_eq ?_) (hk j (by omega))
    refine mulVec_on h.proper.grounded (fun l hl => ?_) j
    have := a7 0 le_rfl hs.le l hl
    rw [add_zero] at this
    exact this.symm
  have hres : ∀ (k : Nat), ∀ i < net.length, mulVec (gTriplets net) (x (k * step)) i ≤ P (vec net.length (x (k * step))) i + htcOf net i * refT := by
    intro k
    induction k with
    | zero =>
      intro i hi
      have e : mulVec (gTriplets net) (x ((0 : Nat) * step)) i = htcOf net i * refT := by
        rw [← const_mulVec net refT i hi]
        refine mulVec_on h.proper.grounded (fun l hl => ?_) i
        rw [Nat.cast_zero, zero_mul]
        exact hx.start l hl
      rw [e]
      linarith [(hP _ _ (fun j _ => le_rfl (a := x ((0 : Nat) * step) j)) i hi).1]
    | succ k ih =>
      intro i hi
      obtain ⟨a, c, a1, a2, a3, a4, a5, a6, a7⟩ := powered_step h hx k
      have hn := a2.length
      have hmono := hstep k ih
      -- the rate at the end of the step
      have hrate : 0 ≤ derivative a refT (fun _ => 1) (c step) i := by
        have hd := a6.deriv step hs i (by omega)
        have hup : ∀ t t', 0 ≤ t → t ≤ t' → ∀ j < a.length, c t j ≤ c t' j := by
          refine climbs a3 a6 (fun j hj => ?_)
          rw [a5 j (by omega), ← a2.htc j, same_mulVec a2 _ (by omega)]
          refine le_trans (le_of_eq ?_) (ih j (by omega))
          refine mulVec_on h.proper.grounded (fun l hl => ?_) j
          have := a7 0 le_rfl hs.le l hl
          rw [add_zero] at this
          exact this.symm
        have hm : MonotoneOn (fun s => c s i) (Set.Ici 0) := fun t ht t' _ htt => hup t t' ht htt i (by omega)
        rw [← hd.deriv, ← derivWithin_of_mem_nhds (Ici_mem_nhds hs)]
        exact hm.derivWithin_nonneg
      have h1 := rate a3 refT (fun _ => 1) (c step) (i := i) (by omega)
      have h2 := mul_nonneg (a3.capacity i (by omega)).le hrate
      rw [h1, a5 i hi, ← a2.htc i, same_mulVec a2 _ hi, mul_one] at h2
      have e : mulVec (gTriplets net) (x (((k + 1 : Nat) : ℝ) * step)) i = mulVec (gTriplets net) (c step) i := by
        refine mulVec_on h.proper.grounded (fun l hl => ?_) i
        rw [next_step]
        exact a7 step hs.le le_rfl l hl
      rw [e]
      have hle : ∀ j < net.length, x (k * step) j ≤ x (((k + 1 : Nat) : ℝ) * step) j := by
        intro j hj
        rw [next_step]
        have := hmono 0 step le_rfl hs.le le_rfl j hj
        rwa [add_zero] at this
      linarith [(hP _ _ hle i hi).2]
  have hk : ∀ (k k' : Nat), k ≤ k' → ∀ i < net.length, x (k * step) i ≤ x (k' * step) i := by
    intro k k' hkk i hi
    induction k', hkk using Nat.le_induction with
    | base => exact le_rfl
    | succ m _ ih =>
      refine ih.trans ?_
      rw [next_step]
      have := hstep m (hres m) 0 step le_rfl hs.le le_rfl i hi
      rwa [add_zero] at this
  intro t t' ht htt i hi
  obtain ⟨k, r, r0, r1, rfl⟩ := in_step hs ht
  obtain ⟨k', r', r0', r1', rfl⟩ := in_step hs (ht.trans htt)
  rcases lt_trichotomy k k' with hlt | rfl | hgt
  · have e1 := hstep k (hres k) r step r0 r1.le le_rfl i hi
    have e2 := hk (k + 1) k' hlt i hi
    have e3 := hstep k' (hres k') 0 r' le_rfl r0' r1'.le i hi
    rw [next_step] at e2
    rw [add_zero] at e3
    exact e1.trans (e2.trans e3)
  · exact hstep k (hres k) r r' r0 (by linarith) r1'.le i hi
  · exfalso
    have : ((k' + 1 : Nat) : ℝ) ≤ k := by exact_mod_cast hgt
    have h3 := mul_le_mul_of_nonneg_right this hs.le
    rw [next_step] at h3
    linarith

end

end Ecad.Step
