import Verif.Thermal.MidRealProps
import Verif.Thermal.StepCourseProps
import Verif.Thermal.TransientProps
/-!
C150, continued: transient analyses with fixed steps, from the settings to the samples.
-/
namespace Ecad.Mid
open Ecad.Thermal Ecad.Response Finset

/-- what a step gives at the nodes depends on the temperatures of the nodes only -/
theorem step_congr {K : Type} [Field K] [LinearOrder K] [IsStrictOrderedRing K] {net : Network K} (h : Grounded net) (refT : K) (exc : K → Nat → K) (t dt : K)
    {x y : Nat → K} (hxy : ∀ i < net.length, x i = y i) : ∀ i < net.length, midStep (rhs net refT exc) t dt x i = midStep (rhs net refT exc) t dt y i := by
  intro i hi
  have hr : ∀ (t : K) {v w : Nat → K}, (∀ i < net.length, v i = w i) → rhs net refT exc t v = rhs net refT exc t w := fun t v w hvw => by
    rw [rhs_eq, rhs_eq, lin_congr h hvw]
  have h1 : ∀ j < net.length, x j + dt / 2 * rhs net refT exc t x j = y j + dt / 2 * rhs net refT exc t y j := fun j hj => by rw [hr t hxy, hxy j hj]
  have h2 : ∀ j < net.length, x j + 2 * (dt / 2) * rhs net refT exc (t + dt / 2) (fun i => x i + dt / 2 * rhs net refT exc t x i) j =
      y j + 2 * (dt / 2) * rhs net refT exc (t + dt / 2) (fun i => y i + dt / 2 * rhs net refT exc t y i) j := fun j hj => by rw [hr (t + dt / 2) h1, hxy j hj]
  unfold midStep
  dsimp only
  rw [h1 i hi, h2 i hi, hr (t + dt / 2 + dt / 2) h2]

theorem pick_mem {A : Type} {interval lo hi last : ℚ} {l : List (ℚ × A)} {o : ℚ × A} (h : o ∈ Trans.pick interval lo hi last l) : o ∈ l := by
  induction l generalizing last with
  | nil => simp [Trans.pick] at h
  | cons a l ih =>
    unfold Trans.pick at h
    split at h
    · rcases List.mem_cons.1 h with rfl | h
      · exact List.mem_cons_self
      · exact List.mem_cons_of_mem _ (ih h)
    · exact List.mem_cons_of_mem _ (ih h)

/-- the settings and networks of a transient analysis with fixed steps -/
def scheme (set : Trans.Settings) (exc : ℚ → Nat → ℚ) (adapt : Network ℚ → ℚ → ℚ → ℚ → Trans.State → List Trans.Obs) : Trans.Scheme (Network ℚ) :=
  ⟨List.length, stepBy set.envT exc, adapt⟩

/-- **C150, runs**: without temperature dependence a transient analysis with fixed steps reports the temperatures after `k` steps of the sampling interval
from the environment temperature. -/
theorem c150_run {build : Trans.State → Option (Network ℚ)} {set : Trans.Settings} {exc : ℚ → Nat → ℚ}
    {adapt : Network ℚ → ℚ → ℚ → ℚ → Trans.State → List Trans.Obs} {n : Nat} (W : Trans.Works build (scheme set exc adapt) set n)
    (hg : ∀ x net, build x = some net → Grounded net) (big : ℚ) (htd : set.tempDep = false) (ha : set.adaptive = false)
    (hp : set.probs ≠ []) (hi : set.interval ≤ set.duration) (fuel : Nat) :
    ∃ net, build (List.replicate n set.envT) = some net ∧ net.length = n ∧ ∃ m : Nat, (m : ℚ) * set.interval ≤ set.duration ∧ set.duration < (m + 1) * set.interval ∧
      ∃ out, Trans.solve build (scheme set exc adapt) n big set fuel = some (.ok out) ∧ out.ok = true ∧
        Trans.Reports big set ((List.range (m + 1)).map fun (k : Nat) =>
          ((k : ℚ) * set.interval, (List.range n).map (after net set.envT exc set.interval (fun _ => set.envT) k))) out := by
  obtain ⟨z, net, m, hz0, hb, hz, m1, m2, out, ho, hok, hrep⟩ := Trans.c97_constant_partial W big htd ha hp hi fuel
  rw [hz0] at hb
  have hlen : net.length = n := by
    obtain ⟨net', hb', hs⟩ := W.build (List.replicate n set.envT) List.length_replicate
    rw [hb] at hb'
    injection hb' with hb'
    subst hb'
    exact hs
  refine ⟨net, hb, hlen, m, m1, m2, out, ho, hok, ?_⟩
  have hzk : ∀ k, z k = (List.range n).map (after net set.envT exc set.interval (fun _ => set.envT) k) := by
    intro k
    induction k with
    | zero =>
      rw [hz0]
      refine List.ext_getElem (by simp) fun i _ _ => ?_
      simp [after, march]
    | succ k ih =>
      rw [hz k, ih]
      show (List.range _).map _ = _
      rw [List.length_map, List.length_range, after_succ, zero_add]
      refine List.map_congr_left fun i hi => ?_
      refine step_congr (hg _ _ hb) _ _ _ _ (fun j hj => ?_) i (by rw [hlen]; exact List.mem_range.1 hi)
      rw [hlen] at hj
      simp [List.getD_eq_getElem?_getD, hj]
  have : Trans.smallSteps z set.interval (m + 1) = (List.range (m + 1)).map fun (k : Nat) =>
      ((k : ℚ) * set.interval, (List.range n).map (after net set.envT exc set.interval (fun _ => set.envT) k)) :=
    List.map_congr_left fun k _ => by rw [hzk k]
  rw [← this]
  exact hrep

/-- **C150, runs at full power**: if the sampling interval is at most 4/3 of the time constant of every node, all samples of a transient analysis with fixed
steps lie between the environment temperature and the steady temperatures. -/
theorem c150_run_range {build : Trans.State → Option (Network ℚ)} {set : Trans.Settings}
    {adapt : Network ℚ → ℚ → ℚ → ℚ → Trans.State → List Trans.Obs} {n : Nat} (W : Trans.Works build (scheme set full adapt) set n) {net : Network ℚ}
    (hb : build (List.replicate n set.envT) = some net) (hg : ∀ x net, build x = some net → Sound net) (hpos : ∀ d ∈ net, 0 ≤ d.hf)
    (hf : Fits net set.interval (4 / 3)) {s : Nat → ℚ} (hs : Solves net set.envT s) (big : ℚ) (htd : set.tempDep = false)
    (ha : set.adaptive = false) (hk : set.celsius = false) (hp : set.probs ≠ []) (hi : set.interval ≤ set.duration) (fuel : Nat) :
    ∃ out, Trans.solve build (scheme set full adapt) n big set fuel = some (.ok out) ∧ out.ok = true ∧
      ∀ o ∈ out.samples, ∀ j (hj : j < set.probs.length), ∃ v, o.2[j]? = some v ∧ set.envT ≤ v ∧ v ≤ s set.probs[j] := by
  obtain ⟨net', hb', hlen, m, -, -, out, ho, hok, hrep⟩ := c150_run W (fun x net h => (hg x net h).grounded) big htd ha hp hi fuel
  rw [hb] at hb'
  injection hb' with hb'
  subst hb'
  refine ⟨out, ho, hok, fun o hin j hj => ?_⟩
  rw [hrep.1, List.mem_map] at hin
  obtain ⟨q, hq, rfl⟩ := hin
  have hq' := pick_mem hq
  obtain ⟨k, -, rfl⟩ := List.mem_map.1 hq'
  have hpj : set.probs[j] < n := W.probs _ (List.getElem_mem hj)
  have hh := c150_heating (hg _ _ hb) hpos W.interval.le hf hs k set.probs[j] (by rw [hlen]; exact hpj)
  refine ⟨_, by simp only [Trans.recorded, List.getElem?_map, List.getElem?_eq_getElem hj, Option.map_some]; rfl, ?_⟩
  simp only [Trans.inUnit, hk, List.getD_eq_getElem?_getD, List.getElem?_map, List.getElem?_range hpj, Option.map_some, Option.getD_some]
  exact ⟨hh.1, hh.2.2⟩

/-- **C150, models**: in all networks that a model builds, short steps follow the exact course, and the steady temperatures are reached from all starts exactly
if the steps fit the modes of the network. -/
theorem c150_models {build : List ℝ → Res (Option (Network ℝ))} {n : Nat} (hb : Step.Builds build n) {T : List ℝ} (hT : T.length = n) :
    ∃ net, build T = .ok (some net) ∧ net.length = n ∧
      (∀ (refT : ℝ) (y : ℝ → Nat → ℝ), Decay.Follows net refT (fun _ _ => 1) y → ∀ t, 0 ≤ t → ∀ i < n,
        Filter.Tendsto (fun k : ℕ => after net refT full (t / k) (y 0) k i) Filter.atTop (nhds (y t i))) ∧
      ∀ (refT dt : ℝ) (s : Nat → ℝ), 0 < dt → Solves net refT s →
        ((∀ x : Nat → ℝ, ∀ i < n, Filter.Tendsto (fun k => after net refT full dt x k i) Filter.atTop (nhds (s i))) ↔
          ∀ lam w, Mode net lam w → (dt * lam) ^ 3 < 4 * (dt * lam) ^ 2 - 8 * (dt * lam) + 16) := by
  obtain ⟨net, h1, h2, h3⟩ := hb T hT
  subst h2
  exact ⟨net, h1, rfl, fun refT y hy t ht => c150_fine h3 hy (fun _ _ => rfl) ht, fun refT dt s hd hs => c150_stable (sound_of_proper h3) hd hs⟩

/-! ## examples -/

/-- two nodes with a resistor of 1 between them; heat enters at the first and leaves at the second -/
def exNet : Network ℚ := [⟨0, none, 1, 1, 0, [(1, 1)]⟩, ⟨0, none, 1, 0, 1, []⟩]

theorem ex_sound : Sound exNet := by
  refine ⟨⟨?_, by decide +kernel, by decide +kernel, ?_⟩, by decide +kernel⟩
  · intro i n hn e he
    match i, hn with
    | 0, hn => injection hn with hn; subst hn; revert e; decide
    | 1, hn => injection hn with hn; subst hn; revert e; decide
  · have e1 : Adj exNet 0 1 := ⟨1, Or.inl (by decide +kernel)⟩
    intro i hi
    refine ⟨1, ?_, by decide +kernel⟩
    have : i < 2 := hi
    match i, this with
    | 0, _ => exact Relation.ReflTransGen.single e1
    | 1, _ => exact Relation.ReflTransGen.refl

def exTemps : Nat → ℚ := fun i => if i = 0 then 27 else 26

theorem ex_solves : Solves exNet 25 exTemps := (steady_iff ex_sound 25 exTemps).1 (by decide +kernel)

/-- steps that fit -/
example : Fits exNet (2 / 3) (4 / 3) ∧ Fits exNet (1 / 2) 1 ∧ (∀ d ∈ exNet, 0 ≤ d.hf) := ⟨by unfold Fits; decide +kernel, by unfold Fits; decide +kernel, by decide +kernel⟩

/-- a step too long for the second node -/
example : 4 * cOf exNet 1 ≤ 2 * entry (gTriplets exNet) 1 1 := by decide +kernel

/-- a coarse step leads away from the steady temperatures -/
example : after exNet 25 full 8 (fun _ => 25) 3 0 = 90243217 := by decide +kernel

def exSet : Trans.Settings := ⟨false, false, 1, 4, 1 / 2, 4, [0, 1], 25, false, 0⟩

def exBuild (x : Trans.State) : Option (Network ℚ) := if x.length = 2 then some exNet else none

theorem ex_works : Trans.Works exBuild (scheme exSet full fun _ _ _ _ _ => []) exSet 2 where
  build x hx := ⟨exNet, by unfold exBuild; rw [if_pos hx], rfl⟩
  stepBy net t dt x hx := by simp [scheme, stepBy, hx]
  adapt := by simp [scheme]
  interval := by decide +kernel
  window := by decide +kernel
  duration := by decide +kernel
  probs := by decide

/-- the hypotheses of `c150_run_range` -/
example : ∃ out, Trans.solve exBuild (scheme exSet full fun _ _ _ _ _ => []) 2 1000 exSet 0 = some (.ok out) ∧ out.ok = true ∧
    ∀ o ∈ out.samples, ∀ j (hj : j < exSet.probs.length), ∃ v, o.2[j]? = some v ∧ exSet.envT ≤ v ∧ v ≤ exTemps exSet.probs[j] :=
  c150_run_range ex_works rfl (fun x net h => by
    unfold exBuild at h
    split at h
    · injection h with h; subst h; exact ex_sound
    · exact absurd h (by simp)) (by decide +kernel) (by unfold Fits; decide +kernel) ex_solves 1000 rfl rfl rfl (by decide) (by decide +kernel) 0

/-- the same analysis with a sampling interval of 4: the steady temperatures are 27 and 26 -/
example : (match Trans.solve exBuild (scheme exSet full fun _ _ _ _ _ => []) 2 1000 { exSet with interval := 4, duration := 20, window := 20 } 0 with
  | some (.ok out) => (out.ok, out.samples)
  | _ => (false, [])) = (true, [(8, [-991, 1673]), (16, [-9814807, 15880761])]) := by decide +kernel

end Ecad.Mid
