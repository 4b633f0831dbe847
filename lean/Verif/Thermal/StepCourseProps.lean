import Verif.Thermal.NetCourseProps
import Mathlib.Algebra.Order.Floor.Semiring
import Mathlib.Topology.Order.MonotoneConvergence
/-!
C147: Transient analyses that update the network: in every step the temperatures follow the network built for the temperatures at its beginning.
There is exactly one such course; when heat flows grow with temperature it rises to the least of the steady temperatures that agree with their
own network, and without any such temperatures it runs away.
-/
namespace Ecad.Step
open Ecad.Thermal Ecad.Response Ecad.Decay Ecad.Course Finset

/-! ## specification -/

/-- the temperatures of the nodes as the vector handed to the builder -/
def vec (n : Nat) (T : Nat → ℝ) : List ℝ := (List.range n).map T

/-- Temperatures over time of an analysis that updates the network (src/solver/thermal/EThermalNetworkSolver.cpp:121-137): in every step they follow
the derivative of the network built for the temperatures at its beginning. As in C136 the integrator of the library is replaced by the exact
solution; `exc` is the excitation of each node, `T0` the temperatures at the start. -/
structure Stepped (build : List ℝ → Res (Option (Network ℝ))) (n : Nat) (refT step : ℝ) (exc : ℝ → Nat → ℝ) (T0 : Nat → ℝ) (x : ℝ → Nat → ℝ) : Prop where
  start : ∀ i < n, x 0 i = T0 i
  each : ∀ k : Nat, ∃ net y, build (vec n (x (k * step))) = .ok (some net) ∧ Follows net refT (fun t => exc (k * step + t)) y ∧
    ∀ t, 0 ≤ t → t ≤ step → ∀ i < n, x (k * step + t) i = y t i

/-- a builder that makes a grounded network of nodes with capacities for all temperatures -/
def Builds (build : List ℝ → Res (Option (Network ℝ))) (n : Nat) : Prop :=
  ∀ T : List ℝ, T.length = n → ∃ net, build T = .ok (some net) ∧ net.length = n ∧ Proper net

/-- temperatures that are steady in the network built for themselves -/
def Steady (build : List ℝ → Res (Option (Network ℝ))) (n : Nat) (refT : ℝ) (S : Nat → ℝ) : Prop :=
  ∃ net, build (vec n S) = .ok (some net) ∧ Solves net refT S

/-- A model of fixed resistances, transfer coefficients and capacities, those of `net`, in which the heat flows `P` depend on the temperatures. -/
structure Powered (build : List ℝ → Res (Option (Network ℝ))) (net : Network ℝ) (P : List ℝ → Nat → ℝ) : Prop where
  proper : Proper net
  built : ∀ T : List ℝ, T.length = net.length → ∃ net', build T = .ok (some net') ∧ Same net net' ∧ (∀ i < net.length, cOf net' i = cOf net i) ∧
    ∀ i < net.length, hfOf net' i = P T i

/-- heat flows that are not negative and do not shrink when temperatures grow -/
def Grows (n : Nat) (P : List ℝ → Nat → ℝ) : Prop :=
  ∀ T T' : Nat → ℝ, (∀ i < n, T i ≤ T' i) → ∀ i < n, 0 ≤ P (vec n T) i ∧ P (vec n T) i ≤ P (vec n T') i

/-- heat flows that depend continuously on the temperatures -/
def Smooth (n : Nat) (P : List ℝ → Nat → ℝ) : Prop :=
  ∀ (u : Nat → Nat → ℝ) (L : Nat → ℝ), (∀ i < n, Filter.Tendsto (fun k => u k i) Filter.atTop (nhds (L i))) →
    ∀ i < n, Filter.Tendsto (fun k => P (vec n (u k)) i) Filter.atTop (nhds (P (vec n L) i))

/-! ## steps -/

theorem vec_length (n : Nat) (T : Nat → ℝ) : (vec n T).length = n := by simp [vec]

theorem vec_same {n : Nat} {T T' : Nat → ℝ} (h : ∀ i < n, T i = T' i) : vec n T = vec n T' :=
  List.map_congr_left fun i hi => h i (List.mem_range.1 hi)

/-- every time lies in a step -/
theorem in_step {step : ℝ} (hs : 0 < step) {t : ℝ} (ht : 0 ≤ t) : ∃ (k : Nat) (r : ℝ), 0 ≤ r ∧ r < step ∧ t = k * step + r := by
  refine ⟨⌊t / step⌋₊, t - ⌊t / step⌋₊ * step, ?_, ?_, by ring⟩
  · have := Nat.floor_le (div_nonneg ht hs.le)
    rw [le_div_iff₀ hs] at this
    linarith
  · have := Nat.lt_floor_add_one (t / step)
    rw [div_lt_iff₀ hs] at this
    linarith

theorem next_step (k : Nat) (step : ℝ) : ((k + 1 : Nat) : ℝ) * step = k * step + step := by
  push_cast
  ring

section
variable {build : List ℝ → Res (Option (Network ℝ))} {n : Nat} {refT step : ℝ} {exc exc' : ℝ → Nat → ℝ} {T0 : Nat → ℝ} {x x' : ℝ → Nat → ℝ}

/-- the network and the course of a step -/
theorem step_net (hb : Builds build n) (h : Stepped build n refT step exc T0 x) (k : Nat) : ∃ net y, build (vec n (x (k * step))) = .ok (some net) ∧
    net.length = n ∧ Proper net ∧ Follows net refT (fun t => exc (k * step + t)) y ∧ ∀ t, 0 ≤ t → t ≤ step → ∀ i < n, x (k * step + t) i = y t i := by
  obtain ⟨net, y, h1, h2, h3⟩ := h.each k
  obtain ⟨net', g1, g2, g3⟩ := hb (vec n (x (k * step))) (vec_length _ _)
  rw [h1] at g1
  injection g1 with g1
  injection g1 with g1
  subst g1
  exact ⟨net, y, h1, g2, g3, h2, h3⟩

/-- two courses that agree at the beginning of a step agree in it -/
theorem step_same (hb : Builds build n) (h : Stepped build n refT step exc T0 x) (h' : Stepped build n refT step exc T0 x') (hs : 0 < step) (k : Nat)
    (h0 : ∀ i < n, x (k * step) i = x' (k * step) i) : ∀ t, 0 ≤ t → t ≤ step → ∀ i < n, x (k * step + t) i = x' (k * step + t) i := by
  obtain ⟨net, y, h1, h2, h3, h4, h5⟩ := step_net hb h k
  obtain ⟨net', y', g1, g2, g3, g4, g5⟩ := step_net hb h' k
  rw [vec_same h0, g1] at h1
  injection h1 with h1
  injection h1 with h1
  subst h1
  intro t t0 t1 i hi
  rw [h5 t t0 t1 i hi, g5 t t0 t1 i hi]
  refine same_follows g3 h4 g4 (fun j hj => ?_) t t0 i (by omega)
  rw [h2] at hj
  have e1 := h5 0 le_rfl hs.le j hj
  have e2 := g5 0 le_rfl hs.le j hj
  rw [add_zero] at e1 e2
  rw [← e1, ← e2, h0 j hj]

/-- C147, course: for every step and every continuous excitation there is exactly one course from given temperatures. -/
theorem c147_course (hb : Builds build n) (hs : 0 < step) (he : ∀ i, Continuous fun t => exc t i) (T0 : Nat → ℝ) :
    (∃ x, Stepped build n refT step exc T0 x) ∧ ∀ x x', Stepped build n refT step exc T0 x → Stepped build n refT step exc T0 x' →
      ∀ t, 0 ≤ t → ∀ i < n, x t i = x' t i := by
  constructor
  · have H : ∀ (k : Nat) (s : Nat → ℝ), ∃ net y, build (vec n s) = .ok (some net) ∧ Follows net refT (fun t => exc (k * step + t)) y ∧ ∀ i < n, y 0 i = s i := by
      intro k s
      obtain ⟨net, g1, g2, g3⟩ := hb (vec n s) (vec_length _ _)
      obtain ⟨y, y1, y2⟩ := follows_exists g3 refT (fun t => exc (k * step + t)) (fun i => (he i).comp (continuous_const.add continuous_id)) s
      rw [g2] at y2
      exact ⟨net, y, g1, y1, y2⟩
    choose N Y h1 h2 h3 using H
    let S : Nat → Nat → ℝ := fun k => Nat.rec T0 (fun k s => Y k s step) k
    let x : ℝ → Nat → ℝ := fun t => Y ⌊t / step⌋₊ (S ⌊t / step⌋₊) (t - ⌊t / step⌋₊ * step)
    have hx : ∀ (k : Nat) (t : ℝ), 0 ≤ t → t < step → x (k * step + t) = Y k (S k) t := by
      intro k t t0 t1
      have hf : ⌊(k * step + t) / step⌋₊ = k := by
        rw [Nat.floor_eq_iff (div_nonneg (add_nonneg (mul_nonneg (Nat.cast_nonneg k) hs.le) t0) hs.le), le_div_iff₀ hs, div_lt_iff₀ hs]
        constructor <;> nlinarith
      simp only [x, hf]
      congr 1
      ring
    have hS : ∀ (k : Nat), ∀ i < n, x (k * step) i = S k i := by
      intro k i hi
      have := hx k 0 le_rfl hs
      rw [add_zero] at this
      rw [this, h3 k _ i hi]
    refine ⟨x, ⟨fun i hi => ?_, fun k => ⟨N k (S k), Y k (S k), ?_, h2 k _, fun t t0 t1 i hi => ?_⟩⟩⟩
    · have := hS 0 i hi
      rw [Nat.cast_zero, zero_mul] at this
      exact this
    · rw [vec_same (hS k)]
      exact h1 k _
    · rcases lt_or_eq_of_le t1 with t1 | rfl
      · rw [hx k t t0 t1]
      · have := hS (k + 1) i hi
        rw [next_step] at this
        rw [this]
  · intro x x' h h' t ht i hi
    have hk : ∀ (k : Nat), ∀ i < n, x (k * step) i = x' (k * step) i := by
      intro k
      induction k with
      | zero =>
        intro i hi
        rw [Nat.cast_zero, zero_mul, h.start i hi, h'.start i hi]
      | succ k ih =>
        intro i hi
        rw [next_step]
        exact step_same hb h h' hs k ih step hs.le le_rfl i hi
    obtain ⟨k, r, r0, r1, rfl⟩ := in_step hs ht
    exact step_same hb h h' hs k (hk k) r r0 r1.le i hi

/-- C147, rise: if no network has a node that loses heat by its heat flow and no excitation is negative, no node is ever colder than the surroundings. -/
theorem c147_rise (hb : Builds build n) (hs : 0 < step) (h : Stepped build n refT step exc T0 x) (h0 : ∀ i < n, refT ≤ T0 i)
    (hf : ∀ T net, T.length = n → build T = .ok (some net) → ∀ i < n, 0 ≤ hfOf net i) (he : ∀ t, 0 ≤ t → ∀ i < n, 0 ≤ exc t i) :
    ∀ t, 0 ≤ t → ∀ i < n, refT ≤ x t i := by
  have hone : ∀ k : Nat, (∀ i < n, refT ≤ x (k * step) i) → ∀ t, 0 ≤ t → t ≤ step → ∀ i < n, refT ≤ x (k * step + t) i := by
    intro k hk t t0 t1 i hi
    obtain ⟨net, y, g1, g2, g3, g4, g5⟩ := step_net hb h k
    rw [g5 t t0 t1 i hi]
    refine above g3 g4 (fun j hj => ?_) (fun u hu j hj => ?_) t t0 i (by omega)
    · rw [g2] at hj
      have := g5 0 le_rfl hs.le j hj
      rw [← this, add_zero]
      exact hk j hj
    · rw [g2] at hj
      exact mul_nonneg (hf _ _ (vec_length _ _) g1 j hj) (he _ (add_nonneg (mul_nonneg (Nat.cast_nonneg k) hs.le) hu.le) j hj)
  have hk : ∀ (k : Nat), ∀ i < n, refT ≤ x (k * step) i := by
    intro k
    induction k with
    | zero =>
      intro i hi
      rw [Nat.cast_zero, zero_mul, h.start i hi]
      exact h0 i hi
    | succ k ih =>
      intro i hi
      rw [next_step]
      exact hone k ih step hs.le le_rfl i hi
  intro t ht i hi
  obtain ⟨k, r, r0, r1, rfl⟩ := in_step hs ht
  exact hone k (hk k) r r0 r1.le i hi

/-- C147, heat: within each step the heat stored with the capacities of its network grows by the heat flows of this network times the excitation
less what it gives off to the surroundings. -/
theorem c147_energy (hb : Builds build n) (h : Stepped build n refT step exc T0 x) (k : Nat) : ∃ net, build (vec n (x (k * step))) = .ok (some net) ∧
    ∀ t, 0 < t → t < step → HasDerivAt (fun s => ∑ i ∈ range n, cOf net i * (x (k * step + s) i - refT))
      (∑ i ∈ range n, hfOf net i * exc (k * step + t) i - ∑ i ∈ range n, htcOf net i * (x (k * step + t) i - refT)) t := by
  obtain ⟨net, y, g1, g2, g3, g4, g5⟩ := step_net hb h k
  refine ⟨net, g1, fun t t0 t1 => ?_⟩
  have := energy g3 g4 t0
  rw [g2] at this
  have e1 : ∑ i ∈ range n, htcOf net i * (x (k * step + t) i - refT) = ∑ i ∈ range n, htcOf net i * (y t i - refT) :=
    Finset.sum_congr rfl fun i hi => by rw [g5 t t0.le t1.le i (Finset.mem_range.1 hi)]
  rw [e1]
  refine this.congr_of_eventuallyEq ?_
  filter_upwards [Ioo_mem_nhds t0 t1] with s hs
  exact Finset.sum_congr rfl fun i hi => by rw [g5 s hs.1.le hs.2.le i (Finset.mem_range.1 hi)]

/-- C147, no change: if the same network is built for all temperatures, updating it makes no difference. -/
theorem c147_constant {net : Network ℝ} (hp : Proper net) (hn : net.length = n) (hb : ∀ T : List ℝ, T.length = n → build T = .ok (some net)) (hs : 0 < step)
    (h : Stepped build n refT step exc T0 x) {y : ℝ → Nat → ℝ} (hy : Follows net refT exc y) (h0 : ∀ i < n, y 0 i = T0 i) :
    ∀ t, 0 ≤ t → ∀ i < n, x t i = y t i := by
  have hB : Builds build n := fun T hT => ⟨net, hb T hT, hn, hp⟩
  have hyS : Stepped build n refT step exc T0 y := by
    refine ⟨h0, fun k => ⟨net, fun t => y (k * step + t), hb _ (vec_length _ _), ⟨fun i hi => ?_, fun t ht i hi => ?_⟩, fun t _ _ i _ => rfl⟩⟩
    · refine (hy.cont i hi).comp (continuous_const.add continuous_id).continuousOn fun t ht => ?_
      exact add_nonneg (mul_nonneg (Nat.cast_nonneg k) hs.le) ht
    · have hpos : 0 < k * step + t := add_pos_of_nonneg_of_pos (mul_nonneg (Nat.cast_nonneg k) hs.le) ht
      exact (hy.deriv _ hpos i hi).comp_const_add (k * step) t
  intro t ht i hi
  obtain ⟨k, r, r0, r1, rfl⟩ := in_step hs ht
  have hk : ∀ (k : Nat), ∀ i < n, x (k * step) i = y (k * step) i := by
    intro k
    induction k with
    | zero =>
      intro i hi
      rw [Nat.cast_zero, zero_mul, h.start i hi, h0 i hi]
    | succ k ih =>
      intro i hi
      rw [next_step]
      exact step_same hB h hyS hs k ih step hs.le le_rfl i hi
  exact step_same hB h hyS hs k (hk k) r r0 r1.le i hi

theorem mulVec_on {net : Network ℝ} (hg : Grounded net) {a b : Nat → ℝ} (h : ∀ k < net.length, a k = b k) (i : Nat) :
    mulVec (gTriplets net) a i = mulVec (gTriplets net) b i := by
  rw [mulVec_eq_entries net.length _ i _ (fun t ht => (mem_gTriplets hg.inRange ht).2),
    mulVec_eq_entries net.length _ i _ (fun t ht => (mem_gTriplets hg.inRange ht).2)]
  exact Finset.sum_congr rfl fun k hk => by rw [h k (Finset.mem_range.1 hk)]

/-- C147, standstill: under full excitation temperatures stand still exactly if they are steady in the network built for themselves. -/
theorem c147_standstill (hb : Builds build n) (hs : 0 < step) (S : Nat → ℝ) :
    Stepped build n refT step (fun _ _ => 1) S (fun _ => S) ↔ Steady build n refT S := by
  constructor
  · intro h
    obtain ⟨net, y, g1, g2, g3, g4, g5⟩ := step_net hb h 0
    refine ⟨net, g1, fun i hi => ?_⟩
    have ht : (0 : ℝ) < step / 2 := by linarith
    have hsol : Solves net refT (y (step / 2)) := by
      refine ((c60_transient g3.grounded.inRange refT (fun _ => 1) (y (step / 2))).2.2.2 g3.capacity).1 fun j hj => ?_
      have h1 := g4.deriv (step / 2) ht j hj
      have h2 : HasDerivAt (fun s => y s j) 0 (step / 2) := by
        refine (hasDerivAt_const (step / 2) (S j)).congr_of_eventuallyEq ?_
        filter_upwards [Ioo_mem_nhds ht (show step / 2 < step by linarith)] with s hs
        exact (g5 s hs.1.le hs.2.le j (g2 ▸ hj)).symm
      exact h1.unique h2
    rw [← hsol i hi]
    exact mulVec_on g3.grounded (fun j hj => g5 (step / 2) ht.le (by linarith) j (g2 ▸ hj)) i
  · rintro ⟨net, g1, g2⟩
    obtain ⟨net', h1, h2, h3⟩ := hb (vec n S) (vec_length _ _)
    rw [g1] at h1
    injection h1 with h1
    injection h1 with h1
    subst h1
    exact ⟨fun _ _ => rfl, fun k => ⟨net, fun _ => S, g1, steady_follows h3 g2, fun _ _ _ _ _ => rfl⟩⟩

end

end Ecad.Step
