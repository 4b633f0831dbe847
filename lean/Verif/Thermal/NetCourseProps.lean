import Verif.Thermal.LayoutCourseProps
/-!
C140: courses of temperatures of networks with rational numbers, as the builders make them.
-/
namespace Ecad.Course
open Ecad.GridT Ecad.Thermal Ecad.Response Finset

/-- grounded networks all nodes of which have a heat capacity -/
structure Body (net : Network ℚ) : Prop where
  grounded : Grounded net
  capacity : ∀ i < net.length, 0 < cOf net i

/-- `x` are the temperatures of the nodes of a network over time, from the temperature of the surroundings: they follow the derivative the transient
solver integrates (src/solver/thermal/EThermalNetworkSolver.cpp:111, 121, 135-141); `exc t k` is the excitation of node `k` at time `t`. -/
def Warms (net : Network ℚ) (envT : ℚ) (exc x : ℝ → Nat → ℝ) : Prop :=
  Decay.Follows (real net) envT exc x ∧ ∀ k < net.length, x 0 k = envT

section
variable {a b n net : Network ℚ} {envT : ℚ} {exc exc' x y z : ℝ → Nat → ℝ}

theorem body_proper (h : Body net) : Decay.Proper (real net) := by
  refine ⟨real_grounded h.grounded, fun k hk => ?_⟩
  rw [real_length] at hk
  rw [real_c]
  exact_mod_cast h.capacity k hk

theorem map_ns (hl : a.length = b.length) (h : ∀ (i : Nat) (n n' : Node ℚ), a[i]? = some n → b[i]? = some n' → n.ns = n'.ns) :
    a.map Node.ns = b.map Node.ns := by
  apply List.ext_getElem (by simp [hl])
  intro i h1 h2
  rw [List.length_map] at h1 h2
  rw [List.getElem_map, List.getElem_map]
  exact h i _ _ (List.getElem?_eq_getElem h1) (List.getElem?_eq_getElem h2)

theorem warms_exists (h : Body net) (envT : ℚ) (he : ∀ i, Continuous fun t => exc t i) : ∃ x, Warms net envT exc x ∧
    ∀ y, Warms net envT exc y → ∀ t, 0 ≤ t → ∀ k < net.length, y t k = x t k := by
  have hp := body_proper h
  obtain ⟨x, hx, x0⟩ := follows_exists hp (envT : ℝ) exc he fun _ => (envT : ℝ)
  rw [real_length] at x0
  refine ⟨x, ⟨hx, x0⟩, fun y hy t ht k hk => ?_⟩
  exact same_follows hp hy.1 hx (fun i hi => by rw [real_length] at hi; rw [x0 i hi, hy.2 i hi]) t ht k (by rw [real_length]; exact hk)

theorem warms_steady (h : Body net) (hx : Warms net envT (fun _ _ => 1) x) {s : Nat → ℚ} (hs : Solves net envT s) :
    ∀ k < net.length, Filter.Tendsto (fun t => x t k) Filter.atTop (nhds (s k : ℝ)) := by
  intro k hk
  exact Decay.c127_steady (body_proper h) (real_solves hs) hx.1 k (by rw [real_length]; exact hk)

theorem warms_rise (h : Body net) (hf : ∀ i, 0 ≤ hfOf net i) (he : ∀ t, 0 < t → ∀ i, 0 ≤ exc t i ∧ exc t i ≤ 1) (hx : Warms net envT exc x) {s : Nat → ℚ}
    (hs : Solves net envT s) : (∀ t, 0 ≤ t → ∀ k < net.length, (envT : ℝ) ≤ x t k ∧ x t k ≤ s k) ∧
      ((∀ t i, exc t i = 1) → ∀ t t', 0 ≤ t → t ≤ t' → ∀ k < net.length, x t k ≤ x t' k) := by
  have hf' : ∀ n ∈ real net, 0 ≤ n.hf := by
    intro n hm
    obtain ⟨k, hk⟩ := List.getElem?_of_mem hm
    have e : hfOf (real net) k = n.hf := by unfold hfOf; rw [hk]
    rw [← e, real_hf]
    exact_mod_cast hf k
  have := Decay.c127_heating (body_proper h) hf' (real_solves hs) hx.1 (fun i hi => hx.2 i (by rw [← real_length]; exact hi)) he
  rw [real_length] at this
  exact this

theorem warms_power (ha : Body a) (hb : Body b) (hs : Same a b) (hcap : ∀ i < a.length, cOf a i = cOf b i) (hx : Warms a envT exc x)
    (hy : Warms b envT exc' y) (he : ∀ t, 0 < t → ∀ i < a.length, ((hfOf a i : ℚ) : ℝ) * exc t i ≤ ((hfOf b i : ℚ) : ℝ) * exc' t i) :
    ∀ t, 0 ≤ t → ∀ k < a.length, x t k ≤ y t k := by
  have := power_course (body_proper ha) (body_proper hb) (by rw [real_length, real_length, hs.length]) (real_ns (map_ns hs.length hs.ns))
    (fun i => by rw [real_htc, real_htc, hs.htc]) (fun i hi => by rw [real_length] at hi; rw [real_c, real_c, hcap i hi]) hx.1 hy.1
    (fun i hi => by rw [real_length] at hi; rw [hx.2 i hi, hy.2 i (hs.length ▸ hi)])
    (fun t ht i hi => by rw [real_length] at hi; rw [real_hf, real_hf]; exact he t ht i hi)
  rw [real_length] at this
  exact this

theorem warms_cooling (ha : Body a) (hb : Body b) (hc : Cooler a b) (hcap : ∀ i < a.length, cOf a i = cOf b i) (hf : ∀ i, 0 ≤ hfOf a i)
    (he : ∀ t, 0 < t → ∀ i, 0 ≤ exc t i) (hx : Warms a envT exc x) (hy : Warms b envT exc y) : ∀ t, 0 ≤ t → ∀ k < a.length, y t k ≤ x t k := by
  have hlow : ∀ t, 0 ≤ t → ∀ k < (real a).length, (envT : ℝ) ≤ x t k := by
    refine above (body_proper ha) hx.1 (fun k hk => (hx.2 k (by rw [← real_length]; exact hk)).ge) fun t ht k hk => mul_nonneg ?_ (he t ht k)
    rw [real_hf]
    exact_mod_cast hf k
  have := cooling_course (body_proper ha) (body_proper hb) (by rw [real_length, real_length, hc.length]) (real_ns (map_ns hc.length hc.ns))
    (fun i => by rw [real_htc, real_htc]; exact_mod_cast hc.htc i) (fun i hi => by rw [real_length] at hi; rw [real_c, real_c, hcap i hi])
    (fun i _ => by rw [real_hf, real_hf, hc.hf]) hx.1 hy.1
    (fun i hi => by rw [real_length] at hi; rw [hx.2 i hi, hy.2 i (hc.length ▸ hi)]) hlow
  rw [real_length] at this
  exact this

theorem warms_combine (ha : Body a) (hb : Body b) (hn : Body n) (sa : Same n a) (sb : Same n b) (ca : ∀ i < n.length, cOf n i = cOf a i)
    (cb : ∀ i < n.length, cOf n i = cOf b i) {p q : ℚ} (hf : ∀ i < n.length, hfOf n i = p * hfOf a i + q * hfOf b i) (hx : Warms a envT exc x)
    (hy : Warms b envT exc y) (hz : Warms n envT exc z) :
    ∀ t, 0 ≤ t → ∀ k < n.length, z t k - envT = p * (x t k - envT) + q * (y t k - envT) := by
  have pa := body_proper ha
  have pb := body_proper hb
  have pn := body_proper hn
  have la : (real n).length = (real a).length := by rw [real_length, real_length, sa.length]
  have lb : (real n).length = (real b).length := by rw [real_length, real_length, sb.length]
  have hfol : Decay.Follows (real n) envT exc fun t k => p * (x t k - envT) + q * (y t k - envT) + envT := by
    refine ⟨fun k hk => ?_, fun t ht k hk => ?_⟩
    · exact (((continuousOn_const.mul ((hx.1.cont k (la ▸ hk)).sub continuousOn_const)).add
        (continuousOn_const.mul ((hy.1.cont k (lb ▸ hk)).sub continuousOn_const)))).add continuousOn_const
    · have hd := ((((hx.1.deriv t ht k (la ▸ hk)).sub_const (envT : ℝ)).const_mul (p : ℝ)).add
        (((hy.1.deriv t ht k (lb ▸ hk)).sub_const (envT : ℝ)).const_mul (q : ℝ))).add_const (envT : ℝ)
      refine hd.congr_deriv ?_
      refine mul_left_cancel₀ (pn.capacity k hk).ne' ?_
      have hk' : k < n.length := by rw [← real_length]; exact hk
      have r0 := Decay.rate pn (envT : ℝ) (exc t) (fun k => p * (x t k - envT) + q * (y t k - envT) + envT) hk
      have r1 := Decay.rate pa (envT : ℝ) (exc t) (x t) (la ▸ hk)
      have r2 := Decay.rate pb (envT : ℝ) (exc t) (y t) (lb ▸ hk)
      have c4 : cOf (real n) k = cOf (real a) k := by rw [real_c, real_c, ca k hk']
      have c5 : cOf (real n) k = cOf (real b) k := by rw [real_c, real_c, cb k hk']
      rw [← c4] at r1
      rw [← c5] at r2
      rw [r0, mul_add, mul_left_comm, r1, mul_left_comm, r2]
      have v1 := mulVec_htc la (real_ns (map_ns sa.length sa.ns)) (x t) hk
      have v2 := mulVec_htc lb (real_ns (map_ns sb.length sb.ns)) (y t) hk
      have t1 : htcOf (real a) k = htcOf (real n) k := by rw [real_htc, real_htc, sa.htc]
      have t2 : htcOf (real b) k = htcOf (real n) k := by rw [real_htc, real_htc, sb.htc]
      rw [v1, v2, t1, t2]
      have e4 : hfOf (real n) k = p * hfOf (real a) k + q * hfOf (real b) k := by
        rw [real_hf, real_hf, real_hf, hf k hk']
        push_cast
        ring
      have v3 : mulVec (gTriplets (real n)) (fun k => p * (x t k - envT) + q * (y t k - envT) + envT) k =
          p * (mulVec (gTriplets (real n)) (x t) k - htcOf (real n) k * envT) + q * (mulVec (gTriplets (real n)) (y t) k - htcOf (real n) k * envT) +
            htcOf (real n) k * envT := by
        rw [mulVec_add (gTriplets (real n)) (fun k => p * (x t k - envT) + q * (y t k - envT)) (fun _ => (envT : ℝ)),
          mulVec_add (gTriplets (real n)) (fun k => p * (x t k - envT)) (fun k => q * (y t k - envT)),
          mulVec_smul (gTriplets (real n)) p (fun k => x t k - envT), mulVec_smul (gTriplets (real n)) q (fun k => y t k - envT),
          mulVec_sub (gTriplets (real n)) (x t) (fun _ => (envT : ℝ)), mulVec_sub (gTriplets (real n)) (y t) (fun _ => (envT : ℝ)),
          const_mulVec _ _ _ hk]
      rw [e4, v3]
      ring
  intro t ht k hk
  have := same_follows pn hz.1 hfol (fun k hk => by
    rw [real_length] at hk
    rw [hz.2 k hk, hx.2 k (sa.length ▸ hk), hy.2 k (sb.length ▸ hk)]
    ring) t ht k (by rw [real_length]; exact hk)
  rw [this]
  ring

theorem warms_energy (h : Body net) {e : ℝ → ℝ} (hx : Warms net envT (fun t _ => e t) x) {t : ℝ} (ht : 0 < t) :
    HasDerivAt (fun s => ∑ i ∈ range net.length, ((cOf net i : ℚ) : ℝ) * (x s i - envT))
      ((∑ i ∈ range net.length, hfOf net i : ℚ) * e t - ∑ i ∈ range net.length, ((htcOf net i : ℚ) : ℝ) * (x t i - envT)) t := by
  have := energy (body_proper h) hx.1 ht
  simp only [real_length, real_c, real_hf, real_htc] at this
  refine this.congr_deriv ?_
  rw [← Finset.sum_mul]
  push_cast
  rfl

end

end Ecad.Course
