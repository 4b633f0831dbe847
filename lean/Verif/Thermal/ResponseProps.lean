import Verif.Thermal.SteadyProps
/-!
C126: How the steady temperatures of a network answer to its heat flows, transfer coefficients and resistances: superposition, monotonicity,
reciprocity, the hottest node is heated, better cooling cools, and better conduction lowers the mean temperature of the heated nodes.
-/
namespace Ecad.Response
open Ecad.Thermal Finset

variable {K : Type} [Field K] [LinearOrder K]

/-! ## specification -/

/-- two networks of the same resistors and transfer coefficients -/
structure Same (a b : Network K) : Prop where
  length : a.length = b.length
  ns : ∀ (i : Nat) (n n' : Node K), a[i]? = some n → b[i]? = some n' → n.ns = n'.ns
  htc : ∀ i, htcOf a i = htcOf b i

/-- `b` is the network `a` with other transfer coefficients -/
structure Cooler (a b : Network K) : Prop where
  length : a.length = b.length
  ns : ∀ (i : Nat) (n n' : Node K), a[i]? = some n → b[i]? = some n' → n.ns = n'.ns
  htc : ∀ i, htcOf a i ≤ htcOf b i
  hf : ∀ i, hfOf a i = hfOf b i

/-- `b` is the network `a` with resistances that are not larger and transfer coefficients that are not smaller -/
structure Better (a b : Network K) : Prop where
  length : a.length = b.length
  ns : ∀ (i : Nat) (n n' : Node K), a[i]? = some n → b[i]? = some n' → List.Forall₂ (fun e e' => e'.1 = e.1 ∧ 0 < e'.2 ∧ e'.2 ≤ e.2) n.ns n'.ns
  htc : ∀ i, htcOf a i ≤ htcOf b i
  hf : ∀ i, hfOf a i = hfOf b i

/-! ## networks of the same resistors -/

/-- the resistors of a network are those of another -/
def SameNs (a b : Network K) : Prop := a.map Node.ns = b.map Node.ns

theorem sameNs_of {a b : Network K} (hl : a.length = b.length) (h : ∀ (i : Nat) (n n' : Node K), a[i]? = some n → b[i]? = some n' → n.ns = n'.ns) : SameNs a b := by
  apply List.ext_getElem?
  intro i
  rw [List.getElem?_map, List.getElem?_map]
  by_cases hi : i < a.length
  · have hb : i < b.length := by omega
    rw [List.getElem?_eq_getElem hi, List.getElem?_eq_getElem hb, Option.map_some, Option.map_some,
      h i _ _ (List.getElem?_eq_getElem hi) (List.getElem?_eq_getElem hb)]
  · rw [List.getElem?_eq_none (by omega), List.getElem?_eq_none (by omega)]

theorem edges_ns (a : Network K) : edges a = (a.map Node.ns).zipIdx.flatMap fun p => p.1.map fun e => (p.2, e.1, 1 / e.2) := by
  unfold edges
  rw [List.zipIdx_map, List.flatMap_map]
  rfl

theorem edges_same {a b : Network K} (h : SameNs a b) : edges a = edges b := by
  rw [edges_ns, edges_ns, h]

theorem bil_same {a b : Network K} (h : Same a b) (v y : Nat → K) : bil (gTriplets a) v y = bil (gTriplets b) v y := by
  rw [bil_g, bil_g, edges_same (sameNs_of h.length h.ns), h.length]
  congr 1
  exact Finset.sum_congr rfl fun i _ => by rw [h.htc]

theorem grounded_htc {a b : Network K} (ha : Grounded a) (hl : a.length = b.length)
    (hns : ∀ (i : Nat) (n n' : Node K), a[i]? = some n → b[i]? = some n' → n.ns = n'.ns) (hh : ∀ i, htcOf a i ≤ htcOf b i) : Grounded b := by
  have get : ∀ (i : Nat) (n' : Node K), b[i]? = some n' → ∃ n : Node K, a[i]? = some n ∧ n.ns = n'.ns := by
    intro i n' h
    have hlt := (List.getElem?_eq_some_iff.1 h).1
    have ha : a[i]? = some (a[i]'(by omega)) := List.getElem?_eq_getElem (by omega)
    exact ⟨_, ha, hns i _ _ ha h⟩
  refine ⟨?_, ?_, ?_, ?_⟩
  · intro i n' h e he
    obtain ⟨n, hn, hs⟩ := get i n' h
    rw [← hl]
    exact ha.inRange i n hn e (by rw [hs]; exact he)
  · intro n' h e he
    obtain ⟨i, hi⟩ := List.getElem?_of_mem h
    obtain ⟨n, hn, hs⟩ := get i n' hi
    exact ha.resistance n (List.mem_of_getElem? hn) e (by rw [hs]; exact he)
  · intro n' h
    obtain ⟨i, hi⟩ := List.getElem?_of_mem h
    have e : htcOf b i = n'.htc := by unfold htcOf; rw [hi]
    rw [← e]
    exact (htc_nonneg ha i).trans (hh i)
  · intro i hi
    obtain ⟨c, h1, h2⟩ := ha.ground i (by omega)
    refine ⟨c, ?_, h2.trans_le (hh c)⟩
    have : Adj b = Adj a := by
      funext x y
      unfold Adj
      rw [edges_same (sameNs_of hl hns)]
    rw [this]
    exact h1

theorem grounded_same {a b : Network K} (h : Same a b) (ha : Grounded a) : Grounded b := grounded_htc ha h.length h.ns fun i => (h.htc i).le

/-- the network with other heat flows -/
def withHF (net : Network K) (q : Nat → K) : Network K := net.zipIdx.map fun p => { p.1 with hf := q p.2 }

theorem withHF_get (net : Network K) (q : Nat → K) (i : Nat) : (withHF net q)[i]? = net[i]?.map fun n => { n with hf := q i } := by
  unfold withHF
  rw [List.getElem?_map, List.getElem?_zipIdx, Option.map_map, Nat.zero_add]
  rfl

theorem withHF_same (net : Network K) (q : Nat → K) : Same net (withHF net q) := by
  refine ⟨by simp [withHF], ?_, ?_⟩
  · intro i n n' h h'
    rw [withHF_get, h, Option.map_some, Option.some.injEq] at h'
    rw [← h']
  · intro i
    unfold htcOf
    rw [withHF_get]
    cases net[i]? <;> rfl

theorem withHF_hf (net : Network K) (q : Nat → K) {i : Nat} (hi : i < net.length) : hfOf (withHF net q) i = q i := by
  unfold hfOf
  rw [withHF_get, List.getElem?_eq_getElem hi]
  rfl

/-! ## weak forms -/

section
variable [IsStrictOrderedRing K]

/-- what the system says about the differences from the reference temperature -/
theorem rise {net : Network K} {refT : K} {x : Nat → K} (hx : Solves net refT x) {i : Nat} (hi : i < net.length) :
    mulVec (gTriplets net) (fun k => x k - refT) i = hfOf net i := by
  have e1 := (solves_iff refT x).1 hx i hi
  have e2 := const_mulVec net refT i hi
  rw [mulVec_eq_bil] at e1 e2 ⊢
  rw [bil_sub, e1, e2]
  ring

/-- every function against the rise of the temperature -/
theorem weak {net : Network K} (hr : InRange net) {refT : K} {x : Nat → K} (hx : Solves net refT x) (v : Nat → K) :
    bil (gTriplets net) v (fun k => x k - refT) = ∑ i ∈ range net.length, v i * hfOf net i := by
  rw [← bil_eq_sum net.length v _ (gTriplets net) fun t ht => (mem_gTriplets hr ht).1]
  refine Finset.sum_congr rfl fun i hi => ?_
  rw [rise hx (Finset.mem_range.1 hi)]

omit [IsStrictOrderedRing K] in
theorem bil_comm (net : Network K) (v y : Nat → K) : bil (gTriplets net) v y = bil (gTriplets net) y v := by
  rw [bil_g, bil_g]
  congr 1
  · congr 1
    apply List.map_congr_left
    intro e _
    ring
  · exact Finset.sum_congr rfl fun i _ => by ring

theorem bil_nonneg {net : Network K} (h : Grounded net) (w : Nat → K) : 0 ≤ bil (gTriplets net) w w := by
  rw [bil_g]
  apply add_nonneg
  · apply List.sum_nonneg
    intro z hz
    rw [List.mem_map] at hz
    obtain ⟨e, he, rfl⟩ := hz
    rw [mul_assoc]
    exact mul_nonneg (edge_pos h he).le (mul_self_nonneg _)
  · apply Finset.sum_nonneg
    intro i _
    rw [mul_assoc]
    exact mul_nonneg (htc_nonneg h i) (mul_self_nonneg _)

/-- functions whose image under the matrix is nowhere negative are nowhere negative -/
theorem comparison {net : Network K} (h : Grounded net) {d : Nat → K} (hd : ∀ i < net.length, 0 ≤ mulVec (gTriplets net) d i) :
    ∀ i < net.length, 0 ≤ d i := by
  have hs := withHF_same net fun i => mulVec (gTriplets net) d i
  have hsol : Solves (withHF net fun i => mulVec (gTriplets net) d i) 0 d := by
    rw [solves_iff]
    intro i hi
    have hi' : i < net.length := by rw [hs.length]; exact hi
    rw [withHF_hf _ _ hi', mul_zero, add_zero, mulVec_eq_bil, mulVec_eq_bil, bil_same hs]
  intro i hi
  refine lower_bound (grounded_same hs h) hsol ?_ i (by rw [← hs.length]; exact hi)
  intro n hn
  obtain ⟨k, hk⟩ := List.getElem?_of_mem hn
  have hkl : k < net.length := by rw [hs.length]; exact (List.getElem?_eq_some_iff.1 hk).1
  have e : hfOf (withHF net fun i => mulVec (gTriplets net) d i) k = n.hf := by unfold hfOf; rw [hk]
  rw [← e, withHF_hf _ _ hkl]
  exact hd k hkl

/-! ## the claim -/

/-- C126, superposition: if the heat flows of a network are a combination of those of two others, the rises of its temperatures are the same
combination of theirs. -/
theorem c126_superposition {a b s : Network K} (hg : Grounded s) (ha : Same s a) (hb : Same s b) (p q : K)
    (hs : ∀ i < s.length, hfOf s i = p * hfOf a i + q * hfOf b i) {refT : K} {x y z : Nat → K}
    (hx : Solves a refT x) (hy : Solves b refT y) (hz : Solves s refT z) :
    ∀ i < s.length, z i - refT = p * (x i - refT) + q * (y i - refT) := by
  have hsol : Solves s refT fun i => refT + (p * (x i - refT) + q * (y i - refT)) := by
    rw [solves_iff]
    intro i hi
    have e1 := rise hx (i := i) (by rw [← ha.length]; exact hi)
    have e2 := rise hy (i := i) (by rw [← hb.length]; exact hi)
    have e3 := const_mulVec s refT i hi
    rw [mulVec_eq_bil] at e1 e2 e3 ⊢
    rw [← bil_same ha] at e1
    rw [← bil_same hb] at e2
    have lin : ∀ (ts : Triplets K) (v f g h : Nat → K), bil ts v (fun i => f i + (p * g i + q * h i)) = bil ts v f + (p * bil ts v g + q * bil ts v h) := by
      intro ts v f g h
      unfold bil
      induction ts with
      | nil => simp
      | cons t ts ih =>
        simp only [List.map_cons, List.sum_cons, ih]
        ring
    rw [lin (gTriplets s) (delta i) (fun _ => refT) (fun k => x k - refT) (fun k => y k - refT), e1, e2, e3, hs i hi]
    ring
  intro i hi
  rw [(c30_maximum hg refT z hz).1 _ hsol i hi]
  ring

/-- C126, monotonicity: where more heat flows in nowhere less, no node becomes colder. -/
theorem c126_monotone {a b : Network K} (hg : Grounded a) (h : Same a b) (hf : ∀ i < a.length, hfOf a i ≤ hfOf b i) {refT : K} {x y : Nat → K}
    (hx : Solves a refT x) (hy : Solves b refT y) : ∀ i < a.length, x i ≤ y i := by
  have := comparison hg (d := fun i => (y i - refT) - (x i - refT)) fun i hi => by
    have e1 := rise hx hi
    have e2 := rise hy (i := i) (by rw [← h.length]; exact hi)
    rw [mulVec_eq_bil] at e1 e2 ⊢
    rw [← bil_same h] at e2
    rw [bil_sub, e1, e2]
    have := hf i hi
    linarith
  intro i hi
  have := this i hi
  linarith

/-- C126, reciprocity: the heat flows of one network at the temperatures of the other, and the other way round.  If one is heated at one
node and the other at another by the same power, each heats the node of the other by the same. -/
theorem c126_reciprocity {a b : Network K} (hg : Grounded a) (h : Same a b) {refT : K} {x y : Nat → K} (hx : Solves a refT x) (hy : Solves b refT y) :
    (∑ i ∈ range a.length, hfOf a i * (y i - refT) = ∑ i ∈ range a.length, hfOf b i * (x i - refT)) ∧
    ∀ i j p, i < a.length → j < a.length → p ≠ 0 → (∀ k, hfOf a k = if k = i then p else 0) → (∀ k, hfOf b k = if k = j then p else 0) →
      y i - refT = x j - refT := by
  have e1 := weak hg.inRange hx fun k => y k - refT
  have e2 := weak (grounded_same h hg).inRange hy fun k => x k - refT
  rw [← bil_same h, bil_comm, e1, ← h.length] at e2
  have e3 : ∑ i ∈ range a.length, hfOf a i * (y i - refT) = ∑ i ∈ range a.length, hfOf b i * (x i - refT) := by
    rw [Finset.sum_congr rfl fun i _ => mul_comm (hfOf a i) _, e2]
    exact Finset.sum_congr rfl fun i _ => mul_comm _ _
  refine ⟨e3, fun i j p hi hj hp h1 h2 => ?_⟩
  rw [Finset.sum_eq_single i (fun k _ hk => by rw [h1, if_neg hk, zero_mul]) (fun hn => absurd (Finset.mem_range.2 hi) hn),
    Finset.sum_eq_single j (fun k _ hk => by rw [h2, if_neg hk, zero_mul]) (fun hn => absurd (Finset.mem_range.2 hj) hn), h1, h2,
    if_pos rfl, if_pos rfl] at e3
  exact mul_left_cancel₀ hp e3

/-- C126, the hottest node is heated: if all heated nodes are at most at temperature `t`, which is not below the reference, so are all nodes. -/
theorem c126_hottest {net : Network K} (hg : Grounded net) {refT t : K} {x : Nat → K} (hx : Solves net refT x) (ht : refT ≤ t)
    (hs : ∀ i < net.length, 0 < hfOf net i → x i ≤ t) : ∀ i < net.length, x i ≤ t := by
  let w : Nat → K := fun i => max (x i - t) 0
  have hw := weak hg.inRange hx w
  have hle : ∑ i ∈ range net.length, w i * hfOf net i ≤ 0 := by
    apply Finset.sum_nonpos
    intro i hi
    by_cases hp : 0 < hfOf net i
    · have : w i = 0 := max_eq_right (by have := hs i (Finset.mem_range.1 hi) hp; linarith)
      rw [this, zero_mul]
    · exact mul_nonpos_of_nonneg_of_nonpos (le_max_right _ _) (not_lt.1 hp)
  rw [← hw, bil_g] at hle
  have hterm : ∀ p q : K, (max (p - t) 0 - max (q - t) 0) * (max (p - t) 0 - max (q - t) 0) ≤
      (max (p - t) 0 - max (q - t) 0) * (p - refT - (q - refT)) := by
    intro p q
    rcases le_total (p - t) 0 with h1 | h1 <;> rcases le_total (q - t) 0 with h2 | h2
    · rw [max_eq_right h1, max_eq_right h2]; simp
    · rw [max_eq_right h1, max_eq_left h2]; nlinarith
    · rw [max_eq_left h1, max_eq_right h2]; nlinarith
    · rw [max_eq_left h1, max_eq_left h2]; nlinarith
  have hself : ∀ p : K, max (p - t) 0 * max (p - t) 0 ≤ max (p - t) 0 * (p - refT) := by
    intro p
    rcases le_total (p - t) 0 with h1 | h1
    · rw [max_eq_right h1]; simp
    · rw [max_eq_left h1]; nlinarith
  have hE : ((edges net).map fun e => e.2.2 * (w e.1 - w e.2.1) * (w e.1 - w e.2.1)).sum +
      ∑ i ∈ range net.length, htcOf net i * w i * w i ≤ 0 := by
    refine le_trans (add_le_add ?_ ?_) hle
    · apply List.sum_le_sum
      intro e he
      rw [mul_assoc, mul_assoc]
      exact mul_le_mul_of_nonneg_left (hterm _ _) (edge_pos hg he).le
    · apply Finset.sum_le_sum
      intro i _
      rw [mul_assoc, mul_assoc]
      exact mul_le_mul_of_nonneg_left (hself _) (htc_nonneg hg i)
  intro i hi
  have h0 : max (x i - t) 0 = 0 := energy_zero hg hE i hi
  rw [max_eq_right_iff] at h0
  linarith

/-- C126, better cooling: if no node is cooled by a heat flow, larger transfer coefficients make no node hotter. -/
theorem c126_cooling {a b : Network K} (hg : Grounded a) (h : Cooler a b) (hf : ∀ n ∈ a, 0 ≤ n.hf) {refT : K} {x y : Nat → K}
    (hx : Solves a refT x) (hy : Solves b refT y) : ∀ i < a.length, y i ≤ x i := by
  have hgb := grounded_htc hg h.length h.ns h.htc
  have hlow := lower_bound hg hx hf
  have := comparison hgb (d := fun i => (x i - refT) - (y i - refT)) fun i hi => by
    have hi' : i < a.length := by rw [h.length]; exact hi
    have e1 := rise hx hi'
    have e2 := rise hy hi
    rw [mulVec_eq_bil] at e1 e2 ⊢
    rw [bil_sub, e2]
    have e3 : bil (gTriplets b) (delta i) (fun k => x k - refT) = bil (gTriplets a) (delta i) (fun k => x k - refT) + (htcOf b i - htcOf a i) * (x i - refT) := by
      have hd : ∀ net : Network K, i < net.length → ∑ k ∈ range net.length, htcOf net k * delta i k * (x k - refT) = htcOf net i * (x i - refT) := by
        intro net hn
        rw [Finset.sum_eq_single i]
        · simp [delta]
        · intro k _ hk; simp [delta, hk]
        · intro hm; exact absurd (Finset.mem_range.2 hn) hm
      rw [bil_g, bil_g, edges_same (sameNs_of h.length h.ns), hd a hi', hd b hi]
      ring
    rw [e3, e1, h.hf]
    have h1 := hlow i hi'
    have h2 := h.htc i
    have := mul_nonneg (sub_nonneg.2 h2) (sub_nonneg.2 h1)
    linarith
  intro i hi
  have := this i (by rw [← h.length]; exact hi)
  linarith

theorem edges_le : ∀ {l l' : List (List (Nat × K))} (n : Nat), List.Forall₂ (List.Forall₂ fun e e' => e'.1 = e.1 ∧ 0 < e'.2 ∧ e'.2 ≤ e.2) l l' →
    ∀ w : Nat → K,
    (((l.zipIdx n).flatMap fun p => p.1.map fun e => (p.2, e.1, 1 / e.2)).map fun e => e.2.2 * (w e.1 - w e.2.1) * (w e.1 - w e.2.1)).sum ≤
    (((l'.zipIdx n).flatMap fun p => p.1.map fun e => (p.2, e.1, 1 / e.2)).map fun e => e.2.2 * (w e.1 - w e.2.1) * (w e.1 - w e.2.1)).sum := by
  intro l l' n h w
  induction h generalizing n with
  | nil => simp
  | cons h0 _ ih =>
    simp only [List.zipIdx_cons, List.flatMap_cons, List.map_append, List.sum_append]
    refine add_le_add ?_ (ih (n + 1))
    clear ih
    induction h0 with
    | nil => simp
    | cons he _ ih' =>
      simp only [List.map_cons, List.sum_cons]
      refine add_le_add ?_ ih'
      rw [he.1, mul_assoc, mul_assoc]
      exact mul_le_mul_of_nonneg_right (one_div_le_one_div_of_le he.2.1 he.2.2) (mul_self_nonneg _)

/-- C126, better conduction: smaller resistances and larger transfer coefficients do not raise the mean of the temperatures weighted with the heat
flows.  If only one node is heated, it becomes no hotter. -/
theorem c126_conduction {a b : Network K} (hga : Grounded a) (hgb : Grounded b) (h : Better a b) {refT : K} {x y : Nat → K}
    (hx : Solves a refT x) (hy : Solves b refT y) :
    (∑ i ∈ range a.length, hfOf a i * (y i - refT) ≤ ∑ i ∈ range a.length, hfOf a i * (x i - refT)) ∧
    ∀ i p, i < a.length → 0 < p → (∀ k, hfOf a k = if k = i then p else 0) → y i ≤ x i := by
  have key : ∑ i ∈ range a.length, hfOf a i * (y i - refT) ≤ ∑ i ∈ range a.length, hfOf a i * (x i - refT) := by
    have hE : bil (gTriplets a) (fun k => y k - refT) (fun k => y k - refT) ≤ bil (gTriplets b) (fun k => y k - refT) (fun k => y k - refT) := by
      rw [bil_g, bil_g, edges_ns, edges_ns, h.length]
      refine add_le_add ?_ (Finset.sum_le_sum fun i _ => ?_)
      · refine edges_le (l := a.map Node.ns) (l' := b.map Node.ns) 0 ?_ fun k => y k - refT
        rw [List.forall₂_map_left_iff, List.forall₂_map_right_iff, List.forall₂_iff_get]
        refine ⟨h.length, fun i h1 h2 => ?_⟩
        exact h.ns i _ _ (List.getElem?_eq_getElem h1) (List.getElem?_eq_getElem h2)
      · rw [mul_assoc, mul_assoc]
        exact mul_le_mul_of_nonneg_right (h.htc i) (mul_self_nonneg _)
    have e1 := weak hga.inRange hx fun k => y k - refT
    have e2 := weak hga.inRange hx fun k => x k - refT
    have e3 := weak hgb.inRange hy fun k => y k - refT
    rw [← h.length, Finset.sum_congr rfl fun i _ => by rw [← h.hf i]] at e3
    have hpos := bil_nonneg hga fun k => (fun k => y k - refT) k - (fun k => x k - refT) k
    have e4 : bil (gTriplets a) (fun k => (fun k => y k - refT) k - (fun k => x k - refT) k) (fun k => (fun k => y k - refT) k - (fun k => x k - refT) k) =
        bil (gTriplets a) (fun k => y k - refT) (fun k => y k - refT) - 2 * bil (gTriplets a) (fun k => y k - refT) (fun k => x k - refT) +
        bil (gTriplets a) (fun k => x k - refT) (fun k => x k - refT) := by
      generalize (fun k => y k - refT) = u
      generalize (fun k => x k - refT) = z
      have e : ∀ v : Nat → K, bil (gTriplets a) v (fun k => u k - z k) = bil (gTriplets a) v u - bil (gTriplets a) v z := fun v => bil_sub _ v u z
      rw [e, bil_comm a _ u, bil_comm a _ z, e, e, bil_comm a z u]
      ring
    rw [e4, e1, e2] at hpos
    rw [e3] at hE
    rw [Finset.sum_congr rfl fun i _ => mul_comm (hfOf a i) _, Finset.sum_congr rfl fun i _ => mul_comm (hfOf a i) (x i - refT)]
    linarith
  refine ⟨key, fun i p hi hp h1 => ?_⟩
  rw [Finset.sum_eq_single i (fun k _ hk => by rw [h1, if_neg hk, zero_mul]) (fun hn => absurd (Finset.mem_range.2 hi) hn),
    Finset.sum_eq_single i (fun k _ hk => by rw [h1, if_neg hk, zero_mul]) (fun hn => absurd (Finset.mem_range.2 hi) hn), h1, if_pos rfl] at key
  have := le_of_mul_le_mul_left key hp
  linarith

end

/-! ## example -/

/-- the network of C30 heated at the second node, with 5 as at the first there -/
def exOther : Network ℚ := withHF exNet fun i => if i = 1 then 5 else 0

/-- temperatures of the two: each heats the node of the other to 175/6 -/
example : Same exNet exOther ∧
    (∀ i < exNet.length, mulVec (gTriplets exNet) (fun i => if i = 0 then 185 / 6 else if i = 1 then 175 / 6 else 55 / 2) i = systemRhs exNet true 25 i) ∧
    (∀ i < exOther.length, mulVec (gTriplets exOther) (fun i => if i = 0 then 175 / 6 else if i = 1 then 185 / 6 else 55 / 2) i = systemRhs exOther true 25 i) :=
  ⟨withHF_same _ _, by decide +kernel, by decide +kernel⟩

/-- a better cooled network, with a smaller resistance between the first nodes -/
example : Cooler exNet [⟨0, none, 1, 5, 0, [(1, 1), (2, 1)]⟩, ⟨0, none, 1, 0, 1, [(2, 1)]⟩, ⟨0, none, 2, 0, 2, []⟩] ∧
    Better exNet [⟨0, none, 1, 5, 0, [(1, 1 / 2), (2, 1)]⟩, ⟨0, none, 1, 0, 1, [(2, 1)]⟩, ⟨0, none, 2, 0, 2, []⟩] := by
  refine ⟨⟨rfl, ?_, ?_, ?_⟩, ⟨rfl, ?_, ?_, ?_⟩⟩
  · intro i n n' h h'
    match i, h, h' with
    | 0, h, h' => injection h with h; injection h' with h'; subst h; subst h'; rfl
    | 1, h, h' => injection h with h; injection h' with h'; subst h; subst h'; rfl
    | 2, h, h' => injection h with h; injection h' with h'; subst h; subst h'; rfl
  · intro i
    match i with
    | 0 => decide +kernel
    | 1 => decide +kernel
    | 2 => decide +kernel
    | i + 3 => exact le_refl _
  · intro i
    match i with
    | 0 => rfl
    | 1 => rfl
    | 2 => rfl
    | i + 3 => rfl
  · intro i n n' h h'
    match i, h, h' with
    | 0, h, h' =>
      injection h with h; injection h' with h'; subst h; subst h'
      exact .cons ⟨rfl, by norm_num, by norm_num⟩ (.cons ⟨rfl, by norm_num, le_refl _⟩ .nil)
    | 1, h, h' =>
      injection h with h; injection h' with h'; subst h; subst h'
      exact .cons ⟨rfl, by norm_num, le_refl _⟩ .nil
    | 2, h, h' => injection h with h; injection h' with h'; subst h; subst h'; exact .nil
  · intro i
    match i with
    | 0 => decide +kernel
    | 1 => decide +kernel
    | 2 => decide +kernel
    | i + 3 => exact le_refl _
  · intro i
    match i with
    | 0 => rfl
    | 1 => rfl
    | 2 => rfl
    | i + 3 => rfl

end Ecad.Response
