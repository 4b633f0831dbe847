import Verif.Thermal.MnaProps
import Mathlib.Algebra.Order.BigOperators.Group.List
import Mathlib.Algebra.Order.BigOperators.Group.Finset
import Mathlib.LinearAlgebra.FiniteDimensional.Lemmas
/-!
C30, C60.
-/
namespace Ecad.Thermal

open Finset

variable {K : Type} [Field K] [LinearOrder K]

/-- a resistor between two nodes -/
def Adj (net : Network K) (a b : Nat) : Prop := ∃ g, (a, b, g) ∈ edges net ∨ (b, a, g) ∈ edges net

/-- The networks of the claim: neighbours exist, resistances are positive, heat transfer coefficients are
not negative, and every node is connected to one with positive heat transfer. -/
structure Grounded (net : Network K) : Prop where
  inRange : InRange net
  resistance : ∀ n ∈ net, ∀ e ∈ n.ns, 0 < e.2
  htc : ∀ n ∈ net, 0 ≤ n.htc
  ground : ∀ i < net.length, ∃ b, Relation.ReflTransGen (Adj net) i b ∧ 0 < htcOf net b

theorem mem_edges {net : Network K} {e : Nat × Nat × K} (he : e ∈ edges net) :
    ∃ n, net[e.1]? = some n ∧ ∃ r, (e.2.1, r) ∈ n.ns ∧ e.2.2 = 1 / r := by
  unfold edges at he
  rw [List.mem_flatMap] at he
  obtain ⟨⟨n, i⟩, hp, he⟩ := he
  rw [List.mem_zipIdx_iff_getElem?] at hp
  rw [List.mem_map] at he
  obtain ⟨⟨j, r⟩, hj, rfl⟩ := he
  exact ⟨n, hp, r, hj, rfl⟩

theorem htc_nonneg {net : Network K} (h : Grounded net) (i : Nat) : 0 ≤ htcOf net i := by
  unfold htcOf
  cases hn : net[i]? with
  | none => exact le_refl _
  | some n => exact h.htc n (List.mem_of_getElem? hn)

variable [IsStrictOrderedRing K]

theorem edge_pos {net : Network K} (h : Grounded net) {e : Nat × Nat × K} (he : e ∈ edges net) : 0 < e.2.2 := by
  obtain ⟨n, hn, r, hr, he⟩ := mem_edges he
  rw [he]
  have := h.resistance n (List.mem_of_getElem? hn) _ hr
  simp only at this
  positivity

/-- If the energy of a function vanishes, it vanishes at every node. -/
theorem energy_zero {net : Network K} (h : Grounded net) {w : Nat → K}
    (hz : ((edges net).map fun e => e.2.2 * (w e.1 - w e.2.1) * (w e.1 - w e.2.1)).sum +
      ∑ i ∈ range net.length, htcOf net i * w i * w i ≤ 0) : ∀ i < net.length, w i = 0 := by
  have h1 : 0 ≤ ((edges net).map fun e => e.2.2 * (w e.1 - w e.2.1) * (w e.1 - w e.2.1)).sum := by
    apply List.sum_nonneg
    intro x hx
    rw [List.mem_map] at hx
    obtain ⟨e, he, rfl⟩ := hx
    have := edge_pos h he
    rw [mul_assoc]
    exact mul_nonneg this.le (mul_self_nonneg _)
  have h2 : 0 ≤ ∑ i ∈ range net.length, htcOf net i * w i * w i := by
    apply Finset.sum_nonneg
    intro i _
    rw [mul_assoc]
    exact mul_nonneg (htc_nonneg h i) (mul_self_nonneg _)
  have h3 : ((edges net).map fun e => e.2.2 * (w e.1 - w e.2.1) * (w e.1 - w e.2.1)).sum = 0 := by linarith
  have h4 : ∑ i ∈ range net.length, htcOf net i * w i * w i = 0 := by linarith
  have hedge : ∀ e ∈ edges net, w e.1 = w e.2.1 := by
    intro e he
    have hle : e.2.2 * (w e.1 - w e.2.1) * (w e.1 - w e.2.1) ≤ 0 := by
      rw [← h3]
      apply List.single_le_sum
      · intro x hx
        rw [List.mem_map] at hx
        obtain ⟨e', he', rfl⟩ := hx
        rw [mul_assoc]
        exact mul_nonneg (edge_pos h he').le (mul_self_nonneg _)
      · exact List.mem_map.2 ⟨e, he, rfl⟩
    have hp := edge_pos h he
    rw [mul_assoc] at hle
    have hsq : (w e.1 - w e.2.1) * (w e.1 - w e.2.1) = 0 := by
      have h5 := mul_self_nonneg (w e.1 - w e.2.1)
      by_contra hc
      have : 0 < (w e.1 - w e.2.1) * (w e.1 - w e.2.1) := lt_of_le_of_ne h5 (Ne.symm hc)
      have := mul_pos hp this
      linarith
    have := mul_self_eq_zero.1 hsq
    linarith
  have hadj : ∀ a b, Relation.ReflTransGen (Adj net) a b → w a = w b := by
    intro a b hab
    induction hab with
    | refl => rfl
    | tail _ hs ih =>
      rw [ih]
      obtain ⟨g, hg | hg⟩ := hs
      · exact hedge _ hg
      · exact (hedge _ hg).symm
  intro i hi
  obtain ⟨b, hb, hpos⟩ := h.ground i hi
  rw [hadj i b hb]
  have hbl : b < net.length := by
    by_contra hc
    unfold htcOf at hpos
    rw [List.getElem?_eq_none (by omega)] at hpos
    simp at hpos
  have := (Finset.sum_eq_zero_iff_of_nonneg (fun i _ => by
    rw [mul_assoc]
    exact mul_nonneg (htc_nonneg h i) (mul_self_nonneg _))).1 h4 b (Finset.mem_range.2 hbl)
  rw [mul_assoc] at this
  rcases mul_eq_zero.1 this with h6 | h6
  · rw [h6] at hpos; exact absurd hpos (lt_irrefl _)
  · exact mul_self_eq_zero.1 h6

theorem solves_iff {net : Network K} (refT : K) (x : Nat → K) :
    Solves net refT x ↔ ∀ i < net.length, mulVec (gTriplets net) x i = hfOf net i + htcOf net i * refT := by
  unfold Solves
  constructor
  · intro h i hi
    rw [h i hi, (c31_rhs net refT).1 i _ (List.getElem?_eq_getElem hi)]
    simp [hfOf, htcOf, List.getElem?_eq_getElem hi]
  · intro h i hi
    rw [h i hi, (c31_rhs net refT).1 i _ (List.getElem?_eq_getElem hi)]
    simp [hfOf, htcOf, List.getElem?_eq_getElem hi]

omit [IsStrictOrderedRing K] [LinearOrder K] in
theorem bil_sub (ts : Triplets K) (v x y : Nat → K) : bil ts v (fun i => x i - y i) = bil ts v x - bil ts v y := by
  unfold bil
  induction ts with
  | nil => simp
  | cons t ts ih =>
    simp only [List.map_cons, List.sum_cons, ih]
    ring

theorem const_mulVec (net : Network K) (c : K) (i : Nat) (hi : i < net.length) :
    mulVec (gTriplets net) (fun _ => c) i = htcOf net i * c := by
  rw [mulVec_eq_bil, bil_g]
  simp only [sub_self, mul_zero, List.map_const']
  rw [List.sum_replicate, smul_zero, zero_add, Finset.sum_eq_single i]
  · simp [delta]
  · intro b _ hb; simp [delta, hb]
  · intro hn; exact absurd (Finset.mem_range.2 hi) hn

theorem lower_bound {net : Network K} (h : Grounded net) {refT : K} {x : Nat → K} (hx : Solves net refT x)
    (hhf : ∀ n ∈ net, 0 ≤ n.hf) : ∀ i < net.length, refT ≤ x i := by
  rw [solves_iff] at hx
  let y : Nat → K := fun i => x i - refT
  let w : Nat → K := fun i => min (y i) 0
  have hy : ∀ i < net.length, mulVec (gTriplets net) y i = hfOf net i := by
    intro i hi
    have e1 := hx i hi
    have e2 := const_mulVec net refT i hi
    rw [mulVec_eq_bil] at e1 e2 ⊢
    have := bil_sub (gTriplets net) (delta i) x (fun _ => refT)
    show bil (gTriplets net) (delta i) (fun i => x i - refT) = _
    rw [this, e1, e2]
    ring
  have hb := bil_eq_sum net.length w y (gTriplets net) (fun t ht => (mem_gTriplets h.inRange ht).1)
  rw [bil_g] at hb
  have hle : ∑ i ∈ range net.length, w i * mulVec (gTriplets net) y i ≤ 0 := by
    apply Finset.sum_nonpos
    intro i hi
    have hi' := Finset.mem_range.1 hi
    rw [hy i hi']
    have hw : w i ≤ 0 := min_le_right _ _
    have hh : 0 ≤ hfOf net i := by
      unfold hfOf
      rw [List.getElem?_eq_getElem hi']
      exact hhf _ (List.getElem_mem hi')
    exact mul_nonpos_of_nonpos_of_nonneg hw hh
  rw [hb] at hle
  -- the energy of `w` is at most the weak form
  have hterm : ∀ a b : K, (min a 0 - min b 0) * (min a 0 - min b 0) ≤ (min a 0 - min b 0) * (a - b) := by
    intro a b
    rcases le_total a 0 with ha | ha <;> rcases le_total b 0 with hb | hb
    · rw [min_eq_left ha, min_eq_left hb]
    · rw [min_eq_left ha, min_eq_right hb]; nlinarith
    · rw [min_eq_right ha, min_eq_left hb]; nlinarith
    · rw [min_eq_right ha, min_eq_right hb]; simp
  have hself : ∀ a : K, min a 0 * min a 0 ≤ min a 0 * a := by
    intro a
    rcases le_total a 0 with ha | ha
    · rw [min_eq_left ha]
    · rw [min_eq_right ha]; simp
  have hE : ((edges net).map fun e => e.2.2 * (w e.1 - w e.2.1) * (w e.1 - w e.2.1)).sum +
      ∑ i ∈ range net.length, htcOf net i * w i * w i ≤ 0 := by
    refine le_trans (add_le_add ?_ ?_) hle
    · apply List.sum_le_sum
      intro e he
      have := edge_pos h he
      rw [mul_assoc, mul_assoc]
      exact mul_le_mul_of_nonneg_left (hterm _ _) this.le
    · apply Finset.sum_le_sum
      intro i _
      rw [mul_assoc, mul_assoc]
      exact mul_le_mul_of_nonneg_left (hself _) (htc_nonneg h i)
  intro i hi
  have hw := energy_zero h hE i hi
  have : min (x i - refT) 0 = 0 := hw
  rw [min_eq_right_iff] at this
  linarith

/-- the negated network: opposite heat flows -/
theorem neg_solves {net : Network K} {refT : K} {x : Nat → K} (hx : Solves net refT x) :
    Solves (net.map fun n => { n with hf := -n.hf }) refT (fun i => 2 * refT - x i) := by
  rw [solves_iff] at hx ⊢
  intro i hi
  rw [List.length_map] at hi
  have hhtc : ∀ k, htcOf (net.map fun n => { n with hf := -n.hf }) k = htcOf net k := by
    intro k
    simp only [htcOf, List.getElem?_map]
    cases net[k]? <;> rfl
  have hhf : hfOf (net.map fun n => { n with hf := -n.hf }) i = -hfOf net i := by
    simp only [hfOf, List.getElem?_map, List.getElem?_eq_getElem hi, Option.map_some]
  have hg : gTriplets (net.map fun n => { n with hf := -n.hf }) = gTriplets net := by
    unfold gTriplets
    rw [List.zipIdx_map, List.flatMap_map]
    rfl
  rw [hhtc, hhf, hg]
  have e1 := hx i hi
  have e2 := const_mulVec net (2 * refT) i hi
  rw [mulVec_eq_bil] at e1 e2 ⊢
  have := bil_sub (gTriplets net) (delta i) (fun _ => 2 * refT) x
  rw [this, e1, e2]
  ring

/-- **C30.** In a grounded network the temperatures solving the system are unique; if no heat is
extracted they are nowhere below the reference temperature; if none is put in, nowhere above;
and without heat sources they are all equal to it. -/
theorem c30_maximum {net : Network K} (h : Grounded net) (refT : K) (x : Nat → K) (hx : Solves net refT x) :
    (∀ y, Solves net refT y → ∀ i < net.length, x i = y i) ∧
    ((∀ n ∈ net, 0 ≤ n.hf) → ∀ i < net.length, refT ≤ x i) ∧
    ((∀ n ∈ net, n.hf ≤ 0) → ∀ i < net.length, x i ≤ refT) ∧
    ((∀ n ∈ net, n.hf = 0) → ∀ i < net.length, x i = refT) := by
  have hup : (∀ n ∈ net, n.hf ≤ 0) → ∀ i < net.length, x i ≤ refT := by
    intro hhf i hi
    have hg' : Grounded (net.map fun n => { n with hf := -n.hf }) := by
      have hed : edges (net.map fun n => { n with hf := -n.hf }) = edges net := by
        unfold edges
        rw [List.zipIdx_map, List.flatMap_map]
        rfl
      refine ⟨?_, ?_, ?_, ?_⟩
      · intro k n hn e he
        rw [List.getElem?_map, Option.map_eq_some_iff] at hn
        obtain ⟨m, hm, rfl⟩ := hn
        rw [List.length_map]
        exact h.inRange k m hm e he
      · intro n hn
        rw [List.mem_map] at hn
        obtain ⟨m, hm, rfl⟩ := hn
        exact h.resistance m hm
      · intro n hn
        rw [List.mem_map] at hn
        obtain ⟨m, hm, rfl⟩ := hn
        exact h.htc m hm
      · intro k hk
        rw [List.length_map] at hk
        obtain ⟨b, hb, hp⟩ := h.ground k hk
        refine ⟨b, ?_, ?_⟩
        · have : Adj (net.map fun n => { n with hf := -n.hf }) = Adj net := by
            funext a b; unfold Adj; rw [hed]
          rw [this]; exact hb
        · simp only [htcOf, List.getElem?_map] at hp ⊢
          cases hn : net[b]? with
          | none => rw [hn] at hp; simp at hp
          | some n => rw [hn] at hp; exact hp
    have := lower_bound hg' (neg_solves hx) (by
      intro n hn
      rw [List.mem_map] at hn
      obtain ⟨m, hm, rfl⟩ := hn
      simp only
      have := hhf m hm
      linarith) i (by rw [List.length_map]; exact hi)
    linarith
  refine ⟨?_, lower_bound h hx, hup, ?_⟩
  · intro y hy i hi
    let d : Nat → K := fun i => x i - y i
    have hd : ∀ i < net.length, mulVec (gTriplets net) d i = 0 := by
      intro i hi
      have e1 := (solves_iff refT x).1 hx i hi
      have e2 := (solves_iff refT y).1 hy i hi
      rw [mulVec_eq_bil] at e1 e2 ⊢
      show bil _ _ (fun i => x i - y i) = 0
      rw [bil_sub, e1, e2]
      ring
    have hb := bil_eq_sum net.length d d (gTriplets net) (fun t ht => (mem_gTriplets h.inRange ht).1)
    rw [bil_g, Finset.sum_eq_zero (by
      intro i hi
      rw [hd i (Finset.mem_range.1 hi), mul_zero])] at hb
    have := energy_zero h (w := d) (by rw [← hb]) i hi
    have : x i - y i = 0 := this
    linarith
  · intro hz i hi
    exact le_antisymm (hup (fun n hn => (hz n hn).le) i hi) (lower_bound h hx (fun n hn => (hz n hn).ge) i hi)

/-- ... and there is a solution. -/
theorem c30_exists {net : Network K} (h : Grounded net) (refT : K) : ∃ x, Solves net refT x := by
  let n := net.length
  let ext : (Fin n → K) → Nat → K := fun v i => if hi : i < n then v ⟨i, hi⟩ else 0
  let f : (Fin n → K) →ₗ[K] (Fin n → K) :=
    { toFun := fun v i => ∑ j : Fin n, entry (gTriplets net) i j * v j
      map_add' := by
        intro a b; funext i
        simp only [Pi.add_apply, mul_add, Finset.sum_add_distrib]
      map_smul' := by
        intro c a; funext i
        simp only [Pi.smul_apply, smul_eq_mul, RingHom.id_apply, Finset.mul_sum]
        apply Finset.sum_congr rfl
        intro j _
        ring }
  have hf : ∀ v i, f v i = mulVec (gTriplets net) (ext v) i := by
    intro v i
    rw [mulVec_eq_entries n (ext v) i _ (fun t ht => (mem_gTriplets h.inRange ht).2)]
    rw [Finset.sum_range]
    show ∑ j : Fin n, entry (gTriplets net) i j * v j = _
    apply Finset.sum_congr rfl
    intro j _
    simp [ext]
  have hinj : Function.Injective f := by
    rw [injective_iff_map_eq_zero]
    intro v hv
    have hb := bil_eq_sum n (ext v) (ext v) (gTriplets net) (fun t ht => (mem_gTriplets h.inRange ht).1)
    rw [bil_g, Finset.sum_eq_zero (by
      intro i hi
      have := hf v ⟨i, Finset.mem_range.1 hi⟩
      rw [hv] at this
      rw [show mulVec (gTriplets net) (ext v) i = 0 from this.symm, mul_zero])] at hb
    have := energy_zero h (w := ext v) (by rw [← hb])
    funext i
    have := this i i.2
    simpa [ext] using this
  have hsurj : Function.Surjective f := LinearMap.injective_iff_surjective.1 hinj
  obtain ⟨v, hv⟩ := hsurj (fun i => systemRhs net true refT i)
  refine ⟨ext v, ?_⟩
  intro i hi
  have := congrFun hv ⟨i, hi⟩
  rw [hf] at this
  exact this

/-- Without any heat transfer the temperatures are not determined: every shift of a solution is one. -/
theorem c30_floating {net : Network K} (hz : ∀ n ∈ net, n.htc = 0) (refT c : K) (x : Nat → K)
    (hx : Solves net refT x) : Solves net refT (fun i => x i - c) := by
  rw [solves_iff] at hx ⊢
  intro i hi
  have e1 := hx i hi
  have e2 := const_mulVec net c i hi
  have hh : htcOf net i = 0 := by
    unfold htcOf; rw [List.getElem?_eq_getElem hi]; exact hz _ (List.getElem_mem hi)
  rw [mulVec_eq_bil] at e1 e2 ⊢
  rw [bil_sub, e1, e2, hh]
  ring

/-! ### C60 -/

omit [IsStrictOrderedRing K] in
theorem invC_mul (net : Network K) (y : Nat → K) (i : Nat) :
    mulVec (invCTriplets net) y i = (if cOf net i > 0 then 1 / cOf net i else 0) * y i := by
  rw [mulVec_eq_bil]
  unfold invCTriplets
  rw [bil_flatMap]
  have : (net.zipIdx.map fun p => bil (if p.1.c > 0 then stamp1 p.2 (1 / p.1.c) else []) (delta i) y) =
      net.zipIdx.map fun p => (if p.1.c > 0 then 1 / p.1.c else 0) * delta i p.2 * y p.2 := by
    apply List.map_congr_left
    intro p _
    split
    · simp only [bil, stamp1, List.map_cons, List.map_nil, List.sum_cons, List.sum_nil]; ring
    · simp [bil]
  rw [this, sum_zipIdx net (fun n k => (if n.c > 0 then 1 / n.c else 0) * delta i k * y k) (Node.default 0) 0]
  by_cases hi : i < net.length
  · rw [Finset.sum_eq_single i]
    · simp [delta, cOf, List.getElem?_eq_getElem hi, List.getD_eq_getElem?_getD]
    · intro b _ hb; simp [delta, hb]
    · intro hn; exact absurd (Finset.mem_range.2 hi) hn
  · rw [Finset.sum_eq_zero]
    · simp [cOf, List.getElem?_eq_none (show net.length ≤ i by omega)]
    · intro b hb
      have := Finset.mem_range.1 hb
      simp [delta, show b ≠ i by omega]

omit [IsStrictOrderedRing K] [LinearOrder K] in
theorem sum_map_neg' {α : Type _} (l : List α) (f : α → K) : (l.map fun a => -f a).sum = -(l.map f).sum := by
  induction l with
  | nil => simp
  | cons a l ih => simp only [List.map_cons, List.sum_cons, ih]; ring

omit [IsStrictOrderedRing K] in
theorem negG_mul (net : Network K) (x : Nat → K) (i : Nat) :
    mulVec (negGTriplets net) x i = - mulVec (gTriplets net) x i := by
  rw [mulVec_eq_bil, mulVec_eq_bil]
  unfold negGTriplets gTriplets
  rw [bil_flatMap, bil_flatMap, ← sum_map_neg']
  congr 1
  apply List.map_congr_left
  intro p _
  rw [bil_append, bil_flatMap, bil_nodeG, neg_add]
  congr 1
  · rw [← sum_map_neg']
    congr 1
    apply List.map_congr_left
    intro e _
    rw [bil_stamp2]
    ring
  · by_cases h : p.1.htc = 0
    · simp [h, bil]
    · simp only [ne_eq, h, not_false_eq_true, if_true, bil, stamp1, List.map_cons, List.map_nil,
        List.sum_cons, List.sum_nil]
      ring

omit [IsStrictOrderedRing K] in
theorem bonds_entry (net : Network K) (refT : K) (i : Nat) :
    entry (bondsTriplets net refT) i 0 = htcOf net i * refT := by
  rw [entry_eq_bil]
  unfold bondsTriplets
  rw [bil_flatMap]
  have : (net.zipIdx.map fun p => bil (if p.1.htc ≠ 0 then [(p.2, 0, p.1.htc * refT)] else []) (delta i) (delta 0)) =
      net.zipIdx.map fun p => p.1.htc * delta i p.2 * refT := by
    apply List.map_congr_left
    intro p _
    by_cases h : p.1.htc = 0
    · simp [h, bil]
    · simp [h, bil, delta]
  rw [this, htc_sum net (delta i) (fun _ => refT)]
  by_cases hi : i < net.length
  · rw [Finset.sum_eq_single i]
    · simp [delta]
    · intro b _ hb; simp [delta, hb]
    · intro hn; exact absurd (Finset.mem_range.2 hi) hn
  · rw [Finset.sum_eq_zero]
    · simp [htcOf, List.getElem?_eq_none (show net.length ≤ i by omega)]
    · intro b hb
      have := Finset.mem_range.1 hb
      simp [delta, show b ≠ i by omega]

omit [IsStrictOrderedRing K] in
theorem proj_row (net : Network K) : ∀ (i0 s0 i : Nat) (x : Nat → K), i < i0 →
    mulVec (projTriplets i0 s0 net) x i = 0 := by
  induction net with
  | nil => intro i0 s0 i x _; exact mulVec_nil _ _
  | cons n net ih =>
    intro i0 s0 i x hi
    rw [projTriplets]
    split
    · rw [mulVec_cons, if_neg (by omega), ih _ _ _ _ (by omega), add_zero]
    · exact ih _ _ _ _ (by omega)

omit [IsStrictOrderedRing K] in
theorem proj_aux (exc : Nat → K) (net : Network K) : ∀ (i0 i : Nat) (pre : List K), i0 ≤ i →
    mulVec (projTriplets i0 pre.length net) (fun s => (pre ++
      ((net.zipIdx i0).filter fun p => p.1.hf ≠ 0).map fun p => p.1.hf * exc p.2).getD s 0) i =
      match net[i - i0]? with
      | some n => n.hf * exc i
      | none => 0 := by
  induction net with
  | nil => intro i0 i pre _; simp [projTriplets, mulVec]
  | cons n net ih =>
    intro i0 i pre hi
    rw [projTriplets, List.zipIdx_cons]
    by_cases hs : n.hf = 0
    · rw [if_neg (by simp [hs]), List.filter_cons_of_neg (by simp [hs])]
      by_cases hii : i0 = i
      · subst hii
        rw [proj_row _ _ _ _ _ (by omega)]
        simp [hs]
      · rw [ih (i0 + 1) i pre (by omega)]
        have : i - i0 = (i - (i0 + 1)) + 1 := by omega
        rw [this, List.getElem?_cons_succ]
    · rw [if_pos (by simp [hs]), List.filter_cons_of_pos (by simp [hs]), List.map_cons, mulVec_cons]
      by_cases hii : i0 = i
      · subst hii
        rw [if_pos rfl, proj_row _ _ _ _ _ (by omega)]
        simp
      · rw [if_neg hii, zero_add]
        rw [show pre ++ (n.hf * exc i0) :: (((net.zipIdx (i0 + 1)).filter fun p => p.1.hf ≠ 0).map fun p => p.1.hf * exc p.2) =
          (pre ++ [n.hf * exc i0]) ++ (((net.zipIdx (i0 + 1)).filter fun p => p.1.hf ≠ 0).map fun p => p.1.hf * exc p.2)
          by simp]
        have hlen : pre.length + 1 = (pre ++ [n.hf * exc i0]).length := by simp
        rw [hlen, ih (i0 + 1) i _ (by omega)]
        have : i - i0 = (i - (i0 + 1)) + 1 := by omega
        rw [this, List.getElem?_cons_succ]

theorem derivative_eq (net : Network K) (refT : K) (exc x : Nat → K) (i : Nat) :
    derivative net refT exc x i = (if cOf net i > 0 then 1 / cOf net i else 0) *
      (hfOf net i * exc i + htcOf net i * refT - mulVec (gTriplets net) x i) := by
  unfold derivative
  simp only
  rw [invC_mul, invC_mul, invC_mul, negG_mul, bonds_entry]
  have hp := proj_aux exc net 0 i [] (by omega)
  simp only [List.length_nil, List.nil_append, Nat.sub_zero] at hp
  rw [hp]
  have : (match net[i]? with
      | some n => n.hf * exc i
      | none => 0) = hfOf net i * exc i := by
    unfold hfOf
    cases net[i]? <;> simp
  rw [this]
  ring

/-- **C60.** The transient solver integrates the balance of heat: for every node with heat capacity,
capacity times temperature rate is the excited heat flow plus the boundary heat less what flows to the
neighbours; nodes without capacity keep their temperature; if all nodes have capacity, the
stored heat changes by the heat put in less the heat leaving; and with full excitation
the temperatures stand still exactly if they solve the static system. -/
theorem c60_transient {net : Network K} (hr : InRange net) (refT : K) (exc x : Nat → K) :
    (∀ i, 0 < cOf net i → cOf net i * derivative net refT exc x i =
      hfOf net i * exc i + htcOf net i * refT - ∑ j ∈ range net.length, entry (gTriplets net) i j * x j) ∧
    (∀ i, cOf net i ≤ 0 → derivative net refT exc x i = 0) ∧
    ((∀ i < net.length, 0 < cOf net i) →
      ∑ i ∈ range net.length, cOf net i * derivative net refT exc x i =
        ∑ i ∈ range net.length, hfOf net i * exc i - ∑ i ∈ range net.length, htcOf net i * (x i - refT)) ∧
    ((∀ i < net.length, 0 < cOf net i) →
      ((∀ i < net.length, derivative net refT (fun _ => 1) x i = 0) ↔ Solves net refT x)) := by
  have h1 : ∀ (exc : Nat → K) i, 0 < cOf net i → cOf net i * derivative net refT exc x i =
      hfOf net i * exc i + htcOf net i * refT - mulVec (gTriplets net) x i := by
    intro exc i hc
    rw [derivative_eq, if_pos hc, ← mul_assoc, mul_one_div, div_self hc.ne', one_mul]
  refine ⟨?_, ?_, ?_, ?_⟩
  · intro i hc
    rw [h1 exc i hc, mulVec_eq_entries net.length x i _ (fun t ht => (mem_gTriplets hr ht).2)]
  · intro i hc
    rw [derivative_eq, if_neg (by push Not; exact hc), zero_mul]
  · intro hc
    rw [Finset.sum_congr rfl (fun i hi => h1 exc i (hc i (Finset.mem_range.1 hi)))]
    have hb := bil_eq_sum net.length (fun _ => 1) x (gTriplets net) (fun t ht => (mem_gTriplets hr ht).1)
    rw [bil_g] at hb
    simp only [one_mul, sub_self, mul_zero, zero_mul, List.map_const', mul_one] at hb
    rw [List.sum_replicate, smul_zero, zero_add] at hb
    simp only [Finset.sum_sub_distrib, Finset.sum_add_distrib, mul_sub]
    rw [hb]
    ring
  · intro hc
    rw [solves_iff]
    constructor
    · intro hd i hi
      have := h1 (fun _ => 1) i (hc i hi)
      rw [hd i hi] at this
      simp only [mul_zero, mul_one] at this
      linarith
    · intro hs i hi
      have := h1 (fun _ => 1) i (hc i hi)
      rw [hs i hi] at this
      simp only [mul_one, sub_self] at this
      rcases mul_eq_zero.1 this with h2 | h2
      · have := hc i hi; rw [h2] at this; exact absurd this (lt_irrefl _)
      · exact h2

/-! ### an example -/

/-- three nodes in a row, the last with a boundary, the first heated -/
def exNet : Network ℚ :=
  [⟨0, none, 1, 5, 0, [(1, 1), (2, 1)]⟩, ⟨0, none, 1, 0, 0, [(2, 1)]⟩, ⟨0, none, 2, 0, 2, []⟩]

example : Grounded exNet := by
  refine ⟨?_, by decide +kernel, by decide +kernel, ?_⟩
  · intro i n hn e he
    match i, hn with
    | 0, hn => injection hn with hn; subst hn; revert e; decide
    | 1, hn => injection hn with hn; subst hn; revert e; decide
    | 2, hn => injection hn with hn; subst hn; revert e; decide
  · have e1 : Adj exNet 0 2 := ⟨1, Or.inl (by decide +kernel)⟩
    have e2 : Adj exNet 1 2 := ⟨1, Or.inl (by decide +kernel)⟩
    intro i hi
    refine ⟨2, ?_, by decide +kernel⟩
    have : i < 3 := hi
    match i, this with
    | 0, _ => exact Relation.ReflTransGen.single e1
    | 1, _ => exact Relation.ReflTransGen.single e2
    | 2, _ => exact Relation.ReflTransGen.refl

/-- the temperatures of the example with reference 25 -/
example : ∀ i < exNet.length, mulVec (gTriplets exNet) (fun i => if i = 0 then 185 / 6 else if i = 1 then 175 / 6 else 55 / 2) i =
    systemRhs exNet true 25 i := by decide +kernel

end Ecad.Thermal
