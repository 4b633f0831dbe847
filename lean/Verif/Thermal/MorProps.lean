import Verif.Thermal.SteadyProps
import Verif.Thermal.MorModel
/-!
C71: the transient solver with model order reduction.
-/
namespace Ecad.Thermal

open Finset

variable {K : Type} [Field K] [LinearOrder K]

theorem c_mul (net : Network K) (y : Nat → K) (i : Nat) :
    mulVec (cTriplets net) y i = (if cOf net i > 0 then cOf net i else 0) * y i := by
  rw [mulVec_eq_bil]
  unfold cTriplets
  rw [bil_flatMap]
  have : (net.zipIdx.map fun p => bil (if p.1.c > 0 then stamp1 p.2 p.1.c else []) (delta i) y) =
      net.zipIdx.map fun p => (if p.1.c > 0 then p.1.c else 0) * delta i p.2 * y p.2 := by
    apply List.map_congr_left
    intro p _
    split
    · simp only [bil, stamp1, List.map_cons, List.map_nil, List.sum_cons, List.sum_nil]; ring
    · simp [bil]
  rw [this, sum_zipIdx net (fun n k => (if n.c > 0 then n.c else 0) * delta i k * y k) (Node.default 0) 0]
  by_cases hi : i < net.length
  · rw [Finset.sum_eq_single i]
    · simp [delta, cOf, List.getElem?_eq_getElem hi, List.getD_eq_getElem?_getD]
    · intro b _ hb; simp [delta, hb]
    · intro hn; exact absurd (Finset.mem_range.2 hi) hn
  · rw [Finset.sum_eq_zero]
    · simp [cOf, List.getElem?_eq_none (show net.length ≤ i by omega)]
    · intro b hb
      have := Finset.mem_range.1 hb
      simp [delta, show b ≠ i by omega]

theorem exc_aux (bonds : Bool) (refT : K) (exc : Nat → K) (net : Network K) : ∀ (i0 i : Nat) (pre : List K), i0 ≤ i →
    mulVec (bTriplets bonds i0 pre.length net) (fun s => (pre ++
      ((net.zipIdx i0).filter fun p => isSource bonds p.1).map fun p => p.1.hf * exc p.2 + p.1.htc * refT).getD s 0) i =
      match net[i - i0]? with
      | some n => if isSource bonds n then n.hf * exc i + n.htc * refT else 0
      | none => 0 := by
  induction net with
  | nil => intro i0 i pre _; simp [bTriplets, mulVec]
  | cons n net ih =>
    intro i0 i pre hi
    rw [bTriplets, List.zipIdx_cons]
    by_cases hs : isSource bonds n = true
    · rw [if_pos hs, List.filter_cons_of_pos (by simpa using hs), List.map_cons, mulVec_cons]
      by_cases hii : i0 = i
      · subst hii
        rw [if_pos rfl, bTriplets_row _ _ _ _ _ _ (by omega)]
        simp [hs]
      · rw [if_neg hii, zero_add]
        rw [show pre ++ (n.hf * exc i0 + n.htc * refT) :: (((net.zipIdx (i0 + 1)).filter fun p => isSource bonds p.1).map fun p => p.1.hf * exc p.2 + p.1.htc * refT) =
          (pre ++ [n.hf * exc i0 + n.htc * refT]) ++ (((net.zipIdx (i0 + 1)).filter fun p => isSource bonds p.1).map fun p => p.1.hf * exc p.2 + p.1.htc * refT)
          by simp]
        have hlen : pre.length + 1 = (pre ++ [n.hf * exc i0 + n.htc * refT]).length := by simp
        rw [hlen, ih (i0 + 1) i _ (by omega)]
        have : i - i0 = (i - (i0 + 1)) + 1 := by omega
        rw [this, List.getElem?_cons_succ]
    · rw [if_neg hs, List.filter_cons_of_neg (by simpa using hs)]
      by_cases hii : i0 = i
      · subst hii
        rw [bTriplets_row _ _ _ _ _ _ (by omega)]
        simp [hs]
      · rw [ih (i0 + 1) i pre (by omega)]
        have : i - i0 = (i - (i0 + 1)) + 1 := by omega
        rw [this, List.getElem?_cons_succ]

/-- the inputs arrive at their nodes -/
theorem exc_value (refT : K) (exc : Nat → K) (net : Network K) (i : Nat) :
    mulVec (bTriplets true 0 0 net) (fun s => (excInputs net true refT exc).getD s 0) i =
      hfOf net i * exc i + htcOf net i * refT := by
  have h := exc_aux true refT exc net 0 i [] (by omega)
  simp only [List.length_nil, List.nil_append, Nat.sub_zero] at h
  unfold excInputs
  rw [h]
  unfold hfOf htcOf
  cases net[i]? with
  | none => simp
  | some n =>
    simp only
    split
    · rfl
    · rename_i hs
      simp only [isSource, Bool.true_and, Bool.or_eq_true, decide_eq_true_eq, not_or, ne_eq, not_not] at hs
      rw [hs.1, hs.2]
      simp

/-- heat missing in the balance of a node: stored heat plus heat to the neighbours and the ambient, less the source -/
def missing (net : Network K) (refT : K) (exc x rate : Nat → K) (i : Nat) : K :=
  cOf net i * rate i - (hfOf net i * exc i + htcOf net i * refT - ∑ j ∈ range net.length, entry (gTriplets net) i j * x j)

variable [IsStrictOrderedRing K]

omit [LinearOrder K] [IsStrictOrderedRing K] in
theorem project_lift (n q : Nat) (x : Nat → Nat → K) (y w : Nat → K) :
    ∑ k ∈ range q, w k * project n x y k = ∑ i ∈ range n, lift q x w i * y i := by
  unfold project lift
  simp only [Finset.mul_sum, Finset.sum_mul]
  rw [Finset.sum_comm]
  apply Finset.sum_congr rfl
  intro i _
  apply Finset.sum_congr rfl
  intro k _
  ring

/-- **C71.** For every network without negative capacities and every basis: the reduced solver moves inside of the space of the
basis such that the heat missing in the balance is orthogonal to that space.  Hence if the uniform temperature field is in
the space, the heat stored changes exactly by the heat put in less the heat that leaves; and if the basis
is complete, every node with capacity follows the unreduced solver. -/
theorem c71_reduced {net : Network K} (hr : InRange net) (hc : ∀ n ∈ net, 0 ≤ n.c) (refT : K) (exc : Nat → K) (q : Nat)
    (x : Nat → Nat → K) (z dz : Nat → K) (h : ReducedRate net refT exc q x z dz) :
    (∀ w, ∑ i ∈ range net.length, lift q x w i * missing net refT exc (lift q x z) (lift q x dz) i = 0) ∧
    ((∃ w, ∀ i < net.length, lift q x w i = 1) →
      ∑ i ∈ range net.length, cOf net i * lift q x dz i =
        ∑ i ∈ range net.length, hfOf net i * exc i - ∑ i ∈ range net.length, htcOf net i * (lift q x z i - refT)) ∧
    ((∀ y : Nat → K, ∃ w, ∀ i < net.length, lift q x w i = y i) → ∀ i < net.length, 0 < cOf net i →
      lift q x dz i = derivative net refT exc (lift q x z) i) := by
  have hcn : ∀ i, 0 ≤ cOf net i := by
    intro i
    unfold cOf
    cases hn : net[i]? with
    | none => exact le_refl _
    | some n => exact hc n (List.mem_of_getElem? hn)
  have hcc : ∀ i, (if cOf net i > 0 then cOf net i else 0) = cOf net i := by
    intro i
    split
    · rfl
    · rename_i hh; exact (le_antisymm (not_lt.1 hh) (hcn i)).symm
  have hg : ∀ i, mulVec (gTriplets net) (lift q x z) i = ∑ j ∈ range net.length, entry (gTriplets net) i j * lift q x z j :=
    fun i => mulVec_eq_entries net.length (lift q x z) i _ (fun t ht => (mem_gTriplets hr ht).2)
  have h1 : ∀ w, ∑ i ∈ range net.length, lift q x w i * missing net refT exc (lift q x z) (lift q x dz) i = 0 := by
    intro w
    have : ∑ k ∈ range q, w k * project net.length x (missing net refT exc (lift q x z) (lift q x dz)) k = 0 := by
      apply Finset.sum_eq_zero
      intro k hk
      have hk' := h k (Finset.mem_range.1 hk)
      have : project net.length x (missing net refT exc (lift q x z) (lift q x dz)) k = 0 := by
        unfold project at hk' ⊢
        rw [← Finset.sum_neg_distrib, ← Finset.sum_add_distrib, ← sub_eq_zero, ← Finset.sum_sub_distrib] at hk'
        rw [← hk']
        apply Finset.sum_congr rfl
        intro i _
        rw [c_mul, hcc, exc_value, hg]
        unfold missing
        ring
      rw [this, mul_zero]
    rw [← project_lift]
    exact this
  refine ⟨h1, ?_, ?_⟩
  · rintro ⟨w, hw⟩
    have e := h1 w
    have e2 : ∑ i ∈ range net.length, lift q x w i * missing net refT exc (lift q x z) (lift q x dz) i =
        ∑ i ∈ range net.length, missing net refT exc (lift q x z) (lift q x dz) i := by
      apply Finset.sum_congr rfl
      intro i hi
      rw [hw i (Finset.mem_range.1 hi), one_mul]
    rw [e2] at e
    unfold missing at e
    have hb := bil_eq_sum net.length (fun _ => 1) (lift q x z) (gTriplets net) (fun t ht => (mem_gTriplets hr ht).1)
    rw [bil_g] at hb
    simp only [one_mul, sub_self, mul_zero, zero_mul, List.map_const', mul_one] at hb
    rw [List.sum_replicate, smul_zero, zero_add] at hb
    simp only [hg] at hb
    simp only [Finset.sum_sub_distrib, Finset.sum_add_distrib, mul_sub] at e ⊢
    linarith
  · intro hy i hi hci
    obtain ⟨w, hw⟩ := hy (delta i)
    have e := h1 w
    rw [Finset.sum_eq_single i] at e
    · rw [hw i hi] at e
      simp only [delta, if_true, one_mul] at e
      rw [derivative_eq, if_pos hci, hg]
      unfold missing at e
      have : lift q x dz i = 1 / cOf net i * (cOf net i * lift q x dz i) := by
        rw [← mul_assoc, one_div_mul_cancel hci.ne', one_mul]
      rw [this]
      congr 1
      linarith
    · intro j hj hne
      rw [hw j (Finset.mem_range.1 hj)]
      simp [delta, hne]
    · intro hn; exact absurd (Finset.mem_range.2 hi) hn

omit [LinearOrder K] [IsStrictOrderedRing K] in
theorem entry_cons (t : Nat × Nat × K) (ts : Triplets K) (i j : Nat) :
    entry (t :: ts) i j = (if t.1 = i ∧ t.2.1 = j then t.2.2 else 0) + entry ts i j := by
  unfold entry
  rw [List.map_cons, List.sum_cons]

omit [LinearOrder K] [IsStrictOrderedRing K] in
theorem entry_probs (probs : List Nat) : ∀ (j0 i j : Nat),
    entry ((probs.zipIdx j0).map fun p => ((p.1, p.2, 1) : Nat × Nat × K)) i j =
      if j0 ≤ j ∧ probs[j - j0]? = some i then 1 else 0 := by
  induction probs with
  | nil => intro j0 i j; simp [entry]
  | cons p probs ih =>
    intro j0 i j
    rw [List.zipIdx_cons, List.map_cons, entry_cons, ih]
    by_cases hj : j0 = j
    · subst hj
      rw [show (if j0 + 1 ≤ j0 ∧ probs[j0 - (j0 + 1)]? = some i then (1 : K) else 0) = 0 from if_neg (by omega), add_zero]
      simp
    · rw [if_neg (by simp only; omega), zero_add]
      by_cases hle : j0 ≤ j
      · have : j - j0 = j - (j0 + 1) + 1 := by omega
        rw [this, List.getElem?_cons_succ]
        simp [hle, show j0 + 1 ≤ j by omega]
      · rw [if_neg (by omega), if_neg (by omega)]

omit [LinearOrder K] [IsStrictOrderedRing K] in
/-- **C71**, outputs: number `j` of the outputs is the temperature of the node of probe `j`; without probes, of node `j`. -/
theorem c71_output (net : Network K) (probs : List Nat) (hp : ∀ p ∈ probs, p < net.length) (q : Nat) (x : Nat → Nat → K) (z : Nat → K) :
    (∀ j p, probs[j]? = some p → reducedOut net probs q x z j = lift q x z p) ∧
    (probs = [] → ∀ j < net.length, reducedOut net probs q x z j = lift q x z j) := by
  have key : ∀ (p j : Nat), p < net.length → (∀ i, entry (lTriplets net.length probs : Triplets K) i j = if p = i then 1 else 0) →
      reducedOut net probs q x z j = lift q x z p := by
    intro p j hpn he
    unfold reducedOut project lift
    apply Finset.sum_congr rfl
    intro k _
    congr 1
    simp only [he]
    rw [Finset.sum_eq_single p]
    · rw [if_pos rfl, mul_one]
    · intro i _ hne
      rw [if_neg (fun e => hne e.symm), mul_zero]
    · intro hn; exact absurd (Finset.mem_range.2 hpn) hn
  constructor
  · intro j p hj
    have hne : probs ≠ [] := by rintro rfl; simp at hj
    refine key p j (hp p (List.mem_of_getElem? hj)) ?_
    intro i
    unfold lTriplets
    rw [if_neg hne, entry_probs]
    simp [hj]
  · rintro rfl j hj
    refine key j j hj ?_
    intro i
    unfold lTriplets
    rw [if_pos rfl]
    have : (List.range net.length).map (fun i => ((i, i, 1) : Nat × Nat × K)) =
        ((List.range net.length).zipIdx 0).map fun p => ((p.1, p.2, 1) : Nat × Nat × K) := by
      apply List.ext_getElem
      · simp
      · intro k h1 h2; simp
    rw [this, entry_probs]
    simp [hj]

/-- a basis of uniform and linear temperatures for three nodes -/
def exBasis : Nat → Nat → ℚ := fun i k => if k = 0 then 1 else (i : ℚ)

/-- a rate of the reduced network; the uniform field is in the space of the basis -/
example : ReducedRate exNet 25 (fun _ => 1) 2 exBasis (fun k => if k = 0 then 30 else -1) (fun k => if k = 0 then 21 / 11 else -19 / 11) ∧
    (∃ w, ∀ i < exNet.length, lift 2 exBasis w i = 1) ∧ reducedOut exNet [2, 0] 2 exBasis (fun k => if k = 0 then 30 else -1) 0 = 28 := by
  refine ⟨?_, ⟨fun k => if k = 0 then 1 else 0, by decide +kernel⟩, by decide +kernel⟩
  unfold ReducedRate
  decide +kernel

/-- a complete basis -/
example : ∀ y : Nat → ℚ, ∃ w, ∀ i < exNet.length, lift 3 (fun i k => if i = k then 1 else 0) w i = y i := by
  intro y
  refine ⟨y, fun i hi => ?_⟩
  have hi' : i < 3 := hi
  unfold lift
  rw [Finset.sum_eq_single i]
  · simp
  · intro k _ hk; simp [Ne.symm hk]
  · intro hn; exact absurd (Finset.mem_range.2 hi') hn

end Ecad.Thermal
