import Verif.Thermal.ResponseProps
/-!
C126: what one temperature says about all others.
-/
namespace Ecad.Response

open Finset Thermal

variable {K : Type} [Field K] [LinearOrder K] [IsStrictOrderedRing K]

/-- a combination of two solutions solves the network with the combined heat flows -/
theorem combine {a b : Network K} (h : Same a b) {refT : K} {x y : Nat → K} (hx : Solves a refT x) (hy : Solves b refT y) (c d : K) :
    Solves (withHF a fun i => c * hfOf b i - d * hfOf a i) refT fun i => refT + (c * (y i - refT) - d * (x i - refT)) := by
  have hs := withHF_same a fun i => c * hfOf b i - d * hfOf a i
  rw [solves_iff]
  intro i hi
  have hi' : i < a.length := by rw [hs.length]; exact hi
  have e1 := rise hx hi'
  have e2 := rise hy (i := i) (by rw [← h.length]; exact hi')
  have e3 := const_mulVec a refT i hi'
  rw [mulVec_eq_bil] at e1 e2 e3 ⊢
  rw [← bil_same h] at e2
  rw [← bil_same hs, withHF_hf _ _ hi']
  have lin : ∀ (ts : Triplets K) (v f g h : Nat → K), bil ts v (fun i => f i + (c * g i - d * h i)) = bil ts v f + (c * bil ts v g - d * bil ts v h) := by
    intro ts v f g h
    unfold bil
    induction ts with
    | nil => simp
    | cons t ts ih =>
      simp only [List.map_cons, List.sum_cons, ih]
      ring
  rw [lin (gTriplets a) (delta i) (fun _ => refT) (fun k => y k - refT) (fun k => x k - refT), e1, e2, e3, hs.htc i]
  ring

/-- C126, what one temperature says about all others: let a source at node `k` alone lead to the temperatures `y`.  Whatever non-negative heat
flows lead to the temperatures `x`, the rise of every node is at least that of `y`, scaled to the rise of `x` at `k`; so the source at `k` is
the one that heats the other nodes least for a given temperature of `k`. -/
theorem c126_probe {a b : Network K} (hg : Grounded a) (h : Same a b) (hf : ∀ n ∈ a, 0 ≤ n.hf) {k : Nat} (hk : k < a.length)
    (hb : ∀ i < a.length, i ≠ k → hfOf b i = 0) (hp : 0 < hfOf b k) {refT : K} {x y : Nat → K} (hx : Solves a refT x) (hy : Solves b refT y) :
    0 < y k - refT ∧ ∀ i < a.length, (y i - refT) * (x k - refT) ≤ (x i - refT) * (y k - refT) := by
  have hgb := grounded_same h hg
  have hpos : 0 < y k - refT := by
    have e := weak hgb.inRange hy fun i => y i - refT
    rw [← h.length, Finset.sum_eq_single k (fun i hi hik => by rw [hb i (Finset.mem_range.1 hi) hik, mul_zero])
      (fun hn => absurd (Finset.mem_range.2 hk) hn)] at e
    have h0 := bil_nonneg hgb fun i => y i - refT
    rw [e] at h0
    rcases (nonneg_of_mul_nonneg_left h0 hp).lt_or_eq with h1 | h1
    · exact h1
    · exfalso
      have hz := c126_hottest hgb hy (le_refl refT) fun i hi hpi => by
        by_cases hik : i = k
        · subst hik; linarith
        · rw [hb i (by rw [h.length]; exact hi) hik] at hpi; exact absurd hpi (lt_irrefl _)
      have hl : ∀ i < b.length, refT ≤ y i := lower_bound hgb hy fun n hn => by
        obtain ⟨i, hi⟩ := List.getElem?_of_mem hn
        have e : hfOf b i = n.hf := by unfold hfOf; rw [hi]
        have hil : i < a.length := by rw [h.length]; exact (List.getElem?_eq_some_iff.1 hi).1
        rw [← e]
        by_cases hik : i = k
        · rw [hik]; exact hp.le
        · rw [hb i hil hik]
      have hconst : ∀ i < b.length, y i = refT := fun i hi => le_antisymm (hz i hi) (hl i hi)
      have hkb : k < b.length := by rw [← h.length]; exact hk
      have e4 := rise hy hkb
      have e5 : mulVec (gTriplets b) (fun i => y i - refT) k = 0 := by
        unfold mulVec
        apply List.sum_eq_zero
        intro v hv
        obtain ⟨t, ht, rfl⟩ := List.mem_map.1 hv
        by_cases htk : t.1 = k
        · rw [if_pos htk]
          beta_reduce
          rw [hconst _ (mem_gTriplets hgb.inRange ht).2, sub_self, mul_zero]
        · rw [if_neg htk]
      rw [e5] at e4
      exact absurd e4 hp.ne
  refine ⟨hpos, fun i hi => ?_⟩
  have hs := withHF_same a fun i => (x k - refT) * hfOf b i - (y k - refT) * hfOf a i
  have hz := c126_hottest (grounded_same hs hg) (combine h hx hy (x k - refT) (y k - refT)) (le_refl refT) (fun j hj hpj => by
    have hj' : j < a.length := by rw [hs.length]; exact hj
    by_cases hjk : j = k
    · subst hjk; apply le_of_eq; ring
    · exfalso
      rw [withHF_hf _ _ hj', hb j hj' hjk, mul_zero, zero_sub] at hpj
      have h1 : 0 ≤ hfOf a j := by
        unfold hfOf
        rw [List.getElem?_eq_getElem hj']
        exact hf _ (List.getElem_mem hj')
      have := mul_nonneg hpos.le h1
      linarith) i (by rw [← hs.length]; exact hi)
  linarith

/-- the networks of C126: the second node has risen by 25/6 in the first and by 35/6 in the second, so the third node, which the second network heats by
5/2, is heated by at least 25/14 in the first -/
example : (∀ n ∈ exNet, 0 ≤ n.hf) ∧ (∀ i < exNet.length, i ≠ 1 → hfOf exOther i = 0) ∧ 0 < hfOf exOther 1 ∧
    ((55 / 2 - 25 : ℚ)) * (175 / 6 - 25) < (55 / 2 - 25) * (185 / 6 - 25) := by
  refine ⟨?_, by decide +kernel, by decide +kernel, by norm_num⟩
  decide +kernel

end Ecad.Response
