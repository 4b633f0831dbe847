import Verif.Thermal.SetRProps
import Mathlib.Algebra.BigOperators.Group.Finset.Basic
import Mathlib.Algebra.BigOperators.Ring.Finset
import Mathlib.Logic.Relation
import Mathlib.LinearAlgebra.FiniteDimensional.Basic
/-!
C29, C30, C31, C60.
-/
namespace Ecad.Thermal

open Finset

variable {K : Type} [Field K] [LinearOrder K]

/-- all neighbours are nodes of the network -/
def InRange (net : Network K) : Prop :=
  ∀ (i : Nat) (n : Node K), net[i]? = some n → ∀ e ∈ n.ns, e.1 < net.length

/-- heat transfer coefficient of a node -/
def htcOf (net : Network K) (i : Nat) : K := match net[i]? with
  | some n => n.htc
  | none => 0

/-- heat flow into a node -/
def hfOf (net : Network K) (i : Nat) : K := match net[i]? with
  | some n => n.hf
  | none => 0

/-- heat capacity of a node -/
def cOf (net : Network K) (i : Nat) : K := match net[i]? with
  | some n => n.c
  | none => 0

/-- the resistors of the network with their conductances -/
def edges (net : Network K) : List (Nat × Nat × K) :=
  net.zipIdx.flatMap fun p => p.1.ns.map fun e => (p.2, e.1, 1 / e.2)

/-! ### sums -/

omit [LinearOrder K] in
theorem sum_flatMap {α β : Type _} (l : List α) (f : α → List β) (g : β → K) :
    ((l.flatMap f).map g).sum = (l.map fun a => ((f a).map g).sum).sum := by
  induction l with
  | nil => simp
  | cons a l ih => simp [ih]

omit [LinearOrder K] in
theorem sum_map_add' {α : Type _} (l : List α) (f g : α → K) :
    (l.map fun a => f a + g a).sum = (l.map f).sum + (l.map g).sum := by
  induction l with
  | nil => simp
  | cons a l ih => simp only [List.map_cons, List.sum_cons, ih]; ring

omit [LinearOrder K] in
theorem sum_zipIdx {α : Type _} (l : List α) (f : α → Nat → K) (d : α) : ∀ k,
    ((l.zipIdx k).map fun p => f p.1 p.2).sum = ∑ i ∈ range l.length, f (l.getD i d) (i + k) := by
  induction l with
  | nil => intro k; simp
  | cons a l ih =>
    intro k
    rw [List.zipIdx_cons, List.map_cons, List.sum_cons, ih, List.length_cons, Finset.sum_range_succ']
    rw [add_comm]
    congr 1
    · apply Finset.sum_congr rfl
      intro i _
      simp only [List.getD_cons_succ]
      rw [show i + (k + 1) = i + 1 + k by omega]
    · simp

/-- `v · (M y)` for the matrix of a list of entries -/
def bil (ts : Triplets K) (v y : Nat → K) : K := (ts.map fun t => v t.1 * t.2.2 * y t.2.1).sum

omit [LinearOrder K] in
theorem bil_append (ts us : Triplets K) (v y : Nat → K) : bil (ts ++ us) v y = bil ts v y + bil us v y := by
  simp [bil]

omit [LinearOrder K] in
theorem bil_eq_sum (n : Nat) (v y : Nat → K) : ∀ ts : Triplets K, (∀ t ∈ ts, t.1 < n) →
    ∑ i ∈ range n, v i * mulVec ts y i = bil ts v y := by
  intro ts
  induction ts with
  | nil => intro _; simp [mulVec, bil]
  | cons t ts ih =>
    intro h
    have ih' := ih (fun t ht => h t (by simp [ht]))
    have ht : t.1 < n := h t (by simp)
    simp only [mulVec, bil, List.map_cons, List.sum_cons] at ih' ⊢
    rw [← ih']
    simp only [mul_add, Finset.sum_add_distrib]
    congr 1
    rw [Finset.sum_eq_single t.1]
    · simp; ring
    · intro b _ hb
      rw [if_neg (Ne.symm hb), mul_zero]
    · intro hn
      exact absurd (Finset.mem_range.2 ht) hn

/-- one at a single place -/
def delta (i : Nat) : Nat → K := fun k => if k = i then 1 else 0

omit [LinearOrder K] in
theorem entry_eq_bil (ts : Triplets K) (i j : Nat) : entry ts i j = bil ts (delta i) (delta j) := by
  unfold entry bil delta
  congr 1
  apply List.map_congr_left
  intro t _
  by_cases h1 : t.1 = i
  · by_cases h2 : t.2.1 = j
    · simp [h1, h2]
    · simp [h1, h2]
  · simp [h1]

omit [LinearOrder K] in
theorem mulVec_eq_bil (ts : Triplets K) (y : Nat → K) (i : Nat) : mulVec ts y i = bil ts (delta i) y := by
  unfold mulVec bil delta
  congr 1
  apply List.map_congr_left
  intro t _
  by_cases h1 : t.1 = i
  · simp [h1]
  · simp [h1]

omit [LinearOrder K] in
/-- the product is that of the matrix of summed entries -/
theorem mulVec_eq_entries (n : Nat) (y : Nat → K) (i : Nat) : ∀ ts : Triplets K, (∀ t ∈ ts, t.2.1 < n) →
    mulVec ts y i = ∑ j ∈ range n, entry ts i j * y j := by
  intro ts
  induction ts with
  | nil => intro _; simp [mulVec, entry]
  | cons t ts ih =>
    intro h
    have ih' := ih (fun t ht => h t (by simp [ht]))
    have ht : t.2.1 < n := h t (by simp)
    simp only [mulVec, entry, List.map_cons, List.sum_cons] at ih' ⊢
    rw [ih']
    simp only [add_mul, Finset.sum_add_distrib]
    congr 1
    rw [Finset.sum_eq_single t.2.1]
    · by_cases h1 : t.1 = i
      · simp [h1]
      · simp [h1]
    · intro b _ hb
      rw [if_neg (by rintro ⟨_, h2⟩; exact hb h2.symm), zero_mul]
    · intro hn
      exact absurd (Finset.mem_range.2 ht) hn

omit [LinearOrder K] in
theorem bil_stamp2 (i j : Nat) (g : K) (v y : Nat → K) :
    bil (stamp2 i j g) v y = g * (v i - v j) * (y i - y j) := by
  simp only [bil, stamp2, List.map_cons, List.map_nil, List.sum_cons, List.sum_nil]
  ring

omit [LinearOrder K] in
theorem bil_flatMap {α : Type _} (l : List α) (f : α → Triplets K) (v y : Nat → K) :
    bil (l.flatMap f) v y = (l.map fun a => bil (f a) v y).sum := by
  unfold bil
  rw [sum_flatMap]

theorem bil_nodeG (i : Nat) (n : Node K) (v y : Nat → K) :
    bil (nodeG i n) v y = (n.ns.map fun e => 1 / e.2 * (v i - v e.1) * (y i - y e.1)).sum
      + n.htc * v i * y i := by
  unfold nodeG
  rw [bil_append, bil_flatMap]
  congr 1
  · congr 1
    apply List.map_congr_left
    intro e _
    rw [bil_stamp2]
  · by_cases h : n.htc = 0
    · simp [h, bil]
    · simp only [ne_eq, h, not_false_eq_true, if_true, bil, stamp1, List.map_cons, List.map_nil,
        List.sum_cons, List.sum_nil]
      ring

theorem htc_sum (net : Network K) (v y : Nat → K) :
    (net.zipIdx.map fun p => p.1.htc * v p.2 * y p.2).sum =
      ∑ i ∈ range net.length, htcOf net i * v i * y i := by
  rw [sum_zipIdx net (fun n i => n.htc * v i * y i) (Node.default 0) 0]
  apply Finset.sum_congr rfl
  intro i hi
  have hi' := Finset.mem_range.1 hi
  simp only [htcOf, List.getElem?_eq_getElem hi', List.getD_eq_getElem?_getD, Option.getD_some, Nat.add_zero]

/-- the weak form of the assembled matrix: `v · (G y)` is the sum over resistors of conductance times
both differences plus the sum over nodes of heat transfer times both values -/
theorem bil_g (net : Network K) (v y : Nat → K) :
    bil (gTriplets net) v y =
      ((edges net).map fun e => e.2.2 * (v e.1 - v e.2.1) * (y e.1 - y e.2.1)).sum +
      ∑ i ∈ range net.length, htcOf net i * v i * y i := by
  unfold gTriplets
  rw [bil_flatMap]
  have : (net.zipIdx.map fun p => bil (nodeG p.2 p.1) v y).sum =
      (net.zipIdx.map fun p => (p.1.ns.map fun e => 1 / e.2 * (v p.2 - v e.1) * (y p.2 - y e.1)).sum
        + p.1.htc * v p.2 * y p.2).sum := by
    congr 1
    apply List.map_congr_left
    intro p _
    exact bil_nodeG _ _ _ _
  rw [this, sum_map_add', htc_sum]
  congr 1
  unfold edges
  rw [sum_flatMap]
  simp only [List.map_map, Function.comp_def]

theorem mem_gTriplets {net : Network K} (hr : InRange net) {t : Nat × Nat × K} (ht : t ∈ gTriplets net) :
    t.1 < net.length ∧ t.2.1 < net.length := by
  unfold gTriplets at ht
  rw [List.mem_flatMap] at ht
  obtain ⟨⟨n, i⟩, hp, ht⟩ := ht
  rw [List.mem_zipIdx_iff_getElem?] at hp
  simp only at hp
  have hi := (List.getElem?_eq_some_iff.1 hp).1
  unfold nodeG at ht
  rcases List.mem_append.1 ht with ht | ht
  · rw [List.mem_flatMap] at ht
    obtain ⟨e, he, ht⟩ := ht
    have := hr i n hp e he
    simp only [stamp2, List.mem_cons, List.not_mem_nil, or_false] at ht
    rcases ht with rfl | rfl | rfl | rfl <;> simp [hi, this]
  · split at ht
    · simp only [stamp1, List.mem_cons, List.not_mem_nil, or_false] at ht
      subst ht
      exact ⟨hi, hi⟩
    · simp at ht

/-! ### C31 -/

omit [LinearOrder K] in
theorem mulVec_nil (x : Nat → K) (i : Nat) : mulVec ([] : Triplets K) x i = 0 := by simp [mulVec]

omit [LinearOrder K] in
theorem mulVec_cons (t : Nat × Nat × K) (ts : Triplets K) (x : Nat → K) (i : Nat) :
    mulVec (t :: ts) x i = (if t.1 = i then t.2.2 * x t.2.1 else 0) + mulVec ts x i := by
  simp [mulVec]

theorem bTriplets_row (bonds : Bool) (net : Network K) : ∀ (i0 s0 i : Nat) (x : Nat → K), i < i0 →
    mulVec (bTriplets bonds i0 s0 net) x i = 0 := by
  induction net with
  | nil => intro i0 s0 i x _; exact mulVec_nil _ _
  | cons n net ih =>
    intro i0 s0 i x hi
    rw [bTriplets]
    split
    · rw [mulVec_cons, if_neg (by omega), ih _ _ _ _ (by omega), add_zero]
    · exact ih _ _ _ _ (by omega)

theorem rhs_aux (bonds : Bool) (refT : K) (net : Network K) : ∀ (i0 i : Nat) (pre : List K), i0 ≤ i →
    mulVec (bTriplets bonds i0 pre.length net) (fun s => (pre ++ makeRhs net bonds refT).getD s 0) i =
      match net[i - i0]? with
      | some n => if isSource bonds n then n.hf + n.htc * refT else 0
      | none => 0 := by
  induction net with
  | nil => intro i0 i pre _; simp [bTriplets, mulVec]
  | cons n net ih =>
    intro i0 i pre hi
    rw [bTriplets]
    by_cases hs : isSource bonds n = true
    · rw [if_pos hs, mulVec_cons]
      have hrhs : makeRhs (n :: net) bonds refT = (n.hf + n.htc * refT) :: makeRhs net bonds refT := by
        simp [makeRhs, hs]
      rw [hrhs]
      have e : pre ++ (n.hf + n.htc * refT) :: makeRhs net bonds refT =
          (pre ++ [n.hf + n.htc * refT]) ++ makeRhs net bonds refT := by simp
      by_cases hii : i0 = i
      · subst hii
        rw [if_pos rfl, bTriplets_row _ _ _ _ _ _ (by omega)]
        simp [hs]
      · rw [if_neg hii, zero_add, e]
        have hlen : pre.length + 1 = (pre ++ [n.hf + n.htc * refT]).length := by simp
        rw [hlen, ih (i0 + 1) i _ (by omega)]
        have : i - i0 = (i - (i0 + 1)) + 1 := by omega
        rw [this, List.getElem?_cons_succ]
    · rw [if_neg hs]
      have hrhs : makeRhs (n :: net) bonds refT = makeRhs net bonds refT := by
        simp [makeRhs, hs]
      rw [hrhs]
      by_cases hii : i0 = i
      · subst hii
        rw [bTriplets_row _ _ _ _ _ _ (by omega)]
        simp [hs]
      · rw [ih (i0 + 1) i _ (by omega)]
        have : i - i0 = (i - (i0 + 1)) + 1 := by omega
        rw [this, List.getElem?_cons_succ]

theorem rhs_value (bonds : Bool) (refT : K) (net : Network K) (i : Nat) :
    systemRhs net bonds refT i =
      match net[i]? with
      | some n => if isSource bonds n then n.hf + n.htc * refT else 0
      | none => 0 := by
  have := rhs_aux bonds refT net 0 i [] (by omega)
  simpa [systemRhs] using this

theorem bTriplets_cols (bonds : Bool) (net : Network K) : ∀ (i0 s0 : Nat), ∀ t ∈ bTriplets bonds i0 s0 net,
    i0 ≤ t.1 ∧ t.1 < i0 + net.length ∧ s0 ≤ t.2.1 ∧ t.2.1 < s0 + source net bonds := by
  induction net with
  | nil => intro i0 s0 t ht; simp [bTriplets] at ht
  | cons n net ih =>
    intro i0 s0 t ht
    rw [bTriplets] at ht
    by_cases hs : isSource bonds n = true
    · rw [if_pos hs] at ht
      have hsrc : source (n :: net) bonds = source net bonds + 1 := by simp [source, hs]
      rw [hsrc, List.length_cons]
      rcases List.mem_cons.1 ht with rfl | ht
      · simp only; omega
      · have := ih _ _ t ht; omega
    · rw [if_neg hs] at ht
      have hsrc : source (n :: net) bonds = source net bonds := by simp [source, hs]
      rw [hsrc, List.length_cons]
      have := ih _ _ t ht; omega

/-- **C31.** With the boundary nodes included, the excitation vector times the selection matrix is at
every node its heat flow plus its heat transfer coefficient times the reference temperature
— zero where a node has neither —, that is, the full right hand side; and every entry of the
selection matrix lies inside it. -/
theorem c31_rhs (net : Network K) (refT : K) :
    (∀ (i : Nat) (n : Node K), net[i]? = some n → systemRhs net true refT i = n.hf + n.htc * refT) ∧
    (∀ i, systemRhs net true refT i = (makeFullRhs net refT).getD i 0) ∧
    (makeRhs net true refT).length = source net true ∧
    ∀ t ∈ bTriplets true 0 0 net, t.1 < net.length ∧ t.2.1 < source net true := by
  have h1 : ∀ (i : Nat) (n : Node K), net[i]? = some n → systemRhs net true refT i = n.hf + n.htc * refT := by
    intro i n hn
    rw [rhs_value, hn]
    simp only
    by_cases hs : isSource true n = true
    · rw [if_pos hs]
    · rw [if_neg hs]
      simp [isSource] at hs
      rw [hs.1, hs.2]
      simp
  refine ⟨h1, ?_, ?_, ?_⟩
  · intro i
    cases hn : net[i]? with
    | none =>
      rw [rhs_value, hn]
      simp [makeFullRhs, List.getD_eq_getElem?_getD, hn]
    | some n =>
      rw [h1 i n hn]
      simp [makeFullRhs, List.getD_eq_getElem?_getD, hn]
  · simp [makeRhs, source]
  · intro t ht
    have := bTriplets_cols true net 0 0 t ht
    omega

/-- Without the boundary nodes (`includeBonds` false, which no caller uses), adding the separate
boundary vector counts the boundary twice at every node that has both a source and a boundary. -/
theorem c31_without_bonds (net : Network K) (refT : K) (i : Nat) (n : Node K) (hn : net[i]? = some n) :
    systemRhs net false refT i + n.htc * refT =
      (n.hf + n.htc * refT) + if n.hf ≠ 0 then n.htc * refT else 0 := by
  rw [rhs_value, hn]
  simp only [isSource, Bool.false_and, Bool.or_false, decide_eq_true_eq]
  by_cases h : n.hf = 0
  · simp [h]
  · simp only [ne_eq, h, not_false_eq_true, if_true]

/-! ### C29 -/

/-- **C29.** The assembled matrix is symmetric, each row sums to the heat transfer coefficient of its
node, and for every solution the heat leaving through the boundary is the heat put in. -/
theorem c29_energy {net : Network K} (hr : InRange net) :
    (∀ i j, entry (gTriplets net) i j = entry (gTriplets net) j i) ∧
    (∀ i, ∑ j ∈ range net.length, entry (gTriplets net) i j = htcOf net i) ∧
    ∀ (refT : K) (x : Nat → K),
      (∀ i < net.length, ∑ j ∈ range net.length, entry (gTriplets net) i j * x j = systemRhs net true refT i) →
      ∑ i ∈ range net.length, htcOf net i * (x i - refT) = totalHF net := by
  refine ⟨?_, ?_, ?_⟩
  · intro i j
    rw [entry_eq_bil, entry_eq_bil, bil_g, bil_g]
    congr 1
    · congr 1
      apply List.map_congr_left
      intro e _
      ring
    · apply Finset.sum_congr rfl
      intro k _
      ring
  · intro i
    have h := mulVec_eq_entries net.length (fun _ => 1) i (gTriplets net) (fun t ht => (mem_gTriplets hr ht).2)
    simp only [mul_one] at h
    rw [← h, mulVec_eq_bil, bil_g]
    simp only [sub_self, mul_zero, List.map_const', mul_one]
    rw [List.sum_replicate, smul_zero, zero_add]
    by_cases hi : i < net.length
    · rw [Finset.sum_eq_single i]
      · simp [delta]
      · intro b _ hb; simp [delta, hb]
      · intro hn; exact absurd (Finset.mem_range.2 hi) hn
    · rw [Finset.sum_eq_zero]
      · unfold htcOf; rw [List.getElem?_eq_none (by omega)]
      · intro b hb
        have := Finset.mem_range.1 hb
        simp [delta, show b ≠ i by omega]
  · intro refT x hx
    have hsol : ∀ i < net.length, mulVec (gTriplets net) x i = systemRhs net true refT i := by
      intro i hi
      rw [mulVec_eq_entries net.length x i _ (fun t ht => (mem_gTriplets hr ht).2)]
      exact hx i hi
    have h1 := bil_eq_sum net.length (fun _ => 1) x (gTriplets net) (fun t ht => (mem_gTriplets hr ht).1)
    rw [bil_g] at h1
    simp only [one_mul, sub_self, mul_zero, zero_mul, List.map_const', mul_one] at h1
    rw [List.sum_replicate, smul_zero, zero_add] at h1
    have h2 : ∑ i ∈ range net.length, mulVec (gTriplets net) x i =
        ∑ i ∈ range net.length, (hfOf net i + htcOf net i * refT) := by
      apply Finset.sum_congr rfl
      intro i hi
      have hi' := Finset.mem_range.1 hi
      rw [hsol i hi', (c31_rhs net refT).1 i _ (List.getElem?_eq_getElem hi')]
      simp [hfOf, htcOf, List.getElem?_eq_getElem hi']
    have h3 : ∑ i ∈ range net.length, hfOf net i = totalHF net := by
      unfold totalHF
      have := sum_zipIdx net (fun n _ => n.hf) (Node.default 0) 0
      have e : (net.zipIdx.map fun p => p.1.hf) = net.map Node.hf := by
        rw [← List.zipIdx_map_fst 0 net, List.map_map]
        simp only [List.zipIdx_map_fst]
        rfl
      rw [← e, this]
      apply Finset.sum_congr rfl
      intro i hi
      have hi' := Finset.mem_range.1 hi
      simp [hfOf, List.getElem?_eq_getElem hi', List.getD_eq_getElem?_getD]
    rw [h2, Finset.sum_add_distrib, h3] at h1
    simp only [mul_sub, Finset.sum_sub_distrib]
    rw [← h1]
    ring

end Ecad.Thermal
