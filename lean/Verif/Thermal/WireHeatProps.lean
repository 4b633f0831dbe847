import Verif.Thermal.WireProps
import Verif.Thermal.SteadyProps
import Verif.Thermal.ConvergeStackProps
/-!
C156: the steady state along a bond wire. Over the models of C63 and C76; the results of C151 give the resistances, and the balance
of heat at each segment gives the temperatures.
-/
namespace Ecad.WireHeat
open Ecad.Thermal Ecad.GridT Ecad.PrismT Ecad.WireT Finset

variable {K : Type} [Field K] [LinearOrder K]

/-! ## specification: a rod with sources -/

/-- distance along the wire from its start to the middle of segment `j` -/
def mid (w : Wire K) (j : Nat) : K := ∑ i ∈ range j, w.length i + w.length j / 2

/-- length of the wire -/
def len (w : Wire K) : K := ∑ i ∈ range (w.points - 1), w.length i

/-- mean conductivity times cross section -/
def cross (k : Nat → K → Fin 3 → K) (w : Wire K) (T : K) : K := (k w.mat T 0 + k w.mat T 1 + k w.mat T 2) / 3 * w.area

/-- the heat made in segment `j` by the current: square of the current times resistance -/
def joule (resist : Nat → K → K) (w : Wire K) (T : K) (j : Nat) : K := max 0 (w.current ^ 2 * (resist w.mat T * w.length j / w.area))

/-- temperature that one unit of heat per time, put into a rod at `a`, makes at `b ≥ a` if the ends are held at zero -/
def green (L c a b : K) : K := a * (L - b) / (L * c)

/-! ## the equations of a network, by conductances -/

theorem sum_ns {N : Nat} (f : Nat → K) : ∀ ns : List (Nat × K), UMap.WF ns → (∀ e ∈ ns, e.1 < N) →
    (ns.map fun e => 1 / e.2 * f e.1).sum = ∑ b ∈ range N, (match UMap.find? ns b with | none => 0 | some r => 1 / r) * f b := by
  intro ns
  induction ns with
  | nil => intro _ _; simp [UMap.find?_nil]
  | cons e ns ih =>
    intro hwf hlt
    have hwf' : UMap.WF ns := by
      unfold UMap.WF UMap.keys at hwf ⊢
      rw [List.map_cons, List.nodup_cons] at hwf
      exact hwf.2
    have hnot : e.1 ∉ UMap.keys ns := by
      unfold UMap.WF UMap.keys at hwf
      rw [List.map_cons, List.nodup_cons] at hwf
      exact hwf.1
    rw [List.map_cons, List.sum_cons, ih hwf' (fun a ha => hlt a (List.mem_cons_of_mem _ ha))]
    have h1 : 1 / e.2 * f e.1 = ∑ b ∈ range N, if b = e.1 then 1 / e.2 * f e.1 else 0 := by
      rw [Finset.sum_ite_eq' (range N) e.1 (fun _ => 1 / e.2 * f e.1), if_pos (Finset.mem_range.2 (hlt e (List.mem_cons_self)))]
    rw [h1, ← Finset.sum_add_distrib]
    apply Finset.sum_congr rfl
    intro b _
    rw [UMap.find?_cons]
    by_cases hb : b = e.1
    · subst hb
      rw [if_pos rfl, if_pos rfl, (UMap.find?_eq_none_iff ns e.1).2 hnot]
      simp
    · rw [if_neg hb, if_neg (fun h => hb h.symm), zero_add]

theorem sum_edges {net : Network K} (hin : InRange net) (hst : StoredOnce net) (φ : Nat → Nat → K) :
    ((edges net).map fun e => e.2.2 * φ e.1 e.2.1).sum =
      ∑ a ∈ range net.length, ∑ b ∈ range net.length, (if a ≤ b then conductance net a b else 0) * φ a b := by
  unfold edges
  rw [sum_flatMap]
  have := sum_zipIdx net (fun n i => (n.ns.map fun e => 1 / e.2 * φ i e.1).sum) (Node.default 0) 0
  simp only [List.map_map, Function.comp_def] at this ⊢
  rw [this]
  apply Finset.sum_congr rfl
  intro a ha
  have ha' := Finset.mem_range.1 ha
  have hget : net[a]? = some net[a] := List.getElem?_eq_getElem ha'
  simp only [Nat.add_zero, List.getD_eq_getElem?_getD, hget, Option.getD_some]
  obtain ⟨hwf, hle⟩ := hst a _ hget
  rw [sum_ns (φ a) _ hwf (hin a _ hget)]
  apply Finset.sum_congr rfl
  intro b _
  by_cases hab : a ≤ b
  · rw [if_pos hab]
    congr 1
    unfold conductance
    rw [Nat.min_eq_left hab, Nat.max_eq_right hab, hget]
    rfl
  · rw [if_neg hab, (UMap.find?_eq_none_iff _ b).2]
    intro hb
    unfold UMap.keys at hb
    rw [List.mem_map] at hb
    obtain ⟨e, he, rfl⟩ := hb
    exact hab (hle e he).1

/-- the row of a node: the heat that leaves it to the other nodes and to the environment -/
theorem kirchhoff {net : Network K} (hin : InRange net) (hst : StoredOnce net) (x : Nat → K) {i : Nat} (hi : i < net.length) :
    mulVec (gTriplets net) x i = ∑ j ∈ range net.length, conductance net i j * (x i - x j) + htcOf net i * x i := by
  rw [mulVec_eq_bil, bil_g]
  congr 1
  · have := sum_edges hin hst (fun a b => (delta i a - delta i b) * (x a - x b))
    simp only [← mul_assoc] at this
    rw [this]
    have h : ∀ a ∈ range net.length, ∀ b ∈ range net.length,
        (if a ≤ b then conductance net a b else 0) * (delta i a - delta i b) * (x a - x b) =
        (if a = i then (if i ≤ b then conductance net i b else 0) * (x i - x b) else 0) +
        (if b = i then (if a ≤ i then conductance net i a else 0) * (x i - x a) else 0) := by
      intro a _ b _
      unfold delta
      by_cases h1 : a = i
      · by_cases h2 : b = i
        · subst h1; subst h2; simp
        · subst h1; simp [h2]
      · by_cases h2 : b = i
        · subst h2
          simp only [h1, if_false, if_true, zero_sub, zero_add]
          rw [GridT.conductance_comm net a b]
          ring
        · simp [h1, h2]
    rw [Finset.sum_congr rfl (fun a ha => Finset.sum_congr rfl (h a ha))]
    simp only [Finset.sum_add_distrib]
    have e1 : ∑ a ∈ range net.length, ∑ b ∈ range net.length, (if a = i then (if i ≤ b then conductance net i b else 0) * (x i - x b) else 0) =
        ∑ b ∈ range net.length, (if i ≤ b then conductance net i b else 0) * (x i - x b) := by
      rw [Finset.sum_comm]
      apply Finset.sum_congr rfl
      intro b _
      rw [Finset.sum_ite_eq' (range net.length) i, if_pos (Finset.mem_range.2 hi)]
    have e2 : ∑ a ∈ range net.length, ∑ b ∈ range net.length, (if b = i then (if a ≤ i then conductance net i a else 0) * (x i - x a) else 0) =
        ∑ a ∈ range net.length, (if a ≤ i then conductance net i a else 0) * (x i - x a) := by
      apply Finset.sum_congr rfl
      intro a _
      rw [Finset.sum_ite_eq' (range net.length) i, if_pos (Finset.mem_range.2 hi)]
    rw [e1, e2, ← Finset.sum_add_distrib]
    apply Finset.sum_congr rfl
    intro b _
    rcases Nat.lt_trichotomy b i with h | h | h
    · rw [if_neg (by omega), if_pos (by omega)]; ring
    · subst h; ring
    · rw [if_pos (by omega), if_neg (by omega)]; ring
  · rw [Finset.sum_eq_single i]
    · simp [delta]
    · intro b _ hb; simp [delta, hb]
    · intro h; exact absurd (Finset.mem_range.2 hi) h

/-! ## a chain of resistances with sources -/

omit [LinearOrder K] in
/-- temperatures along a chain, from the heat that enters it -/
theorem chain (Y r F P : Nat → K) (N : Nat) (h1 : ∀ j < N, Y j - Y (j + 1) = r j * F j) (h2 : ∀ j, j + 1 < N → F (j + 1) = F j + P j) :
    (∀ j < N, F j = F 0 + ∑ l ∈ range j, P l) ∧
    ∀ j ≤ N, Y j = Y 0 - F 0 * ∑ i ∈ range j, r i - ∑ l ∈ range j, P l * (∑ i ∈ range j, r i - ∑ i ∈ range (l + 1), r i) := by
  have hF : ∀ j < N, F j = F 0 + ∑ l ∈ range j, P l := by
    intro j
    induction j with
    | zero => intro _; simp
    | succ j ih => intro hj; rw [h2 j hj, ih (by omega), Finset.sum_range_succ]; ring
  refine ⟨hF, ?_⟩
  intro j
  induction j with
  | zero => intro _; simp
  | succ j ih =>
    intro hj
    have e := h1 j (by omega)
    have : ∑ l ∈ range (j + 1), P l * (∑ i ∈ range (j + 1), r i - ∑ i ∈ range (l + 1), r i) =
        ∑ l ∈ range j, P l * (∑ i ∈ range j, r i - ∑ i ∈ range (l + 1), r i) + r j * ∑ l ∈ range j, P l := by
      rw [Finset.sum_range_succ, sub_self, mul_zero, add_zero, Finset.mul_sum, ← Finset.sum_add_distrib]
      apply Finset.sum_congr rfl
      intro l _
      rw [Finset.sum_range_succ r j]
      ring
    rw [this, Finset.sum_range_succ r j]
    rw [ih (by omega), hF j (by omega)] at e
    linear_combination -e

omit [LinearOrder K] in
/-- temperatures along a chain, from those of its ends -/
theorem chain_ends (Y r F P : Nat → K) (N : Nat) (h1 : ∀ j < N + 1, Y j - Y (j + 1) = r j * F j) (h2 : ∀ j, j + 1 < N + 1 → F (j + 1) = F j + P j)
    {R : Nat → K} (hR : ∀ j ≤ N + 1, R j = ∑ i ∈ range j, r i) (h0 : R (N + 1) ≠ 0) :
    F 0 = (Y 0 - Y (N + 1)) / R (N + 1) - ∑ l ∈ range N, P l * ((R (N + 1) - R (l + 1)) / R (N + 1)) ∧
    F N = (Y 0 - Y (N + 1)) / R (N + 1) + ∑ l ∈ range N, P l * (R (l + 1) / R (N + 1)) ∧
    ∀ j < N + 1, Y j = Y 0 + (Y (N + 1) - Y 0) * (R j / R (N + 1)) +
      ∑ l ∈ range N, P l * (R (min (l + 1) j) * (R (N + 1) - R (max (l + 1) j)) / R (N + 1)) := by
  obtain ⟨hF, hY⟩ := chain Y r F P (N + 1) h1 h2
  have hsum : ∀ j ≤ N + 1, Y j = Y 0 - F 0 * R j - ∑ l ∈ range j, P l * (R j - R (l + 1)) := by
    intro j hj
    rw [hY j hj, hR j hj]
    congr 1
    apply Finset.sum_congr rfl
    intro l hl
    rw [Finset.mem_range] at hl
    rw [hR (l + 1) (by omega)]
  have hlast : Y (N + 1) = Y 0 - F 0 * R (N + 1) - ∑ l ∈ range N, P l * (R (N + 1) - R (l + 1)) := by
    rw [hsum (N + 1) le_rfl, Finset.sum_range_succ, sub_self, mul_zero, add_zero]
  have hF0 : F 0 = (Y 0 - Y (N + 1)) / R (N + 1) - ∑ l ∈ range N, P l * ((R (N + 1) - R (l + 1)) / R (N + 1)) := by
    have e : ∑ l ∈ range N, P l * ((R (N + 1) - R (l + 1)) / R (N + 1)) = (∑ l ∈ range N, P l * (R (N + 1) - R (l + 1))) / R (N + 1) := by
      rw [div_eq_mul_inv, Finset.sum_mul]
      exact Finset.sum_congr rfl fun l _ => by ring
    rw [e, ← sub_div, eq_div_iff h0]
    linear_combination hlast
  refine ⟨hF0, ?_, ?_⟩
  · rw [hF N (by omega), hF0, sub_add, ← Finset.sum_sub_distrib, sub_eq_add_neg, ← Finset.sum_neg_distrib]
    congr 1
    apply Finset.sum_congr rfl
    intro l _
    field_simp
    ring
  · intro j hj
    have e3 : ∑ l ∈ range j, P l * (R j - R (l + 1)) = ∑ l ∈ range N, if l < j then P l * (R j - R (l + 1)) else 0 := by
      rw [← Finset.sum_filter]
      congr 1
      ext l
      simp only [Finset.mem_range, Finset.mem_filter]
      omega
    have key : ∑ l ∈ range N, P l * ((R (N + 1) - R (l + 1)) / R (N + 1)) * R j - (∑ l ∈ range N, if l < j then P l * (R j - R (l + 1)) else 0) =
        ∑ l ∈ range N, P l * (R (min (l + 1) j) * (R (N + 1) - R (max (l + 1) j)) / R (N + 1)) := by
      rw [← Finset.sum_sub_distrib]
      apply Finset.sum_congr rfl
      intro l _
      by_cases h : l < j
      · rw [if_pos h, Nat.min_eq_left (by omega), Nat.max_eq_right (by omega)]
        field_simp
        ring
      · rw [if_neg h, Nat.min_eq_right (by omega), Nat.max_eq_left (by omega)]
        field_simp
        ring
    rw [hsum j (by omega), e3, ← key, ← Finset.sum_mul, hF0]
    ring

/-! ## the segments of a wire among the nodes -/

omit [Field K] [LinearOrder K] in
theorem locate (ws : List (Wire K)) : ∀ {n : Nat}, n < segs ws → ∃ pre w post j, ws = pre ++ w :: post ∧ j < w.points - 1 ∧ n = segs pre + j := by
  induction ws with
  | nil => intro n h; simp [segs] at h
  | cons w ws ih =>
    intro n h
    by_cases hn : n < w.points - 1
    · exact ⟨[], w, ws, n, rfl, hn, by simp [segs]⟩
    · have : segs (w :: ws) = (w.points - 1) + segs ws := by simp [segs]
      obtain ⟨pre, w', post, j, rfl, hj, hnj⟩ := ih (n := n - (w.points - 1)) (by omega)
      refine ⟨w :: pre, w', post, j, rfl, hj, ?_⟩
      have : segs (w :: pre) = (w.points - 1) + segs pre := by simp [segs]
      omega

/-- resistances along the wire: half a segment at the ends, two halves in between -/
def res (h : Nat → K) (n i : Nat) : K := if i = 0 then h 0 else if i = n + 1 then h n else h (i - 1) + h i

/-- temperatures along the wire with those of its ends -/
def along (X : Nat → K) (s e seg n i : Nat) : K := if i = 0 then X s else if i = n + 2 then X e else X (seg + (i - 1))

theorem sum_res (h : Nat → K) (n : Nat) : ∀ j < n + 1, ∑ i ∈ range (j + 1), res h n i = 2 * ∑ i ∈ range j, h i + h j := by
  intro j
  induction j with
  | zero => intro _; simp [res]
  | succ j ih =>
    intro hj
    rw [Finset.sum_range_succ, ih (by omega), Finset.sum_range_succ h j]
    simp only [res, Nat.add_sub_cancel]
    rw [if_neg (by omega), if_neg (by omega)]
    ring

theorem sum_res_all (h : Nat → K) (n : Nat) : ∑ i ∈ range (n + 2), res h n i = 2 * ∑ i ∈ range (n + 1), h i := by
  rw [Finset.sum_range_succ, sum_res h n n (by omega), Finset.sum_range_succ h n]
  simp only [res]
  rw [if_neg (by omega), if_true]
  ring

theorem sum_count_one {tot s : Nat} (hs : s < tot) (f : Nat → K) : ∑ x ∈ range tot, (([s] : List Nat).count x : K) * f x = f s := by
  rw [Finset.sum_eq_single s]
  · simp
  · intro b _ hb
    rw [List.count_eq_zero.2 (by simpa using hb)]
    simp
  · intro h; exact absurd (Finset.mem_range.2 hs) h

/-- the balance of heat of segment `j` -/
theorem seg_balance [IsStrictOrderedRing K] {net : Network K} (hin : InRange net) (hst : StoredOnce net) {tot b n N s e : Nat} (hlen : net.length = tot + N) (hN : b + n < N)
    (hs : s < tot) (he : e < tot) {h : Nat → K} {j : Nat} (hj : j < n + 1)
    (h1 : ∀ x < tot, conductance net x (tot + (b + j)) =
      ((if j = 0 then (([s] : List Nat).count x : K) else 0) + if j = n then (([e] : List Nat).count x : K) else 0) * (1 / h j))
    (h2 : ∀ i < N, i ≠ b + j → conductance net (tot + (b + j)) (tot + i) =
      (if i = b + j + 1 then (if j < n then 1 / (h j + h (j + 1)) else 0) else 0) + if i = b + j - 1 then (if 0 < j then 1 / (h (j - 1) + h j) else 0) else 0)
    (hz : htcOf net (tot + (b + j)) = 0) {refT : K} {X : Nat → K} (hX : Solves net refT X) :
    (along X s e (tot + b) n (j + 1) - along X s e (tot + b) n j) / res h n j +
      (along X s e (tot + b) n (j + 1) - along X s e (tot + b) n (j + 2)) / res h n (j + 1) = hfOf net (tot + (b + j)) := by
  have hsol := (solves_iff refT X).1 hX (tot + (b + j)) (by omega)
  rw [kirchhoff hin hst X (by omega), hz, zero_mul, zero_mul, add_zero, add_zero, hlen, Finset.sum_range_add] at hsol
  rw [← hsol]
  have e1 : ∑ x ∈ range tot, conductance net (tot + (b + j)) x * (X (tot + (b + j)) - X x) =
      (if j = 0 then (X (tot + (b + j)) - X s) / h j else 0) + if j = n then (X (tot + (b + j)) - X e) / h j else 0 := by
    have : ∀ x ∈ range tot, conductance net (tot + (b + j)) x * (X (tot + (b + j)) - X x) =
        (([s] : List Nat).count x : K) * (if j = 0 then (X (tot + (b + j)) - X x) / h j else 0) +
        (([e] : List Nat).count x : K) * (if j = n then (X (tot + (b + j)) - X x) / h j else 0) := by
      intro x hx
      rw [GridT.conductance_comm, h1 x (Finset.mem_range.1 hx)]
      split_ifs <;> ring
    rw [Finset.sum_congr rfl this, Finset.sum_add_distrib, sum_count_one hs (fun x => if j = 0 then (X (tot + (b + j)) - X x) / h j else 0),
      sum_count_one he (fun x => if j = n then (X (tot + (b + j)) - X x) / h j else 0)]
  have e2 : ∑ i ∈ range N, conductance net (tot + (b + j)) (tot + i) * (X (tot + (b + j)) - X (tot + i)) =
      (if j < n then (X (tot + (b + j)) - X (tot + (b + j + 1))) / (h j + h (j + 1)) else 0) +
      if 0 < j then (X (tot + (b + j)) - X (tot + (b + j - 1))) / (h (j - 1) + h j) else 0 := by
    have : ∀ i ∈ range N, conductance net (tot + (b + j)) (tot + i) * (X (tot + (b + j)) - X (tot + i)) =
        (if i = b + j + 1 then (if j < n then (X (tot + (b + j)) - X (tot + i)) / (h j + h (j + 1)) else 0) else 0) +
        if i = b + j - 1 then (if 0 < j then (X (tot + (b + j)) - X (tot + i)) / (h (j - 1) + h j) else 0) else 0 := by
      intro i hi
      by_cases hij : i = b + j
      · rw [hij, sub_self, mul_zero, if_neg (by omega)]
        by_cases hj0 : 0 < j
        · rw [if_neg (by omega), add_zero]
        · rw [if_neg hj0]; simp
      · rw [h2 i (Finset.mem_range.1 hi) hij]
        split_ifs <;> ring
    rw [Finset.sum_congr rfl this, Finset.sum_add_distrib,
      Finset.sum_ite_eq' (range N) (b + j + 1) (fun i => if j < n then (X (tot + (b + j)) - X (tot + i)) / (h j + h (j + 1)) else 0),
      Finset.sum_ite_eq' (range N) (b + j - 1) (fun i => if 0 < j then (X (tot + (b + j)) - X (tot + i)) / (h (j - 1) + h j) else 0)]
    congr 1
    · by_cases hjn : j < n
      · rw [if_pos (Finset.mem_range.2 (by omega))]
      · simp [hjn]
    · rw [if_pos (Finset.mem_range.2 (by omega))]
  rw [e1, e2]
  simp only [along, res, Nat.add_sub_cancel]
  by_cases hj0 : j = 0
  · subst hj0
    by_cases hn : n = 0
    · subst hn
      simp
    · rw [if_neg (by omega), if_neg (by omega), if_pos rfl, if_pos rfl, if_neg (by omega), if_neg (by omega), if_neg (by omega), if_neg (by omega),
        if_pos rfl, if_neg (by omega), if_pos (by omega), if_neg (by omega)]
      simp [Nat.add_assoc]
  · by_cases hn : j = n
    · subst hn
      rw [if_neg (by omega), if_neg (by omega), if_neg (by omega), if_neg (by omega), if_neg (by omega), if_neg (by omega), if_neg (by omega), if_pos rfl,
        if_neg (by omega), if_pos rfl, if_neg (by omega), if_pos rfl, if_neg (by omega), if_pos (by omega)]
      rw [show tot + b + (j - 1) = tot + (b + j - 1) by omega, show tot + b + j = tot + (b + j) by omega]
      ring
    · rw [if_neg (by omega), if_neg (by omega), if_neg (by omega), if_neg (by omega), if_neg (by omega), if_neg (by omega), if_neg (by omega), if_neg (by omega),
        if_neg (by omega), if_neg (by omega), if_neg (by omega), if_neg (by omega), if_pos (by omega), if_pos (by omega)]
      rw [show tot + b + (j - 1) = tot + (b + j - 1) by omega, show tot + b + j = tot + (b + j) by omega, show tot + b + (j + 2 - 1) = tot + (b + j + 1) by omega]
      ring

/-! ## a wire between two nodes -/

/-- What the steady state `X` says of a wire from `s` to `e` whose segments are the nodes from `seg` on and make the heat `P`: the
temperatures are those of a rod with heat put in at the middle of each segment, and the heat that enters at the start and leaves at
the end is that of the rod, with the heat of each segment shared by the law of the lever. -/
def Rod (k : Nat → K → Fin 3 → K) (w : Wire K) (T : K) (X : Nat → K) (seg s e n : Nat) (P : Nat → K) : Prop :=
  (∀ j ≤ n, X (seg + j) = X s + (X e - X s) * (mid w j / len w) + ∑ i ∈ range (n + 1), P i * green (len w) (cross k w T) (mid w (min i j)) (mid w (max i j))) ∧
  (X s - X seg) / half k w 0 T = (X s - X e) * cross k w T / len w - ∑ i ∈ range (n + 1), P i * ((len w - mid w i) / len w) ∧
  (X (seg + n) - X e) / half k w n T = (X s - X e) * cross k w T / len w + ∑ i ∈ range (n + 1), P i * (mid w i / len w)

theorem half_cross (k : Nat → K → Fin 3 → K) (w : Wire K) (j : Nat) (T : K) : half k w j T = w.length j / 2 / cross k w T := rfl

theorem rod [IsStrictOrderedRing K] {net : Network K} (hin : InRange net) (hst : StoredOnce net) {tot b n N s e : Nat} (hlen : net.length = tot + N)
    (hN : b + n < N) (hs : s < tot) (he : e < tot) {k : Nat → K → Fin 3 → K} {w : Wire K} {T : K} (hn : w.points = n + 2)
    (hpos : ∀ j < n + 1, 0 < half k w j T)
    (h1 : ∀ j < n + 1, ∀ x < tot, conductance net x (tot + (b + j)) =
      ((if j = 0 then (([s] : List Nat).count x : K) else 0) + if j = n then (([e] : List Nat).count x : K) else 0) * (1 / half k w j T))
    (h2 : ∀ j < n + 1, ∀ i < N, i ≠ b + j → conductance net (tot + (b + j)) (tot + i) =
      (if i = b + j + 1 then (if j < n then 1 / (half k w j T + half k w (j + 1) T) else 0) else 0) +
        if i = b + j - 1 then (if 0 < j then 1 / (half k w (j - 1) T + half k w j T) else 0) else 0)
    (hz : ∀ j < n + 1, htcOf net (tot + (b + j)) = 0) {refT : K} {X : Nat → K} (hX : Solves net refT X) :
    Rod k w T X (tot + b) s e n (fun j => hfOf net (tot + (b + j))) := by
  have hbal := fun j (hj : j < n + 1) => seg_balance hin hst hlen hN hs he (h := fun j => half k w j T) hj (h1 j hj) (h2 j hj) (hz j hj) hX
  have hrpos : ∀ j < n + 2, 0 < res (fun j => half k w j T) n j := by
    intro j hj
    unfold res
    split_ifs with c1 c2
    · exact hpos 0 (by omega)
    · exact hpos n (by omega)
    · exact add_pos (hpos _ (by omega)) (hpos _ (by omega))
  have hc : cross k w T ≠ 0 := by
    intro h0
    have := hpos 0 (by omega)
    rw [half_cross, h0, div_zero] at this
    exact lt_irrefl _ this
  have hsumhalf : ∀ j, ∑ i ∈ range j, half k w i T = (∑ i ∈ range j, w.length i) / 2 / cross k w T := by
    intro j
    induction j with
    | zero => simp
    | succ j ih => rw [Finset.sum_range_succ, ih, Finset.sum_range_succ, half_cross]; ring
  have hRj : ∀ j < n + 1, ∑ i ∈ range (j + 1), res (fun j => half k w j T) n i = mid w j / cross k w T := by
    intro j hj
    rw [sum_res _ n j hj, hsumhalf, half_cross, mid]
    ring
  have hRn : ∑ i ∈ range (n + 2), res (fun j => half k w j T) n i = len w / cross k w T := by
    rw [sum_res_all, hsumhalf, len, hn]
    simp only [Nat.add_sub_cancel, show n + 2 - 1 = n + 1 by omega]
    ring
  have hRpos : 0 < len w / cross k w T := by
    rw [← hRn]
    exact Finset.sum_pos (fun i hi => hrpos i (Finset.mem_range.1 hi)) ⟨0, by simp⟩
  have hL : len w ≠ 0 := by
    intro h0
    rw [h0, zero_div] at hRpos
    exact lt_irrefl _ hRpos
  obtain ⟨c1, c2, c3⟩ := chain_ends (along X s e (tot + b) n) (res (fun j => half k w j T) n)
    (fun j => (along X s e (tot + b) n j - along X s e (tot + b) n (j + 1)) / res (fun j => half k w j T) n j)
    (fun j => hfOf net (tot + (b + j))) (n + 1)
    (fun j hj => by
      have := (hrpos j (by omega)).ne'
      field_simp)
    (fun j hj => by
      have := hbal j (by omega)
      beta_reduce
      rw [← this]
      ring)
    (R := fun j => ∑ i ∈ range j, res (fun j => half k w j T) n i) (fun _ _ => rfl) (by beta_reduce; rw [hRn]; exact hRpos.ne')
  beta_reduce at c1 c2 c3
  have ha0 : along X s e (tot + b) n 0 = X s := rfl
  have haj : ∀ j < n + 1, along X s e (tot + b) n (j + 1) = X (tot + b + j) := by
    intro j hj
    unfold along
    rw [if_neg (by omega), if_neg (by omega), Nat.add_sub_cancel]
  have hae : along X s e (tot + b) n (n + 1 + 1) = X e := by
    unfold along
    rw [if_neg (by omega), if_pos rfl]
  have hr0 : res (fun j => half k w j T) n 0 = half k w 0 T := rfl
  have hrn : res (fun j => half k w j T) n (n + 1) = half k w n T := by
    unfold res
    rw [if_neg (by omega), if_pos rfl]
  rw [show n + 1 + 1 = n + 2 from rfl, hRn] at c1 c2 c3
  refine ⟨?_, ?_, ?_⟩
  · intro j hj
    have := c3 (j + 1) (by omega)
    rw [haj j (by omega), ha0, show n + 2 = n + 1 + 1 from rfl, hae, hRj j (by omega)] at this
    rw [this]
    congr 1
    · congr 2
      field_simp
    · apply Finset.sum_congr rfl
      intro i hi
      rw [Finset.mem_range] at hi
      rw [show min (i + 1) (j + 1) = min i j + 1 by omega, show max (i + 1) (j + 1) = max i j + 1 by omega, hRj _ (by omega), hRj _ (by omega), green]
      congr 1
      field_simp
  · rw [hr0, ha0, haj 0 (by omega), show n + 2 = n + 1 + 1 from rfl, hae, Nat.add_zero] at c1
    rw [c1]
    congr 1
    · field_simp
    · apply Finset.sum_congr rfl
      intro i hi
      rw [Finset.mem_range] at hi
      rw [hRj i hi]
      congr 1
      field_simp
  · rw [hrn, ha0, haj n (by omega), hae] at c2
    rw [c2]
    congr 1
    · field_simp
    · apply Finset.sum_congr rfl
      intro i hi
      rw [Finset.mem_range] at hi
      rw [hRj i hi]
      congr 1
      field_simp

/-- the conductances of a wire, from those of C151 -/
theorem wire_both [IsStrictOrderedRing K] {minR : K} (hm : 0 < minR) {m : PModel K} {ws : List (Wire K)} (hw : addWires m.off [] ws = .ok m.lines)
    (hends : ∀ w ∈ ws, w.Ends (totalPrisms m.off)) {iniT : List K} (hl : totalPrisms m.off + segs ws ≤ iniT.length) {net : Network K}
    (hc : ∀ a b, a < b → totalPrisms m.off ≤ b → conductance net a b = ((m.lines.flatMap (m.lineOps iniT)).map (Op.gAt minR a b)).sum)
    {pre post : List (Wire K)} {w : Wire K} (hs : ws = pre ++ w :: post) {n : Nat} (hn : w.points = n + 2) {T : K}
    (hT : ∀ j < n + 1, iniT[totalPrisms m.off + (segs pre + j)]? = some T) (hr : ∀ j < n + 1, minR ≤ half m.k w j T) {s e : Nat}
    (hst : w.start = [s]) (hfi : w.fin = [e]) :
    (∀ j < n + 1, ∀ x < totalPrisms m.off, conductance net x (totalPrisms m.off + (segs pre + j)) =
      ((if j = 0 then (([s] : List Nat).count x : K) else 0) + if j = n then (([e] : List Nat).count x : K) else 0) * (1 / half m.k w j T)) ∧
    (∀ j < n + 1, ∀ i < segs ws, i ≠ segs pre + j → conductance net (totalPrisms m.off + (segs pre + j)) (totalPrisms m.off + i) =
      (if i = segs pre + j + 1 then (if j < n then 1 / (half m.k w j T + half m.k w (j + 1) T) else 0) else 0) +
        if i = segs pre + j - 1 then (if 0 < j then 1 / (half m.k w (j - 1) T + half m.k w j T) else 0) else 0) := by
  have hv := fun j (hj : j < n + 1) => wire_values (minR := minR) hw hends hc hs (show j < w.points - 1 by omega) (hT j hj)
  have hN : segs pre + (n + 1) ≤ segs ws := by
    rw [hs]
    simp [segs]
    omega
  constructor
  · intro j hj x hx
    rw [(hv j hj).1 x hx, max_eq_left (hr j hj), hst, hfi]
    congr 2
    by_cases h : j = n
    · rw [if_pos (by omega), if_pos h]
    · rw [if_neg (by omega), if_neg h]
  · have hsum : ∀ j, j + 1 < n + 1 → max (half m.k w j T + half m.k w (j + 1) T) minR = half m.k w j T + half m.k w (j + 1) T := by
      intro j hj
      apply max_eq_left
      have h3 := hr j (by omega)
      have h4 := hr (j + 1) (by omega)
      linarith
    intro j hj i hi hij
    rcases Nat.lt_or_gt_of_ne hij with hlt | hgt
    · rw [if_neg (by omega), zero_add, GridT.conductance_comm]
      by_cases hib : segs pre ≤ i
      · obtain ⟨j', rfl⟩ := Nat.exists_eq_add_of_le hib
        rw [(hv j' (by omega)).2 (segs pre + j) (by omega) (by omega)]
        by_cases hjj : j = j' + 1
        · subst hjj
          rw [if_pos ⟨rfl, by omega⟩, if_pos (by omega), if_pos (by omega), hsum j' hj, Nat.add_sub_cancel]
        · rw [if_neg (by omega), if_neg (by omega)]
      · obtain ⟨pre1, w', post1, j', hpre, hj', rfl⟩ := locate pre (n := i) (by omega)
        have hsp : segs pre = segs pre1 + ((w'.points - 1) + segs post1) := by rw [hpre]; simp [segs]
        have hget : iniT[totalPrisms m.off + (segs pre1 + j')]? = some (iniT[totalPrisms m.off + (segs pre1 + j')]'(by omega)) := List.getElem?_eq_getElem _
        rw [(wire_values (minR := minR) hw hends hc (pre := pre1) (post := post1 ++ w :: post) (by rw [hs, hpre]; simp) hj' hget).2 (segs pre + j) (by omega) (by omega),
          if_neg (by omega)]
        by_cases hj0 : 0 < j
        · rw [if_neg (by omega)]
        · rw [if_neg hj0]; simp
    · rw [(hv j hj).2 i hgt hi, if_neg (show ¬ i = segs pre + j - 1 by omega), add_zero]
      by_cases h : i = segs pre + j + 1
      · by_cases hjn : j < n
        · rw [if_pos ⟨h, by omega⟩, if_pos h, if_pos hjn, hsum j (by omega)]
        · rw [if_neg (by omega), if_pos h, if_neg hjn]
      · rw [if_neg (by omega), if_neg h]

/-! ## the wires of the models -/

/-- networks built by calls that stay in range -/
theorem run_wf [IsStrictOrderedRing K] {minR : K} (hm : 0 < minR) {l : List (Res (Op K))} {n : Nat} {net : Network K}
    (h : run minR (Network.new noScen n) l = .ok net) (hup : ∀ o ∈ l, Op.upper o < n) (hlen : net.length = n) : InRange net ∧ StoredOnce net := by
  refine ⟨?_, run_stored hm l h (c28_new noScen n)⟩
  unfold InRange
  rw [hlen]
  refine run_below _ l hup h ?_
  intro i nd hn
  have := List.mem_of_getElem? hn
  rw [Network.new, List.mem_replicate] at this
  rw [this.2]
  simp [Node.default]

omit [LinearOrder K] [Field K] in
theorem nodesOf_zero {l : List (Res (Op K))} (h : ∀ o ∈ l, Op.nodes o = 0) : nodesOf l = 0 := by
  unfold nodesOf
  exact List.sum_eq_zero (by simpa using h)

/-- **C156.** In the steady state of a prism model a bond wire between two prisms conducts heat as a rod: the temperatures of its
segments are those of the ends joined by a line, raised by the heat of the current in each segment as in a rod with held ends, and the
heat flowing in at the start and out at the end is the difference of temperature over the resistance of the wire, with the heat of
each segment shared between the ends by the law of the lever. -/
theorem c156_prism [IsStrictOrderedRing K] {minR : K} (hm : 0 < minR) {m : PModel K} {mesh : Mesh} {layers : Nat} {info : Nat → Nat → Option (Cell K)}
    {ws : List (Wire K)} (hx : Extracted m mesh layers info ws) {iniT : List K} {net : Network K} (hb : m.build minR iniT = .ok (some net))
    {pre post : List (Wire K)} {w : Wire K} (hs : ws = pre ++ w :: post) {n : Nat} (hn : w.points = n + 2) {T : K}
    (hT : ∀ j < n + 1, iniT[totalPrisms m.off + (segs pre + j)]? = some T) (hr : ∀ j < n + 1, minR ≤ half m.k w j T) {s e : Nat}
    (hst : w.start = [s]) (hfi : w.fin = [e]) {refT : K} {X : Nat → K} (hX : Solves net refT X) :
    Rod m.k w T X (totalPrisms m.off + segs pre) s e n (joule m.resist w T) := by
  obtain ⟨hl, hrun⟩ := PrismT.build_run hb
  obtain ⟨wf, hlines⟩ := extracted_wf hx
  obtain ⟨hll, _, hseg⟩ := lines_eq m.off ws [] _ hx.lines
  simp only [List.length_nil, zero_add] at hll hseg
  have htot : m.total = totalPrisms m.off + segs ws := by rw [PModel.total, hll, Nat.add_comm]
  have hlen : net.length = m.total := by
    have := run_length _ hrun
    rw [length_new, nodesOf_zero (fun o ho => (ops_fits hx hl o ho).2.2)] at this
    omega
  obtain ⟨hin, hso⟩ := run_wf hm hrun (fun o ho => (ops_fits hx hl o ho).2.1) hlen
  have hN : segs pre + (n + 1) ≤ segs ws := by
    rw [hs]
    simp [segs]
    omega
  have hend := hx.ends w (by rw [hs]; simp)
  obtain ⟨h1, h2⟩ := wire_both hm hx.lines hx.ends (by omega) (fun _ _ hab hbt => prism_part hx hb hab hbt) hs hn hT hr hst hfi
  have hrod := rod hin hso (hlen.trans htot) (by omega) (hend.2.1 s (by rw [hst]; simp)) (hend.2.2 e (by rw [hfi]; simp)) hn
    (fun j hj => lt_of_lt_of_le hm (hr j hj)) h1 h2 (fun j _ => line_htc hb wf (by omega)) hX
  have hP : ∀ j < n + 1, hfOf net (totalPrisms m.off + (segs pre + j)) = joule m.resist w T j := by
    intro j hj
    exact (c47_prism_partial hb wf).2 _ _ T (hseg pre post w hs j (by omega)) (hT j hj)
  unfold Rod at hrod ⊢
  have hsum : ∀ f : Nat → K, ∑ i ∈ range (n + 1), hfOf net (totalPrisms m.off + (segs pre + i)) * f i = ∑ i ∈ range (n + 1), joule m.resist w T i * f i :=
    fun f => Finset.sum_congr rfl fun i hi => by rw [hP i (Finset.mem_range.1 hi)]
  refine ⟨fun j hj => ?_, ?_, ?_⟩
  · rw [hrod.1 j hj, hsum]
  · rw [hrod.2.1, hsum]
  · rw [hrod.2.2, hsum]

/-- **C156, stackup models.** The same in stackup models. -/
theorem c156_stack [IsStrictOrderedRing K] {minR : K} (hm : 0 < minR) {m : SModel K} {g : Tris K} {meshes : List Mesh} {info : Nat → Nat → Option (Cell K)}
    {ws : List (Wire K)} (hx : FromMeshes m g meshes info ws) {iniT : List K} {net : Network K} (hb : m.build minR iniT = .ok (some net))
    {pre post : List (Wire K)} {w : Wire K} (hs : ws = pre ++ w :: post) {n : Nat} (hn : w.points = n + 2) {T : K}
    (hT : ∀ j < n + 1, iniT[totalPrisms m.off + (segs pre + j)]? = some T) (hr : ∀ j < n + 1, minR ≤ half m.k w j T) {s e : Nat}
    (hst : w.start = [s]) (hfi : w.fin = [e]) {refT : K} {X : Nat → K} (hX : Solves net refT X) :
    Rod m.k w T X (totalPrisms m.off + segs pre) s e n (joule m.resist w T) := by
  obtain ⟨hl, hrun⟩ := PrismT.stack_run hb
  obtain ⟨hll, _, hseg⟩ := lines_eq m.off ws [] _ hx.lines
  simp only [List.length_nil, zero_add] at hll hseg
  have htot : m.total = totalPrisms m.off + segs ws := by rw [SModel.total, hll, Nat.add_comm]
  have hlen : net.length = m.total := by
    have := run_length _ hrun
    rw [length_new, nodesOf_zero (fun o ho => (stack_fits hx hl o ho).2.2)] at this
    omega
  obtain ⟨hin, hso⟩ := run_wf hm hrun (fun o ho => (stack_fits hx hl o ho).2.1) hlen
  have hN : segs pre + (n + 1) ≤ segs ws := by
    rw [hs]
    simp [segs]
    omega
  have hend := hx.ends w (by rw [hs]; simp)
  obtain ⟨h1, h2⟩ := wire_both (m := m.wires) hm hx.lines hx.ends (by show totalPrisms m.off + segs ws ≤ _; omega)
    (fun _ _ hab hbt => stack_part hx hb hab hbt) hs hn hT hr hst hfi
  have hrod := rod hin hso (hlen.trans htot) (by omega) (hend.2.1 s (by rw [hst]; simp)) (hend.2.2 e (by rw [hfi]; simp)) hn
    (fun j hj => lt_of_lt_of_le hm (hr j hj)) h1 h2 (fun j _ => stack_line_htc hx hb (by omega)) hX
  have hP : ∀ j < n + 1, hfOf net (totalPrisms m.off + (segs pre + j)) = joule m.resist w T j := by
    intro j hj
    exact Converge.stack_line_made hx hb (hseg pre post w hs j (by omega)) (hT j hj)
  unfold Rod at hrod ⊢
  have hsum : ∀ f : Nat → K, ∑ i ∈ range (n + 1), hfOf net (totalPrisms m.off + (segs pre + i)) * f i = ∑ i ∈ range (n + 1), joule m.resist w T i * f i :=
    fun f => Finset.sum_congr rfl fun i hi => by rw [hP i (Finset.mem_range.1 hi)]
  refine ⟨fun j hj => ?_, ?_, ?_⟩
  · rw [hrod.1 j hj]
    exact congrArg₂ (· + ·) rfl (hsum _)
  · rw [hrod.2.1, hsum]
  · rw [hrod.2.2, hsum]

/-- **C156, Fourier's law.** Without current the temperature falls evenly along the wire, and the heat that enters at its start leaves
at its end: the difference of temperature times mean conductivity times cross section over length. -/
theorem c156_fourier {k : Nat → K → Fin 3 → K} {w : Wire K} {T : K} {X : Nat → K} {seg s e n : Nat} {resist : Nat → K → K}
    (h : Rod k w T X seg s e n (joule resist w T)) (h0 : w.current = 0) :
    (∀ j ≤ n, X (seg + j) = X s + (X e - X s) * (mid w j / len w)) ∧
    (X s - X seg) / half k w 0 T = (X s - X e) * cross k w T / len w ∧ (X (seg + n) - X e) / half k w n T = (X s - X e) * cross k w T / len w := by
  have hz : ∀ i, joule resist w T i = 0 := by
    intro i
    simp [joule, h0]
  unfold Rod at h
  simp only [hz, zero_mul, Finset.sum_const_zero, add_zero, sub_zero] at h
  exact h

/-- **C156, no heat is lost on the way.** What leaves at the end is what entered at the start and the heat made by the current. -/
theorem c156_balance {k : Nat → K → Fin 3 → K} {w : Wire K} {T : K} {X : Nat → K} {seg s e n : Nat} {P : Nat → K}
    (h : Rod k w T X seg s e n P) (hL : len w ≠ 0) :
    (X (seg + n) - X e) / half k w n T = (X s - X seg) / half k w 0 T + ∑ i ∈ range (n + 1), P i := by
  have e : ∑ i ∈ range (n + 1), P i * (mid w i / len w) = ∑ i ∈ range (n + 1), P i - ∑ i ∈ range (n + 1), P i * ((len w - mid w i) / len w) := by
    rw [← Finset.sum_sub_distrib]
    apply Finset.sum_congr rfl
    intro i _
    field_simp
    ring
  rw [h.2.1, h.2.2, e]
  ring

/-! ## example -/

/-- a steady state of the example of C151: over the environment, in units of `1 / 2859` -/
def exX (i : Nat) : ℚ := ([4712, 2912, 6572, 6130, 7060].getD i 0) / 2859

/-- the hypotheses of the theorem -/
theorem exX_solves : ∃ net, exHot.build (1 / 1000) [25, 25, 25, 25, 25] = .ok (some net) ∧ Solves net 0 exX := by
  have : (match exHot.build (1 / 1000) [25, 25, 25, 25, 25] with
    | .ok (some net) => decide (∀ i < net.length, mulVec (gTriplets net) exX i = systemRhs net true 0 i)
    | _ => false) = true := by decide +kernel
  split at this
  · rename_i net hb
    have h2 := of_decide_eq_true this
    exact ⟨net, hb, h2⟩
  · cases this

/-- the wire from prism 0 to prism 2, with two segments that make two units of heat each: the temperature of the first is that of the
law of C156, and differs from that on the line between the ends -/
example : Rod exHot.k exWire 25 exX 3 0 2 1 (joule exHot.resist exWire 25) ∧
    exX 3 = exX 0 + (exX 2 - exX 0) * (1 / 4) + (2 * (1 / 2 * (2 - 1 / 2) / (2 * 3)) + 2 * (1 / 2 * (2 - 3 / 2) / (2 * 3))) ∧
    exX 3 ≠ exX 0 + (exX 2 - exX 0) * (1 / 4) := by
  obtain ⟨net, hb, hX⟩ := exX_solves
  refine ⟨?_, by decide +kernel, by decide +kernel⟩
  exact c156_prism (by norm_num) exHot_extracted hb (pre := []) (post := []) rfl (n := 1) rfl (T := 25)
    (by intro j hj; have : j = 0 ∨ j = 1 := by omega
        rcases this with rfl | rfl <;> rfl)
    (by intro j _; rw [show half exHot.k exWire j 25 = half exHot.k exWire 0 25 from rfl]; decide +kernel) rfl rfl hX

/-- a steady state of the stackup model of C76 -/
def exXS (i : Nat) : ℚ := ([43904, 38033, 86568, 71210, 92542].getD i 0) / 16640

/-- the hypotheses of the theorem on stackup models -/
theorem exXS_solves : ∃ net, exStack.build (1 / 1000) [25, 25, 25, 25, 25] = .ok (some net) ∧ Solves net 0 exXS := by
  have : (match exStack.build (1 / 1000) [25, 25, 25, 25, 25] with
    | .ok (some net) => decide (∀ i < net.length, mulVec (gTriplets net) exXS i = systemRhs net true 0 i)
    | _ => false) = true := by decide +kernel
  split at this
  · rename_i net hb
    have h2 := of_decide_eq_true this
    exact ⟨net, hb, h2⟩
  · cases this

example : Rod exStack.k exWire 25 exXS 3 0 2 1 (joule exStack.resist exWire 25) := by
  obtain ⟨net, hb, hX⟩ := exXS_solves
  exact c156_stack (by norm_num) exStack_from hb (pre := []) (post := []) rfl (n := 1) rfl (T := 25)
    (by intro j hj; have : j = 0 ∨ j = 1 := by omega
        rcases this with rfl | rfl <;> rfl)
    (by intro j _; rw [show half exStack.k exWire j 25 = half exStack.k exWire 0 25 from rfl]; decide +kernel) rfl rfl hX

end Ecad.WireHeat
