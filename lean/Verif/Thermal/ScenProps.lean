import Mathlib.Tactic.Linarith
import Mathlib.Tactic.Ring
import Mathlib.Data.Nat.Log
import Verif.Thermal.ScenModel
import Verif.Thermal.MorProps
import Verif.Thermal.LayoutCourseProps
/-!
C137: the transient solver scales the heat of each node by the excitation of its scenario.
-/
namespace Ecad.Scen
open Thermal

/-! ## rounding -/

/-- the natural numbers a `Float32` can hold (those up to its largest value): 24 bits and a shift -/
def Rep (m : Nat) : Prop := ∃ q k, q < 2 ^ 24 ∧ m = q * 2 ^ k

theorem small {n : Nat} (h : n < 2 ^ 24) : ulp n = 1 := by
  unfold ulp
  by_cases h0 : n = 0
  · subst h0; rfl
  · have := (Nat.log2_lt h0).2 h
    have e : Nat.log2 n + 1 - 24 = 0 := by omega
    rw [e, pow_zero]

theorem large {n : Nat} (h : 2 ^ 24 ≤ n) : ∃ k, ulp n = 2 ^ (k + 1) ∧ 2 ^ (k + 24) ≤ n ∧ n < 2 ^ (k + 25) := by
  have h0 : n ≠ 0 := by omega
  have h1 : 24 ≤ Nat.log2 n := (Nat.le_log2 h0).2 h
  refine ⟨Nat.log2 n - 24, ?_, ?_, ?_⟩
  · unfold ulp
    congr 1
    omega
  · have e : Nat.log2 n - 24 + 24 = Nat.log2 n := by omega
    rw [e]
    exact Nat.log2_self_le h0
  · have e : Nat.log2 n - 24 + 25 = Nat.log2 n + 1 := by omega
    rw [e]
    exact Nat.lt_log2_self

theorem toFloat_small {n : Nat} (h : n < 2 ^ 24) : toFloat n = n := by
  unfold toFloat
  rw [small h, if_pos (.inl (by omega))]
  omega

theorem toFloat_cases (n : Nat) : (toFloat n = n / ulp n * ulp n ∧ 2 * (n % ulp n) ≤ ulp n) ∨
    (toFloat n = (n / ulp n + 1) * ulp n ∧ ulp n ≤ 2 * (n % ulp n)) := by
  unfold toFloat
  split_ifs with h
  · exact .inl ⟨rfl, by omega⟩
  · exact .inr ⟨rfl, by omega⟩

theorem toFloat_rep (n : Nat) : Rep (toFloat n) := by
  by_cases h : n < 2 ^ 24
  · rw [toFloat_small h]
    exact ⟨n, 0, h, by simp⟩
  · obtain ⟨k, hu, h1, h2⟩ := large (Nat.le_of_not_lt h)
    have hq : n / ulp n < 2 ^ 24 := by
      rw [hu, Nat.div_lt_iff_lt_mul (by positivity), ← pow_add]
      have e : 24 + (k + 1) = k + 25 := by omega
      rwa [e]
    rcases toFloat_cases n with ⟨e, -⟩ | ⟨e, -⟩
    · rw [e, hu] at *
      exact ⟨_, _, hq, rfl⟩
    · rw [e]
      by_cases hq' : n / ulp n + 1 < 2 ^ 24
      · exact ⟨_, k + 1, hq', by rw [hu]⟩
      · refine ⟨1, 24 + (k + 1), by norm_num, ?_⟩
        rw [show n / ulp n + 1 = 2 ^ 24 by omega, hu, one_mul, ← pow_add]

theorem rep_multiple {m k : Nat} (h : Rep m) (hm : 2 ^ (k + 24) ≤ m) : ∃ c, m = c * 2 ^ (k + 1) := by
  obtain ⟨q, j, hq, rfl⟩ := h
  have hj : k + 1 ≤ j := by
    by_contra hj
    have : q * 2 ^ j < 2 ^ 24 * 2 ^ k := by
      calc q * 2 ^ j < 2 ^ 24 * 2 ^ j := (Nat.mul_lt_mul_right (by positivity)).2 hq
        _ ≤ 2 ^ 24 * 2 ^ k := Nat.mul_le_mul_left _ (Nat.pow_le_pow_right (by norm_num) (by omega))
    rw [← pow_add, Nat.add_comm 24 k] at this
    omega
  refine ⟨q * 2 ^ (j - (k + 1)), ?_⟩
  rw [Nat.mul_assoc, ← pow_add]
  congr 2
  omega

/-- C137, rounding: the value kept is one of a `Float32`, and none is nearer to the scenario. -/
theorem c137_nearest (n : Nat) : Rep (toFloat n) ∧ ∀ m, Rep m → |(n : Int) - toFloat n| ≤ |(n : Int) - m| := by
  refine ⟨toFloat_rep n, fun m hm => ?_⟩
  by_cases h : n < 2 ^ 24
  · rw [toFloat_small h, sub_self, abs_zero]
    exact abs_nonneg _
  obtain ⟨k, hu, h1, h2⟩ := large (Nat.le_of_not_lt h)
  have hdm := Nat.div_add_mod' n (ulp n)
  have hlt := Nat.mod_lt n (show ulp n > 0 by rw [hu]; positivity)
  -- distances to multiples
  have key : ∀ c : Nat, |(n : Int) - toFloat n| ≤ |(n : Int) - (c * ulp n : Nat)| := by
    intro c
    have ht := toFloat_cases n
    have hc : c * ulp n ≤ n / ulp n * ulp n ∨ (n / ulp n + 1) * ulp n ≤ c * ulp n := by
      rcases Nat.lt_or_ge (n / ulp n) c with h | h
      · exact .inr (Nat.mul_le_mul_right _ h)
      · exact .inl (Nat.mul_le_mul_right _ h)
    rw [Nat.add_mul, Nat.one_mul] at ht hc
    generalize n / ulp n * ulp n = A at *
    generalize c * ulp n = C at *
    generalize n % ulp n = r at *
    rcases abs_cases ((n : Int) - (C : Nat)) with ⟨e1, _⟩ | ⟨e1, _⟩ <;> rcases abs_cases ((n : Int) - (toFloat n : Nat)) with ⟨e2, _⟩ | ⟨e2, _⟩ <;>
      rw [e1, e2] <;> omega
  by_cases hs : 2 ^ (k + 24) ≤ m
  · obtain ⟨c, rfl⟩ := rep_multiple hm hs
    rw [← hu]
    exact key c
  · refine (key (2 ^ 23)).trans ?_
    have e : 2 ^ 23 * ulp n = 2 ^ (k + 24) := by rw [hu, ← pow_add]; congr 1; omega
    rw [e, abs_of_nonneg (by push_cast at *; have : (2 ^ (k + 24) : Int) ≤ n := by exact_mod_cast h1
                             omega), abs_of_nonneg (by omega)]
    omega

/-- C137, rounding: exactly the values of a `Float32` are kept. -/
theorem c137_kept (n : Nat) : toFloat n = n ↔ Rep n := by
  constructor
  · intro h
    rw [← h]
    exact toFloat_rep n
  · intro h
    have := (c137_nearest n).2 n h
    rw [sub_self, abs_zero] at this
    have := abs_eq_zero.1 (le_antisymm this (abs_nonneg _))
    omega

/-- C137, rounding: from the middle of the last two values on, a scenario becomes one that no `size_t` holds. -/
theorem toFloat_lt {n : Nat} (h : n < 2 ^ 64) : toFloat n < 2 ^ 64 ↔ n < 2 ^ 64 - 2 ^ 39 := by
  by_cases h63 : n < 2 ^ 63
  · refine iff_of_true ?_ (by omega)
    have := (c137_nearest n).2 (2 ^ 63) ⟨1, 63, by norm_num, by norm_num⟩
    rw [abs_of_nonpos (a := (n : Int) - (2 ^ 63 : Nat)) (by push_cast; omega)] at this
    have := (abs_le.1 this).1
    push_cast at this
    omega
  · have hu : ulp n = 2 ^ 40 := by
      unfold ulp
      have h0 : n ≠ 0 := by omega
      have a := (Nat.le_log2 h0 (k := 63)).2 (by omega)
      have b := (Nat.log2_lt h0 (k := 64)).2 h
      congr 1
      omega
    unfold toFloat
    rw [hu]
    split_ifs <;> omega

/-! ## the rate -/

variable {K : Type} [Field K] [LinearOrder K]

/-- the scenario of a node -/
def scenOf (net : Network K) (i : Nat) : Nat :=
  match net[i]? with
  | some n => n.scen
  | none => noScen

/-- the balance of heat: what node `i` gets, its heat being scaled by `exc`, by its capacity -/
def balance (net : Network K) (refT : K) (exc x : Nat → K) (i : Nat) : K :=
  (if cOf net i > 0 then 1 / cOf net i else 0) * (hfOf net i * exc i + htcOf net i * refT - mulVec (gTriplets net) x i)

theorem scens_ok (net : List (Node K)) (h : ∀ n ∈ net, n.hf ≠ 0 → toFloat n.scen < 2 ^ 64) :
    scens net = .ok ((net.filter fun n => n.hf ≠ 0).map fun n => toFloat n.scen) := by
  induction net with
  | nil => rfl
  | cons n net ih =>
    have ih := ih fun m hm => h m (List.mem_cons_of_mem _ hm)
    unfold scens
    by_cases h0 : n.hf = 0
    · rw [if_neg (by simpa using h0), ih, List.filter_cons_of_neg (by simpa using h0)]
    · rw [if_pos h0, List.filter_cons_of_pos (by simpa using h0), ih, toSize, if_pos (h n List.mem_cons_self h0)]
      rfl

theorem scens_ub (net : List (Node K)) (h : ∃ n ∈ net, n.hf ≠ 0 ∧ ¬ toFloat n.scen < 2 ^ 64) : scens net = .ub := by
  induction net with
  | nil => simp at h
  | cons n net ih =>
    unfold scens
    by_cases hn : n.hf ≠ 0 ∧ ¬ toFloat n.scen < 2 ^ 64
    · rw [if_pos hn.1, toSize, if_neg hn.2]
      rfl
    · have h' : ∃ n ∈ net, n.hf ≠ 0 ∧ ¬ toFloat n.scen < 2 ^ 64 := by
        obtain ⟨m, hm, e⟩ := h
        rcases List.mem_cons.1 hm with rfl | hm
        · exact absurd e hn
        · exact ⟨m, hm, e⟩
      rw [ih h']
      by_cases h0 : n.hf = 0
      · rw [if_neg (by simpa using h0)]
      · rw [if_pos h0, toSize, if_pos (by by_contra h1; exact hn ⟨h0, h1⟩)]
        rfl

theorem zipIdx_filter (net : List (Node K)) (e : Nat → K) (pre : List (Node K)) :
    ((net.zipIdx pre.length).filter fun p => p.1.hf ≠ 0).map (fun p => p.1.hf * e (toFloat (scenOf (pre ++ net) p.2))) =
      (net.filter fun n => n.hf ≠ 0).map fun n => n.hf * e (toFloat n.scen) := by
  induction net generalizing pre with
  | nil => rfl
  | cons n net ih =>
    have ih := ih (pre ++ [n])
    rw [List.length_append, List.length_singleton, List.append_assoc, List.singleton_append] at ih
    rw [List.zipIdx_cons]
    have hs : scenOf (pre ++ n :: net) pre.length = n.scen := by simp [scenOf]
    by_cases h0 : n.hf = 0
    · rw [List.filter_cons_of_neg (by simpa using h0), List.filter_cons_of_neg (by simpa using h0), ih]
    · rw [List.filter_cons_of_pos (by simpa using h0), List.filter_cons_of_pos (by simpa using h0), List.map_cons, List.map_cons, ih, hs]

variable [IsStrictOrderedRing K]

theorem rate_ok (net : Network K) (h : ∀ n ∈ net, n.hf ≠ 0 → toFloat n.scen < 2 ^ 64) (refT : K) (e : K → Nat → K) (t : K) (x : Nat → K) (i : Nat) :
    rate net refT e t x i = .ok (balance net refT (fun k => e t (toFloat (scenOf net k))) x i) := by
  unfold rate balance
  rw [scens_ok net h, Res.bind_ok, ← derivative_eq net refT (fun k => e t (toFloat (scenOf net k))) x i]
  unfold derivative
  have h1 := zipIdx_filter net (e t) []
  rw [List.length_nil, List.nil_append] at h1
  simp only
  rw [h1]
  have h2 : ((net.filter fun n => n.hf ≠ 0).zip ((net.filter fun n => n.hf ≠ 0).map fun n => toFloat n.scen)).map (fun p => p.1.hf * e t p.2) =
      (net.filter fun n => n.hf ≠ 0).map fun n => n.hf * e t (toFloat n.scen) := by
    rw [← List.map_prod_left_eq_zip, List.map_map]
    rfl
  rw [h2]

theorem balance_congr {net : Network K} {refT : K} {exc exc' : Nat → K} (h : ∀ k, hfOf net k ≠ 0 → exc k = exc' k) (x : Nat → K) (i : Nat) :
    balance net refT exc x i = balance net refT exc' x i := by
  unfold balance
  by_cases h0 : hfOf net i = 0
  · rw [h0, zero_mul, zero_mul]
  · rw [h i h0]

theorem heated_mem {net : Network K} {i : Nat} (h : hfOf net i ≠ 0) : ∃ n ∈ net, net[i]? = some n ∧ n.hf = hfOf net i ∧ n.scen = scenOf net i := by
  unfold hfOf at h ⊢
  unfold scenOf
  cases hn : net[i]? with
  | none => rw [hn] at h; simp at h
  | some n => exact ⟨n, List.mem_of_getElem? hn, rfl, rfl, rfl⟩

theorem mem_heated {net : Network K} {n : Node K} (h : n ∈ net) : ∃ i, net[i]? = some n ∧ hfOf net i = n.hf ∧ scenOf net i = n.scen := by
  obtain ⟨i, hi⟩ := List.mem_iff_getElem?.1 h
  exact ⟨i, hi, by simp [hfOf, hi], by simp [scenOf, hi]⟩

/-- **C137** for scenarios that a `Float32` can hold, such as those up to 2^24: the full solver scales the heat of each node by the excitation of its
scenario. -/
theorem c137_scenario_partial (net : Network K) (h : ∀ i, hfOf net i ≠ 0 → scenOf net i ≤ 2 ^ 24) (refT : K) (e : K → Nat → K) (t : K)
    (x : Nat → K) (i : Nat) : rate net refT e t x i = .ok (balance net refT (fun k => e t (scenOf net k)) x i) := by
  have hk : ∀ i, hfOf net i ≠ 0 → toFloat (scenOf net i) = scenOf net i := by
    intro i hi
    rw [c137_kept]
    rcases Nat.lt_or_eq_of_le (h i hi) with hlt | heq
    · exact ⟨_, 0, hlt, by simp⟩
    · exact ⟨1, 24, by norm_num, by rw [heq]; norm_num⟩
  rw [rate_ok]
  · rw [balance_congr]
    intro k hk0
    rw [hk k hk0]
  · intro n hn h0
    obtain ⟨i, -, h1, h2⟩ := mem_heated hn
    rw [← h2, hk i (by rw [h1]; exact h0)]
    exact lt_of_le_of_lt (h i (by rw [h1]; exact h0)) (by norm_num)

/-- **C137, where it holds**: the scenarios being values of `size_t`, and every node having a capacity: the full solver scales the heat of all nodes by
the excitations of their scenarios, whatever the excitation, exactly if the scenarios of all heated nodes are values of a `Float32`. -/
theorem c137_exact (net : Network K) (hs : ∀ n ∈ net, n.scen < 2 ^ 64) (hc : ∀ n ∈ net, 0 < n.c) (refT t : K) :
    (∀ (e : K → Nat → K) (x : Nat → K) (i : Nat), rate net refT e t x i = .ok (balance net refT (fun k => e t (scenOf net k)) x i)) ↔
      ∀ i, hfOf net i ≠ 0 → Rep (scenOf net i) := by
  constructor
  · intro h i hi
    by_contra hr
    obtain ⟨n, hn, hni, h1, h2⟩ := heated_mem hi
    have hci : 0 < cOf net i := by
      unfold cOf
      rw [hni]
      exact hc n hn
    have hne : toFloat (scenOf net i) ≠ scenOf net i := fun e => hr ((c137_kept _).1 e)
    by_cases hub : ∀ n ∈ net, n.hf ≠ 0 → toFloat n.scen < 2 ^ 64
    · have := h (fun _ s => if s = scenOf net i then 1 else 0) (fun _ => 0) i
      rw [rate_ok net hub, Res.ok.injEq] at this
      unfold balance at this
      rw [if_pos hci] at this
      have := mul_left_cancel₀ (by positivity) this
      simp only [if_neg hne, if_true] at this
      apply hi
      linarith
    · push Not at hub
      have := h (fun _ _ => 0) (fun _ => 0) 0
      unfold rate at this
      rw [scens_ub] at this
      · simp at this
      · obtain ⟨n, a, b, c⟩ := hub
        exact ⟨n, a, b, by omega⟩
  · intro h e x i
    rw [rate_ok]
    · rw [balance_congr]
      intro k hk0
      rw [(c137_kept _).2 (h k hk0)]
    · intro n hn h0
      obtain ⟨i, -, h1, h2⟩ := mem_heated hn
      have := h i (by rw [h1]; exact h0)
      rw [h2] at this
      rw [(c137_kept _).2 this]
      exact hs n hn

/-- **C137 is false of the code for heated nodes without a scenario**, such as those no scenario was given: the solver has no defined result exactly
if some heated node has one of the last 2^39 scenarios, of which the last stands for none. -/
theorem c137_none_refuted (net : Network K) (hs : ∀ n ∈ net, n.scen < 2 ^ 64) (refT : K) (e : K → Nat → K) (t : K) (x : Nat → K) (i : Nat) :
    (rate net refT e t x i = .ub ↔ ∃ n ∈ net, n.hf ≠ 0 ∧ 2 ^ 64 - 2 ^ 39 ≤ n.scen) ∧ 2 ^ 64 - 2 ^ 39 ≤ noScen := by
  refine ⟨?_, by decide⟩
  constructor
  · intro h
    by_contra hn
    push Not at hn
    rw [rate_ok] at h
    · simp at h
    · intro n hm h0
      exact (toFloat_lt (hs n hm)).2 (hn n hm h0)
  · rintro ⟨n, hn, h0, h1⟩
    unfold rate
    rw [scens_ub]
    · rfl
    · exact ⟨n, hn, h0, fun h => by have := (toFloat_lt (hs n hn)).1 h; omega⟩

/-- **C137 is false of the code for large scenarios**: a heated node of an odd scenario above 2^24 is scaled by the excitation of another scenario, which
is even. -/
theorem c137_odd_refuted (net : Network K) (hs : ∀ n ∈ net, n.hf ≠ 0 → n.scen < 2 ^ 64 - 2 ^ 39) (refT : K) (e : K → Nat → K) (t : K) (x : Nat → K) (i : Nat)
    (hodd : scenOf net i % 2 = 1) (hbig : 2 ^ 24 < scenOf net i) :
    ∃ s, s ≠ scenOf net i ∧ s % 2 = 0 ∧ ∃ exc, exc i = e t s ∧ rate net refT e t x i = .ok (balance net refT exc x i) := by
  refine ⟨toFloat (scenOf net i), ?_, ?_, fun k => e t (toFloat (scenOf net k)), rfl, rate_ok net ?_ _ _ _ _ _⟩
  · intro h
    obtain ⟨q, k, hq, he⟩ := (c137_kept _).1 h
    cases k with
    | zero => rw [he] at hbig; omega
    | succ k =>
      rw [he, pow_succ, ← Nat.mul_assoc] at hodd
      omega
  · obtain ⟨k, hu, -, -⟩ := large hbig.le
    rcases toFloat_cases (scenOf net i) with ⟨e, -⟩ | ⟨e, -⟩ <;> rw [e, hu, pow_succ, ← Nat.mul_assoc] <;> omega
  · intro n hn h0
    have := hs n hn h0
    exact (toFloat_lt (by omega)).2 this

omit [IsStrictOrderedRing K] in
/-- **C137 for the reduced solver**: each node gets its heat, scaled by the excitation of its scenario, and that of its surroundings. -/
theorem c137_reduced (net : Network K) (refT : K) (e : K → Nat → K) (t : K) (i : Nat) :
    mulVec (bTriplets true 0 0 net) (fun s => (inputs true refT e t net).getD s 0) i = hfOf net i * e t (scenOf net i) + htcOf net i * refT := by
  rw [← exc_value refT (fun k => e t (scenOf net k)) net i]
  have key : ∀ (l pre : List (Node K)), ((l.zipIdx pre.length).filter fun p => isSource true p.1).map
      (fun p => p.1.hf * e t (scenOf (pre ++ l) p.2) + p.1.htc * refT) = inputs true refT e t l := by
    intro l
    induction l with
    | nil => intro pre; rfl
    | cons n l ih =>
      intro pre
      have ih := ih (pre ++ [n])
      rw [List.length_append, List.length_singleton, List.append_assoc, List.singleton_append] at ih
      rw [List.zipIdx_cons]
      have hs : scenOf (pre ++ n :: l) pre.length = n.scen := by simp [scenOf]
      unfold inputs at ih ⊢
      by_cases h0 : isSource true n
      · rw [List.filter_cons_of_pos (by simpa using h0), List.filter_cons_of_pos h0, List.map_cons, List.map_cons, ih, hs]
      · rw [List.filter_cons_of_neg (by simpa using h0), List.filter_cons_of_neg h0, ih]
  have := key net []
  rw [List.length_nil, List.nil_append] at this
  unfold excInputs
  rw [this]

end Ecad.Scen
