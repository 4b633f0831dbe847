import Verif.Thermal.ResponseProps
import Verif.Thermal.StaticProps
import Mathlib.Topology.MetricSpace.Contracting
import Mathlib.Topology.MetricSpace.Pseudo.Pi
import Mathlib.Topology.Instances.Real.Lemmas
/-!
C129: The iteration of the static solver with powers that depend on the temperature: it converges if the slopes of the powers, taken as heat flows,
would heat no node by a full degree, with bounds for the rounds and for the error left; if they would heat every node by a degree or
more, it runs until the rounds are used up.
-/
namespace Ecad.Converge
open Ecad.Thermal Ecad.Response Ecad.Static

variable {K : Type} [Field K] [LinearOrder K]

/-! ## specification -/

/-- the temperatures of two vectors differ by no more than `d` -/
def Near (n : Nat) (d : K) (a b : List K) : Prop := ∀ i < n, |a.getD i 0 - b.getD i 0| ≤ d

/-- A model of fixed resistances and transfer coefficients, those of `net`, in which the heat flows `P` depend on the temperatures, and a
linear solver that solves. -/
structure Fed (build : List K → Res (Option (Network K))) (solve : Network K → List K) (net : Network K) (refT : K) (P : List K → Nat → K) : Prop where
  grounded : Grounded net
  built : ∀ T : List K, T.length = net.length → ∃ net', build T = .ok (some net') ∧ Same net net' ∧ ∀ i < net.length, hfOf net' i = P T i
  size : ∀ net' : Network K, (solve net').length = net'.length
  solved : ∀ net' : Network K, Same net net' → Solves net' refT fun i => (solve net').getD i 0

/-- the heat flow of a node changes by at most `L` times the largest change of a temperature -/
def Slopes (n : Nat) (P : List K → Nat → K) (L : Nat → K) : Prop :=
  ∀ T T' : List K, T.length = n → T'.length = n → ∀ d, Near n d T T' → ∀ i < n, |P T i - P T' i| ≤ L i * d

/-- the heat flow of a node grows by at least `L` times the least growth of a temperature -/
def Steep (n : Nat) (P : List K → Nat → K) (L : Nat → K) : Prop :=
  ∀ T T' : List K, T.length = n → T'.length = n → ∀ d, 0 ≤ d → (∀ i < n, T.getD i 0 + d ≤ T'.getD i 0) → ∀ i < n, P T i + L i * d ≤ P T' i

/-- temperatures that solve the network built for themselves -/
def Consistent (build : List K → Res (Option (Network K))) (solve : Network K → List K) (n : Nat) (S : List K) : Prop :=
  S.length = n ∧ Round build solve S S

/-! ## changes -/

section
variable [IsStrictOrderedRing K]

omit [IsStrictOrderedRing K] in
theorem near_tail {n : Nat} {d x y : K} {a b : List K} (h : Near (n + 1) d (x :: a) (y :: b)) : |x - y| ≤ d ∧ Near n d a b :=
  ⟨by simpa using h 0 (by omega), fun i hi => by simpa using h (i + 1) (by omega)⟩

theorem near_change {a b : List K} (h : a.length = b.length) : Near a.length (change true a b) a b := by
  unfold change
  rw [if_pos rfl]
  induction a generalizing b with
  | nil => intro i hi; simp at hi
  | cons x a ih =>
    cases b with
    | nil => simp at h
    | cons y b =>
      have := ih (b := b) (by simpa using h)
      intro i hi
      simp only [List.zip_cons_cons, List.map_cons, List.foldr_cons]
      cases i with
      | zero => simp
      | succ i =>
        simp only [List.getD_cons_succ]
        exact (this i (by simpa using hi)).trans (le_max_right _ _)

theorem change_le {a b : List K} {d : K} (h : a.length = b.length) (hd : 0 ≤ d) (hn : Near a.length d a b) : change true a b ≤ d := by
  unfold change
  rw [if_pos rfl]
  induction a generalizing b with
  | nil => simpa using hd
  | cons x a ih =>
    cases b with
    | nil => simp at h
    | cons y b =>
      obtain ⟨h1, h2⟩ := near_tail hn
      simp only [List.zip_cons_cons, List.map_cons, List.foldr_cons]
      exact max_le h1 (ih (by simpa using h) h2)

theorem change_nonneg (a b : List K) : 0 ≤ change true a b := by
  unfold change
  rw [if_pos rfl]
  generalize (a.zip b).map (fun p => |p.1 - p.2|) = l
  induction l with
  | nil => simp
  | cons x l ih => rw [List.foldr_cons]; exact ih.trans (le_max_right _ _)

/-- the sum of changes is at least the largest and at most their number times the largest -/
theorem sum_change (l : List K) (h : ∀ x ∈ l, 0 ≤ x) : l.foldr max 0 ≤ l.sum ∧ l.sum ≤ l.length * l.foldr max 0 := by
  induction l with
  | nil => simp
  | cons x l ih =>
    obtain ⟨h1, h2⟩ := ih fun y hy => h y (List.mem_cons_of_mem _ hy)
    have hx := h x List.mem_cons_self
    have hs : 0 ≤ l.sum := List.sum_nonneg fun y hy => h y (List.mem_cons_of_mem _ hy)
    rw [List.foldr_cons, List.sum_cons, List.length_cons]
    refine ⟨max_le (by linarith) (by linarith), ?_⟩
    have h3 := le_max_left x (l.foldr max 0)
    have h4 := le_max_right x (l.foldr max 0)
    have h5 : (l.length : K) * l.foldr max 0 ≤ l.length * max x (l.foldr max 0) := mul_le_mul_of_nonneg_left h4 (Nat.cast_nonneg _)
    push_cast
    linarith

/-- by how much the largest change may exceed the one measured -/
def slack (maximum : Bool) (n : Nat) : K := if maximum then 1 else n

theorem change_max {maximum : Bool} {a b : List K} (h : a.length = b.length) :
    change maximum a b ≤ change true a b ∧ change true a b ≤ slack maximum a.length * change maximum a b := by
  cases maximum with
  | true => simp [slack]
  | false =>
    have hs := sum_change ((a.zip b).map fun p => |p.1 - p.2|) (by
      intro x hx
      rw [List.mem_map] at hx
      obtain ⟨p, _, rfl⟩ := hx
      exact abs_nonneg _)
    have hl : ((a.zip b).map fun p => |p.1 - p.2|).length = a.length := by simp [h]
    rw [hl] at hs
    unfold change slack
    rw [if_neg (by simp), if_pos rfl, if_neg (by simp)]
    by_cases h0 : a.length = 0
    · have : a = [] := List.length_eq_zero_iff.1 h0
      subst this
      simp
    · have hp : (0 : K) < a.length := by exact_mod_cast Nat.pos_of_ne_zero h0
      constructor
      · rw [div_le_iff₀ hp, mul_comm]
        exact hs.2
      · rw [mul_div_cancel₀ _ hp.ne']
        exact hs.1

/-! ## one round -/

omit [IsStrictOrderedRing K] in
theorem round_ok {build : List K → Res (Option (Network K))} {solve : Network K → List K} {net : Network K} {refT : K} {P : List K → Nat → K}
    (h : Fed build solve net refT P) {T a : List K} (hT : T.length = net.length) (hr : Round build solve T a) :
    a.length = net.length ∧ ∃ net', Same net net' ∧ (∀ i < net.length, hfOf net' i = P T i) ∧ Solves net' refT fun i => a.getD i 0 := by
  obtain ⟨net', h1, h2, h3⟩ := h.built T hT
  obtain ⟨net'', h4, rfl⟩ := hr
  rw [h1] at h4
  injection h4 with h4
  injection h4 with h4
  subst h4
  exact ⟨by rw [h.size, ← h2.length], net', h2, h3, h.solved net' h2⟩

/-- the difference of two rounds solves the network of the difference of the heat flows -/
theorem round_sub {build : List K → Res (Option (Network K))} {solve : Network K → List K} {net : Network K} {refT : K} {P : List K → Nat → K}
    (h : Fed build solve net refT P) {T T' a b : List K} (hT : T.length = net.length) (hT' : T'.length = net.length)
    (ha : Round build solve T a) (hb : Round build solve T' b) {i : Nat} (hi : i < net.length) :
    mulVec (gTriplets net) (fun k => a.getD k 0 - b.getD k 0) i = P T i - P T' i := by
  obtain ⟨_, n1, s1, p1, x1⟩ := round_ok h hT ha
  obtain ⟨_, n2, s2, p2, x2⟩ := round_ok h hT' hb
  have e1 := rise x1 (i := i) (by rw [← s1.length]; exact hi)
  have e2 := rise x2 (i := i) (by rw [← s2.length]; exact hi)
  rw [mulVec_eq_bil] at e1 e2 ⊢
  rw [← bil_same s1, p1 i hi] at e1
  rw [← bil_same s2, p2 i hi] at e2
  rw [← e1, ← e2, ← bil_sub]
  congr 1
  funext k
  ring

theorem mul_scale (net : Network K) (d : K) (y : Nat → K) (i : Nat) :
    mulVec (gTriplets net) (fun k => d * y k) i = d * mulVec (gTriplets net) y i := by
  rw [mulVec_eq_bil, mulVec_eq_bil]
  unfold bil
  generalize gTriplets net = ts
  induction ts with
  | nil => simp
  | cons t ts ih =>
    simp only [List.map_cons, List.sum_cons, ih]
    ring

/-- the rise by heat flows `L` -/
theorem gain_eq {net : Network K} {L y : Nat → K} (hy : Solves (withHF net L) 0 y) {i : Nat} (hi : i < net.length) :
    mulVec (gTriplets net) y i = L i := by
  have hs := withHF_same net L
  have e := rise hy (i := i) (by rw [← hs.length]; exact hi)
  simp only [sub_zero] at e
  rw [withHF_hf _ _ hi, mulVec_eq_bil, ← bil_same hs] at e
  rw [mulVec_eq_bil]
  exact e

/-! ## the claim -/

/-- C129, one round: temperatures `d` apart come to lie `q * d` apart, where `q` is the largest rise of a temperature if the slopes of the powers
were heat flows. -/
theorem c129_round {build : List K → Res (Option (Network K))} {solve : Network K → List K} {net : Network K} {refT : K} {P : List K → Nat → K}
    (h : Fed build solve net refT P) {L y : Nat → K} (hL : Slopes net.length P L) (hy : Solves (withHF net L) 0 y) {q : K}
    (hq : ∀ i < net.length, y i ≤ q) {T T' a b : List K} (hT : T.length = net.length) (hT' : T'.length = net.length)
    (ha : Round build solve T a) (hb : Round build solve T' b) {d : K} (hd : Near net.length d T T') : Near net.length (q * d) a b := by
  intro i hi
  have hd0 : 0 ≤ d := (abs_nonneg _).trans (hd i hi)
  have key : ∀ u v : Nat → K, (∀ i < net.length, mulVec (gTriplets net) (fun k => u k - v k) i ≤ L i * d) → u i - v i ≤ q * d := by
    intro u v huv
    have := comparison h.grounded (d := fun k => d * y k - (u k - v k)) (fun k hk => by
      have e1 := huv k hk
      have e2 := mul_scale net d y k
      rw [gain_eq hy hk] at e2
      rw [mulVec_eq_bil] at e1 e2 ⊢
      rw [bil_sub, e2]
      linarith) i hi
    have := mul_le_mul_of_nonneg_left (hq i hi) hd0
    linarith
  rw [abs_le]
  constructor
  · have := key (fun k => b.getD k 0) (fun k => a.getD k 0) fun k hk => by
      rw [round_sub h hT' hT hb ha hk]
      have := hL T T' hT hT' d hd k hk
      rw [abs_le] at this
      linarith
    linarith
  · exact key (fun k => a.getD k 0) (fun k => b.getD k 0) fun k hk => by
      rw [round_sub h hT hT' ha hb hk]
      exact (le_abs_self _).trans (hL T T' hT hT' d hd k hk)

/-- C129, uniqueness: if the slopes, taken as heat flows, would heat no node by a full degree, only one vector of temperatures solves the network built
for itself. -/
theorem c129_unique {build : List K → Res (Option (Network K))} {solve : Network K → List K} {net : Network K} {refT : K} {P : List K → Nat → K}
    (h : Fed build solve net refT P) {L y : Nat → K} (hL : Slopes net.length P L) (hy : Solves (withHF net L) 0 y) {q : K}
    (hq : ∀ i < net.length, y i ≤ q) (h1 : q < 1) {S S' : List K} (hS : Consistent build solve net.length S)
    (hS' : Consistent build solve net.length S') : S = S' := by
  have hlen : S.length = S'.length := by rw [hS.1, hS'.1]
  have hn := near_change hlen
  rw [hS.1] at hn
  have hz : ∀ i < net.length, S.getD i 0 = S'.getD i 0 := by
    intro i hi
    have hc := c129_round h hL hy hq hS.1 hS'.1 hS.2 hS'.2 hn
    have h0 := change_nonneg S S'
    by_cases hq0 : 0 ≤ q
    · have h2 := change_le hlen (mul_nonneg hq0 h0) (by rw [hS.1]; exact hc)
      have h3 : change true S S' = 0 := by
        by_contra hne
        have hp : 0 < change true S S' := lt_of_le_of_ne h0 (Ne.symm hne)
        nlinarith
      have := hn i hi
      rw [h3] at this
      exact sub_eq_zero.1 (abs_nonpos_iff.1 this)
    · push Not at hq0
      have h2 := hc i hi
      have h3 : q * change true S S' ≤ 0 := mul_nonpos_of_nonpos_of_nonneg hq0.le h0
      exact sub_eq_zero.1 (abs_nonpos_iff.1 (h2.trans h3))
  apply List.ext_getElem?
  intro i
  by_cases hi : i < net.length
  · have := hz i hi
    rw [List.getD_eq_getElem?_getD, List.getD_eq_getElem?_getD, List.getElem?_eq_getElem (by rw [hS.1]; exact hi),
      List.getElem?_eq_getElem (by rw [hS'.1]; exact hi)] at this
    rw [List.getElem?_eq_getElem (by rw [hS.1]; exact hi), List.getElem?_eq_getElem (by rw [hS'.1]; exact hi)]
    simpa using this
  · rw [List.getElem?_eq_none (by rw [hS.1]; omega), List.getElem?_eq_none (by rw [hS'.1]; omega)]

omit [IsStrictOrderedRing K] in
theorem fed_builder {build : List K → Res (Option (Network K))} {solve : Network K → List K} {net : Network K} {refT : K} {P : List K → Nat → K}
    (h : Fed build solve net refT P) : ∀ T : List K, T.length = net.length → ∃ net', build T = .ok (some net') ∧ net'.length = net.length := by
  intro T hT
  obtain ⟨net', h1, h2, _⟩ := h.built T hT
  exact ⟨net', h1, h2.length.symm⟩

theorem rounds_length {build : List K → Res (Option (Network K))} {solve : Network K → List K} {net : Network K} {refT : K} {P : List K → Nat → K}
    (h : Fed build solve net refT P) {T : Nat → List K} {n : Nat} (h0 : (T 0).length = net.length) (hr : ∀ k < n, Round build solve (T k) (T (k + 1))) :
    ∀ k ≤ n, (T k).length = net.length := by
  intro k
  induction k with
  | zero => intro _; exact h0
  | succ k ih => intro hk; exact (round_ok h (ih (by omega)) (hr k (by omega))).1

/-- C129, convergence: if the slopes, taken as heat flows, would heat no node by more than `q < 1` degrees, the iteration ends after `n` rounds with
temperatures no farther than `q ^ n` times the distance at the start from those that solve their own network; if it ends before the last round allowed,
they are no farther than `q / (1 - q)` times the limit (times the number of nodes if mean changes are measured); and it ends within `k + 1` rounds if
`q ^ k` times the change of the first round is within the limit. -/
theorem c129_converges {build : List K → Res (Option (Network K))} {solve : Network K → List K} {net : Network K} {refT : K} {P : List K → Nat → K}
    (h : Fed build solve net refT P) {L y : Nat → K} (hL : Slopes net.length P L) (hy : Solves (withHF net L) 0 y) {q : K} (hq0 : 0 ≤ q)
    (hq : ∀ i < net.length, y i ≤ q) (h1 : q < 1) {S : List K} (hS : Consistent build solve net.length S) (envT limit : K) (maximum : Bool)
    (iteration fuel : Nat) (hi : 1 ≤ iteration) (hf : iteration ≤ fuel) :
    ∃ (n : Nat) (R : List K), 1 ≤ n ∧ n ≤ iteration ∧
      solveStatic build solve net.length envT limit maximum iteration false fuel = some (.ok (some R)) ∧
      (∀ d, Near net.length d (List.replicate net.length envT) S → Near net.length (q ^ n * d) R S) ∧
      (n < iteration → Near net.length (q / (1 - q) * (slack maximum net.length * limit)) R S) ∧
      ∀ R1, Round build solve (List.replicate net.length envT) R1 → ∀ k,
        q ^ k * change true R1 (List.replicate net.length envT) ≤ limit → n ≤ k + 1 := by
  obtain ⟨T, n, t0, tn1, tn2, tres, tr, tc, tl⟩ := c67_static_partial build solve net.length envT limit maximum false iteration hi (fed_builder h)
    h.size fuel hf
  have hlen := rounds_length h (T := T) (n := n) (by rw [t0]; simp) tr
  rw [if_neg (by simp)] at tres
  refine ⟨n, T n, tn1, tn2, tres, fun d hd => ?_, fun hn => ?_, fun R1 hR1 k hk => ?_⟩
  · have : ∀ k ≤ n, Near net.length (q ^ k * d) (T k) S := by
      intro k
      induction k with
      | zero => intro _; rw [t0, pow_zero, one_mul]; exact hd
      | succ k ih =>
        intro hk
        have := c129_round h hL hy hq (hlen k (by omega)) hS.1 (tr k (by omega)) hS.2 (ih (by omega))
        rw [pow_succ, mul_comm (q ^ k) q, mul_assoc]
        exact this
    exact this n (le_refl _)
  · have hlim := tl hn
    have hl : (T n).length = (T (n - 1)).length := by rw [hlen n (le_refl _), hlen (n - 1) (by omega)]
    have hmax := (change_max (maximum := maximum) hl).2
    rw [hlen n (le_refl _)] at hmax
    have hsl : (0 : K) ≤ slack maximum net.length := by
      unfold slack
      split
      · exact zero_le_one
      · exact Nat.cast_nonneg _
    have hM : change true (T n) (T (n - 1)) ≤ slack maximum net.length * limit := hmax.trans (mul_le_mul_of_nonneg_left hlim hsl)
    have hlS : (T n).length = S.length := by rw [hlen n (le_refl _), hS.1]
    have hE := near_change hlS
    rw [hlen n (le_refl _)] at hE
    have hstep : Near net.length (slack maximum net.length * limit + change true (T n) S) (T (n - 1)) S := by
      intro i hi
      have a1 := near_change hl i (by rw [hlen n (le_refl _)]; exact hi)
      have a2 := hE i hi
      have a3 := abs_sub_abs_le_abs_sub ((T (n - 1)).getD i 0 - S.getD i 0) ((T n).getD i 0 - S.getD i 0)
      rw [show (T (n - 1)).getD i 0 - S.getD i 0 - ((T n).getD i 0 - S.getD i 0) = -((T n).getD i 0 - (T (n - 1)).getD i 0) by ring, abs_neg] at a3
      linarith
    have hround := tr (n - 1) (by omega)
    rw [show n - 1 + 1 = n by omega] at hround
    have hc := c129_round h hL hy hq (hlen (n - 1) (by omega)) hS.1 hround hS.2 hstep
    have hc0 : 0 ≤ q * (slack maximum net.length * limit + change true (T n) S) :=
      mul_nonneg hq0 (add_nonneg ((change_nonneg _ _).trans hM) (change_nonneg _ _))
    have hle := change_le hlS hc0 (by rw [hlen n (le_refl _)]; exact hc)
    have hfin : change true (T n) S ≤ q / (1 - q) * (slack maximum net.length * limit) := by
      rw [div_mul_eq_mul_div, le_div_iff₀ (by linarith)]
      linarith
    intro i hi
    exact (hE i hi).trans hfin
  · by_contra hcon
    push Not at hcon
    have e1 : T 1 = R1 := by
      obtain ⟨n1, b1, c1⟩ := tr 0 (by omega)
      obtain ⟨n2, b2, c2⟩ := hR1
      rw [t0, b2] at b1
      injection b1 with b1
      injection b1 with b1
      rw [c1, c2, b1]
    have hsteps : ∀ j, j + 1 ≤ n → change true (T (j + 1)) (T j) ≤ q ^ j * change true R1 (List.replicate net.length envT) := by
      intro j
      induction j with
      | zero => intro _; rw [pow_zero, one_mul, t0, e1]
      | succ j ih =>
        intro hj
        have l1 : (T (j + 1)).length = (T j).length := by rw [hlen (j + 1) (by omega), hlen j (by omega)]
        have l2 : (T (j + 1 + 1)).length = (T (j + 1)).length := by rw [hlen (j + 1 + 1) (by omega), hlen (j + 1) (by omega)]
        have a1 := near_change l1
        rw [hlen (j + 1) (by omega)] at a1
        have a2 := c129_round h hL hy hq (hlen (j + 1) (by omega)) (hlen j (by omega)) (tr (j + 1) (by omega)) (tr j (by omega)) a1
        have a3 := change_le l2 (mul_nonneg hq0 (change_nonneg _ _)) (by rw [hlen (j + 1 + 1) (by omega)]; exact a2)
        have a4 := mul_le_mul_of_nonneg_left (ih (by omega)) hq0
        rw [pow_succ, mul_comm (q ^ j) q, mul_assoc]
        linarith
    have b1 := tc k hcon
    have b2 := (change_max (maximum := maximum) (a := T (k + 1)) (b := T k) (by rw [hlen (k + 1) (by omega), hlen k (by omega)])).1
    have b3 := hsteps k (by omega)
    linarith

/-- C129, constant powers: if the powers do not depend on the temperature, the first round gives the solution, the iteration ends with it after at
most two rounds. -/
theorem c129_constant {build : List K → Res (Option (Network K))} {solve : Network K → List K} {net : Network K} {refT : K} {p : Nat → K}
    (h : Fed build solve net refT fun _ => p) (envT limit : K) (hl : 0 ≤ limit) (maximum : Bool) (iteration fuel : Nat) (hi : 1 ≤ iteration)
    (hf : iteration ≤ fuel) :
    ∃ R, solveStatic build solve net.length envT limit maximum iteration false fuel = some (.ok (some R)) ∧ R.length = net.length ∧
      Consistent build solve net.length R ∧ Solves (withHF net p) refT (fun i => R.getD i 0) ∧
      solveStatic build solve net.length envT limit maximum iteration false (min fuel 2) = some (.ok (some R)) := by
  have hL : Slopes net.length (fun _ : List K => p) fun _ => 0 := by
    intro T T' _ _ d _ i _
    simp
  have hz : Solves (withHF net fun _ => (0 : K)) 0 fun _ => 0 := by
    rw [solves_iff]
    intro i hi
    have hs := withHF_same net fun _ => (0 : K)
    rw [const_mulVec _ _ _ hi, withHF_hf _ _ (by rw [hs.length]; exact hi)]
    ring
  have same : ∀ {T T' a b : List K}, T.length = net.length → T'.length = net.length → Round build solve T a → Round build solve T' b → a = b := by
    intro T T' a b hT hT' ha hb
    have la := (round_ok h hT ha).1
    have lb := (round_ok h hT' hb).1
    have hlTT : T.length = T'.length := by rw [hT, hT']
    have hn := near_change hlTT
    rw [hT] at hn
    have := c129_round h hL hz (q := 0) (fun _ _ => le_refl _) hT hT' ha hb hn
    apply List.ext_getElem?
    intro i
    by_cases hi : i < net.length
    · have h3 := this i hi
      rw [zero_mul] at h3
      have h4 := sub_eq_zero.1 (abs_nonpos_iff.1 h3)
      rw [List.getD_eq_getElem?_getD, List.getD_eq_getElem?_getD, List.getElem?_eq_getElem (by rw [la]; exact hi),
        List.getElem?_eq_getElem (by rw [lb]; exact hi)] at h4
      rw [List.getElem?_eq_getElem (by rw [la]; exact hi), List.getElem?_eq_getElem (by rw [lb]; exact hi)]
      simpa using h4
    · rw [List.getElem?_eq_none (by rw [la]; omega), List.getElem?_eq_none (by rw [lb]; omega)]
  have main : ∀ left fuel, 1 ≤ left → left ≤ fuel ∨ 2 ≤ fuel → ∃ R, Round build solve (List.replicate net.length envT) R ∧
      loop build solve limit maximum fuel left (List.replicate net.length envT) = some (.ok (some R)) := by
    intro left fuel hleft hfuel
    obtain ⟨n1, g1, g2, _⟩ := h.built (List.replicate net.length envT) (by simp)
    have l1 : (solve n1).length = net.length := by rw [h.size, ← g2.length]
    obtain ⟨f, rfl⟩ : ∃ f, fuel = f + 1 := ⟨fuel - 1, by omega⟩
    refine ⟨solve n1, ⟨n1, g1, rfl⟩, ?_⟩
    rw [loop, g1]
    simp only
    rw [residual_eq maximum _ _ (by rw [l1]; simp)]
    simp only
    split
    · rename_i hcond
      have hp : GridT.pred64 left = left - 1 := by unfold GridT.pred64; rw [if_neg (by omega)]
      obtain ⟨f', rfl⟩ : ∃ f', f = f' + 1 := ⟨f - 1, by rw [hp] at hcond; omega⟩
      obtain ⟨n2, k1, k2, _⟩ := h.built (solve n1) l1
      have e : solve n2 = solve n1 := same l1 (by simp) ⟨n2, k1, rfl⟩ ⟨n1, g1, rfl⟩
      rw [loop, k1]
      simp only
      rw [e, residual_eq maximum _ _ rfl]
      simp only
      have hc : change maximum (solve n1) (solve n1) ≤ limit := by
        refine (change_max (maximum := maximum) rfl).1.trans ((change_le rfl (le_refl 0) fun i _ => ?_).trans hl)
        simp
      rw [if_neg (fun hh => absurd hh.1 (not_lt.2 hc))]
    · rfl
  obtain ⟨R, r1, r2⟩ := main iteration fuel hi (Or.inl hf)
  have rl := (round_ok h (by simp) r1).1
  obtain ⟨n2, k1, k2, k3⟩ := h.built R rl
  have hcons : Round build solve R R := by
    refine ⟨n2, k1, ?_⟩
    exact (same rl (by simp) ⟨n2, k1, rfl⟩ r1).symm
  refine ⟨R, ?_, rl, ⟨rl, hcons⟩, ?_, ?_⟩
  · unfold solveStatic
    rw [r2]
    rfl
  · obtain ⟨_, n3, s3, p3, x3⟩ := round_ok h rl hcons
    rw [solves_iff] at x3 ⊢
    intro i hi
    have hs := withHF_same net p
    have hi' : i < net.length := by rw [hs.length]; exact hi
    have := x3 i (by rw [← s3.length]; exact hi')
    rw [mulVec_eq_bil, ← bil_same s3, p3 i hi', ← s3.htc] at this
    rw [mulVec_eq_bil, ← bil_same hs, withHF_hf _ _ hi', ← hs.htc]
    exact this
  · obtain ⟨R', r1', r2'⟩ := main iteration (min fuel 2) hi (by omega)
    have : R' = R := same (by simp) (by simp) r1' r1
    subst this
    unfold solveStatic
    rw [r2']
    rfl

/-- C129 is false of powers that grow too fast: if the slopes, taken as heat flows, would heat every node by a degree or more and the first round raises
every temperature by more than the limit, so does every round, and the solver returns what the last round allowed has reached. -/
theorem c129_runaway_refuted {build : List K → Res (Option (Network K))} {solve : Network K → List K} {net : Network K} {refT : K}
    {P : List K → Nat → K} (h : Fed build solve net refT P) (hne : net ≠ []) {L y : Nat → K} (hL : Steep net.length P L)
    (hy : Solves (withHF net L) 0 y) (hq : ∀ i < net.length, 1 ≤ y i) (envT limit : K) {R1 : List K} {m : K} (hm0 : 0 ≤ m) (hm : limit < m)
    (hR : Round build solve (List.replicate net.length envT) R1) (h1 : ∀ i < net.length, envT + m ≤ R1.getD i 0) (maximum : Bool)
    (iteration fuel : Nat) (hi : 1 ≤ iteration) (hf : iteration ≤ fuel) :
    ∃ R, solveStatic build solve net.length envT limit maximum iteration false fuel = some (.ok (some R)) ∧
      ∀ i < net.length, envT + iteration * m ≤ R.getD i 0 := by
  obtain ⟨T, n, t0, tn1, tn2, tres, tr, tc, tl⟩ := c67_static_partial build solve net.length envT limit maximum false iteration hi (fed_builder h)
    h.size fuel hf
  have hlen := rounds_length h (T := T) (n := n) (by rw [t0]; simp) tr
  rw [if_neg (by simp)] at tres
  have hup : ∀ k, k < n → ∀ i < net.length, (T k).getD i 0 + m ≤ (T (k + 1)).getD i 0 := by
    intro k
    induction k with
    | zero =>
      intro hk i hi
      have e1 : T 1 = R1 := by
        obtain ⟨n1, b1, c1⟩ := tr 0 (by omega)
        obtain ⟨n2, b2, c2⟩ := hR
        rw [t0, b2] at b1
        injection b1 with b1
        injection b1 with b1
        rw [c1, c2, b1]
      have := h1 i hi
      rw [t0, e1]
      simpa [List.getD_eq_getElem?_getD, hi] using this
    | succ k ih =>
      intro hk i hi
      have hprev := ih (by omega)
      have := comparison h.grounded (d := fun j => (T (k + 1 + 1)).getD j 0 - (T (k + 1)).getD j 0 - m * y j) (fun j hj => by
        have e1 := round_sub h (hlen (k + 1) (by omega)) (hlen k (by omega)) (tr (k + 1) (by omega)) (tr k (by omega)) hj
        have e2 := mul_scale net m y j
        rw [gain_eq hy hj] at e2
        rw [mulVec_eq_bil] at e1 e2 ⊢
        have e3 := bil_sub (gTriplets net) (delta j) (fun k' => (T (k + 1 + 1)).getD k' 0 - (T (k + 1)).getD k' 0) (fun k' => m * y k')
        rw [e3, e1, e2]
        have := hL (T k) (T (k + 1)) (hlen k (by omega)) (hlen (k + 1) (by omega)) m hm0 hprev j hj
        linarith) i hi
      have h3 := mul_le_mul_of_nonneg_left (hq i hi) hm0
      linarith
  have hall : ∀ k ≤ n, ∀ i < net.length, envT + k * m ≤ (T k).getD i 0 := by
    intro k
    induction k with
    | zero =>
      intro _ i hi
      rw [t0]
      simp [List.getD_eq_getElem?_getD, hi]
    | succ k ih =>
      intro hk i hi
      have a1 := ih (by omega) i hi
      have a2 := hup k (by omega) i hi
      push_cast
      linarith
  have hn : n = iteration := by
    by_contra hcon
    have hb := tl (by omega)
    have hpos : 0 < net.length := List.length_pos_iff.2 hne
    have hl : (T n).length = (T (n - 1)).length := by rw [hlen n (le_refl _), hlen (n - 1) (by omega)]
    have hup' : ∀ i < net.length, m ≤ |(T n).getD i 0 - (T (n - 1)).getD i 0| := by
      intro i hi
      have := hup (n - 1) (by omega) i hi
      rw [show n - 1 + 1 = n by omega] at this
      exact le_trans (by linarith) (le_abs_self _)
    have hge : m ≤ change maximum (T n) (T (n - 1)) := by
      have hall' : ∀ x ∈ ((T n).zip (T (n - 1))).map fun p => |p.1 - p.2|, m ≤ x := by
        intro x hx
        rw [List.mem_map] at hx
        obtain ⟨p, hp, rfl⟩ := hx
        obtain ⟨i, hi⟩ := List.getElem?_of_mem hp
        rw [List.getElem?_zip_eq_some] at hi
        have hin : i < net.length := by
          rw [← hlen n (le_refl _)]
          exact (List.getElem?_eq_some_iff.1 hi.1).1
        have := hup' i hin
        rw [List.getD_eq_getElem?_getD, List.getD_eq_getElem?_getD, hi.1, hi.2] at this
        exact this
      have hcnt : (((T n).zip (T (n - 1))).map fun p => |p.1 - p.2|).length = net.length := by
        simp [hlen n (le_refl _), hlen (n - 1) (by omega)]
      unfold change
      rw [hlen n (le_refl _)]
      generalize ((T n).zip (T (n - 1))).map (fun p => |p.1 - p.2|) = l at hall' hcnt
      split
      · cases l with
        | nil => simp at hcnt; omega
        | cons x l => rw [List.foldr_cons]; exact (hall' x List.mem_cons_self).trans (le_max_left _ _)
      · have hp : (0 : K) < net.length := by exact_mod_cast hpos
        rw [le_div_iff₀ hp, ← hcnt, mul_comm]
        clear hcnt
        induction l with
        | nil => simp
        | cons x l ih =>
          have a1 := hall' x List.mem_cons_self
          have a2 := ih fun z hz => hall' z (List.mem_cons_of_mem _ hz)
          rw [List.length_cons, List.sum_cons]
          push_cast
          linarith
    linarith
  subst hn
  exact ⟨T n, tres, hall n (le_refl _)⟩

end

/-- C129, existence: over the real numbers there is a vector of temperatures that solves the network built for itself. -/
theorem c129_exists {build : List ℝ → Res (Option (Network ℝ))} {solve : Network ℝ → List ℝ} {net : Network ℝ} {refT : ℝ} {P : List ℝ → Nat → ℝ}
    (h : Fed build solve net refT P) {L y : Nat → ℝ} (hL : Slopes net.length P L) (hy : Solves (withHF net L) 0 y) {q : ℝ} (hq0 : 0 ≤ q)
    (hq : ∀ i < net.length, y i ≤ q) (h1 : q < 1) : ∃ S, Consistent build solve net.length S := by
  have hround : ∀ v : Fin net.length → ℝ, ∃ a : List ℝ, a.length = net.length ∧ Round build solve (List.ofFn v) a := by
    intro v
    obtain ⟨net', g1, _⟩ := h.built (List.ofFn v) (by simp)
    have hr : Round build solve (List.ofFn v) (solve net') := ⟨net', g1, rfl⟩
    exact ⟨_, (round_ok h (by simp) hr).1, hr⟩
  choose f hf1 hf2 using hround
  let F : (Fin net.length → ℝ) → Fin net.length → ℝ := fun v i => (f v).getD i 0
  have hcon : ContractingWith ⟨q, hq0⟩ F := by
    refine ⟨by exact_mod_cast h1, LipschitzWith.of_dist_le_mul fun v w => ?_⟩
    have hd : Near net.length (dist v w) (List.ofFn v) (List.ofFn w) := by
      intro i hi
      have := dist_le_pi_dist v w ⟨i, hi⟩
      rw [Real.dist_eq] at this
      simpa [List.getD_eq_getElem?_getD, hi] using this
    have := c129_round h hL hy hq (by simp) (by simp) (hf2 v) (hf2 w) hd
    show dist (F v) (F w) ≤ q * dist v w
    rw [dist_pi_le_iff (mul_nonneg hq0 dist_nonneg)]
    intro i
    rw [Real.dist_eq]
    exact this i i.2
  have hfix := hcon.fixedPoint_isFixedPt
  generalize ContractingWith.fixedPoint F hcon = v at hfix
  have hv : List.ofFn v = f v := by
    apply List.ext_getElem
    · simp [hf1]
    · intro i i1 i2
      have := congrFun hfix ⟨i, by simpa using i1⟩
      rw [List.getElem_ofFn, ← this]
      show (f v).getD i 0 = _
      rw [List.getD_eq_getElem?_getD, List.getElem?_eq_getElem i2]
      rfl
  refine ⟨List.ofFn v, by simp, ?_⟩
  have := hf2 v
  rw [← hv] at this
  exact this

/-! ## example -/

/-- one node of transfer coefficient 1, in surroundings of 0 degrees -/
def exOne : Network ℚ := [⟨0, none, 1, 0, 1, []⟩]

/-- it is heated with 2 W and `s` W per degree: the rise `s` of the slope decides -/
def exPower (s : ℚ) (T : List ℚ) (_ : Nat) : ℚ := 2 + s * T.getD 0 0

/-- the network of given temperatures -/
def exBuild (s : ℚ) (T : List ℚ) : Res (Option (Network ℚ)) := .ok (some (withHF exOne (exPower s T)))

/-- the solution for networks of this resistance -/
def exSolve (net : Network ℚ) : List ℚ := net.map fun n => n.hf

theorem exFed (s : ℚ) : Fed (exBuild s) exSolve exOne 0 (exPower s) := by
  refine ⟨⟨?_, ?_, ?_, ?_⟩, ?_, ?_, ?_⟩
  · intro i n h e he
    have hn : n ∈ exOne := List.mem_of_getElem? h
    rw [exOne, List.mem_singleton] at hn
    subst hn
    simp at he
  · intro n hn e he
    rw [exOne, List.mem_singleton] at hn
    subst hn
    simp at he
  · intro n hn
    rw [exOne, List.mem_singleton] at hn
    subst hn
    exact zero_le_one
  · intro i hi
    have : i = 0 := by simpa [exOne] using hi
    subst this
    exact ⟨0, .refl, by decide +kernel⟩
  · intro T _
    exact ⟨_, rfl, withHF_same _ _, fun i hi => withHF_hf _ _ hi⟩
  · intro net'
    simp [exSolve]
  · intro net' h
    rw [solves_iff]
    intro i hi
    have h0 : i = 0 := by
      have := h.length
      simp only [exOne, List.length_cons, List.length_nil] at this
      omega
    subst h0
    have hg := List.getElem?_eq_getElem hi
    rw [mulVec_eq_bil, ← bil_same h, ← mulVec_eq_bil, mul_zero, add_zero]
    have e : (exSolve net').getD 0 0 = hfOf net' 0 := by
      unfold exSolve hfOf
      rw [List.getD_eq_getElem?_getD, List.getElem?_map, hg]
      rfl
    have c := const_mulVec exOne (hfOf net' 0) 0 (by decide)
    have hh : htcOf exOne 0 = 1 := rfl
    rw [hh, one_mul] at c
    rw [← c, mulVec_eq_bil, mulVec_eq_bil, bil_g, bil_g]
    have he : edges exOne = [] := rfl
    rw [he]
    simp only [List.map_nil, List.sum_nil, zero_add]
    refine Finset.sum_congr rfl fun j hj => ?_
    have hj0 : j = 0 := by
      rw [Finset.mem_range] at hj
      simp only [exOne, List.length_cons, List.length_nil] at hj
      omega
    rw [hj0, e]

/-- the rise by the slope -/
theorem exGain (s : ℚ) : Solves (withHF exOne fun _ => s) 0 fun _ => s := by
  rw [solves_iff]
  intro i hi
  have hs := withHF_same exOne fun _ => s
  have hi' : i < exOne.length := by rw [hs.length]; exact hi
  rw [const_mulVec _ _ _ hi, withHF_hf _ _ hi', ← hs.htc]
  have : i = 0 := by simpa [exOne] using hi'
  subst this
  have : htcOf exOne 0 = 1 := rfl
  rw [this]
  ring

/-- half a watt per degree: 4 degrees in the end; from 0 the rounds reach 2, 3, 3.5 -/
example : Consistent (exBuild (1 / 2)) exSolve exOne.length [4] ∧ Slopes exOne.length (exPower (1 / 2)) (fun _ => 1 / 2) ∧
    solveStatic (exBuild (1 / 2)) exSolve exOne.length 0 (1 / 2) true 10 false 10 = some (.ok (some [7 / 2])) := by
  refine ⟨⟨rfl, _, rfl, by decide +kernel⟩, ?_, by decide +kernel⟩
  intro T T' _ _ d hd i _
  have := hd 0 (by decide)
  unfold exPower
  rw [show 2 + 1 / 2 * T.getD 0 0 - (2 + 1 / 2 * T'.getD 0 0) = 1 / 2 * (T.getD 0 0 - T'.getD 0 0) by ring, abs_mul,
    abs_of_pos (by norm_num : (0 : ℚ) < 1 / 2)]
  linarith

/-- two watts per degree: 2, 6, 14 degrees -/
example : Steep exOne.length (exPower 2) (fun _ => 2) ∧
    solveStatic (exBuild 2) exSolve exOne.length 0 (1 / 2) true 3 false 10 = some (.ok (some [14])) := by
  refine ⟨?_, by decide +kernel⟩
  intro T T' _ _ d _ hd i _
  have := hd 0 (by decide)
  unfold exPower
  linarith

end Ecad.Converge
