import Verif.Thermal.LinCgProps
import Verif.Thermal.EnvProps
import Mathlib.Algebra.Order.Chebyshev
import Mathlib.LinearAlgebra.Matrix.ToLin
import Mathlib.LinearAlgebra.FiniteDimensional.Lemmas
/-!
C154: the linear solvers on thermal networks.
-/
namespace Ecad.LinSolve
open Ecad.Thermal Finset

variable {K : Type} [Field K] [LinearOrder K]

theorem app_entry {net : Network K} (hr : InRange net) (v : Nat → K) (i : Nat) : app net.length (entry (gTriplets net)) v i = mulVec (gTriplets net) v i := by
  unfold app
  rw [mulVec_eq_entries net.length v i _ fun t ht => (mem_gTriplets hr ht).2]

theorem dot_mulVec {net : Network K} (hr : InRange net) (u v : Nat → K) : dot net.length u (mulVec (gTriplets net) v) = bil (gTriplets net) u v := by
  unfold dot
  exact bil_eq_sum net.length u v _ fun t ht => (mem_gTriplets hr ht).1

theorem form_entry {net : Network K} (hr : InRange net) (u v : Nat → K) : form net.length (entry (gTriplets net)) u v = bil (gTriplets net) u v := by
  rw [← dot_mulVec hr]
  unfold form dot
  exact Finset.sum_congr rfl fun i _ => by rw [app_entry hr]

variable [IsStrictOrderedRing K]

/-- **C154, the matrix.** The matrix handed to the linear solvers is symmetric; if every node is connected to a cooled one it is positive definite, and its diagonal is positive. -/
theorem c154_spd {net : Network K} (hg : Grounded net) :
    (∀ i j, entry (gTriplets net) i j = entry (gTriplets net) j i) ∧ PosDef net.length (entry (gTriplets net)) ∧
    ∀ i < net.length, 0 < entry (gTriplets net) i i := by
  have hp : PosDef net.length (entry (gTriplets net)) := by
    rintro u ⟨i, hi, hu⟩
    rw [form_entry hg.inRange]
    by_contra hc
    push Not at hc
    rw [bil_g] at hc
    exact hu (energy_zero hg hc i hi)
  refine ⟨(c29_energy hg.inRange).1, hp, fun i hi => ?_⟩
  have := hp (delta i) ⟨i, hi, by simp [delta]⟩
  rwa [form_entry hg.inRange, ← entry_eq_bil] at this

theorem sys {net : Network K} (hg : Grounded net) : Sys net.length (mulVec (gTriplets net)) (invDiag (entry (gTriplets net))) := by
  obtain ⟨-, hp, hd⟩ := c154_spd hg
  refine ⟨fun u v i => ?_, fun a u i => ?_, fun u v => ?_, fun u hu => ?_, fun i hi => ?_⟩
  · unfold mulVec
    induction gTriplets net with
    | nil => simp
    | cons t ts ih =>
      simp only [List.map_cons, List.sum_cons, ih]
      split_ifs <;> ring
  · unfold mulVec
    induction gTriplets net with
    | nil => simp
    | cons t ts ih =>
      simp only [List.map_cons, List.sum_cons, ih]
      split_ifs <;> ring
  · rw [dot_mulVec hg.inRange, dot_mulVec hg.inRange, Response.bil_comm]
  · have := hp u hu
    rwa [form_entry hg.inRange, ← dot_mulVec hg.inRange] at this
  · have := hd i hi
    unfold invDiag
    rw [if_neg this.ne']
    positivity

/-- what is asked of the library: `SparseLU` solves systems with one solution, and the orders of rows and columns are orders -/
structure Good (L : Lib K) : Prop where
  lu : ∀ n M b, (∀ u v : Nat → K, (∀ i < n, app n M u i = app n M v i) → ∀ i < n, u i = v i) → ∃ x, L.lu n M b = some x ∧ ∀ i < n, app n M x i = b i
  perm : ∀ n M, Reorders n (L.perm n M).1 (L.perm n M).2
  tol : ∀ v, 0 < v → 0 < L.tol v

theorem solves_of {net : Network K} (hr : InRange net) {refT : K} {x : Nat → K} (h : ∀ i < net.length, app net.length (entry (gTriplets net)) x i = systemRhs net true refT i) :
    Solves net refT x := by
  intro i hi
  rw [← app_entry hr]
  exact h i hi

/-- **C154, direct solvers.** If every node is connected to a cooled one, the solver types 0 to 3 succeed, whatever order the factorisations use, and return the steady temperatures. -/
theorem c154_direct {L : Lib K} (hL : Good L) {net : Network K} (hg : Grounded net) (refT : K) {type : Int} (ht : type = 0 ∨ type = 1 ∨ type = 2 ∨ type = 3) :
    ∃ x, solve L type net refT = some ((List.range net.length).map x) ∧ Solves net refT x := by
  obtain ⟨hs, hp, -⟩ := c154_spd hg
  have hre := hL.perm net.length (entry (gTriplets net))
  have h1 := reordered_solves (ok := fun d => decide (d ≠ 0)) (by simp) (fun d hd => by simp [hd.ne']) hre hs hp (systemRhs net true refT)
  have h2 := reordered_solves (ok := fun d => decide (0 < d)) (fun d hd => by simpa using (of_decide_eq_true hd).ne') (fun d hd => by simpa using hd) hre hs hp
    (systemRhs net true refT)
  obtain ⟨x1, e1, s1⟩ := h1
  obtain ⟨x2, e2, s2⟩ := h2
  rcases ht with rfl | rfl | rfl | rfl
  · obtain ⟨x, e, s⟩ := hL.lu net.length (entry (gTriplets net)) (systemRhs net true refT) (fun u v huv i hi => by
      by_contra hc
      have := hp (fun k => u k - v k) ⟨i, hi, sub_ne_zero.2 hc⟩
      unfold form dot at this
      rw [Finset.sum_eq_zero] at this
      · exact lt_irrefl _ this
      · intro k hk
        have h3 : app net.length (entry (gTriplets net)) (fun k => u k - v k) k = 0 := by
          have := huv k (Finset.mem_range.1 hk)
          unfold app at this ⊢
          simp only [mul_sub, Finset.sum_sub_distrib, this, sub_self]
        rw [h3, mul_zero])
    refine ⟨x, ?_, solves_of hg.inRange s⟩
    unfold solve
    simp [kindOf, e]
  · refine ⟨x1, ?_, solves_of hg.inRange s1⟩
    unfold solve
    simp only [kindOf, show ¬ (1 : Int) = 0 by decide, if_false, if_true]
    unfold ldlt
    rw [e1]
    rfl
  · refine ⟨x2, ?_, solves_of hg.inRange s2⟩
    unfold solve
    simp only [kindOf, show ¬ (2 : Int) = 0 by decide, show ¬ (2 : Int) = 1 by decide, if_false, if_true]
    unfold llt
    rw [e2]
    rfl
  · refine ⟨x1, ?_, solves_of hg.inRange s1⟩
    unfold solve
    simp only [kindOf, show ¬ (3 : Int) = 0 by decide, show ¬ (3 : Int) = 1 by decide, show ¬ (3 : Int) = 2 by decide, if_false, if_true]
    unfold ldlt
    rw [e1]
    rfl

/-- **C154, agreement.** The direct solvers return the same temperatures. -/
theorem c154_agree {L L' : Lib K} (hL : Good L) (hL' : Good L') {net : Network K} (hg : Grounded net) (refT : K) {s t : Int} (hs : s = 0 ∨ s = 1 ∨ s = 2 ∨ s = 3)
    (ht : t = 0 ∨ t = 1 ∨ t = 2 ∨ t = 3) : solve L s net refT = solve L' t net refT := by
  obtain ⟨x, e1, h1⟩ := c154_direct hL hg refT hs
  obtain ⟨y, e2, h2⟩ := c154_direct hL' hg refT ht
  rw [e1, e2]
  congr 1
  exact List.map_congr_left fun i hi => Env.unique hg h1 h2 i (List.mem_range.1 hi)

/-- **C154, the steady solution.** So each direct solver has what the steady solution asks of the solver of linear systems: one temperature for each node, and the steady temperatures
where every node is connected to a cooled one. -/
theorem c154_steady {L : Lib K} (hL : Good L) (refT : K) {type : Int} (ht : type = 0 ∨ type = 1 ∨ type = 2 ∨ type = 3) :
    ∃ f : Network K → List K, (∀ net, Grounded net → solve L type net refT = some (f net)) ∧ (∀ net, (f net).length = net.length) ∧
      ∀ net, Grounded net → Solves net refT fun i => (f net).getD i 0 := by
  refine ⟨fun net => (solve L type net refT).getD (List.replicate net.length refT), fun net hg => ?_, fun net => ?_, fun net hg => ?_⟩
  · obtain ⟨x, e, -⟩ := c154_direct hL hg refT ht
    beta_reduce
    rw [e]; rfl
  · have : ∀ l, solve L type net refT = some l → l.length = net.length := by
      intro l hl
      unfold solve at hl
      simp only [Option.map_eq_some_iff] at hl
      obtain ⟨x, -, rfl⟩ := hl
      simp
    beta_reduce
    cases h : solve L type net refT with
    | none => simp
    | some l => exact this l h
  · obtain ⟨x, e, h⟩ := c154_direct hL hg refT ht
    have hx : ∀ i < net.length, ((solve L type net refT).getD (List.replicate net.length refT)).getD i 0 = x i := by
      intro i hi
      rw [e]
      simp [hi]
    intro i hi
    rw [← app_entry hg.inRange]
    have := h i hi
    rw [← app_entry hg.inRange] at this
    rw [← this]
    unfold app
    exact Finset.sum_congr rfl fun j hj => by beta_reduce; rw [hx j (Finset.mem_range.1 hj)]

/-- **C154, conjugate gradients.** If every node is connected to a cooled one, the default solver never divides by zero and ends with a residual below the threshold of the library;
it needs no more rounds than there are nodes, so that the limit of twice as many never counts. -/
theorem c154_cg {L : Lib K} (hL : Good L) {net : Network K} (hg : Grounded net) (refT : K) :
    ∃ x, solve L 10 net refT = some ((List.range net.length).map x) ∧
      (Solves net refT x ∨ ∑ i ∈ range net.length, (systemRhs net true refT i - mulVec (gTriplets net) x i) ^ 2 <
        L.tol (∑ i ∈ range net.length, systemRhs net true refT i ^ 2)) := by
  obtain ⟨x, e, h⟩ := cg_ends (sys hg) (systemRhs net true refT) hL.tol
  refine ⟨x, ?_, ?_⟩
  · unfold solve
    simp only [kindOf, show ¬ (10 : Int) = 0 by decide, show ¬ (10 : Int) = 1 by decide, show ¬ (10 : Int) = 2 by decide, show ¬ (10 : Int) = 3 by decide, if_false, if_true]
    rw [e]
    rfl
  · unfold dot at h
    simp only [← pow_two] at h
    exact h

/-- **C154, conjugate gradients, exactly.** Within as many rounds as there are nodes the iteration reaches the steady temperatures. -/
theorem c154_cg_exact {net : Network K} (hg : Grounded net) (refT : K) :
    ∃ k ≤ net.length, Solves net refT (st net.length (mulVec (gTriplets net)) (invDiag (entry (gTriplets net))) (systemRhs net true refT) k).x :=
  cg_exact (sys hg) _

/-- **C154, nodes on their own.** If no two nodes are connected, a single round of the preconditioned iteration gives the steady temperatures. -/
theorem c154_cg_alone {net : Network K} (hg : Grounded net) (hno : ∀ i < net.length, ∀ j < net.length, i ≠ j → entry (gTriplets net) i j = 0) (refT : K) :
    Solves net refT (st net.length (mulVec (gTriplets net)) (invDiag (entry (gTriplets net))) (systemRhs net true refT) 1).x := by
  have hd := (c154_spd hg).2.2
  have hA : ∀ (u : Nat → K), ∀ i < net.length, mulVec (gTriplets net) u i = entry (gTriplets net) i i * u i := by
    intro u i hi
    rw [← app_entry hg.inRange]
    unfold app
    rw [Finset.sum_eq_single i]
    · intro j hj hne
      rw [hno i hi j (Finset.mem_range.1 hj) (Ne.symm hne), zero_mul]
    · intro h0
      exact absurd (Finset.mem_range.2 hi) h0
  intro i hi
  rw [hA _ i hi, st_x]
  have h0 : ∀ i < net.length, (st net.length (mulVec (gTriplets net)) (invDiag (entry (gTriplets net))) (systemRhs net true refT) 0).r i = systemRhs net true refT i := by
    intro i hi
    change systemRhs net true refT i - mulVec (gTriplets net) (fun _ => 0) i = _
    rw [hA _ i hi, mul_zero, sub_zero]
  have hp : ∀ i < net.length, (st net.length (mulVec (gTriplets net)) (invDiag (entry (gTriplets net))) (systemRhs net true refT) 0).p i = systemRhs net true refT i / entry (gTriplets net) i i := by
    intro i hi
    change invDiag (entry (gTriplets net)) i * (st net.length (mulVec (gTriplets net)) (invDiag (entry (gTriplets net))) (systemRhs net true refT) 0).r i = _
    rw [h0 i hi, invDiag, if_neg (hd i hi).ne']
    ring
  have habs : (st net.length (mulVec (gTriplets net)) (invDiag (entry (gTriplets net))) (systemRhs net true refT) 0).abs =
      ∑ i ∈ range net.length, systemRhs net true refT i ^ 2 / entry (gTriplets net) i i := by
    rw [st_abs]
    unfold dot
    refine Finset.sum_congr rfl fun i hi => ?_
    have hi := Finset.mem_range.1 hi
    have e : invDiag (entry (gTriplets net)) i = 1 / entry (gTriplets net) i i := by rw [invDiag, if_neg (hd i hi).ne']
    beta_reduce
    rw [h0 i hi, e]
    ring
  have hcur : dot net.length (st net.length (mulVec (gTriplets net)) (invDiag (entry (gTriplets net))) (systemRhs net true refT) 0).p
      (mulVec (gTriplets net) (st net.length (mulVec (gTriplets net)) (invDiag (entry (gTriplets net))) (systemRhs net true refT) 0).p) =
      ∑ i ∈ range net.length, systemRhs net true refT i ^ 2 / entry (gTriplets net) i i := by
    unfold dot
    refine Finset.sum_congr rfl fun i hi => ?_
    have hi := Finset.mem_range.1 hi
    have := (hd i hi).ne'
    rw [hA _ i hi, hp i hi]
    field_simp
  have hx : (st net.length (mulVec (gTriplets net)) (invDiag (entry (gTriplets net))) (systemRhs net true refT) 0).x i = 0 := rfl
  beta_reduce
  rw [hx, hp i hi, habs, hcur, zero_add]
  have hne := (hd i hi).ne'
  by_cases hz : ∑ i ∈ range net.length, systemRhs net true refT i ^ 2 / entry (gTriplets net) i i = 0
  · rw [hz]
    have hterm := (Finset.sum_eq_zero_iff_of_nonneg (fun j hj => div_nonneg (sq_nonneg _) (hd j (Finset.mem_range.1 hj)).le)).1 hz i (Finset.mem_range.2 hi)
    have hb : systemRhs net true refT i = 0 := by
      rw [div_eq_zero_iff] at hterm
      rcases hterm with h | h
      · exact pow_eq_zero_iff (two_ne_zero) |>.1 h
      · exact absurd h hne
    rw [hb]
    simp
  · rw [div_self hz, one_mul]
    field_simp

/-- **C154, heat balance of the default solver.** The heat given off at the temperatures that are returned differs from the heat put in by no more than the threshold allows. -/
theorem c154_cg_balance {L : Lib K} (hL : Good L) {net : Network K} (hg : Grounded net) (refT : K) :
    ∃ x, solve L 10 net refT = some ((List.range net.length).map x) ∧
      (∑ i ∈ range net.length, htcOf net i * (x i - refT) = totalHF net ∨
      (∑ i ∈ range net.length, htcOf net i * (x i - refT) - totalHF net) ^ 2 ≤ net.length * L.tol (∑ i ∈ range net.length, systemRhs net true refT i ^ 2)) := by
  obtain ⟨x, e, h⟩ := c154_cg hL hg refT
  refine ⟨x, e, ?_⟩
  obtain ⟨y, hy⟩ := c30_exists hg refT
  have bal : ∀ z, Solves net refT z → ∑ i ∈ range net.length, htcOf net i * (z i - refT) = totalHF net := fun z hz =>
    (c29_energy hg.inRange).2.2 refT z fun i hi => by
      rw [← mulVec_eq_entries net.length z i _ fun t ht => (mem_gTriplets hg.inRange ht).2]
      exact hz i hi
  rcases h with h | h
  · exact .inl (bal x h)
  · right
    have one : ∀ z : Nat → K, ∑ i ∈ range net.length, mulVec (gTriplets net) z i = ∑ i ∈ range net.length, htcOf net i * z i := by
      intro z
      have := dot_mulVec hg.inRange (fun _ => 1) z
      unfold dot at this
      simp only [one_mul] at this
      rw [this, bil_g]
      simp
    have h1 : ∑ i ∈ range net.length, htcOf net i * (x i - refT) - totalHF net =
        -∑ i ∈ range net.length, (systemRhs net true refT i - mulVec (gTriplets net) x i) := by
      rw [← bal y hy, Finset.sum_sub_distrib, one, ← Finset.sum_congr rfl fun i hi => hy i (Finset.mem_range.1 hi), one]
      simp only [mul_sub, Finset.sum_sub_distrib]
      ring
    rw [h1, neg_sq]
    refine (sq_sum_le_card_mul_sum_sq).trans ?_
    rw [Finset.card_range]
    exact mul_le_mul_of_nonneg_left h.le (Nat.cast_nonneg _)

omit [IsStrictOrderedRing K] in
/-- **C154, the default case.** For any other number the temperatures are those of the environment; -/
theorem c154_default (L : Lib K) {type : Int} (h : type ≠ 0 ∧ type ≠ 1 ∧ type ≠ 2 ∧ type ≠ 3 ∧ type ≠ 10) (net : Network K) (refT : K) :
    solve L type net refT = some (List.replicate net.length refT) := by
  unfold solve kindOf
  simp only [h.1, h.2.1, h.2.2.1, h.2.2.2.1, h.2.2.2.2, if_false, Option.map_some]
  congr 1
  apply List.ext_getElem
  · simp
  · intro i h1 h2
    simp

/-- ... and these solve the system only if nothing is heated -/
theorem c154_default_refuted {net : Network K} (hr : InRange net) (refT : K) {i : Nat} (hi : i < net.length) (hf : hfOf net i ≠ 0) : ¬ Solves net refT fun _ => refT := by
  intro h
  rw [solves_iff] at h
  have := h i hi
  rw [const_mulVec net refT i hi] at this
  apply hf
  linear_combination -this

/-- **C154 fails** for networks with a part that is not cooled: the matrix is not positive definite, and the `LLT` factorisation fails in whatever order. -/
theorem c154_uncooled_refuted (L : Lib K) {net : Network K} (hr : InRange net) (hperm : Reorders net.length (L.perm net.length (entry (gTriplets net))).1 (L.perm net.length (entry (gTriplets net))).2)
    {S : Nat → Prop} (hS : ∃ i < net.length, S i) (hcl : ∀ e ∈ edges net, S e.1 ↔ S e.2.1) (hno : ∀ i < net.length, S i → htcOf net i = 0) (refT : K) :
    ¬ PosDef net.length (entry (gTriplets net)) ∧ solve L 2 net refT = none := by
  classical
  have hnot : ¬ PosDef net.length (entry (gTriplets net)) := by
    intro hp
    obtain ⟨i, hi, hSi⟩ := hS
    have := hp (fun k => if S k then 1 else 0) ⟨i, hi, by simp [hSi]⟩
    rw [form_entry hr, bil_g] at this
    have h1 : ((edges net).map fun e => e.2.2 * ((if S e.1 then (1 : K) else 0) - (if S e.2.1 then 1 else 0)) * ((if S e.1 then (1 : K) else 0) - (if S e.2.1 then 1 else 0))).sum = 0 := by
      apply List.sum_eq_zero
      intro z hz
      rw [List.mem_map] at hz
      obtain ⟨e, he, rfl⟩ := hz
      simp only [hcl e he, sub_self, mul_zero]
    have h2 : ∑ k ∈ range net.length, htcOf net k * (if S k then (1 : K) else 0) * (if S k then (1 : K) else 0) = 0 := by
      refine Finset.sum_eq_zero fun k hk => ?_
      by_cases hk' : S k
      · rw [hno k (Finset.mem_range.1 hk) hk']; ring
      · simp [hk']
    rw [h1, h2, add_zero] at this
    exact lt_irrefl _ this
  refine ⟨hnot, ?_⟩
  unfold solve
  simp only [kindOf, show ¬ (2 : Int) = 0 by decide, show ¬ (2 : Int) = 1 by decide, if_false, if_true]
  rw [Option.map_eq_none_iff]
  unfold reordered
  rw [Option.map_eq_none_iff]
  have hs := (c29_energy hr).1
  rw [lower_eq hs]
  by_contra hc
  obtain ⟨y, hy⟩ := Option.ne_none_iff_exists'.1 hc
  exact hnot ((posDef_reorder hperm).1 (posDef_of_llt net.length (M := fun i j => entry (gTriplets net) ((L.perm net.length (entry (gTriplets net))).1 i)
    ((L.perm net.length (entry (gTriplets net))).1 j)) (fun i j => hs _ _) hy))

/-- libraries as asked for exist -/
theorem good_exists : ∃ L : Lib K, Good L := by
  classical
  refine ⟨⟨fun n M b => if h : ∃ x : Nat → K, ∀ i < n, app n M x i = b i then some h.choose else none, fun _ _ => (id, id), fun v => v / 1000000⟩, ?_, ?_, ?_⟩
  · intro n M b hinj
    let f : (Fin n → K) →ₗ[K] (Fin n → K) := Matrix.toLin' (Matrix.of fun i j : Fin n => M i j)
    have ext : ∀ (v : Fin n → K) (i : Fin n), f v i = app n M (fun k => if h : k < n then v ⟨k, h⟩ else 0) i := by
      intro v i
      simp only [f, Matrix.toLin'_apply, Matrix.mulVec, dotProduct, app, Matrix.of_apply, Finset.sum_range]
      exact Finset.sum_congr rfl fun j _ => by simp
    have hf : Function.Injective f := by
      intro u v huv
      funext i
      have := hinj (fun k => if h : k < n then u ⟨k, h⟩ else 0) (fun k => if h : k < n then v ⟨k, h⟩ else 0) (fun k hk => by
        rw [← ext u ⟨k, hk⟩, ← ext v ⟨k, hk⟩, huv]) i i.2
      simpa using this
    obtain ⟨y, hy⟩ := (LinearMap.injective_iff_surjective.1 hf) fun i => b i
    have hex : ∃ x : Nat → K, ∀ i < n, app n M x i = b i := ⟨_, fun i hi => by rw [← ext y ⟨i, hi⟩, hy]⟩
    exact ⟨hex.choose, by simp [hex], hex.choose_spec⟩
  · intro n M
    exact ⟨fun i hi => ⟨hi, rfl⟩, fun i hi => ⟨hi, rfl⟩⟩
  · intro v hv
    positivity

/-- two nodes joined by a resistance of two; the first is heated with three watts, the second cooled -/
def exPair : Network ℚ := [⟨noScen, none, 0, 3, 0, [(1, 2)]⟩, ⟨noScen, none, 0, 0, 1, [(0, 2)]⟩]

/-- a library that orders backwards -/
def exLib : Lib ℚ := ⟨fun _ _ _ => none, fun n _ => (fun i => n - 1 - i, fun i => n - 1 - i), fun v => v / 1000000⟩

example : (solve exLib 1 exPair 300, solve exLib 2 exPair 300, solve exLib 3 exPair 300, solve exLib 10 exPair 300, solve exLib 7 exPair 300) =
    (some [306, 303], some [306, 303], some [306, 303], some [306, 303], some [300, 300]) := by decide +kernel

theorem inRange_of {net : Network ℚ} (h : ∀ n ∈ net, ∀ e ∈ n.ns, e.1 < net.length) : InRange net := fun _ n hn => h n (List.mem_of_getElem? hn)

theorem exPair_grounded : Grounded exPair := by
  refine ⟨?_, ?_, ?_, ?_⟩
  · exact inRange_of (by decide +kernel)
  · decide +kernel
  · decide +kernel
  · intro i hi
    have h1 : (0 : ℚ) < htcOf exPair 1 := by decide +kernel
    have : i = 0 ∨ i = 1 := by
      have : i < 2 := hi
      omega
    rcases this with rfl | rfl
    · exact ⟨1, .single ⟨1 / 2, .inl (by decide +kernel)⟩, h1⟩
    · exact ⟨1, .refl, h1⟩

example : ∃ L : Lib ℚ, Good L ∧ ∃ x, solve L 0 exPair 300 = some ((List.range 2).map x) ∧ Solves exPair 300 x :=
  let ⟨L, h⟩ := good_exists (K := ℚ)
  ⟨L, h, c154_direct h exPair_grounded 300 (.inl rfl)⟩

/-- two nodes on their own, with cooling of different strength -/
def exAlone : Network ℚ := [⟨noScen, none, 0, 3, 5, []⟩, ⟨noScen, none, 0, 1, 2, []⟩]

example : Grounded exAlone ∧ (∀ i < 2, ∀ j < 2, i ≠ j → entry (gTriplets exAlone) i j = 0) ∧ solve exLib 10 exAlone 300 = some [300 + 3 / 5, 300 + 1 / 2] := by
  refine ⟨⟨inRange_of (by decide +kernel), by decide +kernel, by decide +kernel, fun i hi => ⟨i, .refl, ?_⟩⟩, by decide +kernel, by decide +kernel⟩
  have : i = 0 ∨ i = 1 := by
    have : i < 2 := hi
    omega
  rcases this with rfl | rfl <;> decide +kernel

/-- the same without cooling: the `LLT` factorisation fails -/
def exHot : Network ℚ := [⟨noScen, none, 0, 3, 0, [(1, 2)]⟩, ⟨noScen, none, 0, 0, 0, []⟩]

example : solve exLib 2 exHot 300 = none :=
  (c154_uncooled_refuted exLib (inRange_of (by decide +kernel))
    ⟨fun i hi => by have : i < 2 := hi; constructor <;> simp only [exLib, exHot, List.length_cons, List.length_nil] <;> omega,
     fun i hi => by have : i < 2 := hi; constructor <;> simp only [exLib, exHot, List.length_cons, List.length_nil] <;> omega⟩
    (S := fun _ => True) ⟨0, by decide, trivial⟩ (fun _ _ => Iff.rfl) (by intro i hi _; have : i < 2 := hi; interval_cases i <;> decide +kernel) 300).2

example : ¬ Solves exHot 300 fun _ => 300 := c154_default_refuted (inRange_of (by decide +kernel)) 300 (i := 0) (by decide) (by decide +kernel)

end Ecad.LinSolve
