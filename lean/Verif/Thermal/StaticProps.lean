import Verif.Thermal.StaticModel
import Verif.Thermal.GridSolveProps
/-!
C67: the static iteration.
-/
namespace Ecad.Static
open Ecad.Thermal Ecad.GridT

variable {K : Type} [Field K] [LinearOrder K] [IsStrictOrderedRing K]

/-- the change from one temperature vector to another: the largest or the mean absolute difference -/
def change (maximum : Bool) (a b : List K) : K :=
  if maximum then ((a.zip b).map fun p => |p.1 - p.2|).foldr max 0
  else ((a.zip b).map fun p => |p.1 - p.2|).sum / a.length

theorem resLoop_max (size : K) (a b : List K) (h : a.length = b.length) (r : K) (hr : 0 ≤ r) :
    resLoop true size a b r = .ok (max (((a.zip b).map fun p => |p.1 - p.2|).foldr max 0) r) := by
  induction a generalizing b r with
  | nil => simp [resLoop, hr]
  | cons x a ih =>
    cases b with
    | nil => simp at h
    | cons y b =>
      rw [resLoop, if_pos rfl, ih b (by simpa using h) _ (le_trans hr (le_max_right _ _))]
      simp only [List.zip_cons_cons, List.map_cons, List.foldr_cons]
      congr 1
      rw [← max_assoc, max_comm (List.foldr max 0 _) |x - y|]

theorem resLoop_mean (size : K) (a b : List K) (h : a.length = b.length) (r : K) :
    resLoop false size a b r = .ok (r + ((a.zip b).map fun p => |p.1 - p.2|).sum / size) := by
  induction a generalizing b r with
  | nil => simp [resLoop]
  | cons x a ih =>
    cases b with
    | nil => simp at h
    | cons y b =>
      rw [resLoop, if_neg (by simp), ih b (by simpa using h)]
      simp only [List.zip_cons_cons, List.map_cons, List.sum_cons]
      congr 1
      rw [add_div]; ring

theorem residual_eq (maximum : Bool) (a b : List K) (h : a.length = b.length) :
    residual maximum a b = .ok (change maximum a b) := by
  unfold residual change
  cases maximum with
  | true =>
    rw [resLoop_max _ _ _ h 0 (le_refl _), if_pos rfl]
    congr 1
    apply max_eq_left
    generalize (a.zip b).map (fun p => |p.1 - p.2|) = l
    induction l with
    | nil => simp
    | cons x l ih => rw [List.foldr_cons]; exact le_trans ih (le_max_right _ _)
  | false => rw [resLoop_mean _ _ _ h, if_neg (by simp), zero_add]

omit [IsStrictOrderedRing K] in
theorem resLoop_short (maximum : Bool) (size : K) (a b : List K) (h : b.length < a.length) (r : K) :
    resLoop maximum size a b r = .ub := by
  induction a generalizing b r with
  | nil => simp at h
  | cons x a ih =>
    cases b with
    | nil => rfl
    | cons y b => rw [resLoop]; exact ih b (by simpa using h) _

/-- One round: the temperatures `b` solve the network built for the temperatures `a`. -/
def Round (build : List K → Res (Option (Network K))) (solve : Network K → List K) (a b : List K) : Prop :=
  ∃ net, build a = .ok (some net) ∧ b = solve net

theorem loop_spec (build : List K → Res (Option (Network K))) (solve : Network K → List K) (limit : K)
    (maximum : Bool) (total : Nat)
    (hb : ∀ T : List K, T.length = total → ∃ net, build T = .ok (some net) ∧ net.length = total)
    (hs : ∀ net, (solve net).length = net.length) (left : Nat) :
    1 ≤ left → ∀ (fuel : Nat), left ≤ fuel → ∀ (T0 : List K), T0.length = total →
    ∃ (T : Nat → List K) (n : Nat), T 0 = T0 ∧ 1 ≤ n ∧ n ≤ left ∧
      loop build solve limit maximum fuel left T0 = some (.ok (some (T n))) ∧
      (∀ k < n, Round build solve (T k) (T (k + 1))) ∧
      (∀ k, k + 1 < n → limit < change maximum (T (k + 1)) (T k)) ∧
      (n < left → change maximum (T n) (T (n - 1)) ≤ limit) := by
  induction left with
  | zero => intro h; omega
  | succ left ih =>
    intro _ fuel hf T0 h0
    obtain ⟨fuel, rfl⟩ : ∃ f, fuel = f + 1 := ⟨fuel - 1, by omega⟩
    obtain ⟨net, h1, h2⟩ := hb T0 h0
    have hres : residual maximum (solve net) T0 = .ok (change maximum (solve net) T0) :=
      residual_eq _ _ _ (by rw [hs, h2, h0])
    have hp : pred64 (left + 1) = left := by unfold pred64; rw [if_neg (by omega)]; rfl
    by_cases hc : change maximum (solve net) T0 > limit ∧ left > 0
    · obtain ⟨T, n, t1, t2, t3, t4, t5, t6, t7⟩ := ih hc.2 fuel (by omega) (solve net) (by rw [hs, h2])
      refine ⟨fun k => if k = 0 then T0 else T (k - 1), n + 1, by simp, by omega, by omega, ?_, ?_, ?_, ?_⟩
      · rw [loop, h1]; simp only; rw [hres]; simp only
        rw [hp, if_pos hc, t4]
        simp
      · intro k hk
        rcases Nat.eq_zero_or_pos k with rfl | hk0
        · refine ⟨net, h1, ?_⟩
          simp [t1]
        · have := t5 (k - 1) (by omega)
          beta_reduce
          rw [if_neg (by omega), if_neg (by omega)]
          rw [show k - 1 + 1 = k by omega] at this
          rw [show k + 1 - 1 = k by omega]
          exact this
      · intro k hk
        rcases Nat.eq_zero_or_pos k with rfl | hk0
        · simp only [if_true]
          rw [if_neg (by omega)]
          rw [show 0 + 1 - 1 = 0 by omega, t1]
          exact hc.1
        · have := t6 (k - 1) (by omega)
          beta_reduce
          rw [if_neg (by omega), if_neg (by omega)]
          rw [show k - 1 + 1 = k by omega] at this
          rw [show k + 1 - 1 = k by omega]
          exact this
      · intro hn
        have := t7 (by omega)
        beta_reduce
        rw [if_neg (by omega), if_neg (by omega)]
        rw [show n + 1 - 1 = n by omega]
        exact this
    · refine ⟨fun k => if k = 0 then T0 else solve net, 1, by simp, le_refl _, by omega, ?_, ?_, ?_, ?_⟩
      · rw [loop, h1]; simp only; rw [hres]; simp only
        rw [hp, if_neg hc]
        simp
      · intro k hk
        obtain rfl : k = 0 := by omega
        exact ⟨net, h1, by simp⟩
      · intro k hk; omega
      · intro hn
        simp only [Nat.sub_self, if_true]
        rw [if_neg (by omega)]
        by_contra hcon
        exact hc ⟨not_le.1 hcon, by omega⟩

/-- **C67.** For every builder that succeeds on temperature vectors of the model's size with a network of that
size and every linear solver: with at least one round allowed the iteration ends after `n` rounds, no more than
allowed; each round solves the network built for the temperatures of the round before, the first for the
environment temperature; the result are the temperatures of the last round, in the unit asked for; it goes
on exactly as long as the change exceeds the limit and rounds are left. -/
theorem c67_static_partial (build : List K → Res (Option (Network K))) (solve : Network K → List K) (total : Nat)
    (envT limit : K) (maximum celsius : Bool) (iteration : Nat) (hi : 1 ≤ iteration)
    (hb : ∀ T : List K, T.length = total → ∃ net, build T = .ok (some net) ∧ net.length = total)
    (hs : ∀ net, (solve net).length = net.length) (fuel : Nat) (hf : iteration ≤ fuel) :
    ∃ (T : Nat → List K) (n : Nat), T 0 = List.replicate total envT ∧ 1 ≤ n ∧ n ≤ iteration ∧
      solveStatic build solve total envT limit maximum iteration celsius fuel =
        some (.ok (some (if celsius then (T n).map (· - 27315 / 100) else T n))) ∧
      (∀ k < n, Round build solve (T k) (T (k + 1))) ∧
      (∀ k, k + 1 < n → limit < change maximum (T (k + 1)) (T k)) ∧
      (n < iteration → change maximum (T n) (T (n - 1)) ≤ limit) := by
  obtain ⟨T, n, t1, t2, t3, t4, t5⟩ := loop_spec build solve limit maximum total hb hs iteration hi fuel hf
    (List.replicate total envT) (by simp)
  refine ⟨T, n, t1, t2, t3, ?_, t5⟩
  unfold solveStatic
  rw [t4]
  rfl

/-- With zero rounds in the settings the counter wraps around: as long as the limit is never met the iteration
has not ended after any number of rounds below `2 ^ 64`. -/
theorem c67_zero_iterations_refuted (build : List K → Res (Option (Network K))) (solve : Network K → List K) (total : Nat)
    (envT limit : K) (maximum celsius : Bool)
    (hb : ∀ T : List K, T.length = total → ∃ net, build T = .ok (some net) ∧ net.length = total)
    (hs : ∀ net, (solve net).length = net.length)
    (hl : ∀ a b : List K, Round build solve a b → limit < change maximum b a) (fuel : Nat) (hf : fuel < 2 ^ 64) :
    solveStatic build solve total envT limit maximum 0 celsius fuel = none := by
  have key : ∀ (fuel left : Nat) (T0 : List K), T0.length = total → fuel < left →
      loop build solve limit maximum fuel left T0 = none := by
    intro fuel
    induction fuel with
    | zero => intro left T0 _ _; rfl
    | succ fuel ih =>
      intro left T0 h0 hlt
      obtain ⟨net, h1, h2⟩ := hb T0 h0
      rw [loop, h1]; simp only
      rw [residual_eq _ _ _ (by rw [hs, h2, h0])]; simp only
      have hp : pred64 left = left - 1 := by unfold pred64; rw [if_neg (by omega)]
      rw [hp, if_pos ⟨hl _ _ ⟨net, h1, rfl⟩, by omega⟩]
      exact ih (left - 1) (solve net) (by rw [hs, h2]) (by omega)
  unfold solveStatic
  rw [Option.map_eq_none_iff]
  cases fuel with
  | zero => rfl
  | succ fuel =>
    obtain ⟨net, h1, h2⟩ := hb (List.replicate total envT) (by simp)
    rw [loop, h1]; simp only
    rw [residual_eq _ _ _ (by rw [hs, h2]; simp)]; simp only
    have hp : pred64 0 = 2 ^ 64 - 1 := by decide
    rw [hp, if_pos ⟨hl _ _ ⟨net, h1, rfl⟩, by decide⟩]
    exact key fuel _ (solve net) (by rw [hs, h2]) (by omega)

theorem net_length {minR : K} {ip : List (K × K) → K → Res K} {m : GModel K} {iniT : List K} {net : Network K}
    (h : m.build minR ip iniT = .ok (some net)) : net.length = m.total + m.blockTotals.length := by
  obtain ⟨_, hr⟩ := build_run h
  rw [run_length _ hr, length_new]
  unfold GModel.ops
  simp only [nodesOf_append, nodes_cells, nodes_jumps, nodes_bcs, powersOps_nodes]
  unfold GModel.blockTotals
  omega

/-- **C67 is false of the code for grid models with a block power**: the network has a node more than the
model has cells, the temperatures of the first round are longer than those before, and comparing them reads
beyond the end. -/
theorem c67_block_power_refuted (minR : K) (ip : List (K × K) → K → Res K) (m : GModel K) (solve : Network K → List K)
    (hs : ∀ net, (solve net).length = net.length) (envT limit : K) (maximum celsius : Bool) (iteration fuel : Nat)
    (hbuild : ∃ net, m.build minR ip (List.replicate m.total envT) = .ok (some net))
    (z : Nat) (ll ur : Size2) (total : K) (hblock : (z, Power.block ll ur total) ∈ m.powers) :
    solveStatic (m.build minR ip) solve m.total envT limit maximum iteration celsius (fuel + 1) = some .ub := by
  obtain ⟨net, hb⟩ := hbuild
  have hlen : m.total < net.length := by
    rw [net_length hb]
    have : 0 < m.blockTotals.length := by
      apply List.length_pos_of_mem (a := total)
      unfold GModel.blockTotals
      rw [List.mem_filterMap]
      exact ⟨_, hblock, rfl⟩
    omega
  unfold solveStatic
  rw [loop, hb]; simp only
  have : residual maximum (solve net) (List.replicate m.total envT) = .ub := by
    unfold residual
    exact resLoop_short _ _ _ _ (by rw [hs]; simpa using hlen) _
  rw [this]; rfl

/-- Grid models without block powers meet the hypotheses of `c67_static_partial`. -/
theorem c67_grid (minR : K) {ip : List (K × K) → K → Res K} {m : GModel K} (hs : m.Sound ip) (hbt : m.blockTotals = [])
    (T : List K) (hT : T.length = m.total) : ∃ net, m.build minR ip T = .ok (some net) ∧ net.length = m.total := by
  obtain ⟨net, hb⟩ := build_succeeds hs minR hT
  refine ⟨net, hb, ?_⟩
  rw [net_length hb, hbt]; rfl

/-- a network of two nodes and a solver halving the distance of the heat flow to eight -/
def exBuild (T : List ℚ) : Res (Option (Network ℚ)) :=
  match T with
  | [a, b] => .ok (some [⟨noScen, none, 0, a, 0, []⟩, ⟨noScen, none, 0, b, 0, []⟩])
  | _ => .ok none

/-- see `exBuild` -/
def exSolve (net : Network ℚ) : List ℚ := net.map fun n => 8 + (n.hf - 8) / 2

/-- example: the hypotheses hold; from zero the steps are 4, 6, 7, and the iteration ends when the change is no
more than one, or after two rounds if no more are allowed -/
example : (∀ T : List ℚ, T.length = 2 → ∃ net, exBuild T = .ok (some net) ∧ net.length = 2) ∧
    (∀ net, (exSolve net).length = net.length) ∧
    solveStatic exBuild exSolve 2 0 1 true 10 false 10 = some (.ok (some [7, 7])) ∧
    solveStatic exBuild exSolve 2 0 1 true 2 false 2 = some (.ok (some [6, 6])) ∧
    solveStatic exBuild exSolve 2 0 (-1) false 0 false 20 = none := by
  refine ⟨?_, by simp [exSolve], by decide +kernel, by decide +kernel, by decide +kernel⟩
  intro T hT
  match T, hT with
  | [a, b], _ => exact ⟨_, rfl, rfl⟩

/-- example: a grid model with a block power -/
example : ∃ net, (exCool []).build (1 / 1000) (fun _ _ => .exn) (List.replicate (exCool []).total 25) = .ok (some net) ∧
    (0, Power.block ⟨0, 0⟩ ⟨1, 0⟩ 7) ∈ (exCool []).powers := by
  refine ⟨_, rfl, ?_⟩
  simp [GModel.powers, exCool]

end Ecad.Static
