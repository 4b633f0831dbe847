import Verif.Thermal.NetlistModel
import Mathlib.Tactic.Ring
import Mathlib.Tactic.Linarith
import Mathlib.Tactic.NormNum
import Mathlib.Tactic.FieldSimp
import Mathlib.Tactic.LinearCombination
/-!
C101: the circuit of the SPICE netlist of a thermal network has the steady temperatures of the network as its
node voltages.
-/
namespace Ecad.Netlist
open Ecad.Thermal

variable {K : Type} [Field K] [LinearOrder K] [IsStrictOrderedRing K]

/-! ### specification -/

/-- The current leaving node `x` through a card at steady state, with node voltages `v` and currents `j` of the
voltage sources: Ohm's law; a current source drives its value from its first node through itself to its second;
no current through a capacitor. -/
def leaving (v : Nd → K) (j : Name → K) (x : Nd) (c : Card K) : K :=
  match c.kind with
  | .cap => 0
  | .res => (if x = c.a then (v c.a - v c.b) / c.val else 0) + if x = c.b then (v c.b - v c.a) / c.val else 0
  | .vol => (if x = c.a then j c.name else 0) - if x = c.b then j c.name else 0
  | .cur => (if x = c.a then c.val else 0) - if x = c.b then c.val else 0

/-- `v` is an operating point of the circuit: ground is at zero, voltage sources keep their voltage, and with some
currents through them the currents leaving every node but ground add up to zero. -/
def Operating (cards : List (Card K)) (v : Nd → K) : Prop :=
  v .ground = 0 ∧ (∀ c ∈ cards, c.kind = .vol → v c.a - v c.b = c.val) ∧
    ∃ j : Name → K, ∀ x, x ≠ .ground → (cards.map (leaving v j x)).sum = 0

/-- The heat flow out of node `i` to its neighbours, on whichever side the resistance is stored, and to the
environment. -/
def outFlow (net : Network K) (env : K) (T : Nat → K) (i : Nat) : K :=
  (net.zipIdx.map fun p => (p.1.ns.map fun e =>
      (if p.2 = i then (T i - T e.1) / e.2 else 0) + if e.1 = i then (T i - T p.2) / e.2 else 0).sum +
    if p.2 = i then p.1.htc * (T i - env) else 0).sum

/-- `T` is a steady state of the network: nodes of given temperature have it, at all others the heat put in flows
out. -/
def SteadyState (net : Network K) (env : K) (T : Nat → K) : Prop :=
  ∀ (i : Nat) (nd : Node K), net[i]? = some nd →
    match nd.t with
    | some t => T i = t
    | none => outFlow net env T i = nd.hf

/-- neighbours are nodes of the network, and no neighbour is listed twice -/
structure WF (net : Network K) : Prop where
  lt : ∀ nd ∈ net, ∀ e ∈ nd.ns, e.1 < net.length
  nodup : ∀ nd ∈ net, (nd.ns.map Prod.fst).Nodup

/-! ### proofs -/

omit [LinearOrder K] [IsStrictOrderedRing K] in
theorem sum_zipIdx (f : Node K → K) (net : Network K) : ∀ (k i : Nat),
    ((net.zipIdx k).map fun p => if p.2 = k + i then f p.1 else 0).sum = ((net[i]?).map f).getD 0 := by
  induction net with
  | nil => intro k i; simp
  | cons a net ih =>
    intro k i
    cases i with
    | zero =>
      have h : ∀ (net : Network K) (k' : Nat), k < k' →
          ((net.zipIdx k').map fun p => if p.2 = k + 0 then f p.1 else 0).sum = 0 := by
        intro net
        induction net with
        | nil => intro k' _; simp
        | cons b net ih2 =>
          intro k' hk
          rw [List.zipIdx_cons, List.map_cons, List.sum_cons, ih2 (k' + 1) (by omega)]
          simp only [add_zero]
          rw [if_neg (by omega)]
      rw [List.zipIdx_cons, List.map_cons, List.sum_cons, h net (k + 1) (by omega)]
      simp
    | succ i =>
      have e := ih (k + 1) i
      rw [List.zipIdx_cons, List.map_cons, List.sum_cons]
      simp only [List.getElem?_cons_succ]
      rw [if_neg (by omega), zero_add, ← e]
      congr 2
      funext p
      congr 1
      simp only [eq_iff_iff]
      omega

omit [LinearOrder K] [IsStrictOrderedRing K] in
theorem sum_map_add {A : Type} (l : List A) (f g : A → K) :
    (l.map fun x => f x + g x).sum = (l.map f).sum + (l.map g).sum := by
  induction l with
  | nil => simp
  | cons a l ih => simp only [List.map_cons, List.sum_cons, ih]; ring

omit [LinearOrder K] [IsStrictOrderedRing K] in
theorem sum_flatMap {A B : Type} (l : List A) (g : A → List B) (f : B → K) :
    ((l.flatMap g).map f).sum = (l.map fun a => ((g a).map f).sum).sum := by
  induction l with
  | nil => rfl
  | cons a l ih => simp [List.flatMap_cons, List.sum_append, ih]

/-- the current of the source at a node of given temperature -/
def srcCur (j : Name → K) (i : Nat) (nd : Node K) : K :=
  match nd.t with
  | some _ => j (.v i)
  | none => 0

omit [IsStrictOrderedRing K] in
/-- the cards of one node, at a node of the network or of the sources -/
theorem leaving_node (v : Nd → K) (j : Name → K) (s i k : Nat) (nd : Node K) (his : k ≠ s) :
    ((nodeCards s k nd).map (leaving v j (.n i))).sum =
      (nd.ns.map fun e => (if k = i then (v (.n i) - v (.n e.1)) / e.2 else 0) +
        if e.1 = i then (v (.n i) - v (.n k)) / e.2 else 0).sum +
      (if k = i then nd.htc * (v (.n i) - v .ref) else 0) +
      (if k = i then srcCur j k nd - nd.hf else 0) + (if s = i then nd.hf else 0) := by
  have h1 : ((if nd.c > 0 then [(⟨.cap, .c k, .n k, .ref, nd.c⟩ : Card K)] else []).map
      (leaving v j (.n i))).sum = 0 := by
    split <;> simp [leaving]
  have h2 : (((nd.ns.map fun e => (⟨.res, .r k e.1, .n k, .n e.1, e.2⟩ : Card K))).map
      (leaving v j (.n i))).sum = (nd.ns.map fun e => (if k = i then (v (.n i) - v (.n e.1)) / e.2 else 0) +
        if e.1 = i then (v (.n i) - v (.n k)) / e.2 else 0).sum := by
    rw [List.map_map]
    congr 1
    apply List.map_congr_left
    intro e _
    simp only [Function.comp_apply, leaving, Nd.n.injEq, eq_comm (a := i)]
    congr 1
    · split
      · rename_i h; rw [h]
      · rfl
    · split
      · rename_i h; rw [h]
      · rfl
  have h3 : ((match nd.t with
      | some t => [(⟨.vol, .v k, .n k, .ref, t⟩ : Card K)]
      | none => []).map (leaving v j (.n i))).sum = if k = i then srcCur j k nd else 0 := by
    unfold srcCur
    cases nd.t with
    | none => simp
    | some t => simp [leaving, eq_comm (a := i)]
  have h4 : ((if nd.hf ≠ 0 then [(⟨.cur, .i s k, .n s, .n k, nd.hf⟩ : Card K)] else []).map
      (leaving v j (.n i))).sum = (if s = i then nd.hf else 0) - if k = i then nd.hf else 0 := by
    by_cases hh : nd.hf = 0
    · simp [hh]
    · simp [hh, leaving, eq_comm (a := i)]
  have h5 : ((if nd.htc ≠ 0 then [(⟨.res, .rref k, .n k, .ref, 1 / nd.htc⟩ : Card K)] else []).map
      (leaving v j (.n i))).sum = if k = i then nd.htc * (v (.n i) - v .ref) else 0 := by
    by_cases hh : nd.htc = 0
    · simp [hh]
    · simp only [ne_eq, hh, not_false_eq_true, if_true, List.map_cons, List.map_nil, List.sum_cons, List.sum_nil,
        leaving, Nd.n.injEq, eq_comm (a := i), reduceCtorEq, if_false, add_zero]
      split
      · rename_i h; subst h; field_simp
      · rfl
  unfold nodeCards
  simp only [List.map_append, List.sum_append]
  rw [h1, h2, h4, h5]
  have h3' := h3
  unfold srcCur at h3' ⊢
  cases ht : nd.t with
  | none => simp; split <;> ring
  | some t => simp only [ht] at h3'; simp only [h3']; split <;> ring

omit [IsStrictOrderedRing K] in
/-- all currents leaving `N i` -/
theorem leaving_sum (refT : K) (net : Network K) (v : Nd → K) (j : Name → K) (i : Nat) :
    ((netlist refT net).map (leaving v j (.n i))).sum =
      outFlow net (v .ref) (fun k => v (.n k)) i +
      ((net[i]?).map fun nd => srcCur j i nd - nd.hf).getD 0 +
      (if net.length = i then (net.map Node.hf).sum else 0) := by
  have h0 : leaving v j (.n i) (⟨.vol, .vref, .ref, .ground, refT⟩ : Card K) = 0 := by simp [leaving]
  rw [netlist, List.map_cons, List.sum_cons, h0, zero_add, sum_flatMap]
  have e : (net.zipIdx.map fun p => ((nodeCards net.length p.2 p.1).map (leaving v j (.n i))).sum) =
      net.zipIdx.map fun p => ((p.1.ns.map fun e => (if p.2 = i then (v (.n i) - v (.n e.1)) / e.2 else 0) +
        if e.1 = i then (v (.n i) - v (.n p.2)) / e.2 else 0).sum +
      (if p.2 = i then p.1.htc * (v (.n i) - v .ref) else 0)) +
      ((if p.2 = 0 + i then (fun nd => srcCur j i nd - nd.hf) p.1 else 0) + (if net.length = i then p.1.hf else 0)) := by
    apply List.map_congr_left
    intro p hp
    have hlt := List.snd_lt_of_mem_zipIdx hp
    rw [leaving_node v j net.length i p.2 p.1 (by simp at hlt; omega), zero_add]
    have : (if p.2 = i then srcCur j p.2 p.1 - p.1.hf else 0) =
        if p.2 = i then (fun nd => srcCur j i nd - nd.hf) p.1 else 0 := by
      split
      · rename_i h; rw [h]
      · rfl
    rw [this]
    ring
  rw [e, sum_map_add]
  rw [sum_map_add (f := fun p : Node K × Nat => if p.2 = 0 + i then (fun nd => srcCur j i nd - nd.hf) p.1 else 0),
    sum_zipIdx (fun nd => srcCur j i nd - nd.hf) net 0 i]
  unfold outFlow
  have hs : (net.zipIdx.map fun p => if net.length = i then p.1.hf else (0 : K)).sum =
      if net.length = i then (net.map Node.hf).sum else 0 := by
    by_cases h : net.length = i
    · simp only [h, if_true]
      have : (net.zipIdx.map fun p => p.1.hf) = net.map Node.hf := by
        have h2 := List.map_map (f := (Prod.fst : Node K × Nat → Node K)) (g := Node.hf) (l := net.zipIdx)
        rw [List.zipIdx_map_fst] at h2
        exact h2.symm
      rw [this]
    · simp [h]
  rw [hs]
  ring

omit [IsStrictOrderedRing K] in
/-- no heat flows out of a node that is not in the network -/
theorem outFlow_outside {net : Network K} (W : WF net) (env : K) (T : Nat → K) (i : Nat) (hi : net.length ≤ i) :
    outFlow net env T i = 0 := by
  unfold outFlow
  apply List.sum_eq_zero
  intro x hx
  obtain ⟨p, hp, rfl⟩ := List.mem_map.1 hx
  have hlt := List.snd_lt_of_mem_zipIdx hp
  have hm : p.1 ∈ net := by
    have := List.fst_mem_of_mem_zipIdx hp
    exact this
  have h1 : p.2 ≠ i := by simp at hlt; omega
  rw [if_neg h1, add_zero]
  apply List.sum_eq_zero
  intro y hy
  obtain ⟨e, he, rfl⟩ := List.mem_map.1 hy
  have := W.lt p.1 hm e he
  rw [if_neg h1, if_neg (by omega), add_zero]

/-- the network with its given temperatures raised by `d` -/
def raised (d : K) (net : Network K) : Network K := net.map fun nd => { nd with t := nd.t.map (· + d) }

omit [LinearOrder K] [IsStrictOrderedRing K] in
theorem outFlow_raised (d : K) (net : Network K) (env : K) (T : Nat → K) (i : Nat) :
    outFlow (raised d net) env T i = outFlow net env T i := by
  unfold outFlow raised
  rw [List.zipIdx_map, List.map_map]
  rfl

omit [IsStrictOrderedRing K] in
/-- the voltage sources of the netlist -/
theorem sources_iff (refT : K) (net : Network K) (v : Nd → K) :
    (∀ c ∈ netlist refT net, c.kind = .vol → v c.a - v c.b = c.val) ↔
      v .ref - v .ground = refT ∧ ∀ (i : Nat) (nd : Node K) (t : K), net[i]? = some nd → nd.t = some t →
        v (.n i) - v .ref = t := by
  constructor
  · intro h
    refine ⟨h ⟨.vol, .vref, .ref, .ground, refT⟩ (by simp [netlist]) rfl, ?_⟩
    intro i nd t hi ht
    refine h ⟨.vol, .v i, .n i, .ref, t⟩ ?_ rfl
    refine List.mem_cons_of_mem _ (List.mem_flatMap.2 ⟨(nd, i), ?_, ?_⟩)
    · rw [List.mem_zipIdx_iff_getElem?]; exact hi
    · simp [nodeCards, ht]
  · rintro ⟨h1, h2⟩ c hc hk
    rcases List.mem_cons.1 hc with rfl | hc
    · exact h1
    · obtain ⟨p, hp, hc⟩ := List.mem_flatMap.1 hc
      rw [List.mem_zipIdx_iff_getElem?] at hp
      simp only [nodeCards, List.mem_append] at hc
      rcases hc with (((hc | hc) | hc) | hc) | hc
      · split at hc <;> simp at hc; subst hc; simp at hk
      · obtain ⟨e, _, rfl⟩ := List.mem_map.1 hc; simp at hk
      · cases ht : p.1.t with
        | none => simp [ht] at hc
        | some t => simp [ht] at hc; subst hc; exact h2 p.2 p.1 t hp ht
      · split at hc <;> simp at hc; subst hc; simp at hk
      · split at hc <;> simp at hc; subst hc; simp at hk

omit [IsStrictOrderedRing K] in
/-- **C101**, what holds: the operating points of the netlist are exactly the steady states of the network at the
reference temperature, but with all given temperatures raised by the reference temperature, and there are none
unless the heat put in adds up to zero.

*Missing*: see `c101_sources_refuted` and `c101_fixed_refuted`. -/
theorem c101_netlist_partial (refT : K) (net : Network K) (W : WF net) (v : Nd → K) :
    Operating (netlist refT net) v ↔
      v .ground = 0 ∧ v .ref = refT ∧ (net.map Node.hf).sum = 0 ∧
        SteadyState (raised refT net) refT fun i => v (.n i) := by
  have hget : ∀ (i : Nat) (nd : Node K), (raised refT net)[i]? = some nd ↔
      ∃ nd', net[i]? = some nd' ∧ nd = { nd' with t := nd'.t.map (· + refT) } := by
    intro i nd
    unfold raised
    rw [List.getElem?_map, Option.map_eq_some_iff]
    constructor
    · rintro ⟨a, h1, h2⟩; exact ⟨a, h1, h2.symm⟩
    · rintro ⟨a, h1, h2⟩; exact ⟨a, h1, h2.symm⟩
  unfold Operating
  rw [sources_iff]
  constructor
  · rintro ⟨h0, ⟨h1, h2⟩, j, hj⟩
    have href : v .ref = refT := by rw [h0, sub_zero] at h1; exact h1
    refine ⟨h0, href, ?_, ?_⟩
    · have := hj (.n net.length) (by simp)
      rw [leaving_sum, outFlow_outside W _ _ _ le_rfl] at this
      simpa using this
    · intro i nd hi
      obtain ⟨nd', hi', rfl⟩ := (hget i nd).1 hi
      have hlt := (List.getElem?_eq_some_iff.1 hi').1
      cases ht : nd'.t with
      | some t =>
        simp only [Option.map_some]
        have := h2 i nd' t hi' ht
        rw [href] at this
        linear_combination this
      | none =>
        simp only [Option.map_none]
        have := hj (.n i) (by simp)
        rw [leaving_sum, hi', href] at this
        rw [outFlow_raised]
        simp only [Option.map_some, Option.getD_some, srcCur, ht] at this
        rw [if_neg (by omega)] at this
        linear_combination this
  · rintro ⟨h0, href, hsum, hS⟩
    refine ⟨h0, ⟨by rw [h0, href, sub_zero], ?_⟩, ?_⟩
    · intro i nd t hi ht
      have := hS i _ ((hget i _).2 ⟨nd, hi, rfl⟩)
      simp only [ht, Option.map_some] at this
      rw [this, href]; ring
    · -- currents of the sources
      let j1 : Name → K := fun n => match n with
        | .v i => ((net[i]?).map Node.hf).getD 0 - outFlow net refT (fun k => v (.n k)) i
        | _ => 0
      let j2 : Name → K := fun n => match n with
        | .vref => -((netlist refT net).map (leaving v j1 .ref)).sum
        | n => j1 n
      refine ⟨j2, ?_⟩
      have hcard : ∀ (x : Nd), ∀ p ∈ net.zipIdx, ((nodeCards net.length p.2 p.1).map (leaving v j2 x)).sum =
          ((nodeCards net.length p.2 p.1).map (leaving v j1 x)).sum := by
        intro x p _
        congr 1
        apply List.map_congr_left
        intro c hc
        have hn : c.name ≠ .vref := by
          simp only [nodeCards, List.mem_append] at hc
          rcases hc with (((hc | hc) | hc) | hc) | hc
          · split at hc <;> simp at hc; subst hc; simp
          · obtain ⟨e, _, rfl⟩ := List.mem_map.1 hc; simp
          · cases ht : p.1.t with
            | none => simp [ht] at hc
            | some t => simp [ht] at hc; subst hc; simp
          · split at hc <;> simp at hc; subst hc; simp
          · split at hc <;> simp at hc; subst hc; simp
        have : j2 c.name = j1 c.name := by
          cases hcn : c.name <;> first | exact absurd hcn hn | rfl
        unfold leaving
        rw [this]
      have hall : ∀ x, ((netlist refT net).map (leaving v j2 x)).sum =
          leaving v j2 x ⟨.vol, .vref, .ref, .ground, refT⟩ +
            ((net.zipIdx.flatMap fun p => nodeCards net.length p.2 p.1).map (leaving v j1 x)).sum := by
        intro x
        rw [netlist, List.map_cons, List.sum_cons, sum_flatMap, sum_flatMap]
        congr 2
        exact List.map_congr_left (hcard x)
      intro x hx
      cases x with
      | ground => exact absurd rfl hx
      | ref =>
        rw [hall]
        have h1 : leaving v j2 .ref (⟨.vol, .vref, .ref, .ground, refT⟩ : Card K) =
            -((netlist refT net).map (leaving v j1 .ref)).sum := by simp [leaving, j2]
        have h2 : ((netlist refT net).map (leaving v j1 .ref)).sum =
            ((net.zipIdx.flatMap fun p => nodeCards net.length p.2 p.1).map (leaving v j1 .ref)).sum := by
          rw [netlist, List.map_cons, List.sum_cons]
          simp [leaving, j1]
        rw [h1, h2]; ring
      | n i =>
        have e : ((netlist refT net).map (leaving v j2 (.n i))).sum =
            ((netlist refT net).map (leaving v j1 (.n i))).sum := by
          rw [hall]
          conv_rhs => rw [netlist, List.map_cons, List.sum_cons]
          simp [leaving]
        rw [e, leaving_sum, href, hsum, ite_self, add_zero]
        cases hi : net[i]? with
        | none =>
          rw [outFlow_outside W _ _ _ (List.getElem?_eq_none_iff.1 hi)]
          simp
        | some nd =>
          simp only [Option.map_some, Option.getD_some]
          have := hS i _ ((hget i _).2 ⟨nd, hi, rfl⟩)
          rw [outFlow_raised] at this
          cases ht : nd.t with
          | none =>
            simp only [ht, Option.map_none] at this
            rw [this]
            simp [srcCur, ht]
          | some t =>
            simp only [srcCur, ht, j1, hi, Option.map_some, Option.getD_some]
            ring

omit [IsStrictOrderedRing K] in
/-- For a reference temperature zero and heat that adds up to zero the claim holds. -/
theorem c101_balanced (net : Network K) (W : WF net) (hs : (net.map Node.hf).sum = 0) (v : Nd → K)
    (h0 : v .ground = 0) (href : v .ref = 0) :
    Operating (netlist 0 net) v ↔ SteadyState net 0 fun i => v (.n i) := by
  rw [c101_netlist_partial 0 net W]
  have : raised 0 net = net := by
    unfold raised
    rw [List.map_congr_left (g := id)]
    · simp
    · intro nd _
      cases nd with
      | mk a t b c d e => cases t <;> simp
  rw [this]
  exact ⟨fun h => h.2.2.2, fun h => ⟨h0, href, hs, h⟩⟩

omit [IsStrictOrderedRing K] in
/-- **C101 is false of the code**: the heat sources hang between the nodes and a node that is connected to nothing
else, so that the netlist of a network that is heated has no operating point at all. -/
theorem c101_sources_refuted (refT : K) (net : Network K) (W : WF net) (h : (net.map Node.hf).sum ≠ 0) (v : Nd → K) :
    ¬ Operating (netlist refT net) v :=
  fun ho => h ((c101_netlist_partial refT net W v).1 ho).2.2.1

omit [IsStrictOrderedRing K] in
/-- **C101 is false of the code**: a node of given temperature gets it on top of the reference temperature. -/
theorem c101_fixed_refuted (refT : K) (net : Network K) (W : WF net) (v : Nd → K) (ho : Operating (netlist refT net) v)
    (i : Nat) (nd : Node K) (t : K) (hi : net[i]? = some nd) (ht : nd.t = some t) (hr : refT ≠ 0) :
    v (.n i) = t + refT ∧ v (.n i) ≠ t := by
  have h := ((c101_netlist_partial refT net W v).1 ho).2.2.2 i { nd with t := nd.t.map (· + refT) } (by
    unfold raised; rw [List.getElem?_map, hi]; rfl)
  simp only [ht, Option.map_some] at h
  refine ⟨h, ?_⟩
  rw [h]
  intro hc
  exact hr (by linear_combination hc)

omit [IsStrictOrderedRing K] in
/-- No two elements of a netlist have the same name. -/
theorem c101_names (refT : K) (net : Network K) (W : WF net) : ((netlist refT net).map Card.name).Nodup := by
  have hown : ∀ (s i : Nat) (nd : Node K) (x : Name), x ∈ (nodeCards s i nd).map Card.name →
      x = .c i ∨ (∃ k, x = .r i k) ∨ x = .v i ∨ x = .i s i ∨ x = .rref i := by
    intro s i nd x hx
    obtain ⟨c, hc, rfl⟩ := List.mem_map.1 hx
    simp only [nodeCards, List.mem_append] at hc
    rcases hc with (((hc | hc) | hc) | hc) | hc
    · split at hc <;> simp at hc; subst hc; simp
    · obtain ⟨e, _, rfl⟩ := List.mem_map.1 hc; simp
    · cases ht : nd.t with
      | none => simp [ht] at hc
      | some t => simp [ht] at hc; subst hc; simp
    · split at hc <;> simp at hc; subst hc; simp
    · split at hc <;> simp at hc; subst hc; simp
  have hnode : ∀ (s i : Nat) (nd : Node K), (nd.ns.map Prod.fst).Nodup → ((nodeCards s i nd).map Card.name).Nodup := by
    intro s i nd hn
    have hr : ((nd.ns.map fun e => (⟨.res, .r i e.1, .n i, .n e.1, e.2⟩ : Card K)).map Card.name).Nodup := by
      rw [List.map_map]
      have : (Card.name ∘ fun e : Nat × K => (⟨.res, .r i e.1, .n i, .n e.1, e.2⟩ : Card K)) =
          (fun k => Name.r i k) ∘ Prod.fst := rfl
      rw [this, ← List.map_map]
      exact hn.map fun a b h => by simpa using h
    unfold nodeCards
    simp only [List.map_append, List.nodup_append, List.mem_append]
    refine ⟨⟨⟨⟨?_, hr, ?_⟩, ?_, ?_⟩, ?_, ?_⟩, ?_, ?_⟩
    · split <;> simp
    · intro a ha b hb
      obtain ⟨c, hc, rfl⟩ := List.mem_map.1 hb
      obtain ⟨e, _, rfl⟩ := List.mem_map.1 hc
      split at ha <;> simp at ha
      subst ha; simp
    · cases nd.t <;> simp
    · intro a ha b hb
      have hb' : b = .v i := by cases h : nd.t <;> simp [h] at hb; exact hb
      subst hb'
      rcases ha with ha | ha
      · split at ha <;> simp at ha; subst ha; simp
      · obtain ⟨c, hc, rfl⟩ := List.mem_map.1 ha
        obtain ⟨e, _, rfl⟩ := List.mem_map.1 hc
        simp
    · split <;> simp
    · intro a ha b hb
      have hb' : b = .i s i := by split at hb <;> simp at hb; exact hb
      subst hb'
      rcases ha with (ha | ha) | ha
      · split at ha <;> simp at ha; subst ha; simp
      · obtain ⟨c, hc, rfl⟩ := List.mem_map.1 ha
        obtain ⟨e, _, rfl⟩ := List.mem_map.1 hc
        simp
      · cases h : nd.t <;> simp [h] at ha; subst ha; simp
    · split <;> simp
    · intro a ha b hb
      have hb' : b = .rref i := by split at hb <;> simp at hb; exact hb
      subst hb'
      rcases ha with ((ha | ha) | ha) | ha
      · split at ha <;> simp at ha; subst ha; simp
      · obtain ⟨c, hc, rfl⟩ := List.mem_map.1 ha
        obtain ⟨e, _, rfl⟩ := List.mem_map.1 hc
        simp
      · cases h : nd.t <;> simp [h] at ha; subst ha; simp
      · split at ha <;> simp at ha; subst ha; simp
  have main : ∀ (s : Nat) (l : Network K) (k : Nat), (∀ nd ∈ l, (nd.ns.map Prod.fst).Nodup) →
      (((l.zipIdx k).flatMap fun p => nodeCards s p.2 p.1).map Card.name).Nodup ∧
      ∀ x ∈ ((l.zipIdx k).flatMap fun p => nodeCards s p.2 p.1).map Card.name,
        ∃ i, k ≤ i ∧ (x = .c i ∨ (∃ k, x = .r i k) ∨ x = .v i ∨ x = .i s i ∨ x = .rref i) := by
    intro s l
    induction l with
    | nil => intro k _; simp
    | cons nd l ih =>
      intro k hl
      obtain ⟨h1, h2⟩ := ih (k + 1) fun nd h => hl nd (List.mem_cons_of_mem _ h)
      rw [List.zipIdx_cons, List.flatMap_cons, List.map_append]
      refine ⟨?_, ?_⟩
      · rw [List.nodup_append]
        refine ⟨hnode s k nd (hl nd (by simp)), h1, ?_⟩
        rintro a ha b hb rfl
        have h3 := hown s k nd a ha
        obtain ⟨i, hi, h4⟩ := h2 a hb
        rcases h3 with rfl | ⟨m, rfl⟩ | rfl | rfl | rfl <;> simp at h4 <;> omega
      · intro x hx
        rcases List.mem_append.1 hx with hx | hx
        · exact ⟨k, le_rfl, hown s k nd x hx⟩
        · obtain ⟨i, hi, h⟩ := h2 x hx
          exact ⟨i, by omega, h⟩
  obtain ⟨h1, h2⟩ := main net.length net 0 W.nodup
  rw [netlist, List.map_cons, List.nodup_cons]
  refine ⟨?_, h1⟩
  intro hm
  obtain ⟨i, _, h⟩ := h2 _ hm
  simp at h

/-! ### example -/

/-- two nodes, heated and cooled by the same amount, one with a way to the environment -/
def exNet : Network ℚ := [⟨0, none, 1, 6, 0, [(1, 2)]⟩, ⟨0, none, 0, -6, 3, []⟩]

theorem exWF : WF exNet := by
  refine ⟨?_, ?_⟩
  · intro nd hnd e he
    simp only [exNet, List.mem_cons, List.not_mem_nil, or_false] at hnd
    rcases hnd with rfl | rfl <;> simp at he
    subst he; simp [exNet]
  · intro nd hnd
    simp only [exNet, List.mem_cons, List.not_mem_nil, or_false] at hnd
    rcases hnd with rfl | rfl <;> simp

example : Operating (netlist 25 exNet) fun x => match x with
    | .ground => 0
    | .ref => 25
    | .n 0 => 37
    | .n _ => 25 := by
  rw [c101_netlist_partial 25 exNet exWF]
  refine ⟨rfl, rfl, by norm_num [exNet], ?_⟩
  intro i nd hi
  match i with
  | 0 =>
    simp [raised, exNet] at hi
    subst hi
    norm_num [outFlow, raised, exNet, List.zipIdx]
  | 1 =>
    simp [raised, exNet] at hi
    subst hi
    norm_num [outFlow, raised, exNet, List.zipIdx]
  | n + 2 => simp [raised, exNet] at hi

end Ecad.Netlist
