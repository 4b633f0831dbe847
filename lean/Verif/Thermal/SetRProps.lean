import Verif.Thermal.NetModel
import Mathlib.Tactic.Linarith
import Mathlib.Tactic.Ring
import Mathlib.Tactic.NormNum
import Mathlib.Algebra.Order.Ring.Rat
/-!
C28.
-/
namespace Ecad.Thermal

variable {K : Type} [Field K] [LinearOrder K]

/-- the conductance stored between two nodes, whichever is given first -/
def conductance (net : Network K) (a b : Nat) : K :=
  match net[min a b]? with
  | none => 0
  | some n =>
    match UMap.find? n.ns (max a b) with
    | none => 0
    | some r => 1 / r

/-- the sum of the conductances placed between two nodes by a sequence of calls -/
def placed (minR : K) (ops : List (Nat × Nat × K)) (a b : Nat) : K :=
  (ops.map fun o => if (o.1 = a ∧ o.2.1 = b) ∨ (o.1 = b ∧ o.2.1 = a) then 1 / max o.2.2 minR else 0).sum

/-- the stored resistances: each pair once, at its lower node, positive -/
def StoredOnce (net : Network K) : Prop :=
  ∀ (i : Nat) (n : Node K), net[i]? = some n → UMap.WF n.ns ∧ ∀ e ∈ n.ns, i ≤ e.1 ∧ 0 < e.2

theorem get_modify {α : Type _} (l : List α) (i j : Nat) (f : α → α) :
    (l.modify i f)[j]? = if i = j then l[j]?.map f else l[j]? := by
  rw [List.getElem?_modify]
  by_cases h : i = j
  · simp [h]
  · simp [h]

omit [LinearOrder K] in
theorem find_map_val (f : Nat × K → K) (ns : List (Nat × K)) (j k : Nat) :
    UMap.find? (ns.map fun e => if e.1 = j then (e.1, f e) else e) k =
      if k = j then (UMap.find? ns k).map (fun v => f (k, v)) else UMap.find? ns k := by
  induction ns with
  | nil => simp [UMap.find?_nil]
  | cons e ns ih =>
    rw [List.map_cons, UMap.find?_cons, UMap.find?_cons, ih]
    obtain ⟨a, v⟩ := e
    by_cases ha : a = j
    · subst ha
      simp only [if_true]
      by_cases hk : a = k
      · subst hk; simp
      · simp [hk, Ne.symm hk]
    · simp only [ha, if_false]
      by_cases hk : a = k
      · subst hk; simp [ha]
      · simp [hk]

omit [LinearOrder K] in
theorem find_setNs (ns : List (Nat × K)) (j k : Nat) (r : K) :
    UMap.find? (setNs ns j r) k = if k = j then
      some (match UMap.find? ns j with
        | some r0 => 1 / (1 / r + 1 / r0)
        | none => r) else UMap.find? ns k := by
  unfold setNs
  cases h : UMap.find? ns j with
  | some r0 =>
    simp only
    rw [find_map_val (fun e => 1 / (1 / r + 1 / e.2))]
    by_cases hk : k = j
    · subst hk; simp [h]
    · simp [hk]
  | none =>
    simp only
    have hc : UMap.count ns j = false := by
      rw [UMap.count_eq_false_iff, ← UMap.find?_eq_none_iff]; exact h
    rw [UMap.emplace, hc]
    simp only [Bool.false_eq_true, if_false]
    rw [UMap.find?_append, UMap.find?_cons, UMap.find?_nil]
    by_cases hk : k = j
    · subst hk; simp [h]
    · simp [hk, Ne.symm hk]

omit [LinearOrder K] in
theorem setNs_wf {ns : List (Nat × K)} (h : UMap.WF ns) (j : Nat) (r : K) : UMap.WF (setNs ns j r) := by
  unfold setNs
  cases hf : UMap.find? ns j with
  | some r0 =>
    simp only
    unfold UMap.WF UMap.keys at *
    have : (ns.map fun e => if e.1 = j then (e.1, 1 / (1 / r + 1 / e.2)) else e).map Prod.fst = ns.map Prod.fst := by
      rw [List.map_map]
      apply List.map_congr_left
      intro e _
      simp only [Function.comp]
      split <;> rfl
    rw [this]
    exact h
  | none =>
    simp only
    exact UMap.WF_emplace h _ _

theorem mem_setNs [IsStrictOrderedRing K] {ns : List (Nat × K)} {j : Nat} {r : K} {i : Nat} (hr : 0 < r)
    (hj : i ≤ j) (h : ∀ e ∈ ns, i ≤ e.1 ∧ 0 < e.2) : ∀ e ∈ setNs ns j r, i ≤ e.1 ∧ 0 < e.2 := by
  intro e he
  unfold setNs at he
  cases hf : UMap.find? ns j with
  | some r0 =>
    rw [hf] at he
    simp only at he
    rw [List.mem_map] at he
    obtain ⟨e0, he0, rfl⟩ := he
    have := h e0 he0
    split
    · refine ⟨this.1, ?_⟩
      simp only
      have h2 := this.2
      positivity
    · exact this
  | none =>
    rw [hf] at he
    simp only at he
    unfold UMap.emplace at he
    split at he
    · exact h e he
    · simp only at he
      rcases List.mem_append.1 he with he | he
      · exact h e he
      · simp at he; subst he; exact ⟨hj, hr⟩

theorem setR_eq (minR : K) (net : Network K) (a b : Nat) (r : K) :
    setR minR net a b r = upd net (min a b) fun n => { n with ns := setNs n.ns (max a b) (max r minR) } := by
  unfold setR
  by_cases h : a > b
  · simp only [if_pos h, Nat.min_eq_right (Nat.le_of_lt h), Nat.max_eq_left (Nat.le_of_lt h)]
  · push Not at h
    simp only [if_neg (show ¬ a > b by omega), Nat.min_eq_left h, Nat.max_eq_right h]

theorem conductance_upd {net net' : Network K} {a b : Nat} {r : K}
    (h : upd net (min a b) (fun n => { n with ns := setNs n.ns (max a b) r }) = .ok net') (c d : Nat) :
    conductance net' c d = conductance net c d +
      if (a = c ∧ b = d) ∨ (a = d ∧ b = c) then 1 / r else 0 := by
  unfold upd at h
  split at h
  · rename_i hlt
    injection h with h
    subst h
    unfold conductance
    rw [get_modify]
    by_cases hm : min a b = min c d
    · rw [if_pos hm, ← hm, List.getElem?_eq_getElem hlt]
      simp only [Option.map_some, find_setNs]
      by_cases hx : max c d = max a b
      · rw [if_pos hx, if_pos (by omega), hx]
        cases hf : UMap.find? (net[min a b]).ns (max a b) with
        | none => simp
        | some r0 =>
          simp only [one_div_one_div]
          rw [add_comm]
      · rw [if_neg hx, if_neg (by omega), add_zero]
    · rw [if_neg hm, if_neg (by omega), add_zero]
  · simp at h

/-- **C28.** After any sequence of `SetR` calls the conductance between any two nodes has grown by the
sum of the conductances placed between them, in whichever direction; and if every pair was stored
once, at its lower node and with a positive resistance, it still is. -/
theorem c28_parallel [IsStrictOrderedRing K] {minR : K} (hm : 0 < minR) (ops : List (Nat × Nat × K)) :
    ∀ {net net' : Network K}, setRs minR net ops = .ok net' →
    (∀ a b, conductance net' a b = conductance net a b + placed minR ops a b) ∧
    (StoredOnce net → StoredOnce net') ∧
    net'.map (fun n => (n.scen, n.t, n.c, n.hf, n.htc)) = net.map (fun n => (n.scen, n.t, n.c, n.hf, n.htc)) := by
  induction ops with
  | nil =>
    intro net net' h
    simp [setRs] at h
    subst h
    exact ⟨fun a b => by simp [placed], id, rfl⟩
  | cons o ops ih =>
    obtain ⟨a, b, r⟩ := o
    intro net net' h
    rw [setRs] at h
    cases h1 : setR minR net a b r with
    | ub => rw [h1] at h; simp at h
    | exn => rw [h1] at h; simp at h
    | ok net1 =>
      rw [h1, Res.bind_ok] at h
      rw [setR_eq] at h1
      obtain ⟨i1, i2, i3⟩ := ih h
      refine ⟨?_, ?_, ?_⟩
      · intro c d
        rw [i1 c d, conductance_upd h1 c d]
        simp only [placed, List.map_cons, List.sum_cons]
        ring
      · intro hs
        apply i2
        unfold upd at h1
        split at h1
        · rename_i hlt
          injection h1 with h1
          subst h1
          intro i n hn
          rw [get_modify] at hn
          by_cases hi : min a b = i
          · rw [if_pos hi, ← hi, List.getElem?_eq_getElem hlt] at hn
            simp only [Option.map_some] at hn
            injection hn with hn
            subst hn
            obtain ⟨w1, w2⟩ := hs (min a b) _ (List.getElem?_eq_getElem hlt)
            subst hi
            exact ⟨setNs_wf w1 _ _, mem_setNs (lt_of_lt_of_le hm (le_max_right _ _)) (by omega) w2⟩
          · rw [if_neg hi] at hn
            exact hs i n hn
        · simp at h1
      · rw [i3]
        unfold upd at h1
        split at h1
        · injection h1 with h1
          subst h1
          apply List.ext_getElem?
          intro i
          rw [List.getElem?_map, List.getElem?_map, List.getElem?_modify]
          cases net[i]? with
          | none => simp
          | some n =>
            by_cases hi : min a b = i
            · simp [hi]
            · simp [hi]
        · simp at h1

/-- Consequently the order of the calls and the direction of each do not matter. -/
theorem c28_order [IsStrictOrderedRing K] {minR : K} (hm : 0 < minR) {ops ops' : List (Nat × Nat × K)}
    {net net1 net2 : Network K}
    (hp : (ops.map fun o => (min o.1 o.2.1, max o.1 o.2.1, o.2.2)).Perm
      (ops'.map fun o => (min o.1 o.2.1, max o.1 o.2.1, o.2.2)))
    (h1 : setRs minR net ops = .ok net1) (h2 : setRs minR net ops' = .ok net2) (a b : Nat) :
    conductance net1 a b = conductance net2 a b ∧ conductance net1 a b = conductance net1 b a := by
  have key : ∀ l : List (Nat × Nat × K), placed minR l a b =
      ((l.map fun o => (min o.1 o.2.1, max o.1 o.2.1, o.2.2)).map fun o =>
        if o.1 = min a b ∧ o.2.1 = max a b then 1 / max o.2.2 minR else 0).sum := by
    intro l
    rw [placed, List.map_map]
    congr 1
    apply List.map_congr_left
    intro o _
    simp only [Function.comp]
    by_cases h : (o.1 = a ∧ o.2.1 = b) ∨ (o.1 = b ∧ o.2.1 = a)
    · rw [if_pos h, if_pos (by omega)]
    · rw [if_neg h, if_neg (by omega)]
  refine ⟨?_, ?_⟩
  · rw [(c28_parallel hm ops h1).1, (c28_parallel hm ops' h2).1, key ops, key ops', (hp.map _).sum_eq]
  · unfold conductance
    rw [Nat.min_comm, Nat.max_comm]

/-- A call succeeds exactly if the lower node exists; the upper one is not looked at. -/
theorem c28_ok (minR : K) (net : Network K) (a b : Nat) (r : K) :
    (∃ net', setR minR net a b r = .ok net') ↔ min a b < net.length := by
  rw [setR_eq]
  unfold upd
  constructor
  · rintro ⟨net', h⟩
    by_contra hc
    rw [if_neg hc] at h
    simp at h
  · intro h
    exact ⟨_, by rw [if_pos h]⟩

/-- The new network has each pair stored once. -/
theorem c28_new (scen n : Nat) : StoredOnce (Network.new scen n : Network K) := by
  intro i nd h
  unfold Network.new at h
  have := List.mem_of_getElem? h
  rw [List.mem_replicate] at this
  rw [this.2]
  simp [Node.default, UMap.WF, UMap.keys]

/-- example: two resistors of two and three between the nodes one and zero, in both directions -/
example : ∃ net, setRs (1 / 1000 : ℚ) (Network.new 0 3) [(1, 0, 2), (1, 2, 5), (0, 1, 3)] = .ok net ∧
    conductance net 0 1 = 5 / 6 ∧ conductance net 2 1 = 1 / 5 ∧ conductance net 0 2 = 0 := by
  refine ⟨_, rfl, ?_⟩
  decide +kernel

end Ecad.Thermal
