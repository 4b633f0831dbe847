import Verif.Thermal.RangeModel
import Mathlib.Tactic.Linarith
/-!
C159: the lowest and the highest temperature of a network.

The specification only speaks of the temperatures that nodes have: `Known net v` says that some node has the temperature `v`.
-/
namespace Ecad.Thermal.Range

variable {K : Type} [Field K] [LinearOrder K] [IsStrictOrderedRing K]

/-- some node has the temperature `v` -/
def Known (net : Network K) (v : K) : Prop := ∃ n ∈ net, n.t = some v

/-- temperatures are numbers between the limits, the upper one, which marks unknown temperatures, excepted -/
def InRange (big : K) (net : Network K) : Prop := ∀ v, Known net v → -big ≤ v ∧ v < big

omit [IsStrictOrderedRing K] in
theorem known_cons (n : Node K) (net : Network K) (v : K) : Known (n :: net) v ↔ n.t = some v ∨ Known net v := by
  simp [Known]

omit [IsStrictOrderedRing K] in
theorem inRange_cons {big : K} {n : Node K} {net : Network K} (h : InRange big (n :: net)) : InRange big net :=
  fun v hv => h v ((known_cons n net v).mpr (.inr hv))

omit [IsStrictOrderedRing K] in
theorem min_fold (big : K) : ∀ (net : Network K) (m : K), InRange big net →
    let r := net.foldl (fun m n => if n.raw big = big then m else min m (n.raw big)) m
    r ≤ m ∧ (∀ v, Known net v → r ≤ v) ∧ (r = m ∨ Known net r)
  | [], m, _ => ⟨le_refl _, by simp [Known], .inl rfl⟩
  | n :: net, m, h => by
    have ih := fun m' => min_fold big net m' (inRange_cons h)
    simp only [List.foldl_cons]
    cases ht : n.t with
    | none =>
      have e : (if n.raw big = big then m else min m (n.raw big)) = m := by simp [Node.raw, ht]
      rw [e]
      obtain ⟨h1, h2, h3⟩ := ih m
      refine ⟨h1, fun v hv => ?_, ?_⟩
      · rcases (known_cons n net v).mp hv with h4 | h4
        · rw [ht] at h4; cases h4
        · exact h2 v h4
      · exact h3.imp id fun h4 => (known_cons ..).mpr (.inr h4)
    | some t =>
      have hlt : t < big := (h t ((known_cons ..).mpr (.inl ht))).2
      have e : (if n.raw big = big then m else min m (n.raw big)) = min m t := by simp [Node.raw, ht, hlt.ne]
      rw [e]
      obtain ⟨h1, h2, h3⟩ := ih (min m t)
      refine ⟨h1.trans (min_le_left _ _), fun v hv => ?_, ?_⟩
      · rcases (known_cons n net v).mp hv with h4 | h4
        · rw [ht] at h4
          injection h4 with h4
          exact h4 ▸ h1.trans (min_le_right _ _)
        · exact h2 v h4
      · rcases h3 with h3 | h3
        · rcases min_choice m t with h4 | h4
          · exact .inl (h3.trans h4)
          · exact .inr ((known_cons ..).mpr (.inl (by rw [h3, h4, ht])))
        · exact .inr ((known_cons ..).mpr (.inr h3))

omit [IsStrictOrderedRing K] in
theorem max_fold (big : K) : ∀ (net : Network K) (m : K), InRange big net →
    let r := net.foldl (fun m n => if n.raw big = big then m else max m (n.raw big)) m
    m ≤ r ∧ (∀ v, Known net v → v ≤ r) ∧ (r = m ∨ Known net r)
  | [], m, _ => ⟨le_refl _, by simp [Known], .inl rfl⟩
  | n :: net, m, h => by
    have ih := fun m' => max_fold big net m' (inRange_cons h)
    simp only [List.foldl_cons]
    cases ht : n.t with
    | none =>
      have e : (if n.raw big = big then m else max m (n.raw big)) = m := by simp [Node.raw, ht]
      rw [e]
      obtain ⟨h1, h2, h3⟩ := ih m
      refine ⟨h1, fun v hv => ?_, ?_⟩
      · rcases (known_cons n net v).mp hv with h4 | h4
        · rw [ht] at h4; cases h4
        · exact h2 v h4
      · exact h3.imp id fun h4 => (known_cons ..).mpr (.inr h4)
    | some t =>
      have hlt : t < big := (h t ((known_cons ..).mpr (.inl ht))).2
      have e : (if n.raw big = big then m else max m (n.raw big)) = max m t := by simp [Node.raw, ht, hlt.ne]
      rw [e]
      obtain ⟨h1, h2, h3⟩ := ih (max m t)
      refine ⟨(le_max_left _ _).trans h1, fun v hv => ?_, ?_⟩
      · rcases (known_cons n net v).mp hv with h4 | h4
        · rw [ht] at h4
          injection h4 with h4
          exact h4 ▸ (le_max_right _ _).trans h1
        · exact h2 v h4
      · rcases h3 with h3 | h3
        · rcases max_choice m t with h4 | h4
          · exact .inl (h3.trans h4)
          · exact .inr ((known_cons ..).mpr (.inl (by rw [h3, h4, ht])))
        · exact .inr ((known_cons ..).mpr (.inr h3))

omit [IsStrictOrderedRing K] in
/-- **C159**: if a node has a temperature, the results are temperatures of nodes, and every temperature is between them. -/
theorem c159_range {big : K} {net : Network K} (h : InRange big net) {v : K} (hv : Known net v) :
    Known net (minT big net) ∧ Known net (maxT big net) ∧ ∀ u, Known net u → minT big net ≤ u ∧ u ≤ maxT big net := by
  obtain ⟨-, a2, a3⟩ := min_fold big net big h
  obtain ⟨b1, b2, b3⟩ := max_fold big net (-big) h
  refine ⟨?_, ?_, fun u hu => ⟨a2 u hu, b2 u hu⟩⟩
  · rcases a3 with a3 | a3
    · exact absurd ((a2 v hv).trans_lt (h v hv).2) (by rw [a3]; exact lt_irrefl _)
    · exact a3
  · rcases b3 with b3 | b3
    · have e : v = -big := le_antisymm ((b2 v hv).trans b3.le) (h v hv).1
      change Known net (List.foldl _ _ _)
      rw [b3, ← e]
      exact hv
    · exact b3

/-- **C159**: no node has a temperature just if the lowest temperature is above the highest; then the results are the limits of the
number type, the first of them the mark of unknown temperatures. -/
theorem c159_none {big : K} (hb : 0 < big) {net : Network K} (h : InRange big net) :
    ((∀ v, ¬ Known net v) ↔ maxT big net < minT big net) ∧
      ((∀ v, ¬ Known net v) → minT big net = big ∧ maxT big net = -big) := by
  have lim : (∀ v, ¬ Known net v) → minT big net = big ∧ maxT big net = -big := fun hn =>
    ⟨(min_fold big net big h).2.2.resolve_right (hn _), (max_fold big net (-big) h).2.2.resolve_right (hn _)⟩
  refine ⟨⟨fun hn => ?_, fun hlt v hv => ?_⟩, lim⟩
  · obtain ⟨e1, e2⟩ := lim hn
    rw [e1, e2]
    linarith
  · obtain ⟨-, -, h3⟩ := c159_range h hv
    exact absurd ((h3 v hv).1.trans (h3 v hv).2) (not_le.mpr hlt)

omit [IsStrictOrderedRing K] in
/-- **C159**: temperatures are found again: after `SetT` of a node with a proper value the node has it, the others keep theirs, so the
value is between the results; the mark makes the temperature of the node unknown. -/
theorem c159_set (big : K) (net : Network K) {i : Nat} (hi : i < net.length) (v : K) :
    ∃ net', setT big net i v = .ok net' ∧ net'.length = net.length ∧
      (∀ j, j ≠ i → (net'[j]?).map Node.t = (net[j]?).map Node.t) ∧
      (net'[i]?).map Node.t = some (if v = big then none else some v) ∧
      (v ≠ big → InRange big net' → minT big net' ≤ v ∧ v ≤ maxT big net') := by
  have hgi : (net.modify i fun n => { n with t := if v = big then none else some v })[i]?.map Node.t =
      some (if v = big then none else some v) := by
    rw [List.getElem?_modify_eq, List.getElem?_eq_getElem hi]
    rfl
  refine ⟨_, by rw [setT, upd, if_pos hi], by simp, fun j hj => ?_, hgi, fun hv hr => ?_⟩
  · rw [List.getElem?_modify_ne (h := Ne.symm hj)]
  · have hk : Known (net.modify i fun n => { n with t := if v = big then none else some v }) v := by
      obtain ⟨n, hn, ht⟩ := Option.map_eq_some_iff.mp hgi
      exact ⟨n, List.mem_of_getElem? hn, by rw [ht, if_neg hv]⟩
    exact (c159_range hr hk).2.2 v hk

/-- three nodes, one without temperature -/
def exNet : Network ℚ := [⟨0, some 300, 0, 0, 0, []⟩, ⟨0, none, 0, 1, 0, []⟩, ⟨0, some (-5), 0, 0, 0, []⟩]

theorem ex_range : InRange (1000 : ℚ) exNet := by
  rintro v ⟨n, hn, ht⟩
  simp only [exNet, List.mem_cons, List.not_mem_nil, or_false] at hn
  rcases hn with rfl | rfl | rfl <;> simp at ht <;> subst ht <;> constructor <;> norm_num

example : minT (1000 : ℚ) exNet = -5 ∧ maxT (1000 : ℚ) exNet = 300 := by constructor <;> decide +kernel

example : Known exNet (300 : ℚ) := ⟨⟨0, some 300, 0, 0, 0, []⟩, by simp [exNet], rfl⟩

example : (∀ v : ℚ, ¬ Known (Network.new 0 2) v) ∧ maxT (1000 : ℚ) (Network.new 0 2) = -1000 :=
  ⟨by
    rintro v ⟨n, hn, ht⟩
    rw [Network.new, List.mem_replicate] at hn
    rw [hn.2] at ht
    exact absurd ht (by simp [Node.default]), by decide +kernel⟩

end Ecad.Thermal.Range
