import Verif.Thermal.OpsProps
import Verif.Thermal.SteadyProps
import Mathlib.Tactic.Positivity
/-!
When the network built by a list of calls has exactly one steady temperature field: lemmas shared by the builders.
-/
namespace Ecad.Thermal

variable {K : Type} [Field K] [LinearOrder K] [IsStrictOrderedRing K]

omit [IsStrictOrderedRing K] in
/-- two nodes with a conductance between them are adjacent -/
theorem adj_of_conductance {net : Network K} {a b : Nat} (h : conductance net a b ≠ 0) : Adj net a b := by
  unfold conductance at h
  cases hn : net[min a b]? with
  | none => rw [hn] at h; simp at h
  | some n =>
    rw [hn] at h
    simp only at h
    cases hf : UMap.find? n.ns (max a b) with
    | none => rw [hf] at h; simp at h
    | some r =>
      have he : (min a b, max a b, 1 / r) ∈ edges net := by
        unfold edges
        rw [List.mem_flatMap]
        refine ⟨(n, min a b), ?_, ?_⟩
        · rw [List.mem_zipIdx_iff_getElem?]; exact hn
        · rw [List.mem_map]; exact ⟨(max a b, r), UMap.find?_mem hf, rfl⟩
      refine ⟨1 / r, ?_⟩
      rcases Nat.le_total a b with hab | hab
      · left; rwa [Nat.min_eq_left hab, Nat.max_eq_right hab] at he
      · right; rwa [Nat.min_eq_right hab, Nat.max_eq_left hab] at he

theorem gAt_nonneg {minR : K} (hm : 0 < minR) (a b : Nat) (o : Res (Op K)) : 0 ≤ Op.gAt minR a b o := by
  rcases o with op | _ | _
  · cases op
    case r i j v =>
      simp only [Op.gAt]
      split_ifs
      · have : 0 < max v minR := lt_of_lt_of_le hm (le_max_right _ _)
        positivity
      · exact le_refl _
    all_goals exact le_refl _
  · exact le_refl _
  · exact le_refl _

/-- nodes between which a call has put a resistance are adjacent -/
theorem run_adj {minR : K} (hm : 0 < minR) {l : List (Res (Op K))} {n : Nat} {net : Network K}
    (h : run minR (Network.new noScen n) l = .ok net) {a b : Nat} {v : K} (hv : .ok (.r a b v) ∈ l) : Adj net a b := by
  apply adj_of_conductance
  rw [(run_values h).2.2.2, conductance_new, zero_add]
  have hpos : 0 < Op.gAt minR a b (.ok (.r a b v)) := by
    simp only [Op.gAt]
    rw [if_pos (.inl ⟨trivial, trivial⟩)]
    have : 0 < max v minR := lt_of_lt_of_le hm (le_max_right _ _)
    positivity
  have hle : Op.gAt minR a b (.ok (.r a b v)) ≤ (l.map (Op.gAt minR a b)).sum := by
    apply List.single_le_sum
    · intro x hx
      rw [List.mem_map] at hx
      obtain ⟨o, _, rfl⟩ := hx
      exact gAt_nonneg hm a b o
    · exact List.mem_map_of_mem hv
  exact (lt_of_lt_of_le hpos hle).ne'

/-- **A criterion.** The network built by calls that stay in range, give no negative transfer coefficient and
connect every node, over resistances, to one with a positive transfer coefficient, is grounded. -/
theorem run_grounded {minR : K} (hm : 0 < minR) {l : List (Res (Op K))} {n : Nat} {net : Network K}
    (h : run minR (Network.new noScen n) l = .ok net)
    (hup : ∀ o ∈ l, Op.upper o < n + nodesOf l) (hhtc : ∀ i, 0 ≤ htcOf net i)
    (hg : ∀ i, i < n + nodesOf l → ∃ b, Relation.ReflTransGen (fun a b => ∃ v, .ok (.r a b v) ∈ l ∨ .ok (.r b a v) ∈ l) i b ∧
      0 < htcOf net b) : Grounded net := by
  have hlen : net.length = n + nodesOf l := by rw [run_length _ h, length_new]
  refine ⟨?_, ?_, ?_, ?_⟩
  · unfold InRange
    rw [hlen]
    refine run_below _ l hup h ?_
    intro i nd hn
    have := List.mem_of_getElem? hn
    rw [Network.new, List.mem_replicate] at this
    rw [this.2]
    simp [Node.default]
  · intro nd hnd
    obtain ⟨i, hi⟩ := List.mem_iff_getElem?.1 hnd
    intro e he
    exact ((run_stored hm l h (c28_new noScen n)) i nd hi).2 e he |>.2
  · intro nd hnd
    obtain ⟨i, hi⟩ := List.mem_iff_getElem?.1 hnd
    have := hhtc i
    unfold htcOf at this
    rw [hi] at this
    exact this
  · intro i hi
    rw [hlen] at hi
    obtain ⟨b, hb, hp⟩ := hg i hi
    refine ⟨b, ?_, hp⟩
    clear hp
    induction hb with
    | refl => exact .refl
    | tail _ h2 ih =>
      rename_i c d _
      have hcd : Adj net c d := by
        obtain ⟨v, hv | hv⟩ := h2
        · exact run_adj hm h hv
        · obtain ⟨g, hg⟩ := run_adj hm h hv
          exact ⟨g, hg.symm⟩
      exact ih.tail hcd

end Ecad.Thermal
