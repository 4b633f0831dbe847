import Verif.Thermal.GridTModel
import Verif.Thermal.OpsProps
import Mathlib.Data.List.Nodup
import Mathlib.Tactic.NormNum
/-!
C33.
-/
namespace Ecad.GridT
open Ecad.Thermal

variable {K : Type} [Field K] [LinearOrder K]

/-- a cell of a grid of given size -/
def InGrid (m g : Size3) : Prop := g.x < m.x ∧ g.y < m.y ∧ g.z < m.z

/-- the first two numbers of a size -/
def Size3.flat (m : Size3) : Size2 := ⟨m.x, m.y⟩

theorem flatten_lt {m g : Size3} (h : InGrid m g) : flatten m.flat g < m.x * m.y * m.z := by
  obtain ⟨hx, hy, hz⟩ := h
  simp only [flatten, Size3.flat]
  have h1 : m.y * g.x + g.y < m.x * m.y := by nlinarith
  have h2 : m.x * m.y * (g.z + 1) ≤ m.x * m.y * m.z := Nat.mul_le_mul_left _ hz
  nlinarith

theorem gridIndex_flatten {m g : Size3} (h : InGrid m g) : gridIndex m.flat (flatten m.flat g) = .ok g := by
  obtain ⟨hx, hy, hz⟩ := h
  have h1 : m.y * g.x + g.y < m.x * m.y := by nlinarith
  have h0 : 0 < m.x * m.y := by omega
  have hm : flatten m.flat g % (m.x * m.y) = m.y * g.x + g.y := by
    simp only [flatten, Size3.flat]
    rw [Nat.add_assoc, Nat.mul_add_mod, Nat.mod_eq_of_lt h1]
  have hd : flatten m.flat g / (m.x * m.y) = g.z := by
    simp only [flatten, Size3.flat]
    rw [Nat.add_assoc, Nat.mul_add_div h0, Nat.div_eq_of_lt h1, Nat.add_zero]
  have hne : ¬ (m.flat.x * m.flat.y = 0) := by simp only [Size3.flat]; omega
  unfold gridIndex
  rw [if_neg hne]
  simp only [Size3.flat] at *
  rw [hm, hd, Nat.mul_add_mod, Nat.mod_eq_of_lt hy, Nat.mul_add_div (by omega), Nat.div_eq_of_lt hy,
    Nat.add_zero]

/-- **C33, numbering.** Cells of the grid and numbers below the total correspond one to one, and both
conversions are inverse to each other. -/
theorem c33_numbering (m : Size3) :
    (∀ g, InGrid m g → flatten m.flat g < m.x * m.y * m.z ∧ gridIndex m.flat (flatten m.flat g) = .ok g) ∧
    (∀ i, i < m.x * m.y * m.z → ∃ g, InGrid m g ∧ gridIndex m.flat i = .ok g ∧ flatten m.flat g = i) := by
  refine ⟨fun g h => ⟨flatten_lt h, gridIndex_flatten h⟩, fun i hi => ?_⟩
  have h0 : 0 < m.x * m.y := by
    rcases Nat.eq_zero_or_pos (m.x * m.y) with h | h
    · rw [h] at hi; omega
    · exact h
  have hy : 0 < m.y := Nat.pos_of_mul_pos_left h0
  have hlt := Nat.mod_lt i h0
  have e1 := Nat.div_add_mod (i % (m.x * m.y)) m.y
  have e2 := Nat.div_add_mod i (m.x * m.y)
  refine ⟨⟨i % (m.x * m.y) / m.y, i % (m.x * m.y) % m.y, i / (m.x * m.y)⟩, ⟨?_, Nat.mod_lt _ hy, ?_⟩, ?_, ?_⟩
  · exact Nat.div_lt_of_lt_mul (by rw [Nat.mul_comm m.y]; exact hlt)
  · exact Nat.div_lt_of_lt_mul hi
  · have hne : ¬ (m.flat.x * m.flat.y = 0) := by simp only [Size3.flat]; omega
    unfold gridIndex
    rw [if_neg hne]
    rfl
  · simp only [flatten, Size3.flat]
    omega

/-- a grid without cells in a layer: converting a number divides by zero -/
theorem c33_empty (s : Size2) (h : s.x * s.y = 0) (i : Nat) : gridIndex s i = .ub := by
  simp [gridIndex, h]

/-- the orientation back -/
def Orient.back : Orient → Orient
  | .top => .bot | .bot => .top | .left => .right | .right => .left | .front => .end_ | .end_ => .front

/-- the cell one step in a direction, by coordinates -/
def StepsTo (g h : Size3) : Orient → Prop
  | .top => h.x = g.x ∧ h.y = g.y ∧ h.z + 1 = g.z
  | .bot => h.x = g.x ∧ h.y = g.y ∧ h.z = g.z + 1
  | .left => h.x + 1 = g.x ∧ h.y = g.y ∧ h.z = g.z
  | .right => h.x = g.x + 1 ∧ h.y = g.y ∧ h.z = g.z
  | .front => h.x = g.x ∧ h.y + 1 = g.y ∧ h.z = g.z
  | .end_ => h.x = g.x ∧ h.y = g.y + 1 ∧ h.z = g.z

/-- sizes are machine numbers -/
def Fits (m : Size3) : Prop := m.x ≤ invalidIndex ∧ m.y ≤ invalidIndex ∧ m.z ≤ invalidIndex

/-- the neighbour is valid exactly if there is a cell in that direction, and then it is that cell -/
theorem neighbor_iff {m g : Size3} (hm : Fits m) (hg : InGrid m g) (o : Orient) (h : Size3) :
    (valid (neighbor m g o) = true ∧ neighbor m g o = h) ↔ (InGrid m h ∧ StepsTo g h o) := by
  obtain ⟨mx, my, mz⟩ := m
  obtain ⟨gx, gy, gz⟩ := g
  obtain ⟨hx, hy, hz⟩ := h
  unfold Fits at hm
  unfold InGrid at *
  simp only at hm hg ⊢
  generalize hI : invalidIndex = I at hm
  have hp : ∀ n k, k < n → pred64 n = n - 1 := fun n k h => by simp [pred64]; omega
  cases o <;> simp only [neighbor, valid, StepsTo, hI, hp mx gx hg.1, hp my gy hg.2.1, hp mz gz hg.2.2, Size3.mk.injEq,
    Bool.and_eq_true, decide_eq_true_eq, bne_iff_ne, ne_eq, decide_not, Bool.not_eq_true', decide_eq_false_iff_not]
  all_goals split_ifs <;> omega

/-- **C33, neighbours.** A neighbour is valid exactly if the grid continues in that direction; it then is
the adjacent cell, and stepping back from it returns to the cell. -/
theorem c33_neighbour {m g : Size3} (hm : Fits m) (hg : InGrid m g) (o : Orient) :
    (valid (neighbor m g o) = true ↔ ∃ h, InGrid m h ∧ StepsTo g h o) ∧
    (valid (neighbor m g o) = true → InGrid m (neighbor m g o) ∧ StepsTo g (neighbor m g o) o ∧
      neighbor m (neighbor m g o) o.back = g ∧ valid (neighbor m (neighbor m g o) o.back) = true) := by
  refine ⟨⟨fun h => ⟨_, (neighbor_iff hm hg o _).1 ⟨h, rfl⟩⟩, fun ⟨h, hh⟩ => ((neighbor_iff hm hg o h).2 hh).1⟩, fun h => ?_⟩
  have h1 := (neighbor_iff hm hg o _).1 ⟨h, rfl⟩
  refine ⟨h1.1, h1.2, ?_⟩
  have hb : StepsTo (neighbor m g o) g o.back := by
    have := h1.2
    revert this
    generalize neighbor m g o = k
    cases o <;> simp only [StepsTo, Orient.back] <;> omega
  exact ((neighbor_iff hm h1.1 o.back g).2 ⟨hg, hb⟩).symm

/-- two cells share a face -/
def Adjacent (g h : Size3) : Prop :=
  (g.y = h.y ∧ g.z = h.z ∧ (g.x + 1 = h.x ∨ h.x + 1 = g.x)) ∨
  (g.x = h.x ∧ g.z = h.z ∧ (g.y + 1 = h.y ∨ h.y + 1 = g.y)) ∨
  (g.x = h.x ∧ g.y = h.y ∧ (g.z + 1 = h.z ∨ h.z + 1 = g.z))

instance (g h : Size3) : Decidable (Adjacent g h) := by unfold Adjacent; infer_instance

/-- the pair of nodes a call connects -/
def pair : Res (Op K) → Option (Nat × Nat)
  | .ok (.r a b _) => some (a, b)
  | _ => none

/-- the pairs of nodes connected by the loop over all cells, in order -/
def GModel.pairs (m : GModel K) : List (Nat × Nat) := ((List.range m.total).flatMap m.cellOps).filterMap pair

omit [LinearOrder K] in
theorem pairs_link (m : GModel K) (i : Nat) (g : Size3) (o : Orient) : (m.link i g o).filterMap pair =
    if valid (neighbor m.size3 g o) then [(i, flatten m.size (neighbor m.size3 g o))] else [] := by
  unfold GModel.link
  by_cases hv : valid (neighbor m.size3 g o) = true
  · simp only [hv, if_true]; rfl
  · simp only [hv, if_false]; rfl

omit [LinearOrder K] in
theorem pairs_cell (m : GModel K) {i : Nat} {g : Size3} (h : gridIndex m.size i = .ok g) : (m.cellOps i).filterMap pair =
    (m.link i g .right).filterMap pair ++ (m.link i g .end_).filterMap pair ++ (m.link i g .bot).filterMap pair := by
  unfold GModel.cellOps
  rw [h]
  simp only [← List.filterMap_append]
  rfl

theorem flatten_inj {m g h : Size3} (hg : InGrid m g) (hh : InGrid m h) (e : flatten m.flat g = flatten m.flat h) : g = h := by
  have h1 := gridIndex_flatten hg
  rw [e, gridIndex_flatten hh] at h1
  injection h1 with h1
  exact h1.symm

omit [LinearOrder K] in
theorem mem_pairs (m : GModel K) (hm : Fits m.size3) {g h : Size3} (hg : InGrid m.size3 g) (hh : InGrid m.size3 h) :
    (flatten m.size g, flatten m.size h) ∈ m.pairs ↔ StepsTo g h .right ∨ StepsTo g h .end_ ∨ StepsTo g h .bot := by
  have hflat : m.size3.flat = m.size := rfl
  unfold GModel.pairs
  rw [List.filterMap_flatMap, List.mem_flatMap]
  have key : ∀ o, (flatten m.size g, flatten m.size h) ∈ (m.link (flatten m.size g) g o).filterMap pair ↔ StepsTo g h o := by
    intro o
    rw [pairs_link]
    constructor
    · intro hp
      split_ifs at hp with hv
      · simp only [List.mem_singleton, Prod.mk.injEq, true_and] at hp
        have h1 := (neighbor_iff hm hg o _).1 ⟨hv, rfl⟩
        have : h = neighbor m.size3 g o := flatten_inj hh h1.1 hp
        rw [this]; exact h1.2
      · simp at hp
    · intro hs
      have h1 := (neighbor_iff hm hg o h).2 ⟨hh, hs⟩
      rw [if_pos h1.1, h1.2]; simp
  constructor
  · rintro ⟨i, hi, hp⟩
    rw [List.mem_range] at hi
    obtain ⟨g', hg', e1, e2⟩ := (c33_numbering m.size3).2 i hi
    rw [hflat] at e1 e2
    rw [pairs_cell m e1] at hp
    have : i = flatten m.size g := by
      simp only [pairs_link, List.mem_append] at hp
      rcases hp with (hp | hp) | hp <;> split_ifs at hp <;> simp at hp <;> exact hp.1.symm
    subst this
    have hgg : g' = g := flatten_inj hg' hg e2
    subst hgg
    simp only [List.mem_append, key] at hp
    tauto
  · intro hs
    refine ⟨flatten m.size g, List.mem_range.2 (flatten_lt hg), ?_⟩
    rw [pairs_cell m (i := flatten m.size g) (gridIndex_flatten hg)]
    simp only [List.mem_append, key]
    tauto

omit [LinearOrder K] in
theorem nodup_pairs (m : GModel K) (hm : Fits m.size3) : m.pairs.Nodup := by
  have hflat : m.size3.flat = m.size := rfl
  unfold GModel.pairs
  rw [List.filterMap_flatMap, List.nodup_flatMap]
  refine ⟨fun i hi => ?_, ?_⟩
  · rw [List.mem_range] at hi
    obtain ⟨g, hg, e1, e2⟩ := (c33_numbering m.size3).2 i hi
    rw [hflat] at e1 e2
    rw [pairs_cell m e1]
    have ne : ∀ o o', valid (neighbor m.size3 g o) = true → valid (neighbor m.size3 g o') = true →
        flatten m.size (neighbor m.size3 g o) = flatten m.size (neighbor m.size3 g o') →
        ∃ h, StepsTo g h o ∧ StepsTo g h o' := by
      intro o o' h1 h2 h3
      have k1 := (neighbor_iff hm hg o _).1 ⟨h1, rfl⟩
      have k2 := (neighbor_iff hm hg o' _).1 ⟨h2, rfl⟩
      have : neighbor m.size3 g o = neighbor m.size3 g o' := flatten_inj k1.1 k2.1 h3
      exact ⟨_, k1.2, this ▸ k2.2⟩
    simp only [pairs_link]
    rw [List.nodup_append, List.nodup_append]
    refine ⟨⟨by split_ifs <;> simp, by split_ifs <;> simp, ?_⟩, by split_ifs <;> simp, ?_⟩
    · intro a ha b hb
      split_ifs at ha hb with h1 h2 <;> simp at ha hb
      subst ha hb
      intro e
      rw [Prod.mk.injEq] at e
      obtain ⟨h, s1, s2⟩ := ne _ _ h1 h2 e.2
      simp only [StepsTo] at s1 s2; omega
    · intro a ha b hb
      rcases List.mem_append.1 ha with ha | ha
      all_goals
        split_ifs at ha hb with h1 h2 <;> simp at ha hb
        subst ha hb
        intro e
        rw [Prod.mk.injEq] at e
        obtain ⟨h, s1, s2⟩ := ne _ _ h1 h2 e.2
        simp only [StepsTo] at s1 s2; omega
  · have fst : ∀ i, ∀ p ∈ (m.cellOps i).filterMap pair, p.1 = i := by
      intro i p hp
      cases hgi : gridIndex m.size i with
      | ok g =>
        rw [pairs_cell m hgi] at hp
        simp only [pairs_link, List.mem_append] at hp
        rcases hp with (hp | hp) | hp <;> split_ifs at hp <;> simp at hp <;> rw [hp]
      | ub => simp [GModel.cellOps, hgi, pair] at hp
      | exn => simp [GModel.cellOps, hgi, pair] at hp
    refine List.Pairwise.imp ?_ List.nodup_range
    intro a b hab
    simp only [Function.onFun]
    intro p hp hq
    exact hab ((fst a p hp).symm.trans (fst b p hq))

/-- **C33, connections.** The loop over all cells connects two cells once if they share a face, and not at
all otherwise, whichever of the two is named first. -/
theorem c33_connections (m : GModel K) (hm : Fits m.size3) {g h : Size3} (hg : InGrid m.size3 g) (hh : InGrid m.size3 h) :
    m.pairs.count (flatten m.size g, flatten m.size h) + m.pairs.count (flatten m.size h, flatten m.size g) =
      if Adjacent g h then 1 else 0 := by
  have nd := nodup_pairs m hm
  rw [nd.count, nd.count]
  simp only [mem_pairs m hm hg hh, mem_pairs m hm hh hg, StepsTo]
  obtain ⟨gx, gy, gz⟩ := g
  obtain ⟨hx, hy, hz⟩ := h
  simp only
  by_cases h1 : hx = gx + 1 ∧ hy = gy ∧ hz = gz ∨ hx = gx ∧ hy = gy + 1 ∧ hz = gz ∨ hx = gx ∧ hy = gy ∧ hz = gz + 1
  · have hA : Adjacent ⟨gx, gy, gz⟩ ⟨hx, hy, hz⟩ := by simp only [Adjacent]; omega
    rw [if_pos h1, if_neg (by omega), if_pos hA]
  · by_cases h2 : gx = hx + 1 ∧ gy = hy ∧ gz = hz ∨ gx = hx ∧ gy = hy + 1 ∧ gz = hz ∨ gx = hx ∧ gy = hy ∧ gz = hz + 1
    · have hA : Adjacent ⟨gx, gy, gz⟩ ⟨hx, hy, hz⟩ := by simp only [Adjacent]; omega
      rw [if_neg h1, if_pos h2, if_pos hA]
    · have hA : ¬ Adjacent ⟨gx, gy, gz⟩ ⟨hx, hy, hz⟩ := by simp only [Adjacent]; omega
      rw [if_neg h1, if_neg h2, if_neg hA]

/-- **C33, connections.** No call of the loop leaves the grid. -/
theorem c33_connections_inside (m : GModel K) (hm : Fits m.size3) {a b : Nat} (h : (a, b) ∈ m.pairs) :
    ∃ g k, InGrid m.size3 g ∧ InGrid m.size3 k ∧ a = flatten m.size g ∧ b = flatten m.size k := by
  have hflat : m.size3.flat = m.size := rfl
  unfold GModel.pairs at h
  rw [List.filterMap_flatMap, List.mem_flatMap] at h
  obtain ⟨i, hi, hp⟩ := h
  rw [List.mem_range] at hi
  obtain ⟨g, hg, e1, e2⟩ := (c33_numbering m.size3).2 i hi
  rw [hflat] at e1 e2
  rw [pairs_cell m e1] at hp
  have key : ∀ o, (a, b) ∈ (m.link i g o).filterMap pair → ∃ g k, InGrid m.size3 g ∧ InGrid m.size3 k ∧
      a = flatten m.size g ∧ b = flatten m.size k := by
    intro o ho
    rw [pairs_link] at ho
    split_ifs at ho with hv
    · simp at ho
      exact ⟨g, _, hg, ((neighbor_iff hm hg o _).1 ⟨hv, rfl⟩).1, by rw [e2, ho.1], ho.2⟩
    · simp at ho
  simp only [List.mem_append] at hp
  rcases hp with (hp | hp) | hp
  · exact key _ hp
  · exact key _ hp
  · exact key _ hp

/-- example: a model of 2 x 3 cells in two layers -/
def exGrid : GModel ℚ :=
  { size := ⟨2, 3⟩, resX := 1, resY := 1, scaleH := 1,
    layers := [⟨1, fun _ _ => 1, []⟩, ⟨2, fun _ _ => 0, []⟩],
    jumps := [], topBC := none, botBC := none, topBlocks := [], botBlocks := [] }

example : Fits exGrid.size3 ∧ InGrid exGrid.size3 ⟨1, 2, 0⟩ ∧ InGrid exGrid.size3 ⟨1, 2, 1⟩ ∧
    Adjacent ⟨1, 2, 0⟩ ⟨1, 2, 1⟩ ∧ flatten exGrid.size ⟨1, 2, 0⟩ = 5 ∧ flatten exGrid.size ⟨1, 2, 1⟩ = 11 ∧
    exGrid.pairs.length = 20 ∧ (5, 11) ∈ exGrid.pairs := by
  refine ⟨?_, ?_, ?_, ?_, ?_, ?_, ?_, ?_⟩
  · unfold Fits; decide
  · unfold InGrid; decide
  · unfold InGrid; decide
  · decide
  · decide
  · decide
  · decide +kernel
  · decide +kernel

end Ecad.GridT
