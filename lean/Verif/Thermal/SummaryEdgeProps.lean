import Verif.Thermal.SummaryProps
/-!
More on the summary of a network build (C146): grid models, signs, boundary nodes, and where the summary is wrong.
-/
namespace Ecad.Summary

open Ecad.Thermal Ecad.GridT Ecad.PrismT

variable {K : Type} [Field K] [LinearOrder K]

/-! ### grid models -/

/-- power given by a table over all cells of a layer -/
def isTable : Power K → Prop
  | .grid _ => True
  | .block .. => False

/-- at most one table in a layer -/
def TablesApart (m : GModel K) : Prop := m.powers.Pairwise fun a b => isTable a.2 → isTable b.2 → a.1 ≠ b.1

/-- no heat flux among the boundary conditions -/
def NoFluxG (m : GModel K) : Prop := ∀ b ∈ m.bcs, b.1.type ≠ .heatFlux

theorem heat_flow {ip : List (K × K) → K → Res K} {m : GModel K} {iniT : List K} {t : Table K} {z : Nat} {c : Nat × Nat}
    {o : Res (Op K)} (ho : o ∈ m.heatOps ip iniT t z c) {i : Nat} (hi : flowAt o = some i) : i = flatten m.size ⟨c.1, c.2, z⟩ := by
  rcases heatOps_cases ip m iniT t z c ho with rfl | rfl | ⟨v, rfl⟩ <;> simp [flowAt] at hi
  exact hi.symm

theorem heat_once (ip : List (K × K) → K → Res K) (m : GModel K) (iniT : List K) (t : Table K) (z : Nat) (c : Nat × Nat) :
    Once (m.heatOps ip iniT t z c) := by
  unfold Once GModel.heatOps
  simp only
  split
  · simp
  · split <;> simp

theorem set_flow {o : Res (Op K)} {i : Nat} (h : setAt o = some i) : flowAt o = some i := by
  rcases o with op | _ | _
  · cases op <;> simp [setAt, flowAt] at h ⊢; exact h
  · simp [setAt] at h
  · simp [setAt] at h

theorem table_once (ip : List (K × K) → K → Res K) (m : GModel K) (iniT : List K) (t : Table K) {z : Nat} (hz : z < m.layers.length) :
    Once ((allCells m.size).flatMap (m.heatOps ip iniT t z)) := by
  unfold Once
  rw [List.pairwise_flatMap]
  refine ⟨fun c _ => heat_once ip m iniT t z c, ?_⟩
  refine List.Pairwise.imp_of_mem ?_ (nodup_allCells m.size)
  intro a b ha hb hne x hx y hy i hi hi'
  rw [mem_allCells] at ha hb
  have e1 := heat_flow hx hi'
  have e2 := heat_flow hy (set_flow hi)
  have : (⟨a.1, a.2, z⟩ : Size3) = ⟨b.1, b.2, z⟩ := flatten_inj (m := m.size3) ⟨ha.1, ha.2, hz⟩ ⟨hb.1, hb.2, hz⟩ (by
    show flatten m.size _ = flatten m.size _
    rw [← e1, ← e2])
  simp only [Size3.mk.injEq, and_true] at this
  exact hne (Prod.ext this.1 this.2)

theorem power_flow {ip : List (K × K) → K → Res K} {m : GModel K} {iniT : List K} {n z : Nat} {p : Power K}
    {o : Res (Op K)} (ho : o ∈ m.powerOps ip iniT n z p) {i : Nat} (hi : flowAt o = some i) :
    (¬ isTable p ∧ i = n) ∨ (isTable p ∧ ∃ c ∈ allCells m.size, i = flatten m.size ⟨c.1, c.2, z⟩) := by
  cases p with
  | grid t =>
    refine .inr ⟨trivial, ?_⟩
    simp only [GModel.powerOps, List.mem_flatMap] at ho
    obtain ⟨c, hc, ho⟩ := ho
    exact ⟨c, hc, heat_flow ho hi⟩
  | block ll ur total =>
    refine .inl ⟨id, ?_⟩
    simp only [GModel.powerOps, List.mem_cons, List.mem_map] at ho
    rcases ho with rfl | rfl | ⟨c, _, rfl⟩ <;> simp [flowAt] at hi
    exact hi.symm

theorem powers_flow {ip : List (K × K) → K → Res K} {m : GModel K} {iniT : List K} (ps : List (Nat × Power K)) : ∀ {n : Nat}
    {o : Res (Op K)}, o ∈ m.powersOps ip iniT n ps → ∀ {i : Nat}, flowAt o = some i →
    n ≤ i ∨ ∃ p ∈ ps, isTable p.2 ∧ ∃ c ∈ allCells m.size, i = flatten m.size ⟨c.1, c.2, p.1⟩ := by
  induction ps with
  | nil => intro n o ho; simp [GModel.powersOps] at ho
  | cons p ps ih =>
    intro n o ho i hi
    obtain ⟨z, p⟩ := p
    rw [GModel.powersOps, List.mem_append] at ho
    rcases ho with ho | ho
    · rcases power_flow ho hi with ⟨_, rfl⟩ | ⟨h, c, hc, e⟩
      · exact .inl le_rfl
      · exact .inr ⟨(z, p), by simp, h, c, hc, e⟩
    · rcases ih ho hi with h | ⟨q, hq, h⟩
      · exact .inl (by omega)
      · exact .inr ⟨q, by simp [hq], h⟩

theorem powers_once {ip : List (K × K) → K → Res K} {m : GModel K} {iniT : List K} (ps : List (Nat × Power K))
    (hz : ∀ p ∈ ps, p.1 < m.layers.length) (ha : ps.Pairwise fun a b => isTable a.2 → isTable b.2 → a.1 ≠ b.1) :
    ∀ {n : Nat}, m.total ≤ n → Once (m.powersOps ip iniT n ps) := by
  induction ps with
  | nil => intro n _; simp [GModel.powersOps, Once]
  | cons p ps ih =>
    intro n hn
    obtain ⟨z, p⟩ := p
    obtain ⟨ha1, ha2⟩ := List.pairwise_cons.1 ha
    have hz1 : z < m.layers.length := hz (z, p) (by simp)
    have hlt : ∀ {c : Nat × Nat} {z : Nat}, c ∈ allCells m.size → z < m.layers.length → flatten m.size ⟨c.1, c.2, z⟩ < m.total := by
      intro c z hc hz
      rw [mem_allCells] at hc
      exact flatten_lt (m := m.size3) ⟨hc.1, hc.2, hz⟩
    rw [GModel.powersOps]
    unfold Once
    rw [List.pairwise_append]
    refine ⟨?_, ih (fun q hq => hz q (by simp [hq])) ha2 (by omega), ?_⟩
    · cases p with
      | grid t => exact table_once ip m iniT t hz1
      | block ll ur total =>
        simp only [GModel.powerOps]
        refine List.pairwise_cons.2 ⟨fun o _ i _ => by simp [flowAt], List.pairwise_cons.2 ⟨?_, ?_⟩⟩
        · intro o ho i hi
          rw [List.mem_map] at ho
          obtain ⟨c, _, rfl⟩ := ho
          simp [setAt] at hi
        · refine once_of_noset fun o ho => ?_
          rw [List.mem_map] at ho
          obtain ⟨c, _, rfl⟩ := ho
          rfl
    · intro o ho o' ho' i hi' hi
      have hi' := set_flow hi'
      rcases power_flow ho hi with ⟨hp, rfl⟩ | ⟨hp, c, hc, e⟩
      · rcases powers_flow ps ho' hi' with h | ⟨q, hq, _, c, hc, e⟩
        · cases p with
          | grid t => exact hp trivial
          | block => simp [Power.appends] at h
        · have := hlt hc (hz q (by simp [hq])); omega
      · have h1 := hlt hc hz1
        rcases powers_flow ps ho' hi' with h | ⟨q, hq, hq2, c', hc', e'⟩
        · omega
        · rw [mem_allCells] at hc hc'
          have : (⟨c.1, c.2, z⟩ : Size3) = ⟨c'.1, c'.2, q.1⟩ := flatten_inj (m := m.size3) ⟨hc.1, hc.2, hz1⟩
            ⟨hc'.1, hc'.2, hz q (by simp [hq])⟩ (by
              show flatten m.size _ = flatten m.size _
              rw [← e, ← e'])
          simp only [Size3.mk.injEq] at this
          exact ha1 q hq hp hq2 this.2.2

theorem cell_flow {m : GModel K} {i : Nat} {o : Res (Op K)} (h : o ∈ m.cellOps i) : flowAt o = none := by
  unfold GModel.cellOps at h
  have hl : ∀ g d, o ∈ m.link i g d → flowAt o = none := by
    intro g d h
    unfold GModel.link at h
    simp only at h
    split_ifs at h
    · simp at h; subst h; rfl
    · simp at h
  split at h
  · simp only [List.mem_cons, List.mem_append] at h
    rcases h with rfl | (h | h) | h
    · rfl
    · exact hl _ _ h
    · exact hl _ _ h
    · exact hl _ _ h
  · simp at h; subst h; rfl
  · simp at h; subst h; rfl

theorem jump_flow {m : GModel K} {iniT : List K} {j : Size3 × Size3 × K} {o : Res (Op K)} (h : o ∈ m.jumpOps iniT j) : flowAt o = none := by
  unfold GModel.jumpOps at h
  simp only at h
  split_ifs at h
  · simp at h
  · simp at h; subst h; rfl
  · simp at h; subst h; rfl

theorem set_of_flow {o : Res (Op K)} (h : flowAt o = none) : setAt o = none := by
  rcases o with op | _ | _
  · cases op <;> simp [setAt, flowAt] at h ⊢
  · rfl
  · rfl

theorem bcs_flow {m : GModel K} (hf : NoFluxG m) {o : Res (Op K)} (h : o ∈ m.bcs.flatMap fun b => m.bcOps b.1 b.2.1 b.2.2) :
    flowAt o = none := by
  rw [List.mem_flatMap] at h
  obtain ⟨b, hb, h⟩ := h
  have := hf b hb
  unfold GModel.bcOps at h
  split at h
  · simp at h
  · rw [List.mem_map] at h
    obtain ⟨c, _, rfl⟩ := h
    unfold GModel.bcOp
    cases hty : b.1.type with
    | heatFlux => exact absurd hty this
    | htc => rfl

theorem grid_once {ip : List (K × K) → K → Res K} {m : GModel K} (hf : NoFluxG m) (ht : TablesApart m) (iniT : List K) :
    Once (m.ops ip iniT) := by
  unfold Once GModel.ops
  have hcells : ∀ o ∈ (List.range m.total).flatMap m.cellOps, flowAt o = none := by
    intro o ho
    rw [List.mem_flatMap] at ho
    obtain ⟨i, _, ho⟩ := ho
    exact cell_flow ho
  have hjumps : ∀ o ∈ m.jumps.flatMap (m.jumpOps iniT), flowAt o = none := by
    intro o ho
    rw [List.mem_flatMap] at ho
    obtain ⟨j, _, ho⟩ := ho
    exact jump_flow ho
  have hnone : ∀ {l : List (Res (Op K))}, (∀ o ∈ l, flowAt o = none) → Once l := fun h =>
    once_of_noset fun o ho => set_of_flow (h o ho)
  rw [List.pairwise_append, List.pairwise_append, List.pairwise_append]
  refine ⟨⟨⟨hnone hcells, hnone hjumps, ?_⟩, ?_, ?_⟩, hnone fun o ho => bcs_flow hf ho, ?_⟩
  · intro a ha b _ i _; rw [hcells a ha]; simp
  · refine powers_once _ (fun p hp => (mem_powers hp).1) ht le_rfl
  · intro a ha b _ i _
    rw [List.mem_append] at ha
    rcases ha with ha | ha
    · rw [hcells a ha]; simp
    · rw [hjumps a ha]; simp
  · intro a _ b hb i hi
    rw [set_of_flow (bcs_flow hf hb)] at hi
    simp at hi

/-- **C146, grid models.** If no layer has two tables of power and no boundary condition is a flux, intake and outtake of
the summary together are the heat flow of the network. -/
theorem c146_grid {minR : K} {ip : List (K × K) → K → Res K} {m : GModel K} {iniT : List K} {net : Network K}
    (h : m.build minR ip iniT = .ok (some net)) (hf : NoFluxG m) (ht : TablesApart m) :
    (gridSummary ip m iniT).intake + (gridSummary ip m iniT).outtake = totalHF net := by
  rw [c146_grid_heat h, replaced_zero _ (GridT.build_run h).2 (grid_once hf ht iniT) (fun o _ i _ => hfOf_new _ i), add_zero]

/-- **C146, steady state.** In a prism model without heat fluxes, or a grid model as above, the steady state gives to the surroundings what
the summary says: intake and outtake together. -/
theorem c146_steady [IsStrictOrderedRing K] {minR : K} {iniT : List K} {net : Network K} (hr : InRange net) {refT : K} {x : Nat → K}
    (hx : ∀ i < net.length, ∑ j ∈ Finset.range net.length, entry (gTriplets net) i j * x j = systemRhs net true refT i) :
    (∀ (ip : List (K × K) → K → Res K) (m : GModel K), m.build minR ip iniT = .ok (some net) → NoFluxG m → TablesApart m →
      ∑ i ∈ Finset.range net.length, htcOf net i * (x i - refT) = (gridSummary ip m iniT).intake + (gridSummary ip m iniT).outtake) ∧
    (∀ m : PModel K, m.build minR iniT = .ok (some net) → NoFluxP m →
      ∑ i ∈ Finset.range net.length, htcOf net i * (x i - refT) = (prismSummary m iniT).intake) ∧
    (∀ m : SModel K, m.build minR iniT = .ok (some net) → NoFluxS m →
      ∑ i ∈ Finset.range net.length, htcOf net i * (x i - refT) = (stackSummary m iniT).intake) := by
  rw [(c29_energy hr).2.2 refT x hx]
  exact ⟨fun ip m h hf ht => (c146_grid h hf ht).symm, fun m h hf => (c146_prism h hf).1.symm, fun m h hf => (c146_stack h hf).1.symm⟩

/-! ### signs -/

/-- the power of every element at the temperature given for it is not negative -/
def PowersNonneg (prisms : List (Prism K)) (iniT : List K) : Prop :=
  ∀ (i : Nat) (p : Prism K) (t ratio : K) (scen : Nat) (lut : K → K), prisms[i]? = some p → iniT[i]? = some t → p.elem.cell.power = some (ratio, scen, lut) → 0 ≤ lut t * ratio

theorem added_nonneg_of {o : Res (Op K)} (h : ∀ i v, o = .ok (.addHF i v) → 0 ≤ v) : 0 ≤ added o := by
  rcases o with op | _ | _
  · cases op <;> simp only [added, le_refl]
    exact h _ _ rfl
  · exact le_refl _
  · exact le_refl _

theorem lineR_plain {m : PModel K} {l : Line K} {t : K} {nb : Nat} {o : Res (Op K)} (ho : o ∈ m.lineR l t nb) :
    o = .exn ∨ ∃ a b v, o = .ok (.r a b v) := by
  unfold PModel.lineR at ho
  split_ifs at ho
  · simp at ho; exact .inr ⟨_, _, _, ho⟩
  · split at ho
    · simp at ho; exact .inr ⟨_, _, _, ho⟩
    · simp at ho; exact .inl ho
  · simp at ho

/-- the calls of a wire -/
theorem lineOps_cases {m : PModel K} {iniT : List K} {l : Line K} {o : Res (Op K)} (h : o ∈ m.lineOps iniT l) :
    o = .exn ∨ (∃ i v, o = .ok (.c i v)) ∨ (∃ i v, o = .ok (.scen i v)) ∨ (∃ a b v, o = .ok (.r a b v)) ∨
      ∃ v, 0 < v ∧ o = .ok (.addHF l.id v) := by
  unfold PModel.lineOps at h
  split at h
  · simp at h; exact .inl h
  · simp only [List.mem_append, List.mem_flatMap] at h
    rcases h with ((h | h) | h) | h
    · simp at h; rcases h with rfl | rfl
      · exact .inr (.inl ⟨_, _, rfl⟩)
      · exact .inr (.inr (.inl ⟨_, _, rfl⟩))
    · split_ifs at h with hj
      · simp at h; exact .inr (.inr (.inr (.inr ⟨_, hj, h⟩)))
      · simp at h
    · obtain ⟨nb, _, h⟩ := h
      rcases lineR_plain h with h | h
      · exact .inl h
      · exact .inr (.inr (.inr (.inl h)))
    · obtain ⟨nb, _, h⟩ := h
      rcases lineR_plain h with h | h
      · exact .inl h
      · exact .inr (.inr (.inr (.inl h)))

/-- the calls of a prism, apart from capacities and resistances -/
theorem elemOps_cases {m : PModel K} {iniT : List K} {i : Nat} {o : Res (Op K)} (h : o ∈ m.elemOps iniT i) :
    o = .exn ∨ (∃ v, o = .ok (.c i v)) ∨ (∃ v, o = .ok (.scen i v)) ∨ (∃ a b v, o = .ok (.r a b v)) ∨ (∃ v, o = .ok (.htc i v)) ∨
      (∃ p b v, m.prisms[i]? = some p ∧ (m.topBC = some b ∨ m.botBC = some b) ∧ b.type = .heatFlux ∧ b.value = some v ∧
        o = .ok (.hf i (v * m.area p.elem.tri))) ∨
      ∃ p t ratio scen lut, m.prisms[i]? = some p ∧ iniT[i]? = some t ∧ p.elem.cell.power = some (ratio, scen, lut) ∧
        o = .ok (.addHF i (lut t * ratio)) := by
  unfold PModel.elemOps at h
  split at h
  · rename_i p t hp ht
    have hlink : ∀ {n : Option Nat} {r : Prism K → K → K}, o ∈ m.link iniT i n r → o = .exn ∨ ∃ a b v, o = .ok (.r a b v) := by
      intro n r ho
      rcases mem_link ho with rfl | ⟨n', q, t, _, hi, _, _, rfl⟩
      · exact .inl rfl
      · exact .inr ⟨_, _, _, rfl⟩
    have hbc : ∀ {bc : Option (BC K)} {n : Option Nat}, (∀ b, bc = some b → m.topBC = some b ∨ m.botBC = some b) → o ∈ m.bcOps bc i p n →
        (∃ v, o = .ok (.htc i v)) ∨ (∃ p b v, m.prisms[i]? = some p ∧ (m.topBC = some b ∨ m.botBC = some b) ∧ b.type = .heatFlux ∧ b.value = some v ∧
        o = .ok (.hf i (v * m.area p.elem.tri))) := by
      intro bc n hb ho
      unfold PModel.bcOps at ho
      split at ho
      · simp at ho; exact .inl ⟨_, ho⟩
      · simp at ho; exact .inr ⟨p, _, _, hp, hb _ rfl, rfl, rfl, ho⟩
      · simp at ho
    simp only [List.mem_append, List.mem_singleton] at h
    rcases h with (((((((h | h) | h) | h) | h) | h) | h) | h) | h
    · unfold powerOps at h
      split at h
      · rename_i ratio scen lut hpw
        simp at h; rcases h with rfl | rfl
        · exact .inr (.inr (.inr (.inr (.inr (.inr ⟨p, t, ratio, scen, lut, hp, ht, hpw, rfl⟩)))))
        · exact .inr (.inr (.inl ⟨_, rfl⟩))
      · simp at h
    · exact .inr (.inl ⟨_, h⟩)
    · exact (hlink h).elim .inl fun h => .inr (.inr (.inr (.inl h)))
    · exact (hlink h).elim .inl fun h => .inr (.inr (.inr (.inl h)))
    · exact (hlink h).elim .inl fun h => .inr (.inr (.inr (.inl h)))
    · exact .inr (.inr (.inr (.inr ((hbc (fun b hb => .inl hb) h).imp_right .inl))))
    · exact (hlink h).elim .inl fun h => .inr (.inr (.inr (.inl h)))
    · exact .inr (.inr (.inr (.inr ((hbc (fun b hb => .inr hb) h).imp_right .inl))))
    · exact (hlink h).elim .inl fun h => .inr (.inr (.inr (.inl h)))
  · simp at h; exact .inl h

/-- the calls of block boundary conditions -/
theorem blocksOps_cases {m : PModel K} {o : Res (Op K)} (h : o ∈ m.blocksOps) :
    (∃ i v, o = .ok (.htc i v)) ∨ ∃ i p b v, m.prisms[i]? = some p ∧ (b ∈ m.topBlocks ∨ b ∈ m.botBlocks) ∧ b.1.type = .heatFlux ∧
      b.1.value = some v ∧ o = .ok (.hf i (v * m.area p.elem.tri)) := by
  have hbl : ∀ {side : Elem K → Option Nat} {b : BC K × (Nat → Bool)}, b ∈ m.topBlocks ∨ b ∈ m.botBlocks → o ∈ m.blockOps side b →
      (∃ i v, o = .ok (.htc i v)) ∨ ∃ i p b v, m.prisms[i]? = some p ∧ (b ∈ m.topBlocks ∨ b ∈ m.botBlocks) ∧ b.1.type = .heatFlux ∧
      b.1.value = some v ∧ o = .ok (.hf i (v * m.area p.elem.tri)) := by
    intro side b hb ho
    unfold PModel.blockOps at ho
    split at ho
    · simp at ho
    · rename_i v hv
      rw [List.mem_filterMap] at ho
      obtain ⟨⟨p, i⟩, hp, ho⟩ := ho
      rw [List.mem_zipIdx_iff_getElem?] at hp
      split_ifs at ho
      cases hty : b.1.type with
      | heatFlux => rw [hty] at ho; simp at ho; exact .inr ⟨i, p, b, v, hp, hb, hty, hv, ho.symm⟩
      | htc => rw [hty] at ho; simp at ho; exact .inl ⟨_, _, ho.symm⟩
  unfold PModel.blocksOps at h
  simp only [List.mem_append, List.mem_flatMap] at h
  rcases h with ⟨b, hb, h⟩ | ⟨b, hb, h⟩
  · exact hbl (.inl hb) h
  · exact hbl (.inr hb) h

theorem range_mem {m : PModel K} {iniT : List K} {b : Nat × Nat} {o : Res (Op K)} (h : o ∈ m.rangeOps iniT b) : ∃ i, o ∈ m.elemOps iniT i := by
  unfold PModel.rangeOps at h
  rw [List.mem_flatMap] at h
  obtain ⟨i, _, h⟩ := h
  exact ⟨i, h⟩

/-- **C146, signs.** The outtake of a grid model is never positive and the intake never negative; the same of a prism model
whose powers are not negative. -/
theorem c146_signs [IsStrictOrderedRing K] (iniT : List K) :
    (∀ (ip : List (K × K) → K → Res K) (m : GModel K), (gridSummary ip m iniT).outtake ≤ 0 ∧ 0 ≤ (gridSummary ip m iniT).intake) ∧
    (∀ m : PModel K, (prismSummary m iniT).outtake ≤ 0 ∧ (PowersNonneg m.prisms iniT → 0 ≤ (prismSummary m iniT).intake)) := by
  constructor
  · intro ip m
    refine ⟨tally_out _ _ _ le_rfl, tally_in _ _ ?_ _ le_rfl⟩
    intro o ho
    have := noAdd_ops ip m iniT o ho
    refine added_nonneg_of ?_
    rintro i v rfl
    simp [NoAdd] at this
  · intro m
    refine ⟨tally_out _ _ _ (tally_out _ _ _ (tally_out _ _ _ le_rfl)), fun hp => ?_⟩
    refine tally_in _ _ ?_ _ (tally_in _ _ ?_ _ (tally_in _ _ ?_ _ le_rfl))
    · intro o ho
      refine added_nonneg_of ?_
      rintro i v rfl
      rcases blocksOps_cases ho with ⟨_, _, h⟩ | ⟨_, _, _, _, _, _, _, _, h⟩ <;> simp at h
    · intro o ho
      rw [List.mem_flatMap] at ho
      obtain ⟨l, _, ho⟩ := ho
      refine added_nonneg_of ?_
      rintro i v rfl
      rcases lineOps_cases ho with h | ⟨_, _, h⟩ | ⟨_, _, h⟩ | ⟨_, _, _, h⟩ | ⟨w, hw, h⟩ <;> simp at h
      rw [h.2]; exact hw.le
    · intro o ho
      obtain ⟨j, ho⟩ := range_mem ho
      refine added_nonneg_of ?_
      rintro i v rfl
      rcases elemOps_cases ho with h | ⟨_, h⟩ | ⟨_, h⟩ | ⟨_, _, _, h⟩ | ⟨_, h⟩ | ⟨_, _, _, _, _, _, _, h⟩ | ⟨p, t, ra, sc, lut, h1, h2, h3, h⟩ <;>
        simp at h
      rw [h.2]; exact hp j p t ra sc lut h1 h2 h3

/-! ### boundary nodes -/

/-- the calls are none that add to a transfer coefficient, and those that set one set another than zero -/
def Cools (l : List (Res (Op K))) : Prop := ∀ o ∈ l, (∀ i v, o ≠ .ok (.addHTC i v)) ∧ ∀ i v, o = .ok (.htc i v) → v ≠ 0

theorem htc_last {l : List (Res (Op K))} (hl : Cools l) (i : Nat) : ∀ h : K,
    (i ∉ l.filterMap coolAt → l.foldl (fun b o => Op.htcAt i o b) h = h) ∧
    ((i ∈ l.filterMap coolAt ∨ h ≠ 0) → l.foldl (fun b o => Op.htcAt i o b) h ≠ 0) := by
  induction l with
  | nil => intro h; simp
  | cons o l ih =>
    intro h
    have hl' : Cools l := fun o ho => hl o (by simp [ho])
    have h1 := hl o (by simp)
    rw [List.foldl_cons]
    rcases o with op | _ | _
    · cases op
      case htc j v =>
        have hv : v ≠ 0 := h1.2 j v rfl
        simp only [Op.htcAt, coolAt, List.filterMap_cons, List.mem_cons, not_or]
        by_cases hj : j = i
        · subst hj
          refine ⟨fun hn => absurd rfl hn.1, fun _ => ?_⟩
          rw [if_pos rfl]
          exact (ih hl' v).2 (.inr hv)
        · rw [if_neg hj]
          refine ⟨fun hn => (ih hl' h).1 hn.2, fun ho => (ih hl' h).2 ?_⟩
          rcases ho with (ho | ho) | ho
          · exact absurd ho.symm hj
          · exact .inl ho
          · exact .inr ho
      case addHTC j v => exact absurd rfl (h1.1 j v)
      all_goals simpa [Op.htcAt, coolAt, List.filterMap_cons] using ih hl' h
    · simpa [Op.htcAt, coolAt, List.filterMap_cons] using ih hl' h
    · simpa [Op.htcAt, coolAt, List.filterMap_cons] using ih hl' h

theorem exec_small {minR : K} {l : List (Res (Op K))} : ∀ {net net' : Network K}, run minR net l = .ok net' → ∀ i ∈ l.filterMap coolAt,
    i < net'.length := by
  induction l with
  | nil => intro net net' _ i hi; simp at hi
  | cons o l ih =>
    intro net net' h i hi
    rcases o with op | _ | _
    · have hlen := run_length _ h
      rw [run] at h
      cases h1 : op.exec minR net with
      | ub => rw [h1] at h; simp at h
      | exn => rw [h1] at h; simp at h
      | ok n1 =>
        rw [h1, Res.bind_ok] at h
        cases op
        case htc j v =>
          simp only [coolAt, List.filterMap_cons, List.mem_cons] at hi
          rcases hi with rfl | hi
          · simp only [Op.exec, setHTC, upd_ok] at h1
            have := h1.1
            omega
          · exact ih h i hi
        all_goals exact ih h i (by simpa [coolAt, List.filterMap_cons] using hi)
    · simp [run] at h
    · simp [run] at h

theorem cooled_eq {minR : K} {l : List (Res (Op K))} {n : Nat} {net : Network K} (h : run minR (Network.new noScen n) l = .ok net)
    (hl : Cools l) : cooled net = (l.filterMap coolAt).toFinset := by
  ext i
  unfold cooled
  rw [Finset.mem_filter, Finset.mem_range, List.mem_toFinset]
  have h1 := (run_values h).2.1 i
  rw [htcOf_new] at h1
  constructor
  · rintro ⟨_, hi⟩
    by_contra hn
    exact hi (by rw [h1]; exact (htc_last hl i 0).1 hn)
  · intro hi
    exact ⟨exec_small h i hi, by rw [h1]; exact (htc_last hl i 0).2 (.inl hi)⟩

/-- every transfer coefficient of the model is other than zero, on faces of some area -/
def CoolsP (m : PModel K) : Prop :=
  (∀ p ∈ m.prisms, m.area p.elem.tri ≠ 0) ∧
  (∀ b, m.topBC = some b ∨ m.botBC = some b → ∀ v, b.value = some v → v ≠ 0) ∧
  ∀ b, b ∈ m.topBlocks ∨ b ∈ m.botBlocks → ∀ v, b.1.value = some v → v ≠ 0

theorem cools_prism {m : PModel K} (hc : CoolsP m) (iniT : List K) : Cools (m.ops iniT) := by
  obtain ⟨ha, hu, hb⟩ := hc
  intro o ho
  unfold PModel.ops at ho
  simp only [List.mem_append] at ho
  rcases ho with (ho | ho) | ho
  · obtain ⟨i, ho⟩ := range_mem ho
    refine ⟨?_, ?_⟩
    · rintro j v rfl
      rcases elemOps_cases ho with h | ⟨_, h⟩ | ⟨_, h⟩ | ⟨_, _, _, h⟩ | ⟨_, h⟩ | ⟨_, _, _, _, _, _, _, h⟩ | ⟨_, _, _, _, _, _, _, _, h⟩ <;> simp at h
    · rintro j w rfl
      unfold PModel.elemOps at ho
      split at ho
      · rename_i p t hp ht
        have hlink : ∀ {n : Option Nat} {r : Prism K → K → K}, (.ok (.htc j w) : Res (Op K)) ∉ m.link iniT i n r := by
          intro n r h
          rcases mem_link h with h | ⟨_, _, _, _, _, _, _, h⟩ <;> simp at h
        have hbc : ∀ {bc : Option (BC K)} {n : Option Nat}, (∀ b, bc = some b → ∀ v, b.value = some v → v ≠ 0) →
            (.ok (.htc j w) : Res (Op K)) ∈ m.bcOps bc i p n → w ≠ 0 := by
          intro bc n hb h
          unfold PModel.bcOps at h
          split at h
          · simp at h; rw [h.2]; exact mul_ne_zero (hb _ rfl _ rfl) (ha p (List.mem_of_getElem? hp))
          · simp at h
          · simp at h
        simp only [List.mem_append, List.mem_singleton] at ho
        rcases ho with (((((((h | h) | h) | h) | h) | h) | h) | h) | h
        · unfold powerOps at h
          split at h <;> simp at h
        · simp at h
        · exact absurd h hlink
        · exact absurd h hlink
        · exact absurd h hlink
        · exact hbc (fun b hb => hu b (.inl hb)) h
        · exact absurd h hlink
        · exact hbc (fun b hb => hu b (.inr hb)) h
        · exact absurd h hlink
      · simp at ho
  · rw [List.mem_flatMap] at ho
    obtain ⟨l, _, ho⟩ := ho
    refine ⟨?_, ?_⟩ <;> rintro j v rfl <;>
      rcases lineOps_cases ho with h | ⟨_, _, h⟩ | ⟨_, _, h⟩ | ⟨_, _, _, h⟩ | ⟨_, _, h⟩ <;> simp at h
  · refine ⟨?_, ?_⟩
    · rintro j v rfl
      rcases blocksOps_cases ho with ⟨_, _, h⟩ | ⟨_, _, _, _, _, _, _, _, h⟩ <;> simp at h
    · rintro j w rfl
      have hbl : ∀ {side : Elem K → Option Nat} {b : BC K × (Nat → Bool)}, (∀ v, b.1.value = some v → v ≠ 0) →
          (.ok (.htc j w) : Res (Op K)) ∈ m.blockOps side b → w ≠ 0 := by
        intro side b hb ho
        unfold PModel.blockOps at ho
        split at ho
        · simp at ho
        · rename_i v hv
          rw [List.mem_filterMap] at ho
          obtain ⟨⟨p, i⟩, hp, ho⟩ := ho
          rw [List.mem_zipIdx_iff_getElem?] at hp
          split_ifs at ho
          cases hty : b.1.type with
          | heatFlux => rw [hty] at ho; simp at ho
          | htc => rw [hty] at ho; simp at ho; rw [← ho.2]; exact mul_ne_zero (hb v hv) (ha p (List.mem_of_getElem? hp))
      unfold PModel.blocksOps at ho
      simp only [List.mem_append, List.mem_flatMap] at ho
      rcases ho with ⟨b, hb', h⟩ | ⟨b, hb', h⟩
      · exact hbl (hb b (.inl hb')) h
      · exact hbl (hb b (.inr hb')) h

theorem prism_boundary (m : PModel K) (iniT : List K) : (prismSummary m iniT).boundary = ((m.ops iniT).filterMap coolAt).length := by
  unfold prismSummary PModel.ops
  rw [tally_boundary, tally_boundary, tally_boundary]
  simp [fresh, List.filterMap_append]
  omega

theorem lines_cool (m : PModel K) (iniT : List K) : (m.lines.flatMap (m.lineOps iniT)).filterMap coolAt = [] := by
  rw [List.filterMap_eq_nil_iff]
  intro o ho
  rw [List.mem_flatMap] at ho
  obtain ⟨l, _, ho⟩ := ho
  rcases lineOps_cases ho with rfl | ⟨_, _, rfl⟩ | ⟨_, _, rfl⟩ | ⟨_, _, _, rfl⟩ | ⟨_, _, rfl⟩ <;> rfl

/-- what a face of a prism is cooled by -/
def opens (bc : Option (BC K)) (n : Option Nat) : Bool :=
  match n, bc with
  | none, some ⟨.htc, some _⟩ => true
  | _, _ => false

theorem elem_cool {m : PModel K} {iniT : List K} {i : Nat} {p : Prism K} {t : K} (hp : m.prisms[i]? = some p) (ht : iniT[i]? = some t) :
    (m.elemOps iniT i).filterMap coolAt = (if opens m.topBC p.top then [i] else []) ++ if opens m.botBC p.bot then [i] else [] := by
  have hlink : ∀ (n : Option Nat) (r : Prism K → K → K), (m.link iniT i n r).filterMap coolAt = [] := by
    intro n r
    rw [List.filterMap_eq_nil_iff]
    intro o ho
    rcases mem_link ho with rfl | ⟨_, _, _, _, _, _, _, rfl⟩ <;> rfl
  have hpow : (powerOps i p t).filterMap coolAt = [] := by
    unfold powerOps
    split <;> rfl
  have hbc : ∀ (bc : Option (BC K)) (n : Option Nat), (m.bcOps bc i p n).filterMap coolAt = if opens bc n then [i] else [] := by
    intro bc n
    unfold PModel.bcOps opens
    split <;> simp [coolAt]
  unfold PModel.elemOps
  rw [hp, ht]
  simp only [List.filterMap_append, hlink, hpow, hbc, List.append_nil, List.nil_append]
  simp [coolAt]

/-- **C146, boundary nodes.** In a prism model with coefficients other than zero, the summary counts at least the nodes that give heat
to the surroundings; exactly these, if no prism is cooled on both faces and there are no block conditions. -/
theorem c146_boundary {minR : K} {m : PModel K} {iniT : List K} {net : Network K} (h : m.build minR iniT = .ok (some net)) (hc : CoolsP m) :
    (cooled net).card ≤ (prismSummary m iniT).boundary ∧
    ((∀ p ∈ m.prisms, opens m.topBC p.top = false ∨ opens m.botBC p.bot = false) → m.topBlocks = [] → m.botBlocks = [] →
      (prismSummary m iniT).boundary = (cooled net).card) := by
  have hrun := (PrismT.build_run h).2
  rw [cooled_eq hrun (cools_prism hc iniT), prism_boundary]
  refine ⟨List.toFinset_card_le _, fun hone ht hb => (List.toFinset_card_of_nodup ?_).symm⟩
  have hno := run_exn _ hrun
  unfold PModel.ops at hno ⊢
  rw [List.filterMap_append, List.filterMap_append, lines_cool]
  have e : m.blocksOps = [] := by simp [PModel.blocksOps, ht, hb]
  rw [e]
  simp only [List.filterMap_nil, List.append_nil]
  simp only [PModel.rangeOps, List.filterMap_flatMap]
  have hel : ∀ i ∈ List.range' 0 (totalPrisms m.off - 0), ∃ p t, m.prisms[i]? = some p ∧ iniT[i]? = some t := by
    intro i hi
    cases hp : m.prisms[i]? with
    | none =>
      refine absurd ?_ hno
      simp only [List.mem_append, PModel.rangeOps, List.mem_flatMap]
      exact .inl (.inl ⟨i, hi, by simp [PModel.elemOps, hp]⟩)
    | some p =>
      cases ht : iniT[i]? with
      | none =>
        refine absurd ?_ hno
        simp only [List.mem_append, PModel.rangeOps, List.mem_flatMap]
        exact .inl (.inl ⟨i, hi, by simp [PModel.elemOps, hp, ht]⟩)
      | some t => exact ⟨p, t, rfl, rfl⟩
  rw [List.nodup_flatMap]
  constructor
  · intro i hi
    obtain ⟨p, t, hp, ht⟩ := hel i hi
    rw [elem_cool hp ht]
    rcases hone p (List.mem_of_getElem? hp) with h | h <;> rw [h]
    · cases opens m.botBC p.bot <;> simp
    · cases opens m.topBC p.top <;> simp
  · refine List.Pairwise.imp_of_mem ?_ (List.nodup_range' (step := 1))
    intro a b ha hb' hne
    obtain ⟨p, t, hp, ht⟩ := hel a ha
    obtain ⟨q, s, hq, hs⟩ := hel b hb'
    show List.Disjoint ((m.elemOps iniT a).filterMap coolAt) ((m.elemOps iniT b).filterMap coolAt)
    rw [elem_cool hp ht, elem_cool hq hs]
    intro x hx hy
    have h1 : x = a := by
      simp only [List.mem_append] at hx
      rcases hx with hx | hx <;> split_ifs at hx <;> simpa using hx
    have h2 : x = b := by
      simp only [List.mem_append] at hy
      rcases hy with hy | hy <;> split_ifs at hy <;> simpa using hy
    exact hne (h1.symm.trans h2)

/-- **C146, boundary nodes, refuted.** A model of prisms that are all open at top and bottom, as those of one layer, with transfer
coefficients at top and bottom: the summary counts every node twice. -/
theorem c146_boundary_refuted {minR : K} {m : PModel K} {iniT : List K} {net : Network K} (h : m.build minR iniT = .ok (some net))
    (hc : CoolsP m) (hone : ∀ p ∈ m.prisms, opens m.topBC p.top = true ∧ opens m.botBC p.bot = true) (ht : m.topBlocks = [])
    (hb : m.botBlocks = []) :
    (prismSummary m iniT).boundary = 2 * (cooled net).card ∧ (cooled net).card = totalPrisms m.off := by
  have hrun := (PrismT.build_run h).2
  have hno := run_exn _ hrun
  have hel : ∀ i ∈ List.range' 0 (totalPrisms m.off - 0), (m.elemOps iniT i).filterMap coolAt = [i, i] := by
    intro i hi
    unfold PModel.ops at hno
    cases hp : m.prisms[i]? with
    | none =>
      refine absurd ?_ hno
      simp only [List.mem_append, PModel.rangeOps, List.mem_flatMap]
      exact .inl (.inl ⟨i, hi, by simp [PModel.elemOps, hp]⟩)
    | some p =>
      cases ht : iniT[i]? with
      | none =>
        refine absurd ?_ hno
        simp only [List.mem_append, PModel.rangeOps, List.mem_flatMap]
        exact .inl (.inl ⟨i, hi, by simp [PModel.elemOps, hp, ht]⟩)
      | some t =>
        rw [elem_cool hp ht]
        obtain ⟨h1, h2⟩ := hone p (List.mem_of_getElem? hp)
        rw [h1, h2]; rfl
  have e : (m.ops iniT).filterMap coolAt = (List.range (totalPrisms m.off)).flatMap fun i => [i, i] := by
    unfold PModel.ops
    have e : m.blocksOps = [] := by simp [PModel.blocksOps, ht, hb]
    rw [List.filterMap_append, List.filterMap_append, lines_cool, e]
    simp only [List.filterMap_nil, List.append_nil, PModel.rangeOps, List.filterMap_flatMap]
    rw [List.range_eq_range']
    exact List.flatMap_congr hel
  have hcard : (cooled net).card = totalPrisms m.off := by
    rw [cooled_eq hrun (cools_prism hc iniT), e]
    have : ((List.range (totalPrisms m.off)).flatMap fun i => [i, i]).toFinset = Finset.range (totalPrisms m.off) := by
      ext x; simp
    rw [this, Finset.card_range]
  refine ⟨?_, hcard⟩
  rw [prism_boundary, e, hcard]
  simp [List.length_flatMap, mul_comm]

end Ecad.Summary
