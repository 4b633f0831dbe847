import Verif.Thermal.SummaryEdgeProps
/-!
Where the summary of a network build is wrong (C146): overwritten heat flows, negative powers, appended nodes, several threads.
-/
namespace Ecad.Summary

open Ecad.Thermal Ecad.GridT Ecad.PrismT

variable {K : Type} [Field K] [LinearOrder K]

/-! ### overwritten heat flows -/

theorem run_append {minR : K} (l l' : List (Res (Op K))) : ∀ {net net' : Network K}, run minR net (l ++ l') = .ok net' →
    ∃ n1, run minR net l = .ok n1 ∧ run minR n1 l' = .ok net' ∧
      replaced minR net (l ++ l') = replaced minR net l + replaced minR n1 l' := by
  induction l with
  | nil => intro net net' h; exact ⟨net, rfl, h, by simp [replaced]⟩
  | cons o l ih =>
    intro net net' h
    rcases o with op | _ | _
    · rw [List.cons_append, run] at h
      cases h1 : op.exec minR net with
      | ub => rw [h1] at h; simp at h
      | exn => rw [h1] at h; simp at h
      | ok n1 =>
        rw [h1, Res.bind_ok] at h
        obtain ⟨n2, h2, h3, h4⟩ := ih h
        refine ⟨n2, by rw [run, h1, Res.bind_ok, h2], h3, ?_⟩
        simp only [List.cons_append, replaced, h1, h4]; ring
    · simp [run] at h
    · simp [run] at h

theorem hfAt_nonneg [IsStrictOrderedRing K] {o : Res (Op K)} (ho : 0 ≤ flow o) (i : Nat) {h : K} (hh : 0 ≤ h) : 0 ≤ Op.hfAt i o h := by
  rcases o with op | _ | _
  · cases op <;> simp only [Op.hfAt, flow] at ho ⊢ <;> (try exact hh)
    · split_ifs <;> assumption
    · split_ifs
      · exact add_nonneg hh ho
      · exact hh
  · exact hh
  · exact hh

theorem replaced_nonneg [IsStrictOrderedRing K] {minR : K} (l : List (Res (Op K))) (hl : ∀ o ∈ l, 0 ≤ flow o) : ∀ {net net' : Network K},
    run minR net l = .ok net' → (∀ i, 0 ≤ hfOf net i) → 0 ≤ replaced minR net l ∧ ∀ i, 0 ≤ hfOf net' i := by
  induction l with
  | nil => intro net net' h hn; simp [run] at h; subst h; exact ⟨le_rfl, hn⟩
  | cons o l ih =>
    intro net net' h hn
    rcases o with op | _ | _
    · rw [run] at h
      cases h1 : op.exec minR net with
      | ub => rw [h1] at h; simp at h
      | exn => rw [h1] at h; simp at h
      | ok n1 =>
        rw [h1, Res.bind_ok] at h
        have hn1 : ∀ i, 0 ≤ hfOf n1 i := fun i => by rw [exec_hf i net n1 op h1]; exact hfAt_nonneg (hl _ (by simp)) i (hn i)
        obtain ⟨h2, h3⟩ := ih (fun o ho => hl o (by simp [ho])) h hn1
        refine ⟨?_, h3⟩
        simp only [replaced, h1]
        refine add_nonneg ?_ h2
        cases op <;> simp only [thrown, le_refl]
        exact hn _
    · simp [run] at h
    · simp [run] at h

theorem run_keeps [IsStrictOrderedRing K] {minR : K} {l : List (Res (Op K))} (hl : ∀ o ∈ l, 0 ≤ flow o) {net net' : Network K}
    (h : run minR net l = .ok net') {i : Nat} (hs : ∀ o ∈ l, setAt o ≠ some i) : hfOf net i ≤ hfOf net' i := by
  rw [(run_values h).1 i]
  clear h
  generalize hfOf net i = x
  induction l generalizing x with
  | nil => exact le_rfl
  | cons o l ih =>
    rw [List.foldl_cons]
    refine le_trans ?_ (ih (fun o ho => hl o (by simp [ho])) (fun o ho => hs o (by simp [ho])) _)
    have h1 := hl o (by simp)
    have h2 := hs o (by simp)
    rcases o with op | _ | _
    · cases op <;> simp only [Op.hfAt, le_refl]
      · simp only [setAt, ne_eq, Option.some.injEq] at h2; rw [if_neg h2]
      · split_ifs
        · simp only [flow] at h1; linarith
        · exact le_rfl
    · exact le_rfl
    · exact le_rfl

/-- a flow that is added and then set over is thrown away -/
theorem replaced_pos [IsStrictOrderedRing K] {minR : K} {a b c : List (Res (Op K))} {i : Nat} {p v : K} {n : Nat} {net : Network K}
    (h : run minR (Network.new noScen n) (a ++ (.ok (.addHF i p) :: b) ++ (.ok (.hf i v) :: c)) = .ok net)
    (hl : ∀ o ∈ a ++ (.ok (.addHF i p) :: b) ++ (.ok (.hf i v) :: c), 0 ≤ flow o) (hb : ∀ o ∈ b, setAt o ≠ some i) :
    p ≤ replaced minR (Network.new noScen n) (a ++ (.ok (.addHF i p) :: b) ++ (.ok (.hf i v) :: c)) := by
  have h0 : ∀ j, 0 ≤ hfOf (Network.new noScen n : Network K) j := fun j => by rw [hfOf_new]
  obtain ⟨n2, h2, h3, e1⟩ := run_append _ _ h
  obtain ⟨n1, h4, h5, e2⟩ := run_append _ _ h2
  rw [e1, e2]
  have ha : ∀ o ∈ a, 0 ≤ flow o := fun o ho => hl o (by simp [ho])
  have hab : ∀ o ∈ (.ok (.addHF i p) :: b : List (Res (Op K))), 0 ≤ flow o := fun o ho => hl o (by
    simp only [List.mem_append]; exact .inl (.inr ho))
  obtain ⟨g1, g2⟩ := replaced_nonneg a ha h4 h0
  obtain ⟨g3, g4⟩ := replaced_nonneg _ hab h5 g2
  rw [run] at h5
  cases hx : (Op.addHF i p).exec minR n1 with
  | ub => rw [hx] at h5; simp at h5
  | exn => rw [hx] at h5; simp at h5
  | ok n3 =>
    rw [hx, Res.bind_ok] at h5
    have hp : p ≤ hfOf n3 i := by
      rw [exec_hf i n1 n3 _ hx]
      simp only [Op.hfAt, if_true]
      linarith [g2 i]
    have hk := run_keeps (fun o ho => hl o (by simp [ho])) h5 hb
    have hc : ∀ o ∈ (.ok (.hf i v) :: c : List (Res (Op K))), 0 ≤ flow o := fun o ho => hl o (by
      simp only [List.mem_append]; exact .inr ho)
    have : hfOf n2 i ≤ replaced minR n2 (.ok (.hf i v) :: c) := by
      rw [run] at h3
      cases hy : (Op.hf i v).exec minR n2 with
      | ub => rw [hy] at h3; simp at h3
      | exn => rw [hy] at h3; simp at h3
      | ok n4 =>
        rw [hy, Res.bind_ok] at h3
        simp only [replaced, hy, thrown]
        have hn4 : ∀ j, 0 ≤ hfOf n4 j := fun j => by
          rw [exec_hf j n2 n4 _ hy]; exact hfAt_nonneg (hc _ (by simp)) j (g4 j)
        linarith [(replaced_nonneg c (fun o ho => hc o (by simp [ho])) h3 hn4).1]
    linarith

/-- fluxes into the model, on faces of positive area -/
def FluxIn (m : PModel K) : Prop :=
  (∀ p ∈ m.prisms, 0 ≤ m.area p.elem.tri) ∧
  (∀ b, m.topBC = some b ∨ m.botBC = some b → b.type = .heatFlux → ∀ v, b.value = some v → 0 ≤ v) ∧
  ∀ b, b ∈ m.topBlocks ∨ b ∈ m.botBlocks → b.1.type = .heatFlux → ∀ v, b.1.value = some v → 0 ≤ v

theorem flow_nonneg [IsStrictOrderedRing K] {m : PModel K} {iniT : List K} (hp : PowersNonneg m.prisms iniT) (hf : FluxIn m)
    {o : Res (Op K)} (ho : o ∈ m.ops iniT) : 0 ≤ flow o := by
  obtain ⟨ha, hu, hb⟩ := hf
  unfold PModel.ops at ho
  simp only [List.mem_append] at ho
  rcases ho with (ho | ho) | ho
  · obtain ⟨i, ho⟩ := range_mem ho
    rcases elemOps_cases ho with rfl | ⟨_, rfl⟩ | ⟨_, rfl⟩ | ⟨_, _, _, rfl⟩ | ⟨_, rfl⟩ | ⟨p, b, v, h1, h2, h3, h4, rfl⟩ |
      ⟨p, t, ra, sc, lut, h1, h2, h3, rfl⟩ <;> simp only [flow, le_refl]
    · exact mul_nonneg (hu b h2 h3 v h4) (ha p (List.mem_of_getElem? h1))
    · exact hp _ _ _ _ _ _ h1 h2 h3
  · rw [List.mem_flatMap] at ho
    obtain ⟨l, _, ho⟩ := ho
    rcases lineOps_cases ho with rfl | ⟨_, _, rfl⟩ | ⟨_, _, rfl⟩ | ⟨_, _, _, rfl⟩ | ⟨w, hw, rfl⟩ <;> simp only [flow, le_refl]
    exact hw.le
  · rcases blocksOps_cases ho with ⟨_, _, rfl⟩ | ⟨i, p, b, v, h1, h2, h3, h4, rfl⟩ <;> simp only [flow, le_refl]
    exact mul_nonneg (hb b h2 h3 v h4) (ha p (List.mem_of_getElem? h1))

/-- **C146, heat fluxes, refuted.** A prism model whose powers and fluxes go into the model, with a flux on the top and a prism
of the top with a positive power: the summary claims more heat than the network has, by the power of that prism at least. -/
theorem c146_flux_refuted [IsStrictOrderedRing K] {minR : K} {m : PModel K} {iniT : List K} {net : Network K}
    (h : m.build minR iniT = .ok (some net)) (hp : PowersNonneg m.prisms iniT) (hf : FluxIn m) {i : Nat} (hi : i < totalPrisms m.off)
    {p : Prism K} {t ratio : K} {scen : Nat} {lut : K → K} (h1 : m.prisms[i]? = some p) (h2 : iniT[i]? = some t)
    (h3 : p.elem.cell.power = some (ratio, scen, lut)) (h4 : p.top = none) {v : K} (h5 : m.topBC = some ⟨.heatFlux, some v⟩) :
    totalHF net + lut t * ratio ≤ (prismSummary m iniT).intake + (prismSummary m iniT).outtake := by
  rw [c146_prism_heat h]
  have hrun := (PrismT.build_run h).2
  obtain ⟨b, c, hbc, hb⟩ : ∃ b c, m.elemOps iniT i = (.ok (.addHF i (lut t * ratio)) :: b) ++ (.ok (.hf i (v * m.area p.elem.tri)) :: c) ∧
      ∀ o ∈ b, setAt o ≠ some i := by
    refine ⟨.ok (.scen i scen) ::
      .ok (.c i (m.heat p.elem.cell.mat t * m.rho p.elem.cell.mat t * (m.area p.elem.tri * m.height p.layer))) ::
      (m.link iniT i (p.edge 0) (fun q tq => m.sideR p q 0 t tq) ++ (m.link iniT i (p.edge 1) (fun q tq => m.sideR p q 1 t tq) ++
      m.link iniT i (p.edge 2) (fun q tq => m.sideR p q 2 t tq))), m.link iniT i p.top (fun q tq => m.vertR p q t tq) ++
      (m.bcOps m.botBC i p p.bot ++ m.link iniT i p.bot (fun q tq => m.vertR p q t tq)), ?_, ?_⟩
    · unfold PModel.elemOps powerOps
      rw [h1, h2]
      simp only [h3]
      have e : m.bcOps m.topBC i p p.top = [.ok (.hf i (v * m.area p.elem.tri))] := by rw [h4, h5]; rfl
      rw [e]
      simp only [List.append_assoc, List.cons_append, List.nil_append]
    · intro o ho
      simp only [List.mem_cons, List.mem_append] at ho
      rcases ho with rfl | rfl | ho | ho | ho
      · simp [setAt]
      · simp [setAt]
      · rw [link_set ho]; simp
      · rw [link_set ho]; simp
      · rw [link_set ho]; simp
  have e : m.ops iniT = (m.rangeOps iniT (0, i) ++ (.ok (.addHF i (lut t * ratio)) :: b)) ++ (.ok (.hf i (v * m.area p.elem.tri)) ::
      (c ++ ((List.range' (i + 1) (totalPrisms m.off - (i + 1))).flatMap (m.elemOps iniT) ++ (m.lines.flatMap (m.lineOps iniT) ++ m.blocksOps)))) := by
    unfold PModel.ops
    have e1 : m.rangeOps iniT (0, totalPrisms m.off) = m.rangeOps iniT (0, i) ++ (m.elemOps iniT i ++
        (List.range' (i + 1) (totalPrisms m.off - (i + 1))).flatMap (m.elemOps iniT)) := by
      unfold PModel.rangeOps
      simp only [Nat.sub_zero]
      have e2 : List.range' 0 (totalPrisms m.off) = List.range' 0 i ++ (i :: List.range' (i + 1) (totalPrisms m.off - (i + 1))) := by
        have e3 : totalPrisms m.off = i + ((totalPrisms m.off - (i + 1)) + 1) := by omega
        conv_lhs => rw [e3]
        rw [← List.range'_append_1, Nat.zero_add, List.range'_succ]
      rw [e2, List.flatMap_append, List.flatMap_cons]
    rw [e1, hbc]
    simp only [List.append_assoc, List.cons_append]
  have := replaced_pos (by rw [← e]; exact hrun) (fun o ho => flow_nonneg hp hf (by rw [e]; exact ho)) hb
  rw [← e] at this
  linarith

/-! ### negative powers -/

theorem sum_nonpos' [IsStrictOrderedRing K] {l : List K} (h : ∀ x ∈ l, x ≤ 0) : l.sum ≤ 0 := by
  induction l with
  | nil => simp
  | cons a l ih =>
    rw [List.sum_cons]
    linarith [h a (by simp), ih fun x hx => h x (by simp [hx])]

/-- **C146, negative powers, refuted.** A prism model without fluxes and wires, whose powers are none positive and one negative:
the summary shows a negative intake and no outtake. -/
theorem c146_negative_refuted [IsStrictOrderedRing K] {m : PModel K} {iniT : List K} (hn : NoFluxP m) (hl : m.lines = [])
    (hp : ∀ (i : Nat) (p : Prism K) (t ratio : K) (scen : Nat) (lut : K → K), m.prisms[i]? = some p → iniT[i]? = some t →
      p.elem.cell.power = some (ratio, scen, lut) → lut t * ratio ≤ 0)
    {i : Nat} (hi : i < totalPrisms m.off) {p : Prism K} {t ratio : K} {scen : Nat} {lut : K → K} (h1 : m.prisms[i]? = some p)
    (h2 : iniT[i]? = some t) (h3 : p.elem.cell.power = some (ratio, scen, lut)) (h4 : lut t * ratio < 0) :
    (prismSummary m iniT).intake < 0 ∧ (prismSummary m iniT).outtake = 0 := by
  have hns : ∀ o ∈ m.ops iniT, setAt o = none := fun o ho => prism_noset hn iniT ho
  have ho : (prismSummary m iniT).outtake = 0 := by
    unfold PModel.ops at hns
    unfold prismSummary
    rw [tally_noset, tally_noset, tally_noset]
    · rfl
    · exact fun o ho => hns o (by simp [ho])
    · exact fun o ho => hns o (by simp only [List.mem_append]; exact .inl (.inr ho))
    · exact fun o ho => hns o (by simp [ho])
  refine ⟨?_, ho⟩
  have hf := prism_flow m iniT
  rw [ho, add_zero] at hf
  rw [hf]
  have hneg : ∀ o ∈ m.ops iniT, flow o ≤ 0 := by
    intro o hm
    have hset := hns o hm
    unfold PModel.ops at hm
    rw [hl] at hm
    simp only [List.mem_append, List.flatMap_nil, List.not_mem_nil, or_false] at hm
    rcases hm with hm | hm
    · obtain ⟨j, hm⟩ := range_mem hm
      rcases elemOps_cases hm with rfl | ⟨_, rfl⟩ | ⟨_, rfl⟩ | ⟨_, _, _, rfl⟩ | ⟨_, rfl⟩ | ⟨_, _, _, _, _, _, _, rfl⟩ |
        ⟨q, s, ra, sc, lu, g1, g2, g3, rfl⟩ <;> simp only [flow, le_refl]
      · simp [setAt] at hset
      · exact hp _ _ _ _ _ _ g1 g2 g3
    · rcases blocksOps_cases hm with ⟨_, _, rfl⟩ | ⟨_, _, _, _, _, _, _, _, rfl⟩ <;> simp only [flow, le_refl]
      simp [setAt] at hset
  have hmem : (.ok (.addHF i (lut t * ratio)) : Res (Op K)) ∈ m.ops iniT := by
    unfold PModel.ops PModel.rangeOps
    simp only [List.mem_append, List.mem_flatMap]
    refine .inl (.inl ⟨i, by simp [hi], ?_⟩)
    unfold PModel.elemOps powerOps
    rw [h1, h2]
    simp [h3]
  obtain ⟨s, u, e⟩ := List.append_of_mem hmem
  rw [e] at hneg ⊢
  rw [List.map_append, List.map_cons, List.sum_append, List.sum_cons]
  have hs : (s.map flow).sum ≤ 0 := sum_nonpos' (by
    intro x hx; rw [List.mem_map] at hx; obtain ⟨o, ho, rfl⟩ := hx; exact hneg o (by simp [ho]))
  have hu : (u.map flow).sum ≤ 0 := sum_nonpos' (by
    intro x hx; rw [List.mem_map] at hx; obtain ⟨o, ho, rfl⟩ := hx; exact hneg o (by simp [ho]))
  simp only [flow]
  linarith

/-! ### number of nodes -/

theorem ops_nodes {m : PModel K} {iniT : List K} {o : Res (Op K)} (ho : o ∈ m.ops iniT) : Op.nodes o = 0 := by
  unfold PModel.ops at ho
  simp only [List.mem_append] at ho
  rcases ho with (ho | ho) | ho
  · obtain ⟨i, ho⟩ := range_mem ho
    exact (elemOps_writes ho).1
  · rw [List.mem_flatMap] at ho
    obtain ⟨l, _, ho⟩ := ho
    rcases lineOps_cases ho with rfl | ⟨_, _, rfl⟩ | ⟨_, _, rfl⟩ | ⟨_, _, _, rfl⟩ | ⟨w, hw, rfl⟩ <;> rfl
  · rcases blocksOps_cases ho with ⟨_, _, rfl⟩ | ⟨_, _, _, _, _, _, _, _, rfl⟩ <;> rfl

/-- **C146, number of nodes.** The number of nodes of the summary is that of the network for a prism model; for a grid model it
leaves out the nodes of the block powers. -/
theorem c146_nodes {minR : K} {iniT : List K} {net : Network K} :
    (∀ m : PModel K, m.build minR iniT = .ok (some net) → (prismSummary m iniT).total = net.length) ∧
    (∀ (ip : List (K × K) → K → Res K) (m : GModel K), m.build minR ip iniT = .ok (some net) →
      (gridSummary ip m iniT).total + m.blockTotals.length = net.length) := by
  constructor
  · intro m h
    have hrun := (PrismT.build_run h).2
    rw [run_length _ hrun, length_new, prismSummary, tally_total, tally_total, tally_total]
    have : nodesOf (m.ops iniT) = 0 := by
      unfold nodesOf
      rw [List.sum_eq_zero]
      intro k hk
      rw [List.mem_map] at hk
      obtain ⟨o, ho, rfl⟩ := hk
      exact ops_nodes ho
    rw [this]; rfl
  · intro ip m h
    have hrun := (GridT.build_run h).2
    rw [run_length _ hrun, length_new, gridSummary, tally_total]
    show m.total + _ = _
    congr 1
    unfold GModel.ops
    rw [nodesOf_append, nodesOf_append, nodesOf_append, nodes_cells, nodes_jumps, nodes_bcs, powersOps_nodes]
    simp [GModel.blockTotals]

/-! ### several threads -/

/-- a worker that has nothing left to do -/
def Worker.done (w : Worker K) : Prop := w.reg = none ∧ w.todo = []

theorem steps_append (s s' : List Nat) : ∀ (x : K) (ws : List (Worker K)),
    steps x ws (s ++ s') = steps (steps x ws s).1 (steps x ws s).2 s' := by
  induction s with
  | nil => intro x ws; rfl
  | cons i s ih =>
    intro x ws
    rw [List.cons_append, steps, steps]
    cases ws[i]? with
    | none => exact ih _ _
    | some w => exact ih _ _

/-- a worker that runs alone adds all its values -/
theorem steps_alone (l : List K) : ∀ (x : K) (a b : List (Worker K)),
    steps x (a ++ ⟨none, l⟩ :: b) (List.replicate (2 * l.length) a.length) = (x + l.sum, a ++ ⟨none, []⟩ :: b) := by
  induction l with
  | nil => intro x a b; simp [steps]
  | cons v l ih =>
    intro x a b
    have e : 2 * (v :: l).length = (2 * l.length + 1) + 1 := by simp; omega
    rw [e, List.replicate_succ, List.replicate_succ, steps]
    have g : ∀ w : Worker K, (a ++ w :: b)[a.length]? = some w := fun w => by simp
    have st : ∀ w w' : Worker K, (a ++ w :: b).set a.length w' = a ++ w' :: b := fun w w' => by simp
    rw [g]
    simp only [Worker.step, st]
    rw [steps, g]
    simp only [Worker.step, st]
    rw [ih, List.sum_cons, add_assoc]

/-- the workers of a list one after the other -/
theorem steps_rest (ls : List (List K)) : ∀ (x : K) (a : List (Worker K)), ∃ s,
    steps x (a ++ ls.map fun l => ⟨none, l⟩) s = (x + (ls.map List.sum).sum, a ++ ls.map fun _ => ⟨none, []⟩) := by
  induction ls with
  | nil => intro x a; exact ⟨[], by simp [steps]⟩
  | cons l ls ih =>
    intro x a
    obtain ⟨s, hs⟩ := ih (x + l.sum) (a ++ [⟨none, []⟩])
    refine ⟨List.replicate (2 * l.length) a.length ++ s, ?_⟩
    rw [steps_append, List.map_cons, steps_alone]
    simp only [List.append_assoc, List.singleton_append, List.cons_append, List.nil_append] at hs ⊢
    rw [hs]
    simp [add_assoc]

theorem intakes_sum (l : List (Res (Op K))) : ∀ s : Summary K,
    (l.foldl (tally false) s).intake = s.intake + (intakes l).sum := by
  induction l with
  | nil => intro s; simp [intakes]
  | cons o l ih =>
    intro s
    rw [List.foldl_cons, ih]
    unfold intakes
    rw [List.filterMap_cons]
    rcases o with op | _ | _
    · cases op <;> simp only [tally, Summary.signed] <;> (try split_ifs) <;> simp [add_assoc]
    · rfl
    · rfl

theorem intakes_flatten (ls : List (List (Res (Op K)))) : (intakes ls.flatten).sum = ((ls.map intakes).map List.sum).sum := by
  induction ls with
  | nil => simp [intakes]
  | cons l ls ih =>
    have : intakes (l ++ ls.flatten) = intakes l ++ intakes ls.flatten := by simp [intakes, List.filterMap_append]
    rw [List.flatten_cons, this, List.sum_append, ih]; simp

theorem range_intake (m : PModel K) (iniT : List K) (n : Nat) (hn : 0 < n) :
    ((m.rangeOps iniT (0, totalPrisms m.off)).foldl (tally false) (fresh m.total)).intake =
      (((threadBlocks (totalPrisms m.off) n).map fun b => intakes (m.rangeOps iniT b)).map List.sum).sum := by
  rw [intakes_sum]
  have hflat : ((threadBlocks (totalPrisms m.off) n).map (m.rangeOps iniT)).flatten = m.rangeOps iniT (0, totalPrisms m.off) := by
    rw [rangeOps_blocks, c36_blocks (totalPrisms m.off) n hn, PModel.rangeOps, List.range_eq_range']
    rfl
  rw [← hflat, intakes_flatten]
  simp [fresh, Function.comp_def]

/-- **C146, threads.** There is an order in which the threads add the intake of the prisms as one thread does. -/
theorem c146_threads (m : PModel K) (iniT : List K) (n : Nat) (hn : 0 < n) :
    ∃ s, (steps 0 (workers m iniT n) s).1 = ((m.rangeOps iniT (0, totalPrisms m.off)).foldl (tally false) (fresh m.total)).intake ∧
      ∀ w ∈ (steps 0 (workers m iniT n) s).2, w.done := by
  obtain ⟨s, hs⟩ := steps_rest ((threadBlocks (totalPrisms m.off) n).map fun b => intakes (m.rangeOps iniT b)) 0 []
  have e : workers m iniT n = [] ++ ((threadBlocks (totalPrisms m.off) n).map fun b => intakes (m.rangeOps iniT b)).map fun l => (⟨none, l⟩ : Worker K) := by
    simp [workers]
  refine ⟨s, ?_⟩
  rw [e, hs, range_intake m iniT n hn, zero_add]
  refine ⟨rfl, ?_⟩
  intro w hw
  simp only [List.nil_append, List.mem_map] at hw
  obtain ⟨_, _, rfl⟩ := hw
  exact ⟨rfl, rfl⟩

/-- **C146, threads, refuted.** If the first of the blocks has a prism that takes in heat and the others take in some together, there is
an order in which the summary at the end has only the intake of the first block: everything else is lost. -/
theorem c146_threads_refuted (m : PModel K) (iniT : List K) (n : Nat) (hn : 0 < n) {b : Nat × Nat} {bs : List (Nat × Nat)}
    (hb : threadBlocks (totalPrisms m.off) n = b :: bs) (h0 : intakes (m.rangeOps iniT b) ≠ [])
    (h1 : (bs.map fun b => (intakes (m.rangeOps iniT b)).sum).sum ≠ 0) :
    ∃ s, (steps 0 (workers m iniT n) s).1 = (intakes (m.rangeOps iniT b)).sum ∧
      (steps 0 (workers m iniT n) s).1 ≠ ((m.rangeOps iniT (0, totalPrisms m.off)).foldl (tally false) (fresh m.total)).intake ∧
      ∀ w ∈ (steps 0 (workers m iniT n) s).2, w.done := by
  rw [range_intake m iniT n hn, hb]
  unfold workers
  rw [hb, List.map_cons]
  cases hl : intakes (m.rangeOps iniT b) with
  | nil => exact absurd hl h0
  | cons v l =>
    obtain ⟨s, hs⟩ := steps_rest (bs.map fun b => intakes (m.rangeOps iniT b)) 0 [(⟨some (0 + v), l⟩ : Worker K)]
    have key : steps (0 : K) ((⟨none, v :: l⟩ : Worker K) :: bs.map fun b => ⟨none, intakes (m.rangeOps iniT b)⟩)
        (0 :: (s ++ (0 :: List.replicate (2 * l.length) 0))) = (v + l.sum, ⟨none, []⟩ :: bs.map fun _ => ⟨none, []⟩) := by
      rw [steps]
      simp only [List.getElem?_cons_zero, Worker.step, List.set_cons_zero]
      rw [steps_append]
      simp only [List.map_map, Function.comp_def, List.singleton_append] at hs
      rw [hs]
      simp only
      rw [steps]
      simp only [List.getElem?_cons_zero, Worker.step, List.set_cons_zero]
      have := steps_alone l (0 + v) [] (bs.map fun _ => ⟨none, []⟩)
      simp only [List.nil_append, List.length_nil] at this
      rw [this, zero_add]
    refine ⟨0 :: (s ++ (0 :: List.replicate (2 * l.length) 0)), ?_⟩
    rw [key]
    refine ⟨by simp, ?_, ?_⟩
    · simp only [List.map_cons, List.sum_cons, hl, List.map_map, Function.comp_def]
      intro h
      apply h1
      have := left_eq_add.1 h
      exact this
    · intro w hw
      simp only [List.mem_cons, List.mem_map] at hw
      rcases hw with rfl | ⟨_, _, rfl⟩ <;> exact ⟨rfl, rfl⟩

/-! ### examples -/

/-- a wire with joule heat 18 and a prism with power 2: intake 20, joule heat 18, three nodes, one of them on the boundary; all of this
is so of the network -/
example : (prismSummary (exPrism none) [25, 25, 25]).intake = 20 ∧ (prismSummary (exPrism none) [25, 25, 25]).outtake = 0 ∧
    (prismSummary (exPrism none) [25, 25, 25]).joule = 18 ∧ (prismSummary (exPrism none) [25, 25, 25]).boundary = 1 ∧
    NoFluxP (exPrism none) ∧ CoolsP (exPrism none) ∧ ∃ net, (exPrism none).build (1 / 1000) [25, 25, 25] = .ok (some net) ∧ totalHF net = 20 := by
  refine ⟨by decide +kernel, by decide +kernel, by decide +kernel, by decide +kernel, ?_, ?_, ?_⟩
  · refine ⟨?_, ?_, ?_, ?_⟩ <;> simp [exPrism]
  · refine ⟨?_, ?_, ?_⟩ <;> simp [exPrism]
  · have h : ((exPrism none).build (1 / 1000) [25, 25, 25]).bind (fun n => .ok (n.map totalHF)) = .ok (some 20) := by decide +kernel
    cases hb : (exPrism none).build (1 / 1000) [25, 25, 25] with
    | ub => rw [hb] at h; simp at h
    | exn => rw [hb] at h; simp at h
    | ok o =>
      rw [hb] at h
      cases o with
      | none => simp at h
      | some net => exact ⟨net, rfl, by simpa using h⟩

/-- with a flux of 5 on the prism with power 2 the summary says 25, the network has 23 -/
example : (prismSummary (exPrism (some ⟨.heatFlux, some 10⟩)) [25, 25, 25]).intake = 25 ∧
    ((exPrism (some ⟨.heatFlux, some 10⟩)).build (1 / 1000) [25, 25, 25]).bind (fun n => .ok (n.map totalHF)) = .ok (some 23) ∧
    PowersNonneg (exPrism (some ⟨.heatFlux, some 10⟩)).prisms [25, 25, 25] ∧ FluxIn (exPrism (some ⟨.heatFlux, some 10⟩)) := by
  refine ⟨by decide +kernel, by decide +kernel, ?_, ?_⟩
  · intro i p t ratio scen lut h1 h2 h3
    match i, h1 with
    | 0, h1 =>
      simp [exPrism] at h1; subst h1
      simp at h3
      obtain ⟨rfl, _, rfl⟩ := h3
      norm_num
    | 1, h1 => simp [exPrism] at h1; subst h1; simp at h3
    | n + 2, h1 => simp [exPrism] at h1
  · refine ⟨by simp [exPrism], ?_, by simp [exPrism]⟩
    rintro b (hb | hb) _ v hv <;> simp [exPrism] at hb <;> subst hb <;> simp at hv <;> subst hv <;> norm_num

/-- two prisms of one layer, each with a power, cooled above and below -/
def exFlat (p : ℚ) : PModel ℚ :=
  { off := [0, 2],
    prisms := [⟨0, ⟨⟨0, some (1, 0, fun _ => p)⟩, 0, 0, fun _ => none, none, none⟩, fun _ => none, none, none⟩,
      ⟨0, ⟨⟨0, some (1, 0, fun _ => 3 * p)⟩, 1, 1, fun _ => none, none, none⟩, fun _ => none, none, none⟩],
    lines := [], area := fun _ => 1 / 2, edgeLen := fun _ _ => 1, toSide := fun _ _ => 1, dist := fun _ _ => 1, height := fun _ => 1,
    k := fun _ _ _ => 1, heat := fun _ _ => 1, rho := fun _ _ => 1, resist := fun _ _ => 2,
    topBC := some ⟨.htc, some 4⟩, botBC := some ⟨.htc, some 6⟩, topBlocks := [], botBlocks := [] }

/-- four boundary nodes of two -/
example : (prismSummary (exFlat 2) [25, 25]).boundary = 4 ∧ CoolsP (exFlat 2) ∧
    (∀ p ∈ (exFlat 2).prisms, opens (exFlat 2).topBC p.top = true ∧ opens (exFlat 2).botBC p.bot = true) ∧
    ((exFlat 2).build (1 / 1000) [25, 25]).bind (fun n => .ok (n.map List.length)) = .ok (some 2) := by
  refine ⟨by decide +kernel, ?_, ?_, by decide +kernel⟩
  · refine ⟨by simp [exFlat], ?_, by simp [exFlat]⟩
    rintro b (hb | hb) v hv <;> simp [exFlat] at hb <;> subst hb <;> simp at hv <;> subst hv <;> norm_num
  · simp [exFlat, opens]

/-- negative powers as negative intake -/
example : (prismSummary (exFlat (-2)) [25, 25]).intake = -8 ∧ (prismSummary (exFlat (-2)) [25, 25]).outtake = 0 := by
  constructor <;> decide +kernel

/-- two threads: one after the other the intake is 8; if the first reads before and writes after the second, it is 2 -/
example : (steps 0 (workers (exFlat 2) [25, 25] 2) [0, 0, 1, 1]).1 = 8 ∧ (steps 0 (workers (exFlat 2) [25, 25] 2) [0, 1, 1, 0]).1 = 2 ∧
    threadBlocks (totalPrisms (exFlat 2).off) 2 = [(0, 1), (1, 2)] ∧ intakes ((exFlat 2).rangeOps [25, 25] (0, 1)) = [2] ∧
    intakes ((exFlat 2).rangeOps [25, 25] (1, 2)) = [6] := by
  refine ⟨?_, ?_, ?_, ?_, ?_⟩ <;> decide +kernel

/-- a grid model with two watts in each of two cells and a block of seven watts: the summary and the network agree on the heat; the node of
the block is not in the number of nodes -/
example : (gridSummary (fun _ _ => .exn) (exHeat none) [25, 25]).total = 2 ∧ (gridSummary (fun _ _ => .exn) (exHeat none) [25, 25]).intake = 11 ∧
    ((exHeat none).build (1 / 1000) (fun _ _ => .exn) [25, 25]).bind (fun n => .ok (n.map totalHF)) = .ok (some 11) ∧
    ((exHeat none).build (1 / 1000) (fun _ _ => .exn) [25, 25]).bind (fun n => .ok (n.map List.length)) = .ok (some 3) ∧
    NoFluxG (exHeat none) ∧ TablesApart (exHeat none) := by
  refine ⟨by decide +kernel, by decide +kernel, by decide +kernel, by decide +kernel, ?_, ?_⟩
  · intro b hb
    simp [exHeat, GModel.bcs] at hb
  · unfold TablesApart
    simp [exHeat, GModel.powers, isTable]

/-- one prism with power 5 and a wire with joule heat 18, cooled on the top -/
def exPile : SModel ℚ :=
  { off := [0, 1], prisms := [⟨⟨0, ⟨⟨0, some (1, 0, fun _ => 5)⟩, 0, 0, fun _ => none, none, none⟩, fun _ => none, none, none⟩, [], []⟩],
    lines := [⟨1, 0, 0, 1, 1, 3, [0], [0]⟩], area := fun _ _ => 1, edgeLen := fun _ _ _ => 1, toSide := fun _ _ _ => 1, dist := fun _ _ _ => 1,
    height := fun _ => 1, k := fun _ _ _ => 1, heat := fun _ _ => 1, rho := fun _ _ => 1, resist := fun _ _ => 2,
    topBC := some ⟨.htc, some 3⟩, botBC := none, topBlocks := [], botBlocks := [] }

example : (stackSummary exPile [25, 25]).boundary = 1 ∧ (stackSummary exPile [25, 25]).joule = 18 ∧ (stackSummary exPile [25, 25]).intake = 23 ∧
    NoFluxS exPile ∧ (exPile.build (1 / 1000) [25, 25]).bind (fun n => .ok (n.map totalHF)) = .ok (some 23) := by
  refine ⟨by decide +kernel, by decide +kernel, by decide +kernel, ?_, by decide +kernel⟩
  refine ⟨?_, ?_, ?_, ?_⟩ <;> simp [exPile]

end Ecad.Summary
