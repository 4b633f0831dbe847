import Verif.Thermal.StackPrismNetProps
/-!
C81: what prisms and segments of wires store.  C76: conductance over the sides of the prisms of a stackup model.
-/
namespace Ecad.PrismT
open Ecad.Thermal Ecad.GridT

variable {K : Type} [Field K] [LinearOrder K]

/-- if all calls that set the capacity of node `i` set it to `x`, and there is one, this is what it is in the end -/
theorem fold_c {i : Nat} {x : K} (l : List (Res (Op K))) (h : ∀ v, .ok (.c i v) ∈ l → v = x) (hx : .ok (.c i x) ∈ l) (b : K) :
    l.foldl (fun b o => Op.cAt i o b) b = x := by
  have stay : ∀ (l : List (Res (Op K))) (b : K), (∀ v, .ok (.c i v) ∈ l → v = x) → (b = x ∨ .ok (.c i x) ∈ l) →
      l.foldl (fun b o => Op.cAt i o b) b = x := by
    intro l
    induction l with
    | nil => intro b _ hb; simpa using hb
    | cons o l ih =>
      intro b h hb
      rw [List.foldl_cons]
      refine ih _ (fun v hv => h v (List.mem_cons_of_mem _ hv)) ?_
      by_cases ho : ∃ v, o = .ok (.c i v)
      · obtain ⟨v, rfl⟩ := ho
        have := h v List.mem_cons_self
        subst this
        left
        simp [Op.cAt]
      · have hcat : Op.cAt i o b = b := by
          rcases o with op | _ | _
          · cases op with
            | c j v =>
              simp only [Op.cAt]
              rw [if_neg]
              rintro rfl
              exact ho ⟨v, rfl⟩
            | _ => rfl
          · rfl
          · rfl
        rw [hcat]
        rcases hb with hb | hb
        · exact .inl hb
        · rw [List.mem_cons] at hb
          rcases hb with hb | hb
          · exact absurd ⟨x, hb.symm⟩ ho
          · exact .inr hb
  exact stay l b h (.inr hx)

/-! ### calls that set capacities -/

theorem line_c {m : PModel K} {iniT : List K} {l : Line K} {i : Nat} {v : K} (h : .ok (.c i v) ∈ m.lineOps iniT l) :
    i = l.id ∧ ∃ t, iniT[l.id]? = some t ∧ v = m.heat l.mat t * m.rho l.mat t * (l.area * l.length) := by
  unfold PModel.lineOps at h
  cases ht : iniT[l.id]? with
  | none => rw [ht] at h; simp at h
  | some t =>
    rw [ht] at h
    have hR : ∀ nb, .ok (.c i v) ∉ m.lineR l t nb := by
      intro nb hn
      rcases mem_lineR hn with h | ⟨_, _, h⟩ | ⟨_, _, _, h⟩ <;> simp at h
    simp only [List.mem_append, List.mem_cons, List.not_mem_nil, or_false, List.mem_flatMap] at h
    rcases h with (((h | h) | h) | ⟨nb, _, h⟩) | ⟨nb, _, h⟩
    · simp only [Res.ok.injEq, Op.c.injEq] at h
      exact ⟨h.1, t, rfl, h.2⟩
    · simp at h
    · split_ifs at h <;> simp at h
    · exact absurd h (hR nb)
    · exact absurd h (hR nb)

theorem line_c_mem {m : PModel K} {iniT : List K} {l : Line K} {t : K} (ht : iniT[l.id]? = some t) :
    .ok (.c l.id (m.heat l.mat t * m.rho l.mat t * (l.area * l.length))) ∈ m.lineOps iniT l := by
  unfold PModel.lineOps
  rw [ht]
  simp

theorem elem_c {m : PModel K} {iniT : List K} {i j : Nat} {v : K} (h : .ok (.c j v) ∈ m.elemOps iniT i) :
    j = i ∧ ∃ p t, m.prisms[i]? = some p ∧ iniT[i]? = some t ∧ v = m.heat p.elem.cell.mat t * m.rho p.elem.cell.mat t * (m.area p.elem.tri * m.height p.layer) := by
  cases hp : m.prisms[i]? with
  | none => unfold PModel.elemOps at h; rw [hp] at h; simp at h
  | some p =>
    cases ht : iniT[i]? with
    | none => unfold PModel.elemOps at h; rw [hp, ht] at h; simp at h
    | some t =>
      rw [elemOps_eq hp ht, List.mem_append] at h
      rcases h with h | h
      · unfold powerOps at h
        split at h
        · simp at h
        · simp at h
      · have hL : ∀ {o : Option Nat} {r : Prism K → K → K}, .ok (.c j v) ∉ m.link iniT i o r := by
          intro o r hl
          rcases mem_link hl with h | ⟨_, _, _, _, _, _, _, h⟩ <;> simp at h
        have hB : ∀ {bc : Option (BC K)} {n : Option Nat}, .ok (.c j v) ∉ m.bcOps bc i p n := by
          intro bc n hb
          obtain ⟨_, _, _, h | h⟩ := mem_bcOps hb <;> simp at h
        unfold PModel.restOps at h
        simp only [List.mem_append, List.mem_singleton] at h
        rcases h with ((((((h | h) | h) | h) | h) | h) | h) | h
        · simp only [Res.ok.injEq, Op.c.injEq] at h
          exact ⟨h.1, p, t, rfl, rfl, h.2⟩
        · exact absurd h hL
        · exact absurd h hL
        · exact absurd h hL
        · exact absurd h hB
        · exact absurd h hL
        · exact absurd h hB
        · exact absurd h hL

theorem block_c {m : PModel K} {j : Nat} {v : K} : .ok (.c j v) ∉ m.blocksOps := by
  intro h
  have key : ∀ side (bl : BC K × (Nat → Bool)), .ok (.c j v) ∉ m.blockOps side bl := by
    intro side bl ho
    unfold PModel.blockOps at ho
    cases hv : bl.1.value with
    | none => rw [hv] at ho; simp at ho
    | some v' =>
      rw [hv] at ho
      simp only [List.mem_filterMap] at ho
      obtain ⟨p, _, hp⟩ := ho
      split_ifs at hp
      cases ht : bl.1.type <;> rw [ht] at hp <;> simp at hp
  unfold PModel.blocksOps at h
  simp only [List.mem_append, List.mem_flatMap] at h
  rcases h with ⟨bl, _, h⟩ | ⟨bl, _, h⟩
  · exact key _ _ h
  · exact key _ _ h

theorem stackElem_c {m : SModel K} {iniT : List K} {i j : Nat} {v : K} (h : .ok (.c j v) ∈ m.elemOps iniT i) :
    j = i ∧ ∃ p t, m.prisms[i]? = some p ∧ iniT[i]? = some t ∧
      v = m.heat p.base.elem.cell.mat t * m.rho p.base.elem.cell.mat t * (m.area p.base.layer p.base.elem.tri * m.height p.base.layer) := by
  cases hp : m.prisms[i]? with
  | none => unfold SModel.elemOps at h; rw [hp] at h; simp at h
  | some p =>
    cases ht : iniT[i]? with
    | none => unfold SModel.elemOps at h; rw [hp, ht] at h; simp at h
    | some t =>
      unfold SModel.elemOps at h
      rw [hp, ht] at h
      simp only at h
      rw [List.mem_append] at h
      rcases h with h | h
      · unfold powerOps at h
        split at h
        · simp at h
        · simp at h
      · have hL : ∀ {o : Option Nat} {r : SPrism K → K → K}, .ok (.c j v) ∉ m.link iniT i o r := by
          intro o r hl
          rcases stack_mem_link hl with ⟨h, _⟩ | ⟨_, _, _, _, _, _, _, h⟩ <;> simp at h
        unfold SModel.restOps at h
        rw [List.mem_append, List.mem_append, List.mem_append, List.mem_append] at h
        rcases h with h | h | h | h | h
        · simp only [List.mem_singleton, Res.ok.injEq, Op.c.injEq] at h
          exact ⟨h.1, p, t, rfl, rfl, h.2⟩
        · exact absurd h hL
        · exact absurd h hL
        · exact absurd h hL
        · rcases mem_topBot h with ⟨c, _, h⟩ | ⟨_, h⟩ | ⟨_, h⟩
          · rcases mem_contactOp h with ⟨h, _⟩ | ⟨_, _, _, _, _, h⟩ <;> simp at h
          · simp at h
          · simp at h

/-! ### C81 -/

/-- **C81, prism models.** The heat capacity of every prism is specific heat times density, of its material at its
temperature, times its volume. -/
theorem c81_prism {minR : K} {m : PModel K} {mesh : Mesh} {layers : Nat} {info : Nat → Nat → Option (Cell K)} {wires : List (Wire K)}
    (hx : Extracted m mesh layers info wires) {iniT : List K} {net : Network K} (hb : m.build minR iniT = .ok (some net))
    {i : Nat} {p : Prism K} {t : K} (hp : m.prisms[i]? = some p) (ht : iniT[i]? = some t) :
    cOf net i = m.heat p.elem.cell.mat t * m.rho p.elem.cell.mat t * (m.area p.elem.tri * m.height p.layer) := by
  obtain ⟨wf, hlines⟩ := extracted_wf hx
  have hi : i < totalPrisms m.off := by rw [← wf.prisms]; exact (List.getElem?_eq_some_iff.1 hp).1
  rw [(run_values (build_run hb).2).2.2.1 i]
  apply fold_c
  · intro v hv
    unfold PModel.ops at hv
    rw [List.mem_append, List.mem_append] at hv
    rcases hv with (hv | hv) | hv
    · unfold PModel.rangeOps at hv
      rw [List.mem_flatMap] at hv
      obtain ⟨j, _, hv⟩ := hv
      obtain ⟨rfl, p', t', hp', ht', rfl⟩ := elem_c hv
      rw [hp] at hp'
      rw [ht] at ht'
      simp only [Option.some.injEq] at hp' ht'
      subst hp' ht'
      rfl
    · rw [List.mem_flatMap] at hv
      obtain ⟨l, hl, hv⟩ := hv
      obtain ⟨n, hn⟩ := List.mem_iff_getElem?.1 hl
      have := hlines.id n l hn
      have := (line_c hv).1
      omega
    · exact absurd hv block_c
  · unfold PModel.ops
    rw [List.mem_append, List.mem_append]
    left; left
    unfold PModel.rangeOps
    rw [List.mem_flatMap]
    refine ⟨i, by rw [List.mem_range'_1]; omega, ?_⟩
    rw [elemOps_eq hp ht]
    unfold PModel.restOps
    simp

/-- **C81, wires of prism models.** The heat capacity of every segment of a wire. -/
theorem c81_prism_wire {minR : K} {m : PModel K} {mesh : Mesh} {layers : Nat} {info : Nat → Nat → Option (Cell K)} {wires : List (Wire K)}
    (hx : Extracted m mesh layers info wires) {iniT : List K} {net : Network K} (hb : m.build minR iniT = .ok (some net))
    {l : Line K} {t : K} (hl : l ∈ m.lines) (ht : iniT[l.id]? = some t) :
    cOf net l.id = m.heat l.mat t * m.rho l.mat t * (l.area * l.length) := by
  obtain ⟨wf, hlines⟩ := extracted_wf hx
  obtain ⟨n, hn⟩ := List.mem_iff_getElem?.1 hl
  have hid := hlines.id n l hn
  rw [(run_values (build_run hb).2).2.2.1 l.id]
  apply fold_c
  · intro v hv
    unfold PModel.ops at hv
    rw [List.mem_append, List.mem_append] at hv
    rcases hv with (hv | hv) | hv
    · unfold PModel.rangeOps at hv
      rw [List.mem_flatMap] at hv
      obtain ⟨j, hj, hv⟩ := hv
      rw [List.mem_range'_1] at hj
      have := (elem_c hv).1
      omega
    · rw [List.mem_flatMap] at hv
      obtain ⟨l', hl', hv⟩ := hv
      obtain ⟨n', hn'⟩ := List.mem_iff_getElem?.1 hl'
      have hid' := hlines.id n' l' hn'
      obtain ⟨he, t', ht', rfl⟩ := line_c hv
      have : n' = n := by omega
      subst this
      rw [hn] at hn'
      simp only [Option.some.injEq] at hn'
      subst hn'
      rw [ht] at ht'
      simp only [Option.some.injEq] at ht'
      subst ht'
      rfl
    · exact absurd hv block_c
  · unfold PModel.ops
    rw [List.mem_append, List.mem_append]
    left; right
    rw [List.mem_flatMap]
    exact ⟨l, hl, line_c_mem ht⟩

/-- **C81, stackup prism models.** -/
theorem c81_stack {minR : K} {m : SModel K} {g : Tris K} {meshes : List Mesh} {info : Nat → Nat → Option (Cell K)} {wires : List (Wire K)}
    (hx : FromMeshes m g meshes info wires) {iniT : List K} {net : Network K} (hb : m.build minR iniT = .ok (some net))
    {i : Nat} {p : SPrism K} {t : K} (hp : m.prisms[i]? = some p) (ht : iniT[i]? = some t) :
    cOf net i = m.heat p.base.elem.cell.mat t * m.rho p.base.elem.cell.mat t * (m.area p.base.layer p.base.elem.tri * m.height p.base.layer) := by
  obtain ⟨hlen, hst, hlines⟩ := fromMeshes_facts hx
  have hi : i < totalPrisms m.off := by rw [← hlen]; exact (List.getElem?_eq_some_iff.1 hp).1
  rw [(run_values (stack_run hb).2).2.2.1 i]
  apply fold_c
  · intro v hv
    rw [SModel.ops, stacked_blocks hst, List.append_nil, List.mem_append] at hv
    rcases hv with hv | hv
    · unfold SModel.rangeOps at hv
      rw [List.mem_flatMap] at hv
      obtain ⟨j, _, hv⟩ := hv
      obtain ⟨rfl, p', t', hp', ht', rfl⟩ := stackElem_c hv
      rw [hp] at hp'
      rw [ht] at ht'
      simp only [Option.some.injEq] at hp' ht'
      subst hp' ht'
      rfl
    · rw [List.mem_flatMap] at hv
      obtain ⟨l, hl, hv⟩ := hv
      obtain ⟨n, hn⟩ := List.mem_iff_getElem?.1 hl
      have := hlines.id n l hn
      have := (line_c hv).1
      omega
  · rw [SModel.ops, stacked_blocks hst, List.append_nil, List.mem_append]
    left
    unfold SModel.rangeOps
    rw [List.mem_flatMap]
    refine ⟨i, by rw [List.mem_range'_1]; omega, ?_⟩
    unfold SModel.elemOps
    rw [hp, ht]
    unfold SModel.restOps SModel.areaOf
    simp

/-- **C81, wires of stackup prism models.** Heat capacity and Joule heat of every segment. -/
theorem c81_stack_wire [IsStrictOrderedRing K] {minR : K} {m : SModel K} {g : Tris K} {meshes : List Mesh} {info : Nat → Nat → Option (Cell K)} {wires : List (Wire K)}
    (hx : FromMeshes m g meshes info wires) {iniT : List K} {net : Network K} (hb : m.build minR iniT = .ok (some net))
    {l : Line K} {t : K} (hl : l ∈ m.lines) (ht : iniT[l.id]? = some t) :
    cOf net l.id = m.heat l.mat t * m.rho l.mat t * (l.area * l.length) ∧
    hfOf net l.id = max 0 (l.current ^ 2 * (m.resist l.mat t * l.length / l.area)) := by
  obtain ⟨hlen, hst, hlines⟩ := fromMeshes_facts hx
  obtain ⟨n, hn⟩ := List.mem_iff_getElem?.1 hl
  have hid := hlines.id n l hn
  constructor
  · rw [(run_values (stack_run hb).2).2.2.1 l.id]
    apply fold_c
    · intro v hv
      rw [SModel.ops, stacked_blocks hst, List.append_nil, List.mem_append] at hv
      rcases hv with hv | hv
      · unfold SModel.rangeOps at hv
        rw [List.mem_flatMap] at hv
        obtain ⟨j, hj, hv⟩ := hv
        rw [List.mem_range'_1] at hj
        have := (stackElem_c hv).1
        omega
      · rw [List.mem_flatMap] at hv
        obtain ⟨l', hl', hv⟩ := hv
        obtain ⟨n', hn'⟩ := List.mem_iff_getElem?.1 hl'
        have hid' := hlines.id n' l' hn'
        obtain ⟨he, t', ht', rfl⟩ := line_c hv
        have : n' = n := by omega
        subst this
        rw [hn] at hn'
        simp only [Option.some.injEq] at hn'
        subst hn'
        rw [ht] at ht'
        simp only [Option.some.injEq] at ht'
        subst ht'
        rfl
    · rw [SModel.ops, stacked_blocks hst, List.append_nil, List.mem_append]
      right
      rw [List.mem_flatMap]
      exact ⟨l, hl, line_c_mem (m := m.wires) ht⟩
  · rw [(run_values (stack_run hb).2).1 l.id, hfOf_new, SModel.ops, stacked_blocks hst, List.append_nil, List.foldl_append]
    have h0 : (m.rangeOps iniT (0, totalPrisms m.off)).foldl (fun b o => Op.hfAt l.id o b) (0 : K) = 0 := by
      apply foldl_id
      intro o ho b
      unfold SModel.rangeOps at ho
      rw [List.mem_flatMap] at ho
      obtain ⟨j, hj, ho⟩ := ho
      rw [List.mem_range'_1] at hj
      apply hfAt_writes
      rcases (stack_writes ho).2 with rfl | hw
      · simp [Op.writes]
      · rw [hw]
        intro he
        simp only [Option.some.injEq] at he
        omega
    rw [h0]
    obtain ⟨as, bs, hs, hlenA⟩ : ∃ as bs, m.lines = as ++ l :: bs ∧ as.length = n := by
      obtain ⟨hn1, hn2⟩ := List.getElem?_eq_some_iff.1 hn
      refine ⟨m.lines.take n, m.lines.drop (n + 1), ?_, by rw [List.length_take]; omega⟩
      conv_lhs => rw [← List.take_append_drop n m.lines, List.drop_eq_getElem_cons hn1]
      rw [hn2]
    have hother : ∀ l' ∈ m.lines, l' ≠ l → l'.id ≠ l.id := by
      intro l' hl' hne he
      obtain ⟨n', hn'⟩ := List.mem_iff_getElem?.1 hl'
      have hid' := hlines.id n' l' hn'
      have : n' = n := by omega
      subst this
      rw [hn] at hn'
      simp only [Option.some.injEq] at hn'
      exact hne hn'.symm
    have hidx : ∀ (k : Nat) (l' : Line K), m.lines[k]? = some l' → k ≠ n → l'.id ≠ l.id := by
      intro k l' hk hne he
      have := hlines.id k l' hk
      omega
    have hA : ∀ b : K, (as.flatMap (m.wires.lineOps iniT)).foldl (fun b o => Op.hfAt l.id o b) b = b := by
      intro b
      apply foldl_id
      intro o ho b
      rw [List.mem_flatMap] at ho
      obtain ⟨l', hl', ho⟩ := ho
      obtain ⟨k, hk⟩ := List.mem_iff_getElem?.1 hl'
      have hkl := (List.getElem?_eq_some_iff.1 hk).1
      refine (lines_quiet ho l.id b).1 (hidx k l' ?_ (by omega))
      rw [hs, List.getElem?_append_left (by omega), hk]
    have hB : ∀ b : K, (bs.flatMap (m.wires.lineOps iniT)).foldl (fun b o => Op.hfAt l.id o b) b = b := by
      intro b
      apply foldl_id
      intro o ho b
      rw [List.mem_flatMap] at ho
      obtain ⟨l', hl', ho⟩ := ho
      obtain ⟨k, hk⟩ := List.mem_iff_getElem?.1 hl'
      refine (lines_quiet ho l.id b).1 (hidx (n + 1 + k) l' ?_ (by omega))
      rw [hs, List.getElem?_append_right (by omega)]
      have : n + 1 + k - as.length = k + 1 := by omega
      rw [this, List.getElem?_cons_succ, hk]
    rw [hs, List.flatMap_append, List.flatMap_cons, List.foldl_append, List.foldl_append, hA, hB]
    have hlo : m.wires.lineOps iniT l = [.ok (.c l.id (m.heat l.mat t * m.rho l.mat t * (l.area * l.length))), .ok (.scen l.id l.scen)] ++
        (if 0 < m.wires.joule l t then [.ok (.addHF l.id (m.wires.joule l t))] else []) ++
        l.front.flatMap (m.wires.lineR l t) ++ l.back.flatMap (m.wires.lineR l t) := by
      unfold PModel.lineOps
      rw [ht]
      rfl
    have hR : ∀ (xs : List Nat) (b : K), (xs.flatMap (m.wires.lineR l t)).foldl (fun b o => Op.hfAt l.id o b) b = b := by
      intro xs b
      apply foldl_id
      intro o ho b
      rw [List.mem_flatMap] at ho
      obtain ⟨nb, _, ho⟩ := ho
      rcases mem_lineR ho with rfl | ⟨_, _, rfl⟩ | ⟨_, _, _, rfl⟩ <;> rfl
    rw [hlo, List.foldl_append, List.foldl_append, List.foldl_append, hR, hR]
    have hj : m.wires.joule l t = l.current ^ 2 * (m.resist l.mat t * l.length / l.area) := by
      unfold PModel.joule
      split
      · rename_i h0; rw [h0]; simp
      · show m.resist l.mat t * l.length * l.current * l.current / l.area = _
        ring
    rw [hj]
    split_ifs with hpos
    · rw [max_eq_right hpos.le]
      simp [Op.hfAt]
    · rw [max_eq_left (not_lt.1 hpos)]
      simp [Op.hfAt]

/-! ### C76: sides -/

/-- **C76, sides.** The conductance between two elements of a layer: over every side at which the mesh has the one next to the other,
the path from the centre to the side in the one material and the rest of the path between the centres in the other. -/
theorem c76_side {minR : K} {m : SModel K} {g : Tris K} {meshes : List Mesh} {info : Nat → Nat → Option (Cell K)} {wires : List (Wire K)}
    (hx : FromMeshes m g meshes info wires) {iniT : List K} {net : Network K} (hb : m.build minR iniT = .ok (some net))
    {i j : Nat} {p q : SPrism K} {t t' : K} (hp : m.prisms[i]? = some p) (ht : iniT[i]? = some t)
    (hq : m.prisms[j]? = some q) (ht' : iniT[j]? = some t') (hij : i < j) (hl : q.base.layer = p.base.layer) :
    conductance net i j = ∑ n : Fin 3, if nbS meshes p.base.layer p.base.elem.tri n = some q.base.elem.tri then
      1 / max ((m.toSide p.base.layer p.base.elem.tri n / ((m.k p.base.elem.cell.mat t 0 + m.k p.base.elem.cell.mat t 1) / 2) +
          (m.dist p.base.layer p.base.elem.tri q.base.elem.tri - m.toSide p.base.layer p.base.elem.tri n) /
            ((m.k q.base.elem.cell.mat t' 0 + m.k q.base.elem.cell.mat t' 1) / 2)) /
        (m.height p.base.layer * m.edgeLen p.base.layer p.base.elem.tri n)) minR else 0 := by
  obtain ⟨hlen, hst, hlines⟩ := fromMeshes_facts hx
  have he : ∀ n, p.base.edge n = some j ↔ nbS meshes p.base.layer p.base.elem.tri n = some q.base.elem.tri := by
    intro n
    rw [hst.edge i j p n hp]
    constructor
    · rintro ⟨q', hq', _, h2⟩
      rw [hq] at hq'
      simp only [Option.some.injEq] at hq'
      subst hq'
      exact h2
    · intro h2; exact ⟨q, hq, hl, h2⟩
  have hr : ∀ n, m.sideR p q n t t' = (m.toSide p.base.layer p.base.elem.tri n / ((m.k p.base.elem.cell.mat t 0 + m.k p.base.elem.cell.mat t 1) / 2) +
          (m.dist p.base.layer p.base.elem.tri q.base.elem.tri - m.toSide p.base.layer p.base.elem.tri n) /
            ((m.k q.base.elem.cell.mat t' 0 + m.k q.base.elem.cell.mat t' 1) / 2)) /
        (m.height p.base.layer * m.edgeLen p.base.layer p.base.elem.tri n) := by
    intro n
    unfold SModel.sideR
    simp only
    rw [one_div_mul_eq_div, one_div_mul_eq_div, ← add_div]
  rw [stack_conductance hx hb hp ht hq ht' hij, Fin.sum_univ_three, if_neg (c := _ ∧ _) (by rintro ⟨h, _⟩; omega), add_zero]
  simp only [he, hr]

/-- the segment of the wire and the prisms of the example -/
example : (exStack.build (1 / 1000) [25, 25, 25, 25, 25]).bind (fun r => .ok (r.map fun net => (cOf net 2, conductance net 0 1))) =
    .ok (some (1, 8 / 19)) := by decide +kernel

end Ecad.PrismT
