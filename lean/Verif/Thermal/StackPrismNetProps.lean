import Verif.Thermal.StackPrismMeshProps
/-!
C76: which elements the network of a stackup prism model connects, and how well.  C77: boundary conditions act on the
part of the faces that nothing touches.  C78: the network has exactly one steady temperature field.  C79: threads.
-/
namespace Ecad.PrismT
open Ecad.Thermal Ecad.GridT

variable {K : Type} [Field K] [LinearOrder K]

/-! ### the calls of an element -/

theorem stack_mem_link {m : SModel K} {iniT : List K} {i : Nat} {n : Option Nat} {r : SPrism K → K → K} {o : Res (Op K)}
    (h : o ∈ m.link iniT i n r) :
    (o = .exn ∧ ∃ n', n = some n' ∧ (m.prisms[n']? = none ∨ iniT[n']? = none)) ∨
      ∃ n' q t, n = some n' ∧ i < n' ∧ m.prisms[n']? = some q ∧ iniT[n']? = some t ∧ o = .ok (.r i n' (r q t)) := by
  unfold SModel.link at h
  cases n with
  | none => simp at h
  | some n' =>
    simp only at h
    split_ifs at h with hi
    · cases hq : m.prisms[n']? with
      | none => rw [hq] at h; left; exact ⟨by simpa using h, n', rfl, .inl hq⟩
      | some q =>
        cases ht : iniT[n']? with
        | none => rw [hq, ht] at h; left; exact ⟨by simpa using h, n', rfl, .inr ht⟩
        | some t => rw [hq, ht] at h; right; exact ⟨n', q, t, rfl, hi, hq, ht, by simpa using h⟩
    · simp at h

theorem mem_contactOp {m : SModel K} {iniT : List K} {i : Nat} {p : SPrism K} {t : K} {c : Nat × K} {o : Res (Op K)}
    (h : o ∈ m.contactOp iniT i p t c) :
    (o = .exn ∧ (m.prisms[c.1]? = none ∨ iniT[c.1]? = none)) ∨
      ∃ q tq, i ≤ c.1 ∧ m.prisms[c.1]? = some q ∧ iniT[c.1]? = some tq ∧ o = .ok (.r i c.1 (m.contactR p q c.2 t tq)) := by
  unfold SModel.contactOp at h
  split_ifs at h with hi
  · simp at h
  · cases hq : m.prisms[c.1]? with
    | none => rw [hq] at h; left; exact ⟨by simpa using h, .inl rfl⟩
    | some q =>
      cases ht : iniT[c.1]? with
      | none => rw [hq, ht] at h; left; exact ⟨by simpa using h, .inr rfl⟩
      | some tq => rw [hq, ht] at h; right; exact ⟨q, tq, by omega, rfl, rfl, by simpa using h⟩

omit [Field K] [LinearOrder K] in
theorem mem_faceOps {bc : Option (BC K)} {i : Nat} {htc flux : K → K} {o : Res (Op K)} (h : o ∈ faceOps bc i htc flux) :
    (∃ v, o = .ok (.htc i v)) ∨ ∃ v, o = .ok (.hf i v) := by
  unfold faceOps at h
  split at h
  · exact .inl ⟨_, by simpa using h⟩
  · exact .inr ⟨_, by simpa using h⟩
  · simp at h

/-- what the calls for a face are: contacts with elements of a higher number and a boundary condition -/
theorem mem_contactsOps {m : SModel K} {iniT : List K} {i : Nat} {p : SPrism K} {t : K} {bc : Option (BC K)} {cs : List (Nat × K)}
    {o : Res (Op K)} (h : o ∈ m.contactsOps iniT i p t bc cs) :
    (∃ c ∈ cs, o ∈ m.contactOp iniT i p t c) ∨ (∃ v, o = .ok (.htc i v)) ∨ ∃ v, o = .ok (.hf i v) := by
  unfold SModel.contactsOps at h
  rw [List.mem_append, List.mem_flatMap] at h
  rcases h with h | h
  · exact .inl h
  · split_ifs at h
    · exact .inr (mem_faceOps h)
    · simp at h

theorem mem_topBot {m : SModel K} {iniT : List K} {i : Nat} {p : SPrism K} {t : K} {o : Res (Op K)}
    (h : o ∈ m.topOps iniT i p t ++ m.botOps iniT i p t) :
    (∃ c, (c ∈ p.up ∨ c ∈ p.down) ∧ o ∈ m.contactOp iniT i p t c) ∨ (∃ v, o = .ok (.htc i v)) ∨ ∃ v, o = .ok (.hf i v) := by
  rw [List.mem_append] at h
  rcases h with h | h
  · unfold SModel.topOps at h
    split at h
    · exact .inr (mem_faceOps h)
    · split_ifs at h
      · rcases mem_contactsOps h with ⟨c, hc, h⟩ | h
        · exact .inl ⟨c, .inl hc, h⟩
        · exact .inr h
      · simp at h
  · unfold SModel.botOps at h
    split at h
    · exact .inr (mem_faceOps h)
    · split_ifs at h
      · rcases mem_contactsOps h with ⟨c, hc, h⟩ | h
        · exact .inl ⟨c, .inr hc, h⟩
        · exact .inr h
      · simp at h

/-- all calls of an element -/
theorem mem_stackElem {m : SModel K} {iniT : List K} {i : Nat} {p : SPrism K} {t : K} (hp : m.prisms[i]? = some p) (ht : iniT[i]? = some t)
    {o : Res (Op K)} (h : o ∈ m.elemOps iniT i) :
    (∃ v, o = .ok (.addHF i v)) ∨ (∃ v, o = .ok (.scen i v)) ∨ (∃ v, o = .ok (.c i v)) ∨ (∃ v, o = .ok (.htc i v)) ∨ (∃ v, o = .ok (.hf i v)) ∨
    (∃ n, o ∈ m.link iniT i (p.base.edge n) (fun q tq => m.sideR p q n t tq)) ∨
    ∃ c, (c ∈ p.up ∨ c ∈ p.down) ∧ o ∈ m.contactOp iniT i p t c := by
  unfold SModel.elemOps at h
  rw [hp, ht] at h
  simp only at h
  rw [List.mem_append] at h
  rcases h with h | h
  · unfold powerOps at h
    split at h
    · simp only [List.mem_cons, List.not_mem_nil, or_false] at h
      rcases h with rfl | rfl
      · exact .inl ⟨_, rfl⟩
      · exact .inr (.inl ⟨_, rfl⟩)
    · simp at h
  · unfold SModel.restOps at h
    rw [List.mem_append, List.mem_append, List.mem_append, List.mem_append] at h
    rcases h with h | h | h | h | h
    · exact .inr (.inr (.inl ⟨_, by simpa using h⟩))
    · exact .inr (.inr (.inr (.inr (.inr (.inl ⟨0, h⟩)))))
    · exact .inr (.inr (.inr (.inr (.inr (.inl ⟨1, h⟩)))))
    · exact .inr (.inr (.inr (.inr (.inr (.inl ⟨2, h⟩)))))
    · rcases mem_topBot h with h | h | h
      · exact .inr (.inr (.inr (.inr (.inr (.inr h)))))
      · exact .inr (.inr (.inr (.inl h)))
      · exact .inr (.inr (.inr (.inr (.inl h))))

/-- every call for an element is for the node of the element, or throws -/
theorem stack_writes {m : SModel K} {iniT : List K} {i : Nat} {o : Res (Op K)} (h : o ∈ m.elemOps iniT i) :
    Op.nodes o = 0 ∧ (o = .exn ∨ Op.writes o = some i) := by
  cases hp : m.prisms[i]? with
  | none => unfold SModel.elemOps at h; rw [hp] at h; obtain rfl : o = .exn := by simpa using h
            exact ⟨rfl, .inl rfl⟩
  | some p =>
    cases ht : iniT[i]? with
    | none => unfold SModel.elemOps at h; rw [hp, ht] at h; obtain rfl : o = .exn := by simpa using h
              exact ⟨rfl, .inl rfl⟩
    | some t =>
      rcases mem_stackElem hp ht h with ⟨v, rfl⟩ | ⟨v, rfl⟩ | ⟨v, rfl⟩ | ⟨v, rfl⟩ | ⟨v, rfl⟩ | ⟨n, h⟩ | ⟨c, _, h⟩
      · exact ⟨rfl, .inr rfl⟩
      · exact ⟨rfl, .inr rfl⟩
      · exact ⟨rfl, .inr rfl⟩
      · exact ⟨rfl, .inr rfl⟩
      · exact ⟨rfl, .inr rfl⟩
      · rcases stack_mem_link h with ⟨rfl, _⟩ | ⟨n', q, t, _, hi, _, _, rfl⟩
        · exact ⟨rfl, .inl rfl⟩
        · refine ⟨rfl, .inr ?_⟩
          simp only [Op.writes, Option.some.injEq]
          omega
      · rcases mem_contactOp h with ⟨rfl, _⟩ | ⟨q, tq, hi, _, _, rfl⟩
        · exact ⟨rfl, .inl rfl⟩
        · refine ⟨rfl, .inr ?_⟩
          simp only [Op.writes, Option.some.injEq]
          omega

/-! ### C79 -/

/-- calls for blocks of elements in parallel, when the calls of an element write to its node only -/
theorem parallel_blocks (minR : K) (f : Nat → List (Res (Op K))) (hf : ∀ i, ∀ o ∈ f i, Op.nodes o = 0 ∧ (o = .exn ∨ Op.writes o = some i))
    (bs : List (Nat × Nat)) (hd : (blockElements bs).Nodup) (net : Network K) {s : List (Res (Op K))}
    (hs : Shuffle (bs.map fun b => (List.range' b.1 (b.2 - b.1)).flatMap f) s) (net' : Network K) :
    run minR net s = .ok net' ↔ run minR net ((blockElements bs).flatMap f) = .ok net' := by
  have hflat : (bs.map fun b => (List.range' b.1 (b.2 - b.1)).flatMap f).flatten = (blockElements bs).flatMap f := by
    unfold blockElements
    clear hd hs
    induction bs with
    | nil => rfl
    | cons b bs ih => simp [List.flatMap_append, ih]
  have hnodes : ∀ l ∈ bs.map fun b => (List.range' b.1 (b.2 - b.1)).flatMap f, ∀ o ∈ l, Op.nodes o = 0 := by
    intro l hl o ho
    rw [List.mem_map] at hl
    obtain ⟨b, _, rfl⟩ := hl
    rw [List.mem_flatMap] at ho
    obtain ⟨i, _, ho⟩ := ho
    exact (hf i o ho).1
  have hdis : (bs.map fun b => (List.range' b.1 (b.2 - b.1)).flatMap f).Pairwise
      fun a b => ∀ o ∈ a, ∀ o' ∈ b, ∀ i, Op.writes o = some i → Op.writes o' ≠ some i := by
    rw [List.pairwise_map]
    refine (blocks_disjoint _ hd).imp ?_
    intro a b hab o ho o' ho' i hi hi'
    rw [List.mem_flatMap] at ho ho'
    obtain ⟨j, hj, ho⟩ := ho
    obtain ⟨j', hj', ho'⟩ := ho'
    have h1 : i = j := by
      rcases (hf j o ho).2 with rfl | h
      · simp [Op.writes] at hi
      · rw [hi] at h; simpa using h
    have h2 : i = j' := by
      rcases (hf j' o' ho').2 with rfl | h
      · simp [Op.writes] at hi'
      · rw [hi'] at h; simpa using h
    subst h1
    subst h2
    exact hab i hj hj'
  rw [← hflat]
  constructor
  · intro h
    refine run_reorder (l := s) ?_ ?_ ?_ h
    · intro o ho
      rw [hs.mem] at ho
      obtain ⟨l, hl, ho⟩ := ho
      exact hnodes l hl o ho
    · intro o; rw [hs.mem, List.mem_flatten]
    · intro i; exact (shuffle_filter hs hdis i).symm
  · exact run_shuffle hs hnodes hdis

/-- **C79.** For every stackup model, every number of threads and every interleaving of the calls of the blocks, the network is the
one assembled on one thread, and an interleaving fails exactly if the assembly on one thread fails. -/
theorem c79_assembly (minR : K) (m : SModel K) (iniT : List K) (n : Nat) (hn : 0 < n) (net : Network K) {s : List (Res (Op K))}
    (hs : Shuffle ((threadBlocks (totalPrisms m.off) n).map (m.rangeOps iniT)) s) (net' : Network K) :
    run minR net s = .ok net' ↔ run minR net (m.rangeOps iniT (0, totalPrisms m.off)) = .ok net' := by
  have hel := c36_blocks (totalPrisms m.off) n hn
  have hel' : blockElements (threadBlocks (totalPrisms m.off) n) = List.range (totalPrisms m.off) := hel
  rw [parallel_blocks minR (m.elemOps iniT) (fun i o ho => stack_writes ho) _ (by rw [hel']; exact List.nodup_range) net hs net', hel',
    SModel.rangeOps, List.range_eq_range']
  rfl

/-- **C79, contacts.** The contacts found by one job per layer are those found on one thread, for all layers and all geometry. -/
theorem c79_contacts (g : Tris K) (layers : List (List (Elem K))) (threads : Nat) : buildStack g layers threads = buildStack g layers 1 := by
  unfold buildStack
  simp only [stackBlocks_all]

/-! ### what the nodes hold in the end -/

/-- The model comes from meshes, one for each layer: the layers extracted from them, the instances with their
contacts, on any number of threads, and then the wires, whose ends are at prisms. -/
structure FromMeshes (m : SModel K) (g : Tris K) (meshes : List Mesh) (info : Nat → Nat → Option (Cell K)) (wires : List (Wire K)) : Prop where
  prisms : ∃ threads, (stackLayers meshes info).bind (fun ls => buildStack g ls threads) = .ok (m.off, m.prisms)
  lines : addWires m.off [] wires = .ok m.lines
  ends : ∀ w ∈ wires, w.Ends (totalPrisms m.off)

theorem fromMeshes_facts {m : SModel K} {g : Tris K} {meshes : List Mesh} {info : Nat → Nat → Option (Cell K)} {wires : List (Wire K)}
    (h : FromMeshes m g meshes info wires) :
    m.prisms.length = totalPrisms m.off ∧ Stacked g meshes info m.prisms ∧ LinesOK (totalPrisms m.off) m.lines := by
  obtain ⟨threads, ht⟩ := h.prisms
  obtain ⟨off, ps, he, h1, h2⟩ := stack_built g meshes info threads
  rw [ht] at he
  simp only [Res.ok.injEq, Prod.mk.injEq] at he
  obtain ⟨e1, e2⟩ := he
  rw [← e1, ← e2] at h1
  rw [← e2] at h2
  exact ⟨h1, h2, addWires_ok h.ends (linesOK_nil _) h.lines⟩

theorem stack_run {minR : K} {m : SModel K} {iniT : List K} {net : Network K} (h : m.build minR iniT = .ok (some net)) :
    iniT.length = m.total ∧ run minR (Network.new noScen m.total) (m.ops iniT) = .ok net := by
  unfold SModel.build at h
  split_ifs at h with hl
  · simp at h
  · refine ⟨not_not.1 hl, ?_⟩
    cases hr : run minR (Network.new noScen m.total) (m.ops iniT) with
    | ok n => rw [hr] at h; simpa using h
    | ub => rw [hr] at h; simp at h
    | exn => rw [hr] at h; simp at h

omit [LinearOrder K] in
/-- **Block boundary conditions have no effect**: no call is made for any of them. -/
theorem blocks_ignored {m : SModel K} (h : ∀ p ∈ m.prisms, p.base.elem.top ≠ none ∧ p.base.elem.bot ≠ none) : m.blocksOps = [] := by
  have key : ∀ side : Elem K → Option Nat, (∀ p ∈ m.prisms, side p.base.elem ≠ none) → ∀ b, m.blockOps side b = [] := by
    intro side hs b
    unfold SModel.blockOps
    cases b.1.value with
    | none => rfl
    | some v =>
      simp only
      rw [List.filterMap_eq_nil_iff]
      rintro ⟨p, j⟩ hp
      rw [if_neg]
      rintro ⟨_, hn⟩
      rw [List.mem_zipIdx_iff_getElem?] at hp
      exact hs p (List.mem_of_getElem? hp) hn
  unfold SModel.blocksOps
  rw [List.append_eq_nil_iff, List.flatMap_eq_nil_iff, List.flatMap_eq_nil_iff]
  exact ⟨fun b _ => key _ (fun p hp => (h p hp).1) b, fun b _ => key _ (fun p hp => (h p hp).2) b⟩

theorem stacked_blocks {m : SModel K} {g : Tris K} {meshes : List Mesh} {info : Nat → Nat → Option (Cell K)} (h : Stacked g meshes info m.prisms) :
    m.blocksOps = [] := by
  apply blocks_ignored
  intro p hp
  obtain ⟨i, hi⟩ := List.mem_iff_getElem?.1 hp
  exact h.self i p hi

/-- of the calls for all elements, those of element `i` count for node `i` -/
theorem stack_range_fold {β : Type _} (eff : Res (Op K) → β → β) (m : SModel K) (iniT : List K) (i : Nat)
    (hi : i < totalPrisms m.off) (heff : ∀ o b, Op.writes o ≠ some i → eff o b = b) (b : β) :
    (m.rangeOps iniT (0, totalPrisms m.off)).foldl (fun b o => eff o b) b = (m.elemOps iniT i).foldl (fun b o => eff o b) b := by
  rw [fold_writes eff i heff, fold_writes eff i heff (m.elemOps iniT i)]
  congr 1
  unfold SModel.rangeOps
  apply filter_flatMap_single
  · exact List.nodup_range'
  · rw [List.mem_range'_1]; omega
  · intro j _ hj o ho
    rcases (stack_writes ho).2 with rfl | h
    · simp [Op.writes]
    · rw [h]; simpa using hj

theorem stack_link_quiet (m : SModel K) (iniT : List K) (i j : Nat) (n : Option Nat) (r : SPrism K → K → K) :
    (∀ o ∈ m.link iniT i n r, NoAdd o) ∧ (m.link iniT i n r).filterMap (wHF j) = [] ∧
    (m.link iniT i n r).filterMap (wHTC j) = [] := by
  refine ⟨?_, ?_, ?_⟩
  · intro o ho
    rcases stack_mem_link ho with ⟨rfl, _⟩ | ⟨_, _, _, _, _, _, _, rfl⟩ <;> trivial
  · rw [List.filterMap_eq_nil_iff]
    intro o ho
    rcases stack_mem_link ho with ⟨rfl, _⟩ | ⟨_, _, _, _, _, _, _, rfl⟩ <;> rfl
  · rw [List.filterMap_eq_nil_iff]
    intro o ho
    rcases stack_mem_link ho with ⟨rfl, _⟩ | ⟨_, _, _, _, _, _, _, rfl⟩ <;> rfl

theorem contacts_quiet (m : SModel K) (iniT : List K) (i j : Nat) (p : SPrism K) (t : K) (cs : List (Nat × K)) :
    (cs.flatMap (m.contactOp iniT i p t)).filterMap (wHF j) = [] ∧ (cs.flatMap (m.contactOp iniT i p t)).filterMap (wHTC j) = [] := by
  constructor
  · rw [List.filterMap_eq_nil_iff]
    intro o ho
    rw [List.mem_flatMap] at ho
    obtain ⟨c, _, ho⟩ := ho
    rcases mem_contactOp ho with ⟨rfl, _⟩ | ⟨_, _, _, _, _, rfl⟩ <;> rfl
  · rw [List.filterMap_eq_nil_iff]
    intro o ho
    rw [List.mem_flatMap] at ho
    obtain ⟨c, _, ho⟩ := ho
    rcases mem_contactOp ho with ⟨rfl, _⟩ | ⟨_, _, _, _, _, rfl⟩ <;> rfl

/-- what a boundary condition asks for, when `f` turns the value into the entry of the node -/
def asked (ty : BCType) (bc : Option (BC K)) (f : K → K) : List K :=
  match bc with
  | some ⟨ty', some v⟩ => if ty' = ty then [f v] else []
  | _ => []

omit [Field K] [LinearOrder K] in
theorem faceOps_w (bc : Option (BC K)) (i : Nat) (htc flux : K → K) :
    (faceOps bc i htc flux).filterMap (wHF i) = asked .heatFlux bc flux ∧ (faceOps bc i htc flux).filterMap (wHTC i) = asked .htc bc htc := by
  rcases bc with _ | ⟨ty, v⟩
  · simp [faceOps, asked]
  · rcases v with _ | v <;> cases ty <;> simp [faceOps, asked, wHF, wHTC]

theorem restOps_noAddS (m : SModel K) (iniT : List K) (i : Nat) (p : SPrism K) (t : K) : ∀ o ∈ m.restOps iniT i p t, NoAdd o := by
  intro o h
  unfold SModel.restOps at h
  rw [List.mem_append, List.mem_append, List.mem_append, List.mem_append] at h
  rcases h with h | h | h | h | h
  · obtain rfl : o = _ := List.mem_singleton.1 h
    trivial
  · exact (stack_link_quiet m iniT i i _ _).1 o h
  · exact (stack_link_quiet m iniT i i _ _).1 o h
  · exact (stack_link_quiet m iniT i i _ _).1 o h
  · rcases mem_topBot h with ⟨c, _, h⟩ | ⟨v, rfl⟩ | ⟨v, rfl⟩
    · rcases mem_contactOp h with ⟨rfl, _⟩ | ⟨_, _, _, _, _, rfl⟩ <;> trivial
    · trivial
    · trivial

/-- entries of node `i` asked for on the top of an instance -/
def SModel.topAsked (m : SModel K) (ty : BCType) (i : Nat) (p : SPrism K) : List K :=
  match p.base.top with
  | none => asked ty m.topBC fun v => v * m.areaOf p
  | some n => if i = n ∧ 0 < free p.up then asked ty m.topBC fun v => v * m.areaOf p * free p.up else []

/-- entries of node `i` asked for on the bottom -/
def SModel.botAsked (m : SModel K) (ty : BCType) (i : Nat) (p : SPrism K) : List K :=
  match p.base.bot with
  | none => asked ty m.botBC fun v => if ty = .htc then v * m.areaOf p else v
  | some n => if i = n ∧ 0 < free p.down then asked ty m.botBC fun v => v * m.areaOf p * free p.down else []

theorem contactsOps_w (m : SModel K) (iniT : List K) (i : Nat) (p : SPrism K) (t : K) (bc : Option (BC K)) (cs : List (Nat × K)) :
    (m.contactsOps iniT i p t bc cs).filterMap (wHF i) = (if 0 < free cs then asked .heatFlux bc fun v => v * m.areaOf p * free cs else []) ∧
    (m.contactsOps iniT i p t bc cs).filterMap (wHTC i) = (if 0 < free cs then asked .htc bc fun v => v * m.areaOf p * free cs else []) := by
  unfold SModel.contactsOps
  rw [List.filterMap_append, List.filterMap_append, (contacts_quiet m iniT i i p t cs).1, (contacts_quiet m iniT i i p t cs).2]
  split_ifs
  · exact ⟨(faceOps_w _ _ _ _).1, (faceOps_w _ _ _ _).2⟩
  · exact ⟨rfl, rfl⟩

theorem topOps_w (m : SModel K) (iniT : List K) (i : Nat) (p : SPrism K) (t : K) :
    (m.topOps iniT i p t).filterMap (wHF i) = m.topAsked .heatFlux i p ∧ (m.topOps iniT i p t).filterMap (wHTC i) = m.topAsked .htc i p := by
  unfold SModel.topOps SModel.topAsked
  cases p.base.top with
  | none => exact faceOps_w _ _ _ _
  | some n =>
    simp only
    by_cases h : i = n
    · simp only [h, if_true, true_and]
      subst h
      exact contactsOps_w _ _ _ _ _ _ _
    · simp [h]

theorem botOps_w (m : SModel K) (iniT : List K) (i : Nat) (p : SPrism K) (t : K) :
    (m.botOps iniT i p t).filterMap (wHF i) = m.botAsked .heatFlux i p ∧ (m.botOps iniT i p t).filterMap (wHTC i) = m.botAsked .htc i p := by
  unfold SModel.botOps SModel.botAsked
  cases p.base.bot with
  | none => exact ⟨(faceOps_w _ _ _ _).1, (faceOps_w _ _ _ _).2⟩
  | some n =>
    simp only
    by_cases h : i = n
    · simp only [h, if_true, true_and]
      subst h
      exact contactsOps_w _ _ _ _ _ _ _
    · simp [h]

/-- **Last writer.** What node `i` holds in the end is the last of what is asked for: power, then the top, then the bottom. -/
theorem stack_last {minR : K} {m : SModel K} {g : Tris K} {meshes : List Mesh} {info : Nat → Nat → Option (Cell K)} {wires : List (Wire K)}
    (hx : FromMeshes m g meshes info wires) {iniT : List K} {net : Network K} (h : m.build minR iniT = .ok (some net))
    {i : Nat} {p : SPrism K} {t : K} (hp : m.prisms[i]? = some p) (ht : iniT[i]? = some t) :
    hfOf net i = ((p.base.elem.cell.power.toList.map fun w => w.2.2 t * w.1) ++ m.topAsked .heatFlux i p ++ m.botAsked .heatFlux i p).getLastD 0 ∧
    htcOf net i = (m.topAsked .htc i p ++ m.botAsked .htc i p).getLastD 0 := by
  obtain ⟨hlen, hst, hlines⟩ := fromMeshes_facts hx
  have hi : i < totalPrisms m.off := by rw [← hlen]; exact (List.getElem?_eq_some_iff.1 hp).1
  have hne : ∀ l ∈ m.lines, l.id ≠ i := by
    intro l hl
    obtain ⟨n, hn⟩ := List.mem_iff_getElem?.1 hl
    have := hlines.id n l hn
    omega
  have hv := run_values (stack_run h).2
  have helem : m.elemOps iniT i = powerOps i p.base t ++ m.restOps iniT i p t := by
    unfold SModel.elemOps; rw [hp, ht]
  constructor
  · rw [hv.1 i, hfOf_new, SModel.ops, stacked_blocks hst, List.append_nil, List.foldl_append,
      stack_range_fold (Op.hfAt i) m iniT i hi (hfAt_writes i), foldl_id _ (m.lines.flatMap _)]
    · have hpow : (powerOps i p.base t).foldl (fun b o => Op.hfAt i o b) 0 = (p.base.elem.cell.power.toList.map fun w => w.2.2 t * w.1).getLastD 0 := by
        unfold powerOps
        rcases p.base.elem.cell.power with _ | ⟨ratio, scen, lut⟩
        · rfl
        · simp [Op.hfAt]
      rw [helem, List.foldl_append, hpow, fold_hf i _ (restOps_noAddS m iniT i p t), List.append_assoc, getLastD_append]
      congr 1
      unfold SModel.restOps
      simp only [List.filterMap_append, (stack_link_quiet m iniT i i _ _).2.1, (topOps_w _ _ _ _ _).1, (botOps_w _ _ _ _ _).1]
      simp [wHF]
    · intro o ho b
      rw [List.mem_flatMap] at ho
      obtain ⟨l, hl, ho⟩ := ho
      exact (lines_quiet ho i b).1 (hne l hl)
  · rw [hv.2.1 i, htcOf_new, SModel.ops, stacked_blocks hst, List.append_nil, List.foldl_append,
      stack_range_fold (Op.htcAt i) m iniT i hi (htcAt_writes i), foldl_id _ (m.lines.flatMap _)]
    · have hpow : (powerOps i p.base t).foldl (fun b o => Op.htcAt i o b) (0 : K) = 0 := by
        unfold powerOps
        rcases p.base.elem.cell.power with _ | ⟨ratio, scen, lut⟩
        · rfl
        · simp [Op.htcAt]
      rw [helem, List.foldl_append, hpow, fold_htc i _ (restOps_noAddS m iniT i p t)]
      congr 1
      unfold SModel.restOps
      simp only [List.filterMap_append, (stack_link_quiet m iniT i i _ _).2.2, (topOps_w _ _ _ _ _).2, (botOps_w _ _ _ _ _).2]
      simp [wHTC]
    · intro o ho b
      rw [List.mem_flatMap] at ho
      obtain ⟨l, hl, ho⟩ := ho
      exact (lines_quiet ho i b).2.1

/-! ### C76 -/

theorem stack_link_sum {minR : K} {m : SModel K} {iniT : List K} {i n : Nat} {o : Option Nat} {r : SPrism K → K → K} {q : SPrism K} {t : K}
    (hq : m.prisms[n]? = some q) (ht : iniT[n]? = some t) (hi : i < n) :
    ((m.link iniT i o r).map (Op.gAt minR i n)).sum = if o = some n then 1 / max (r q t) minR else 0 := by
  unfold SModel.link
  cases o with
  | none => simp
  | some n' =>
    simp only
    by_cases hn : n' = n
    · subst hn
      rw [if_pos hi, hq, ht]
      simp [Op.gAt]
    · have hne : ¬ (some n' = some n) := by simpa using hn
      rw [if_neg hne]
      split_ifs with h1
      · split
        · simp only [List.map_cons, List.map_nil, List.sum_cons, List.sum_nil, add_zero, Op.gAt]
          rw [if_neg]
          omega
        · simp [Op.gAt]
      · simp

/-- conductance put by contacts -/
theorem contact_sum {minR : K} {m : SModel K} {iniT : List K} {i n : Nat} {p q : SPrism K} {t t' : K}
    (hq : m.prisms[n]? = some q) (ht : iniT[n]? = some t') (hi : i < n) (cs : List (Nat × K)) :
    ((cs.flatMap (m.contactOp iniT i p t)).map (Op.gAt minR i n)).sum =
      ((cs.filter fun c => c.1 = n).map fun c => 1 / max (m.contactR p q c.2 t t') minR).sum := by
  induction cs with
  | nil => rfl
  | cons c cs ih =>
    rw [List.flatMap_cons, List.map_append, List.sum_append, ih]
    by_cases hc : c.1 = n
    · rw [List.filter_cons_of_pos (by simpa using hc), List.map_cons, List.sum_cons]
      congr 1
      unfold SModel.contactOp
      rw [if_neg (by omega), hc, hq, ht]
      simp [Op.gAt]
    · rw [List.filter_cons_of_neg (by simpa using hc)]
      have : ((m.contactOp iniT i p t c).map (Op.gAt minR i n)).sum = 0 := by
        apply sum_zero
        intro o ho
        apply gAt_zero
        intro v
        rcases mem_contactOp ho with ⟨rfl, _⟩ | ⟨_, _, _, _, _, rfl⟩
        · exact ⟨by simp, by simp⟩
        · constructor
          · intro h; simp only [Res.ok.injEq, Op.r.injEq] at h; exact hc h.2.1
          · intro h; simp only [Res.ok.injEq, Op.r.injEq] at h; omega
      rw [this, zero_add]

/-- of what an instance touches in a layer, the part with number `n` -/
theorem touching_filter (g : Tris K) {ps : List (Prism K)} (p : Prism K) (l n : Nat) {q : Prism K} (hq : ps[n]? = some q) :
    (touching g ps p l).filter (fun c => c.1 = n) = if q.layer = l then (contact g p (n, q)).toList else [] := by
  unfold touching
  rw [← List.filterMap_eq_filter, List.filterMap_filterMap, zipIdx_pick _ n, hq]
  · simp only [Option.bind_some]
    split_ifs
    · cases hc : contact g p (n, q) with
      | none => rfl
      | some c =>
        unfold contact at hc
        split_ifs at hc
        simp only [Option.some.injEq] at hc
        subst hc
        simp [Option.guard]
    · rfl
  · intro x hx
    split_ifs
    · cases hc : contact g p (x.2, x.1) with
      | none => rfl
      | some c =>
        unfold contact at hc
        split_ifs at hc
        simp only [Option.some.injEq] at hc
        subst hc
        simp [Option.guard, hx]
    · rfl

theorem top_sum {minR : K} {m : SModel K} {iniT : List K} {i n : Nat} {p : SPrism K} {t : K} (bc : Option (BC K)) (f f' : K → K) :
    ((faceOps bc i f f').map (Op.gAt minR i n)).sum = 0 := by
  apply sum_zero
  intro o ho
  apply gAt_zero
  intro v
  rcases mem_faceOps ho with ⟨_, rfl⟩ | ⟨_, rfl⟩ <;> exact ⟨by simp, by simp⟩

/-- the conductance between two instances, in terms of the neighbours and contacts of the one with the lower number -/
theorem stack_conductance {minR : K} {m : SModel K} {g : Tris K} {meshes : List Mesh} {info : Nat → Nat → Option (Cell K)} {wires : List (Wire K)}
    (hx : FromMeshes m g meshes info wires) {iniT : List K} {net : Network K} (hb : m.build minR iniT = .ok (some net))
    {i n : Nat} {p q : SPrism K} {t t' : K} (hp : m.prisms[i]? = some p) (ht : iniT[i]? = some t)
    (hq : m.prisms[n]? = some q) (ht' : iniT[n]? = some t') (hi : i < n) :
    conductance net i n =
      (if p.base.edge 0 = some n then 1 / max (m.sideR p q 0 t t') minR else 0) +
      (if p.base.edge 1 = some n then 1 / max (m.sideR p q 1 t t') minR else 0) +
      (if p.base.edge 2 = some n then 1 / max (m.sideR p q 2 t t') minR else 0) +
      (if q.base.layer = p.base.layer + 1 ∧ g.meet p.base.layer p.base.elem.tri q.base.layer q.base.elem.tri = true ∧
          0 < g.overlap p.base.layer p.base.elem.tri q.base.layer q.base.elem.tri then
        1 / max (m.contactR p q (g.overlap p.base.layer p.base.elem.tri q.base.layer q.base.elem.tri / g.area p.base.layer p.base.elem.tri) t t') minR
      else 0) := by
  obtain ⟨hlen, hst, hlines⟩ := fromMeshes_facts hx
  have hip : i < totalPrisms m.off := by rw [← hlen]; exact (List.getElem?_eq_some_iff.1 hp).1
  have hnp : n < totalPrisms m.off := by rw [← hlen]; exact (List.getElem?_eq_some_iff.1 hq).1
  rw [(run_values (stack_run hb).2).2.2.2, conductance_new, zero_add, SModel.ops, stacked_blocks hst, List.append_nil, List.map_append, List.sum_append]
  have hl : ((m.lines.flatMap (m.wires.lineOps iniT)).map (Op.gAt minR i n)).sum = 0 := by
    apply sum_zero
    intro o ho
    rw [List.mem_flatMap] at ho
    obtain ⟨l, hl, ho⟩ := ho
    obtain ⟨k, hk⟩ := List.mem_iff_getElem?.1 hl
    have hid := hlines.id k l hk
    apply gAt_zero
    intro v
    constructor
    · rintro rfl
      obtain ⟨nb, _, ⟨_, h1, h2⟩ | ⟨_, _, h1, h2⟩⟩ := lineOps_r ho <;> omega
    · rintro rfl
      obtain ⟨nb, _, ⟨_, h1, h2⟩ | ⟨_, _, h1, h2⟩⟩ := lineOps_r ho <;> omega
  rw [hl, add_zero]
  have hrange : ((m.rangeOps iniT (0, totalPrisms m.off)).map (Op.gAt minR i n)).sum = ((m.elemOps iniT i).map (Op.gAt minR i n)).sum := by
    unfold SModel.rangeOps
    have hsplit : List.range' 0 (totalPrisms m.off - 0) = List.range' 0 i ++ i :: List.range' (i + 1) (totalPrisms m.off - i - 1) := by
      have : totalPrisms m.off - 0 = i + (1 + (totalPrisms m.off - i - 1)) := by omega
      rw [this, ← List.range'_append_1, ← List.range'_append_1]
      simp
    have hz : ∀ l : List Nat, (∀ j ∈ l, j ≠ i) → ((l.flatMap (m.elemOps iniT)).map (Op.gAt minR i n)).sum = 0 := by
      intro l hl
      apply sum_zero
      intro o ho
      rw [List.mem_flatMap] at ho
      obtain ⟨j, hj, ho⟩ := ho
      have hne := hl j hj
      apply gAt_zero
      intro v
      constructor
      · rintro rfl
        rcases (stack_writes ho).2 with h | h
        · cases h
        · simp only [Op.writes, Option.some.injEq] at h; omega
      · rintro rfl
        rcases (stack_writes ho).2 with h | h
        · cases h
        · simp only [Op.writes, Option.some.injEq] at h; omega
    rw [hsplit, List.flatMap_append, List.flatMap_cons, List.map_append, List.map_append, List.sum_append, List.sum_append, hz, hz]
    · rw [zero_add, add_zero]
    · intro j hj; rw [List.mem_range'_1] at hj; omega
    · intro j hj; rw [List.mem_range'_1] at hj; omega
  have hpow : ((powerOps i p.base t).map (Op.gAt minR i n)).sum = 0 := by
    unfold powerOps
    rcases p.base.elem.cell.power with _ | ⟨a, b, c⟩
    · rfl
    · simp [Op.gAt]
  have hqb : (m.prisms.map SPrism.base)[n]? = some q.base := by rw [List.getElem?_map, hq]; rfl
  have hcs : ∀ bc cs, ((m.contactsOps iniT i p t bc cs).map (Op.gAt minR i n)).sum =
      ((cs.filter fun c => c.1 = n).map fun c => 1 / max (m.contactR p q c.2 t t') minR).sum := by
    intro bc cs
    unfold SModel.contactsOps
    rw [List.map_append, List.sum_append, contact_sum hq ht' hi]
    have : ((if 0 < free cs then faceOps bc i (fun v => v * m.areaOf p * free cs) (fun v => v * m.areaOf p * free cs) else []).map (Op.gAt minR i n)).sum = 0 := by
      split_ifs
      · exact top_sum (m := m) (iniT := iniT) (p := p) (t := t) _ _ _
      · rfl
    rw [this, add_zero]
  have htop : ((m.topOps iniT i p t).map (Op.gAt minR i n)).sum = 0 := by
    unfold SModel.topOps
    rw [hst.top i p hp]
    split_ifs with h0
    · exact top_sum (m := m) (iniT := iniT) (p := p) (t := t) _ _ _
    · simp only [if_true]
      rw [hcs, hst.up i p hp, if_neg h0, touching_filter g p.base _ n hqb, if_neg]
      · rfl
      · intro hlay
        have := (hst.order i n p q hp hq).1 hi
        omega
  have hbot : ((m.botOps iniT i p t).map (Op.gAt minR i n)).sum =
      if q.base.layer = p.base.layer + 1 ∧ g.meet p.base.layer p.base.elem.tri q.base.layer q.base.elem.tri = true ∧
          0 < g.overlap p.base.layer p.base.elem.tri q.base.layer q.base.elem.tri then
        1 / max (m.contactR p q (g.overlap p.base.layer p.base.elem.tri q.base.layer q.base.elem.tri / g.area p.base.layer p.base.elem.tri) t t') minR
      else 0 := by
    unfold SModel.botOps
    rw [hst.bot i p hp]
    split_ifs with h0 h1 h1
    · exfalso
      have hc := hst.cell n q hq
      obtain ⟨mesh, hm, _⟩ := cellS_some hc
      have := (List.getElem?_eq_some_iff.1 hm).1
      omega
    · exact top_sum (m := m) (iniT := iniT) (p := p) (t := t) _ _ _
    · simp only [if_true]
      rw [hcs, hst.down i p hp, touching_filter g p.base _ n hqb, if_pos h1.1]
      unfold contact
      simp only
      rw [if_pos h1.2]
      simp
    · simp only [if_true]
      rw [hcs, hst.down i p hp, touching_filter g p.base _ n hqb]
      split_ifs with h2
      · unfold contact
        simp only
        rw [if_neg (fun h => h1 ⟨h2, h⟩)]
        rfl
      · rfl
  have helem : m.elemOps iniT i = powerOps i p.base t ++ m.restOps iniT i p t := by
    unfold SModel.elemOps; rw [hp, ht]
  rw [hrange, helem]
  unfold SModel.restOps
  simp only [List.map_append, List.sum_append, hpow, htop, hbot, stack_link_sum hq ht' hi]
  simp only [List.map_cons, List.map_nil, List.sum_cons, List.sum_nil, Op.gAt]
  ring

/-- What the geometry library is assumed to compute: areas are positive, triangles with a common area have bounding
boxes that intersect, the common area does not depend on the order and is not negative.  The model holds the areas in metres, `s` times
those in coordinate units. -/
structure Tris.Geometry (g : Tris K) (m : SModel K) (s : K) : Prop where
  area : ∀ l t, 0 < g.area l t
  meet : ∀ l t l' t', 0 < g.overlap l t l' t' → g.meet l t l' t' = true
  symm : ∀ l t l' t', g.overlap l t l' t' = g.overlap l' t' l t
  nonneg : ∀ l t l' t', 0 ≤ g.overlap l t l' t'
  scale : 0 < s
  metre : ∀ l t, m.area l t = s * g.area l t

/-- **C76.** In the network of a stackup model two elements in layers next to each other exchange heat through exactly the
area they have in common: the conductance is that of the two half layers in series over this area (limited by
the smallest resistance), and there is none if they have no area in common. Elements of layers further apart exchange none. -/
theorem c76_vertical [IsStrictOrderedRing K] {minR : K} {m : SModel K} {g : Tris K} {s : K} {meshes : List Mesh} {info : Nat → Nat → Option (Cell K)}
    {wires : List (Wire K)} (hx : FromMeshes m g meshes info wires) (hg : g.Geometry m s) {iniT : List K} {net : Network K}
    (hb : m.build minR iniT = .ok (some net)) {i j : Nat} {p q : SPrism K} {t t' : K} (hp : m.prisms[i]? = some p) (ht : iniT[i]? = some t)
    (hq : m.prisms[j]? = some q) (ht' : iniT[j]? = some t') :
    (q.base.layer = p.base.layer + 1 → conductance net i j =
      if 0 < g.overlap p.base.layer p.base.elem.tri q.base.layer q.base.elem.tri then
        1 / max ((m.height p.base.layer / 2 / m.k p.base.elem.cell.mat t 2 + m.height q.base.layer / 2 / m.k q.base.elem.cell.mat t' 2) /
          (s * g.overlap p.base.layer p.base.elem.tri q.base.layer q.base.elem.tri)) minR
      else 0) ∧
    (p.base.layer + 1 < q.base.layer → conductance net i j = 0) := by
  obtain ⟨hlen, hst, hlines⟩ := fromMeshes_facts hx
  have hedge : p.base.layer < q.base.layer → ∀ n, p.base.edge n ≠ some j := by
    intro hlt n he
    obtain ⟨q', hq', hl, _⟩ := (hst.edge i j p n hp).1 he
    rw [hq] at hq'
    simp only [Option.some.injEq] at hq'
    subst hq'
    omega
  constructor
  · intro hlay
    have hij : i < j := (hst.order i j p q hp hq).2 (.inl (by omega))
    rw [stack_conductance hx hb hp ht hq ht' hij, if_neg (hedge (by omega) 0), if_neg (hedge (by omega) 1), if_neg (hedge (by omega) 2),
      add_zero, add_zero, zero_add]
    by_cases ho : 0 < g.overlap p.base.layer p.base.elem.tri q.base.layer q.base.elem.tri
    · rw [if_pos ⟨hlay, hg.meet _ _ _ _ ho, ho⟩, if_pos ho]
      have e : m.areaOf p * (g.overlap p.base.layer p.base.elem.tri q.base.layer q.base.elem.tri / g.area p.base.layer p.base.elem.tri) =
          s * g.overlap p.base.layer p.base.elem.tri q.base.layer q.base.elem.tri := by
        unfold SModel.areaOf
        rw [hg.metre]
        have := (hg.area p.base.layer p.base.elem.tri).ne'
        field_simp
      unfold SModel.contactR
      rw [e, one_div_mul_eq_div, one_div_mul_eq_div]
    · rw [if_neg (fun h => ho h.2.2), if_neg ho]
  · intro hlay
    have hij : i < j := (hst.order i j p q hp hq).2 (.inl (by omega))
    rw [stack_conductance hx hb hp ht hq ht' hij, if_neg (hedge (by omega) 0), if_neg (hedge (by omega) 1), if_neg (hedge (by omega) 2),
      add_zero, add_zero, zero_add, if_neg]
    rintro ⟨h, _⟩
    omega

theorem conductance_comm (net : Network K) (a b : Nat) : conductance net a b = conductance net b a := by
  unfold conductance
  rw [Nat.min_comm, Nat.max_comm]

/-- **C76, connections.** Two elements are connected exactly if they are neighbours in the mesh of their layer, or in layers next to
each other with an area in common. -/
theorem c76_connected [IsStrictOrderedRing K] {minR : K} (hm : 0 < minR) {m : SModel K} {g : Tris K} {s : K} {meshes : List Mesh}
    {info : Nat → Nat → Option (Cell K)} {wires : List (Wire K)} (hx : FromMeshes m g meshes info wires) (hg : g.Geometry m s)
    (hmut : ∀ mesh ∈ meshes, Mutual mesh) {iniT : List K} {net : Network K}
    (hb : m.build minR iniT = .ok (some net)) {i j : Nat} {p q : SPrism K} (hp : m.prisms[i]? = some p) (hq : m.prisms[j]? = some q)
    (hne : i ≠ j) :
    conductance net i j ≠ 0 ↔ (p.base.layer = q.base.layer ∧ ∃ n, nbS meshes p.base.layer p.base.elem.tri n = some q.base.elem.tri) ∨
      ((q.base.layer = p.base.layer + 1 ∨ p.base.layer = q.base.layer + 1) ∧
        0 < g.overlap p.base.layer p.base.elem.tri q.base.layer q.base.elem.tri) := by
  obtain ⟨hlen, hst, hlines⟩ := fromMeshes_facts hx
  have hini : ∀ {k : Nat} {r : SPrism K}, m.prisms[k]? = some r → ∃ t, iniT[k]? = some t := by
    intro k r hr
    have := (List.getElem?_eq_some_iff.1 hr).1
    have hl := (stack_run hb).1
    rw [SModel.total] at hl
    exact ⟨_, List.getElem?_eq_getElem (by omega)⟩
  have pos : ∀ v : K, 0 < 1 / max v minR := by
    intro v
    have : 0 < max v minR := lt_of_lt_of_le hm (le_max_right _ _)
    positivity
  have hnbm : ∀ {l t t' : Nat}, (∃ n, nbS meshes l t n = some t') → ∃ n, nbS meshes l t' n = some t := by
    rintro l t t' ⟨n, hn⟩
    unfold nbS at hn ⊢
    cases hmesh : meshes[l]? with
    | none => rw [hmesh] at hn; simp at hn
    | some mesh =>
      rw [hmesh, Option.bind_some] at hn
      simp only [Option.bind_some]
      exact hmut mesh (List.mem_of_getElem? hmesh) t n t' hn
  have key : ∀ {i j : Nat} {p q : SPrism K}, m.prisms[i]? = some p → m.prisms[j]? = some q → i < j →
      (conductance net i j ≠ 0 ↔ (p.base.layer = q.base.layer ∧ ∃ n, nbS meshes p.base.layer p.base.elem.tri n = some q.base.elem.tri) ∨
        (q.base.layer = p.base.layer + 1 ∧ 0 < g.overlap p.base.layer p.base.elem.tri q.base.layer q.base.elem.tri)) := by
    intro i j p q hp hq hij
    obtain ⟨t, ht⟩ := hini hp
    obtain ⟨t', ht'⟩ := hini hq
    rw [stack_conductance hx hb hp ht hq ht' hij]
    have hn0 : ∀ (n : Fin 3) (v : K), 0 ≤ if p.base.edge n = some j then 1 / max v minR else 0 := by
      intro n v; split_ifs
      · exact (pos v).le
      · exact le_refl _
    have he : ∀ n, p.base.edge n = some j ↔ p.base.layer = q.base.layer ∧ nbS meshes p.base.layer p.base.elem.tri n = some q.base.elem.tri := by
      intro n
      rw [hst.edge i j p n hp]
      constructor
      · rintro ⟨q', hq', h1, h2⟩
        rw [hq] at hq'
        simp only [Option.some.injEq] at hq'
        subst hq'
        exact ⟨h1.symm, h2⟩
      · rintro ⟨h1, h2⟩; exact ⟨q, hq, h1.symm, h2⟩
    have hc0 : 0 ≤ (if q.base.layer = p.base.layer + 1 ∧ g.meet p.base.layer p.base.elem.tri q.base.layer q.base.elem.tri = true ∧
          0 < g.overlap p.base.layer p.base.elem.tri q.base.layer q.base.elem.tri then
        1 / max (m.contactR p q (g.overlap p.base.layer p.base.elem.tri q.base.layer q.base.elem.tri / g.area p.base.layer p.base.elem.tri) t t') minR
      else 0) := by
      split_ifs
      · exact (pos _).le
      · exact le_refl _
    have h0 := hn0 0 (m.sideR p q 0 t t')
    have h1 := hn0 1 (m.sideR p q 1 t t')
    have h2 := hn0 2 (m.sideR p q 2 t t')
    constructor
    · intro hne
      by_contra hno
      rw [not_or] at hno
      apply hne
      have hen : ∀ n, p.base.edge n ≠ some j := fun n h => hno.1 ⟨((he n).1 h).1, n, ((he n).1 h).2⟩
      rw [if_neg (hen 0), if_neg (hen 1), if_neg (hen 2), if_neg (fun h => hno.2 ⟨h.1, h.2.2⟩)]
      simp
    · rintro (⟨hl, n, hn⟩ | ⟨hl, ho⟩)
      · have hen := (he n).2 ⟨hl, hn⟩
        match n, hen with
        | 0, hen => rw [if_pos hen] at *; have := pos (m.sideR p q 0 t t'); exact (by linarith : (0 : K) < _).ne'
        | 1, hen => rw [if_pos hen] at *; have := pos (m.sideR p q 1 t t'); exact (by linarith : (0 : K) < _).ne'
        | 2, hen => rw [if_pos hen] at *; have := pos (m.sideR p q 2 t t'); exact (by linarith : (0 : K) < _).ne'
      · have hc : q.base.layer = p.base.layer + 1 ∧ g.meet p.base.layer p.base.elem.tri q.base.layer q.base.elem.tri = true ∧
            0 < g.overlap p.base.layer p.base.elem.tri q.base.layer q.base.elem.tri := ⟨hl, hg.meet _ _ _ _ ho, ho⟩
        rw [if_pos hc]
        have := pos (m.contactR p q (g.overlap p.base.layer p.base.elem.tri q.base.layer q.base.elem.tri / g.area p.base.layer p.base.elem.tri) t t')
        exact (by linarith : (0 : K) < _).ne'
  rcases Nat.lt_or_gt_of_ne hne with hij | hij
  · rw [key hp hq hij]
    constructor
    · rintro (h | ⟨h1, h2⟩)
      · exact .inl h
      · exact .inr ⟨.inl h1, h2⟩
    · rintro (h | ⟨h1 | h1, h2⟩)
      · exact .inl h
      · exact .inr ⟨h1, h2⟩
      · have := (hst.order i j p q hp hq).1 hij; omega
  · rw [conductance_comm, key hq hp hij]
    constructor
    · rintro (⟨h1, h2⟩ | ⟨h1, h2⟩)
      · exact .inl ⟨h1.symm, by rw [← h1]; exact hnbm h2⟩
      · exact .inr ⟨.inr h1, by rw [hg.symm]; exact h2⟩
    · rintro (⟨h1, h2⟩ | ⟨h1 | h1, h2⟩)
      · exact .inl ⟨h1.symm, by rw [← h1]; exact hnbm h2⟩
      · have := (hst.order j i q p hq hp).1 hij; omega
      · exact .inr ⟨h1, by rw [hg.symm]; exact h2⟩

/-! ### C77 -/

omit [LinearOrder K] in
theorem free_eq (cs : List (Nat × K)) : free cs = 1 - (cs.map Prod.snd).sum := by
  have key : ∀ (cs : List (Nat × K)) (a : K), cs.foldl (fun r c => r - c.2) a = a - (cs.map Prod.snd).sum := by
    intro cs
    induction cs with
    | nil => intro a; simp
    | cons c cs ih => intro a; rw [List.foldl_cons, ih, List.map_cons, List.sum_cons]; ring
  exact key cs 1

/-- the area of the triangle of `p` that prisms of layer `l` cover -/
def covered (g : Tris K) (ps : List (SPrism K)) (p : SPrism K) (l : Nat) : K :=
  (ps.map fun q => if q.base.layer = l then g.overlap p.base.layer p.base.elem.tri l q.base.elem.tri else 0).sum

/-- the area of the triangle of `p` that nothing in the layer above covers -/
def bareTop (g : Tris K) (ps : List (SPrism K)) (p : SPrism K) : K :=
  g.area p.base.layer p.base.elem.tri - if p.base.layer = 0 then 0 else covered g ps p (p.base.layer - 1)

/-- the area of the triangle of `p` that nothing in the layer below covers -/
def bareBot (g : Tris K) (ps : List (SPrism K)) (p : SPrism K) : K :=
  g.area p.base.layer p.base.elem.tri - covered g ps p (p.base.layer + 1)

theorem touching_sum [IsStrictOrderedRing K] {m : SModel K} {g : Tris K} {s : K} (hg : g.Geometry m s) (ps : List (SPrism K)) (p : SPrism K) (l : Nat) :
    ((touching g (ps.map SPrism.base) p.base l).map Prod.snd).sum = covered g ps p l / g.area p.base.layer p.base.elem.tri := by
  have key : ∀ (xs : List (Prism K)) (k : Nat),
      (((xs.zipIdx k).filterMap fun q => if q.1.layer = l then contact g p.base (q.2, q.1) else none).map Prod.snd).sum =
      (xs.map fun q => if q.layer = l then g.overlap p.base.layer p.base.elem.tri l q.elem.tri else 0).sum / g.area p.base.layer p.base.elem.tri := by
    intro xs
    induction xs with
    | nil => intro k; simp
    | cons x xs ih =>
      intro k
      rw [List.zipIdx_cons, List.map_cons, List.sum_cons, add_div, ← ih (k + 1), List.filterMap_cons]
      by_cases hl : x.layer = l
      · simp only [hl, if_true]
        unfold contact
        simp only
        by_cases ho : 0 < g.overlap p.base.layer p.base.elem.tri x.layer x.elem.tri
        · rw [if_pos ⟨hg.meet _ _ _ _ ho, ho⟩, hl]
          simp
        · rw [if_neg (fun h => ho h.2)]
          have h0 : g.overlap p.base.layer p.base.elem.tri x.layer x.elem.tri = 0 := le_antisymm (not_lt.1 ho) (hg.nonneg _ _ _ _)
          rw [hl] at h0
          simp [h0]
      · simp [hl]
  unfold touching covered
  rw [key, List.map_map]
  rfl

/-- the exposed areas, in metres, are what the network builder computes from the contacts -/
theorem free_bare [IsStrictOrderedRing K] {m : SModel K} {g : Tris K} {s : K} {meshes : List Mesh} {info : Nat → Nat → Option (Cell K)}
    (hst : Stacked g meshes info m.prisms) (hg : g.Geometry m s) {i : Nat} {p : SPrism K} (hp : m.prisms[i]? = some p) :
    m.areaOf p * free p.up = s * bareTop g m.prisms p ∧ m.areaOf p * free p.down = s * bareBot g m.prisms p := by
  have ha := (hg.area p.base.layer p.base.elem.tri).ne'
  unfold SModel.areaOf
  rw [hg.metre, free_eq, free_eq, hst.up i p hp, hst.down i p hp, touching_sum hg]
  unfold bareTop bareBot
  constructor
  · split_ifs
    · simp
    · rw [touching_sum hg]; field_simp
  · field_simp

theorem cover_none {g : Tris K} {ps : List (SPrism K)} {p : SPrism K} {l : Nat} (h : ∀ q ∈ ps, q.base.layer ≠ l) : covered g ps p l = 0 := by
  unfold covered
  apply List.sum_eq_zero
  intro x hx
  rw [List.mem_map] at hx
  obtain ⟨q, hq, rfl⟩ := hx
  rw [if_neg (h q hq)]

/-- a boundary condition of this type is given and there is an exposed area -/
def Acts (ty : BCType) (bc : Option (BC K)) (a : K) : Prop := 0 < a ∧ ∃ v, bc = some ⟨ty, some v⟩

/-- what a boundary condition contributes on an exposed area -/
def share (ty : BCType) (bc : Option (BC K)) (a : K) : K :=
  match bc with
  | some ⟨ty', some v⟩ => if ty' = ty ∧ 0 < a then v * a else 0
  | _ => 0

theorem asked_share {ty : BCType} {bc : Option (BC K)} {a : K} (h : Acts ty bc a) : asked ty bc (fun v => v * a) = [share ty bc a] := by
  obtain ⟨h1, v, rfl⟩ := h
  simp [asked, share, h1]

theorem asked_none {ty : BCType} {bc : Option (BC K)} {a : K} {f : K → K} (ha : 0 < a) (h : ¬ Acts ty bc a) : asked ty bc f = [] ∧ share ty bc a = 0 := by
  unfold asked share
  rcases bc with _ | ⟨ty', _ | v⟩
  · exact ⟨rfl, rfl⟩
  · exact ⟨rfl, rfl⟩
  · have : ty' ≠ ty := by
      rintro rfl
      exact h ⟨ha, v, rfl⟩
    simp [this]

theorem share_neg {ty : BCType} {bc : Option (BC K)} {a : K} (ha : ¬ 0 < a) : share ty bc a = 0 := by
  unfold share
  rcases bc with _ | ⟨ty', _ | v⟩
  · rfl
  · rfl
  · simp [ha]

/-- what is asked for on the top is the share of the exposed area -/
theorem topAsked_eq [IsStrictOrderedRing K] {m : SModel K} {g : Tris K} {s : K} {meshes : List Mesh} {info : Nat → Nat → Option (Cell K)}
    (hst : Stacked g meshes info m.prisms) (hg : g.Geometry m s) {i : Nat} {p : SPrism K} (hp : m.prisms[i]? = some p) (ty : BCType) :
    m.topAsked ty i p = if 0 < s * bareTop g m.prisms p then asked ty m.topBC (fun v => v * (s * bareTop g m.prisms p)) else [] := by
  have ha := hg.area p.base.layer p.base.elem.tri
  have hA : 0 < m.areaOf p := by unfold SModel.areaOf; rw [hg.metre]; exact mul_pos hg.scale ha
  rw [← (free_bare hst hg hp).1]
  unfold SModel.topAsked
  rw [hst.top i p hp]
  by_cases h0 : p.base.layer = 0
  · rw [if_pos h0, hst.up i p hp, if_pos h0]
    simp [free, hA]
  · rw [if_neg h0]
    simp only [true_and, mul_assoc]
    by_cases hf : 0 < free p.up
    · rw [if_pos hf, if_pos (mul_pos hA hf)]
    · rw [if_neg hf, if_neg]
      intro h
      exact hf ((mul_pos_iff_of_pos_left hA).1 h)

theorem botAsked_eq [IsStrictOrderedRing K] {m : SModel K} {g : Tris K} {s : K} {meshes : List Mesh} {info : Nat → Nat → Option (Cell K)}
    (hst : Stacked g meshes info m.prisms) (hg : g.Geometry m s) {i : Nat} {p : SPrism K} (hp : m.prisms[i]? = some p) (ty : BCType)
    (h : ty = .htc ∨ p.base.layer + 1 ≠ meshes.length) :
    m.botAsked ty i p = if 0 < s * bareBot g m.prisms p then asked ty m.botBC (fun v => v * (s * bareBot g m.prisms p)) else [] := by
  have ha := hg.area p.base.layer p.base.elem.tri
  have hA : 0 < m.areaOf p := by unfold SModel.areaOf; rw [hg.metre]; exact mul_pos hg.scale ha
  rw [← (free_bare hst hg hp).2]
  unfold SModel.botAsked
  rw [hst.bot i p hp]
  by_cases h0 : p.base.layer + 1 = meshes.length
  · rw [if_pos h0]
    have hf : free p.down = 1 := by
      have := (free_bare hst hg hp).2
      unfold bareBot at this
      rw [cover_none, sub_zero] at this
      · unfold SModel.areaOf at this
        rw [hg.metre] at this
        have hne : s * g.area p.base.layer p.base.elem.tri ≠ 0 := (mul_pos hg.scale ha).ne'
        exact mul_left_cancel₀ hne (by rw [this, mul_one])
      · intro q hq hl
        obtain ⟨j, hj⟩ := List.mem_iff_getElem?.1 hq
        obtain ⟨mesh, hm, _⟩ := cellS_some (hst.cell j q hj)
        have := (List.getElem?_eq_some_iff.1 hm).1
        omega
    have hty : ty = .htc := h.resolve_right (fun h => h h0)
    subst hty
    simp [hf, hA]
  · rw [if_neg h0]
    simp only [true_and, mul_assoc]
    by_cases hf : 0 < free p.down
    · rw [if_pos hf, if_pos (mul_pos hA hf)]
    · rw [if_neg hf, if_neg]
      intro h
      exact hf ((mul_pos_iff_of_pos_left hA).1 h)

theorem side_asked {ty : BCType} {bc : Option (BC K)} {a : K} :
    ((if 0 < a then asked ty bc (fun v => v * a) else []) = [share ty bc a] ∧ Acts ty bc a) ∨
    ((if 0 < a then asked ty bc (fun v => v * a) else []) = [] ∧ share ty bc a = 0 ∧ ¬ Acts ty bc a) := by
  by_cases ha : 0 < a
  · rw [if_pos ha]
    by_cases h : Acts ty bc a
    · exact .inl ⟨asked_share h, h⟩
    · exact .inr ⟨(asked_none ha h).1, (asked_none (f := id) ha h).2, h⟩
  · rw [if_neg ha]
    exact .inr ⟨rfl, share_neg ha, fun h => ha h.1⟩

/-- **C77, transfer coefficients** (partial).  For every element of a stackup model on which not both sides are exposed to a
transfer coefficient, the node gets the coefficients times the exposed areas.  Missing: both sides (`c77_both_refuted`), and
coefficients of blocks (`c77_blocks_refuted`). -/
theorem c77_htc_partial [IsStrictOrderedRing K] {minR : K} {m : SModel K} {g : Tris K} {s : K} {meshes : List Mesh} {info : Nat → Nat → Option (Cell K)}
    {wires : List (Wire K)} (hx : FromMeshes m g meshes info wires) (hg : g.Geometry m s) {iniT : List K} {net : Network K}
    (hb : m.build minR iniT = .ok (some net)) {i : Nat} {p : SPrism K} (hp : m.prisms[i]? = some p)
    (h1 : ¬ (Acts .htc m.topBC (s * bareTop g m.prisms p) ∧ Acts .htc m.botBC (s * bareBot g m.prisms p))) :
    htcOf net i = share .htc m.topBC (s * bareTop g m.prisms p) + share .htc m.botBC (s * bareBot g m.prisms p) := by
  obtain ⟨hlen, hst, hlines⟩ := fromMeshes_facts hx
  have hi := (List.getElem?_eq_some_iff.1 hp).1
  have hl := (stack_run hb).1
  obtain ⟨t, ht⟩ : ∃ t, iniT[i]? = some t := ⟨_, List.getElem?_eq_getElem (by rw [hl, SModel.total]; omega)⟩
  rw [(stack_last hx hb hp ht).2, topAsked_eq hst hg hp, botAsked_eq hst hg hp _ (.inl rfl)]
  rcases side_asked (ty := .htc) (bc := m.topBC) (a := s * bareTop g m.prisms p) with ⟨e1, a1⟩ | ⟨e1, z1, a1⟩ <;>
    rcases side_asked (ty := .htc) (bc := m.botBC) (a := s * bareBot g m.prisms p) with ⟨e2, a2⟩ | ⟨e2, z2, a2⟩ <;> rw [e1, e2]
  · exact absurd ⟨a1, a2⟩ h1
  · simp [z2]
  · simp [z1]
  · simp [z1, z2]

/-- **C77, transfer coefficients, refuted.** An element exposed on both sides gets only what belongs to the bottom. -/
theorem c77_both_refuted [IsStrictOrderedRing K] {minR : K} {m : SModel K} {g : Tris K} {s : K} {meshes : List Mesh} {info : Nat → Nat → Option (Cell K)}
    {wires : List (Wire K)} (hx : FromMeshes m g meshes info wires) (hg : g.Geometry m s) {iniT : List K} {net : Network K}
    (hb : m.build minR iniT = .ok (some net)) {i : Nat} {p : SPrism K} (hp : m.prisms[i]? = some p)
    (h1 : Acts .htc m.topBC (s * bareTop g m.prisms p)) (h2 : Acts .htc m.botBC (s * bareBot g m.prisms p)) :
    htcOf net i = share .htc m.botBC (s * bareBot g m.prisms p) := by
  obtain ⟨hlen, hst, hlines⟩ := fromMeshes_facts hx
  have hi := (List.getElem?_eq_some_iff.1 hp).1
  have hl := (stack_run hb).1
  obtain ⟨t, ht⟩ : ∃ t, iniT[i]? = some t := ⟨_, List.getElem?_eq_getElem (by rw [hl, SModel.total]; omega)⟩
  rw [(stack_last hx hb hp ht).2, topAsked_eq hst hg hp, botAsked_eq hst hg hp _ (.inl rfl), if_pos h2.1, asked_share h2]
  simp

/-- the power of an element -/
def powerOf (p : SPrism K) (t : K) : K :=
  match p.base.elem.cell.power with
  | none => 0
  | some w => w.2.2 t * w.1

/-- **C77, heat flux** (partial).  If at most one of power, flux on the top and flux on the bottom acts on an element, and it is not the flux
on the bottom of the last layer, then the heat flow of the node is the sum of the power and the fluxes times the exposed areas.
Missing: `c77_power_refuted`, `c77_last_refuted`, `c77_blocks_refuted`. -/
theorem c77_flux_partial [IsStrictOrderedRing K] {minR : K} {m : SModel K} {g : Tris K} {s : K} {meshes : List Mesh} {info : Nat → Nat → Option (Cell K)}
    {wires : List (Wire K)} (hx : FromMeshes m g meshes info wires) (hg : g.Geometry m s) {iniT : List K} {net : Network K}
    (hb : m.build minR iniT = .ok (some net)) {i : Nat} {p : SPrism K} {t : K} (hp : m.prisms[i]? = some p) (ht : iniT[i]? = some t)
    (h1 : ¬ (Acts .heatFlux m.topBC (s * bareTop g m.prisms p) ∧ Acts .heatFlux m.botBC (s * bareBot g m.prisms p)))
    (h2 : p.base.elem.cell.power = none ∨
      ¬ Acts .heatFlux m.topBC (s * bareTop g m.prisms p) ∧ ¬ Acts .heatFlux m.botBC (s * bareBot g m.prisms p))
    (h3 : p.base.layer + 1 ≠ meshes.length ∨ ¬ Acts .heatFlux m.botBC (s * bareBot g m.prisms p)) :
    hfOf net i = powerOf p t + share .heatFlux m.topBC (s * bareTop g m.prisms p) + share .heatFlux m.botBC (s * bareBot g m.prisms p) := by
  obtain ⟨hlen, hst, hlines⟩ := fromMeshes_facts hx
  rw [(stack_last hx hb hp ht).1, topAsked_eq hst hg hp]
  have hbot : m.botAsked .heatFlux i p = if 0 < s * bareBot g m.prisms p then asked .heatFlux m.botBC (fun v => v * (s * bareBot g m.prisms p)) else [] := by
    by_cases hl : p.base.layer + 1 = meshes.length
    · have hna := h3.resolve_left (fun h => h hl)
      have ha : 0 < s * bareBot g m.prisms p := by
        unfold bareBot
        rw [cover_none, sub_zero]
        · exact mul_pos hg.scale (hg.area _ _)
        · intro q hq hl'
          obtain ⟨j, hj⟩ := List.mem_iff_getElem?.1 hq
          obtain ⟨mesh, hm, _⟩ := cellS_some (hst.cell j q hj)
          have := (List.getElem?_eq_some_iff.1 hm).1
          omega
      unfold SModel.botAsked
      rw [hst.bot i p hp, if_pos hl, if_pos ha]
      simp only
      rw [(asked_none ha hna).1, (asked_none ha hna).1]
    · exact botAsked_eq hst hg hp _ (.inr hl)
  rw [hbot]
  unfold powerOf
  rcases side_asked (ty := .heatFlux) (bc := m.topBC) (a := s * bareTop g m.prisms p) with ⟨e1, a1⟩ | ⟨e1, z1, a1⟩ <;>
    rcases side_asked (ty := .heatFlux) (bc := m.botBC) (a := s * bareBot g m.prisms p) with ⟨e2, a2⟩ | ⟨e2, z2, a2⟩ <;> rw [e1, e2]
  · exact absurd ⟨a1, a2⟩ h1
  · have := h2.resolve_right (fun h => h.1 a1)
    simp [z2, this]
  · have := h2.resolve_right (fun h => h.2 a2)
    simp [z1, this]
  · rw [z1, z2]
    cases p.base.elem.cell.power <;> simp

/-- **C77, heat flux, refuted.** A flux on an element replaces its power. -/
theorem c77_power_refuted [IsStrictOrderedRing K] {minR : K} {m : SModel K} {g : Tris K} {s : K} {meshes : List Mesh} {info : Nat → Nat → Option (Cell K)}
    {wires : List (Wire K)} (hx : FromMeshes m g meshes info wires) (hg : g.Geometry m s) {iniT : List K} {net : Network K}
    (hb : m.build minR iniT = .ok (some net)) {i : Nat} {p : SPrism K} {t : K} (hp : m.prisms[i]? = some p) (ht : iniT[i]? = some t)
    (h1 : Acts .heatFlux m.topBC (s * bareTop g m.prisms p)) (h2 : ∀ v, m.botBC ≠ some ⟨.heatFlux, some v⟩) :
    hfOf net i = share .heatFlux m.topBC (s * bareTop g m.prisms p) := by
  obtain ⟨hlen, hst, hlines⟩ := fromMeshes_facts hx
  have hbot : m.botAsked .heatFlux i p = [] := by
    have : ∀ f, asked .heatFlux m.botBC f = [] := by
      intro f
      unfold asked
      rcases hbc : m.botBC with _ | ⟨ty', _ | v⟩
      · rfl
      · rfl
      · simp only
        rw [if_neg]
        rintro rfl
        exact h2 v hbc
    unfold SModel.botAsked
    cases p.base.bot with
    | none => exact this _
    | some n => simp only [this, ite_self]
  rw [(stack_last hx hb hp ht).1, topAsked_eq hst hg hp, hbot, if_pos h1.1, asked_share h1]
  simp

/-- **C77, heat flux, refuted.** On the bottom of the last layer the flux is taken as the heat flow of each element, whatever its area. -/
theorem c77_last_refuted {minR : K} {m : SModel K} {g : Tris K} {meshes : List Mesh} {info : Nat → Nat → Option (Cell K)}
    {wires : List (Wire K)} (hx : FromMeshes m g meshes info wires) {iniT : List K} {net : Network K}
    (hb : m.build minR iniT = .ok (some net)) {i : Nat} {p : SPrism K} {v : K} (hp : m.prisms[i]? = some p)
    (hl : p.base.layer + 1 = meshes.length) (hv : m.botBC = some ⟨.heatFlux, some v⟩) : hfOf net i = v := by
  obtain ⟨hlen, hst, hlines⟩ := fromMeshes_facts hx
  have hi := (List.getElem?_eq_some_iff.1 hp).1
  have hL := (stack_run hb).1
  obtain ⟨t, ht⟩ : ∃ t, iniT[i]? = some t := ⟨_, List.getElem?_eq_getElem (by rw [hL, SModel.total]; omega)⟩
  have hbot : m.botAsked .heatFlux i p = [v] := by
    unfold SModel.botAsked
    rw [hst.bot i p hp, if_pos hl, hv]
    simp [asked]
  rw [(stack_last hx hb hp ht).1, hbot]
  simp

/-- **C77, blocks, refuted.** Boundary conditions of blocks have no influence on the network of a stackup model. -/
theorem c77_blocks_refuted {m : SModel K} {g : Tris K} {meshes : List Mesh} {info : Nat → Nat → Option (Cell K)}
    {wires : List (Wire K)} (hx : FromMeshes m g meshes info wires) (minR : K) (iniT : List K) (tb bb : List (BC K × K × (Nat → Nat → Bool))) :
    ({ m with topBlocks := tb, botBlocks := bb } : SModel K).build minR iniT = m.build minR iniT := by
  obtain ⟨hlen, hst, hlines⟩ := fromMeshes_facts hx
  have h1 := stacked_blocks (m := m) hst
  have h2 := stacked_blocks (m := { m with topBlocks := tb, botBlocks := bb }) (g := g) (meshes := meshes) (info := info) hst
  unfold SModel.build SModel.ops
  rw [h1, h2]
  rfl

/-! ### C78 -/

theorem stack_fits {m : SModel K} {g : Tris K} {meshes : List Mesh} {info : Nat → Nat → Option (Cell K)}
    {wires : List (Wire K)} (hx : FromMeshes m g meshes info wires) {iniT : List K} (hl : iniT.length = m.total) :
    ∀ o ∈ m.ops iniT, Op.Fits m.total o ∧ Op.upper o < m.total ∧ Op.nodes o = 0 := by
  obtain ⟨hlen, hst, hlines⟩ := fromMeshes_facts hx
  have htot : totalPrisms m.off ≤ m.total := by rw [SModel.total]; omega
  have hini : ∀ {n : Nat}, n < m.total → iniT[n]? ≠ none := by
    intro n hn h
    rw [List.getElem?_eq_none_iff] at h
    omega
  intro o ho
  rw [SModel.ops, stacked_blocks hst, List.append_nil, List.mem_append] at ho
  rcases ho with ho | ho
  · unfold SModel.rangeOps at ho
    rw [List.mem_flatMap] at ho
    obtain ⟨i, hi, ho⟩ := ho
    rw [List.mem_range'_1] at hi
    have hi' : i < totalPrisms m.off := by simpa using hi.2
    have hit : i < m.total := by omega
    have hp : m.prisms[i]? = some m.prisms[i] := List.getElem?_eq_getElem (by omega)
    have ht : iniT[i]? = some iniT[i] := List.getElem?_eq_getElem (by omega)
    refine (fun h => ⟨h.1, h.2, (stack_writes ho).1⟩ : Op.Fits m.total o ∧ Op.upper o < m.total → _) ?_
    have hp0 : 0 < m.total := by omega
    rcases mem_stackElem hp ht ho with ⟨v, rfl⟩ | ⟨v, rfl⟩ | ⟨v, rfl⟩ | ⟨v, rfl⟩ | ⟨v, rfl⟩ | ⟨n, h⟩ | ⟨c, hc, h⟩
    · exact ⟨hit, hp0⟩
    · exact ⟨hit, hp0⟩
    · exact ⟨hit, hp0⟩
    · exact ⟨hit, hp0⟩
    · exact ⟨hit, hp0⟩
    · rcases stack_mem_link h with ⟨rfl, n', hn', hh⟩ | ⟨n', q, t, hn', hlt, hq, _, rfl⟩
      · exfalso
        obtain ⟨q, hq, _⟩ := (hst.edge i n' _ n hp).1 hn'
        have := (List.getElem?_eq_some_iff.1 hq).1
        rcases hh with hh | hh
        · rw [hq] at hh; cases hh
        · exact hini (by omega) hh
      · have := (List.getElem?_eq_some_iff.1 hq).1
        simp only [Op.Fits, Op.upper]; omega
    · have hcq : ∃ q, m.prisms[c.1]? = some q := by
        have key : ∀ l, c ∈ touching g (m.prisms.map SPrism.base) (m.prisms[i]).base l → ∃ q, m.prisms[c.1]? = some q := by
          intro l hcl
          unfold touching at hcl
          rw [List.mem_filterMap] at hcl
          obtain ⟨⟨q, j⟩, hq, hcc⟩ := hcl
          rw [List.mem_zipIdx_iff_getElem?] at hq
          split_ifs at hcc
          unfold contact at hcc
          split_ifs at hcc
          simp only [Option.some.injEq] at hcc
          subst hcc
          have := (List.getElem?_eq_some_iff.1 hq).1
          rw [List.length_map] at this
          exact ⟨_, List.getElem?_eq_getElem this⟩
        rcases hc with hc | hc
        · rw [hst.up i _ hp] at hc
          split_ifs at hc
          · simp at hc
          · exact key _ hc
        · rw [hst.down i _ hp] at hc
          exact key _ hc
      obtain ⟨q, hq⟩ := hcq
      have hlt := (List.getElem?_eq_some_iff.1 hq).1
      rcases mem_contactOp h with ⟨rfl, hh⟩ | ⟨q', tq, hle, _, _, rfl⟩
      · exfalso
        rcases hh with hh | hh
        · rw [hq] at hh; cases hh
        · exact hini (by omega) hh
      · simp only [Op.Fits, Op.upper]; omega
  · exact lineOps_fits (m := m.wires) hlines hl ho

/-- **C78, success.** From every stackup model and every vector of temperatures of the right size a network is built, with
one node per element. -/
theorem c78_builds {m : SModel K} {g : Tris K} {meshes : List Mesh} {info : Nat → Nat → Option (Cell K)}
    {wires : List (Wire K)} (hx : FromMeshes m g meshes info wires) (minR : K) {iniT : List K} (hl : iniT.length = m.total) :
    ∃ net, m.build minR iniT = .ok (some net) ∧ net.length = m.total := by
  obtain ⟨net, hr⟩ := (run_safe (minR := minR) (m.ops iniT) (net := Network.new noScen m.total)).2
    (safe_of_fits fun o ho => by rw [length_new]; exact (stack_fits hx hl o ho).1)
  refine ⟨net, ?_, ?_⟩
  · unfold SModel.build
    rw [if_neg (by simpa using hl), hr]
    rfl
  · rw [run_length _ hr, length_new]
    have : nodesOf (m.ops iniT) = 0 := by
      unfold nodesOf
      apply List.sum_eq_zero
      intro x hx'
      rw [List.mem_map] at hx'
      obtain ⟨o, ho, rfl⟩ := hx'
      exact (stack_fits hx hl o ho).2.2
    omega

/-- segments of wires have no transfer coefficient -/
theorem stack_line_htc {minR : K} {m : SModel K} {g : Tris K} {meshes : List Mesh} {info : Nat → Nat → Option (Cell K)}
    {wires : List (Wire K)} (hx : FromMeshes m g meshes info wires) {iniT : List K} {net : Network K} (h : m.build minR iniT = .ok (some net))
    {i : Nat} (hi : totalPrisms m.off ≤ i) : htcOf net i = 0 := by
  obtain ⟨hlen, hst, hlines⟩ := fromMeshes_facts hx
  rw [(run_values (stack_run h).2).2.1 i, htcOf_new, SModel.ops, stacked_blocks hst, List.append_nil, foldl_id]
  intro o ho b
  rw [List.mem_append] at ho
  rcases ho with ho | ho
  · unfold SModel.rangeOps at ho
    rw [List.mem_flatMap] at ho
    obtain ⟨j, hj, ho⟩ := ho
    rw [List.mem_range'_1] at hj
    apply htcAt_writes
    rcases (stack_writes ho).2 with rfl | hw
    · simp [Op.writes]
    · rw [hw]
      intro he
      simp only [Option.some.injEq] at he
      omega
  · rw [List.mem_flatMap] at ho
    obtain ⟨l, hl, ho⟩ := ho
    exact (lines_quiet ho i b).2.1

/-- The model is cooled: the transfer coefficients given are positive, and there is one on the top or the bottom. -/
structure SModel.Cooled (m : SModel K) : Prop where
  positive : ∀ bc, (m.topBC = some bc ∨ m.botBC = some bc) → bc.type = .htc → ∀ v, bc.value = some v → 0 < v
  uniform : (∃ v, m.topBC = some ⟨.htc, some v⟩) ∨ ∃ v, m.botBC = some ⟨.htc, some v⟩

theorem share_pos [IsStrictOrderedRing K] {bc : Option (BC K)} {a : K} (h : ∀ b, bc = some b → b.type = .htc → ∀ v, b.value = some v → 0 < v) (ha : Acts .htc bc a) :
    0 < share .htc bc a := by
  obtain ⟨h1, v, rfl⟩ := ha
  have := h _ rfl rfl v rfl
  simp only [share, h1, and_self, if_true]
  exact mul_pos this h1

/-- **C78.** From every stackup model made from meshes, whose wires end at prisms, cooled on the top or on the bottom, a network is built in which
every element is connected to the ambient; its steady temperatures exist and are unique.  This needs no assumption on how the layers
lie on each other: a prism that nothing covers entirely is itself cooled. -/
theorem c78_solvable [IsStrictOrderedRing K] {m : SModel K} {g : Tris K} {s : K} {meshes : List Mesh} {info : Nat → Nat → Option (Cell K)}
    {wires : List (Wire K)} (hx : FromMeshes m g meshes info wires) (hg : g.Geometry m s) (hmut : ∀ mesh ∈ meshes, Mutual mesh) (hc : m.Cooled)
    {minR : K} (hm : 0 < minR) {iniT : List K} (hl : iniT.length = m.total) (refT : K) :
    ∃ net, m.build minR iniT = .ok (some net) ∧ Grounded net ∧
      ∃ x, Solves net refT x ∧ ∀ y, Solves net refT y → ∀ i < net.length, y i = x i := by
  obtain ⟨net, hb, hlen⟩ := c78_builds hx minR hl
  obtain ⟨_, hr⟩ := stack_run hb
  obtain ⟨hps, hst, hlines⟩ := fromMeshes_facts hx
  have hnodes : nodesOf (m.ops iniT) = 0 := by
    have := run_length _ hr
    rw [length_new] at this
    omega
  have hhtc : ∀ (i : Nat) (p : SPrism K), m.prisms[i]? = some p → 0 ≤ htcOf net i ∧
      (Acts .htc m.topBC (s * bareTop g m.prisms p) ∨ Acts .htc m.botBC (s * bareBot g m.prisms p) → 0 < htcOf net i) := by
    intro i p hp
    have ht := share_pos (bc := m.topBC) (a := s * bareTop g m.prisms p) (fun b hb => hc.positive b (.inl hb))
    have hbp := share_pos (bc := m.botBC) (a := s * bareBot g m.prisms p) (fun b hb => hc.positive b (.inr hb))
    by_cases h2 : Acts .htc m.topBC (s * bareTop g m.prisms p) ∧ Acts .htc m.botBC (s * bareBot g m.prisms p)
    · rw [c77_both_refuted hx hg hb hp h2.1 h2.2]
      exact ⟨(hbp h2.2).le, fun _ => hbp h2.2⟩
    · rw [c77_htc_partial hx hg hb hp h2]
      have n1 : 0 ≤ share .htc m.topBC (s * bareTop g m.prisms p) := by
        rcases side_asked (ty := .htc) (bc := m.topBC) (a := s * bareTop g m.prisms p) with ⟨_, a1⟩ | ⟨_, z1, _⟩
        · exact (ht a1).le
        · exact z1.ge
      have n2 : 0 ≤ share .htc m.botBC (s * bareBot g m.prisms p) := by
        rcases side_asked (ty := .htc) (bc := m.botBC) (a := s * bareBot g m.prisms p) with ⟨_, a1⟩ | ⟨_, z1, _⟩
        · exact (hbp a1).le
        · exact z1.ge
      refine ⟨add_nonneg n1 n2, ?_⟩
      rintro (h | h)
      · exact add_pos_of_pos_of_nonneg (ht h) n2
      · exact add_pos_of_nonneg_of_pos n1 (hbp h)
  have hgr : Grounded net := by
    apply run_grounded hm hr
    · intro o ho
      rw [hnodes]
      exact (stack_fits hx hl o ho).2.1
    · intro i
      by_cases hi : i < totalPrisms m.off
      · exact (hhtc i _ (List.getElem?_eq_getElem (by omega))).1
      · rw [stack_line_htc hx hb (by omega)]
    · have adj : ∀ {i j : Nat} {p q : SPrism K}, m.prisms[i]? = some p → m.prisms[j]? = some q →
          (q.base.layer = p.base.layer + 1 ∨ p.base.layer = q.base.layer + 1) →
          0 < g.overlap p.base.layer p.base.elem.tri q.base.layer q.base.elem.tri →
          ∃ v, .ok (.r i j v) ∈ m.ops iniT ∨ .ok (.r j i v) ∈ m.ops iniT := by
        intro i j p q hp hq hll ho
        rw [← conductance_iff hm hr]
        apply (c76_connected hm hx hg hmut hb hp hq ?_).2 (.inr ⟨hll, ho⟩)
        rintro rfl
        rw [hp] at hq
        simp only [Option.some.injEq] at hq
        subst hq
        omega
      have over : ∀ (p : SPrism K) (l : Nat), covered g m.prisms p l ≠ 0 →
          ∃ (j : Nat) (q : SPrism K), m.prisms[j]? = some q ∧ q.base.layer = l ∧ 0 < g.overlap p.base.layer p.base.elem.tri q.base.layer q.base.elem.tri := by
        intro p l hcov
        by_contra hno
        push Not at hno
        apply hcov
        unfold covered
        apply List.sum_eq_zero
        intro x hx'
        rw [List.mem_map] at hx'
        obtain ⟨q, hq, rfl⟩ := hx'
        obtain ⟨j, hj⟩ := List.mem_iff_getElem?.1 hq
        split_ifs with hql
        · have := hno j q hj hql
          rw [hql] at this
          exact le_antisymm this (hg.nonneg _ _ _ _)
        · rfl
      have up : ∀ (l i : Nat) (p : SPrism K), p.base.layer = l → m.prisms[i]? = some p → (∃ v, m.topBC = some ⟨.htc, some v⟩) →
          ∃ b, Relation.ReflTransGen (fun a b => ∃ v, .ok (.r a b v) ∈ m.ops iniT ∨ .ok (.r b a v) ∈ m.ops iniT) i b ∧ 0 < htcOf net b := by
        intro l
        induction l with
        | zero =>
          intro i p hpl hp hv
          refine ⟨i, .refl, (hhtc i p hp).2 (.inl ⟨?_, hv⟩)⟩
          unfold bareTop
          rw [if_pos hpl, sub_zero]
          exact mul_pos hg.scale (hg.area _ _)
        | succ l ih =>
          intro i p hpl hp hv
          by_cases hbare : 0 < bareTop g m.prisms p
          · exact ⟨i, .refl, (hhtc i p hp).2 (.inl ⟨mul_pos hg.scale hbare, hv⟩)⟩
          · have hcov : covered g m.prisms p l ≠ 0 := by
              intro h0
              apply hbare
              unfold bareTop
              rw [if_neg (by omega), hpl, Nat.add_sub_cancel, h0, sub_zero]
              exact hg.area _ _
            obtain ⟨j, q, hq, hql, ho⟩ := over p l hcov
            obtain ⟨b, hbp, hpos⟩ := ih j q hql hq hv
            exact ⟨b, .head (adj hp hq (.inr (by omega)) ho) hbp, hpos⟩
      have down : ∀ (k i : Nat) (p : SPrism K), meshes.length - p.base.layer = k → m.prisms[i]? = some p → (∃ v, m.botBC = some ⟨.htc, some v⟩) →
          ∃ b, Relation.ReflTransGen (fun a b => ∃ v, .ok (.r a b v) ∈ m.ops iniT ∨ .ok (.r b a v) ∈ m.ops iniT) i b ∧ 0 < htcOf net b := by
        intro k
        induction k with
        | zero =>
          intro i p hk hp _
          obtain ⟨mesh, hmesh, _⟩ := cellS_some (hst.cell i p hp)
          have := (List.getElem?_eq_some_iff.1 hmesh).1
          omega
        | succ k ih =>
          intro i p hk hp hv
          by_cases hbare : 0 < bareBot g m.prisms p
          · exact ⟨i, .refl, (hhtc i p hp).2 (.inr ⟨mul_pos hg.scale hbare, hv⟩)⟩
          · have hcov : covered g m.prisms p (p.base.layer + 1) ≠ 0 := by
              intro h0
              apply hbare
              unfold bareBot
              rw [h0, sub_zero]
              exact hg.area _ _
            obtain ⟨j, q, hq, hql, ho⟩ := over p _ hcov
            obtain ⟨b, hbp, hpos⟩ := ih j q (by omega) hq hv
            exact ⟨b, .head (adj hp hq (.inl hql) ho) hbp, hpos⟩
      rw [hnodes, Nat.add_zero]
      refine line_paths (m := m.wires) hlines hl (fun l' hl' o ho => ?_) ?_
      · unfold SModel.ops
        rw [List.mem_append, List.mem_append]
        left; right
        rw [List.mem_flatMap]
        exact ⟨l', hl', ho⟩
      · intro i hi
        have hi' : i < totalPrisms m.off := hi
        have hp : m.prisms[i]? = some m.prisms[i] := List.getElem?_eq_getElem (by omega)
        rcases hc.uniform with hu | hu
        · exact up _ i _ rfl hp hu
        · exact down _ i _ rfl hp hu
  refine ⟨net, hb, hgr, ?_⟩
  obtain ⟨x, hxs⟩ := c30_exists hgr refT
  exact ⟨x, hxs, fun y hy i hi => ((c30_maximum hgr refT x hxs).1 y hy i hi).symm⟩

/-! ### an example: two triangles over one, with a wire -/

def exTris : Tris ℚ := ⟨fun _ _ => 2, fun _ _ _ _ => true, fun _ t _ t' => if t = t' then 1 else 1 / 4⟩

def exInfoS (l t : Nat) : Option (Cell ℚ) := if l = 1 ∧ t = 1 then none else some ⟨t, if l = 1 then some (1, 0, fun _ => 5) else none⟩

def exBuilt : Res (List Nat × List (SPrism ℚ)) := (stackLayers [exMesh, exMesh] exInfoS).bind fun ls => buildStack exTris ls 4

def exPrisms : List (SPrism ℚ) :=
  match exBuilt with
  | .ok r => r.2
  | _ => []

def exStack : SModel ℚ :=
  { off := [0, 2, 3], prisms := exPrisms,
    lines := [⟨3, 0, 0, 1, 1, 1, [0], [4]⟩, ⟨4, 0, 0, 1, 1, 1, [3], [2]⟩],
    area := fun _ _ => 1, edgeLen := fun _ _ _ => 1, toSide := fun _ _ _ => 3 / 2, dist := fun _ _ _ => 5, height := fun _ => 1,
    k := fun mat _ _ => if mat = 1 then 4 else 1, heat := fun _ _ => 1, rho := fun _ _ => 1, resist := fun _ _ => 2,
    topBC := some ⟨.htc, some 3⟩, botBC := some ⟨.heatFlux, some 7⟩, topBlocks := [], botBlocks := [] }

theorem exStack_from : FromMeshes exStack exTris [exMesh, exMesh] exInfoS [exWire] := by
  refine ⟨⟨4, ?_⟩, rfl, ?_⟩
  · obtain ⟨off, ps, he, _⟩ := stack_built exTris [exMesh, exMesh] exInfoS 4
    have hoff : exBuilt.bind (fun r => .ok r.1) = .ok [0, 2, 3] := by decide +kernel
    have he' : exBuilt = .ok (off, ps) := he
    rw [he'] at hoff
    simp only [Res.bind_ok, Res.ok.injEq] at hoff
    have hps : exPrisms = ps := by unfold exPrisms; rw [he']
    rw [he, hoff, ← hps]
    rfl
  · intro w hw
    simp only [List.mem_singleton] at hw
    subst hw
    refine ⟨by simp [exWire], ?_, ?_⟩
    · intro x hx; simp [exWire] at hx; subst hx; decide
    · intro x hx; simp [exWire] at hx; subst hx; decide

theorem exStack_geometry : exTris.Geometry exStack (1 / 2) := by
  refine ⟨fun _ _ => by norm_num [exTris], fun _ _ _ _ _ => rfl, ?_, ?_, by norm_num, fun _ _ => by norm_num [exTris, exStack]⟩
  · intro l t l' t'
    simp only [exTris, eq_comm]
  · intro l t l' t'
    simp only [exTris]
    split_ifs <;> norm_num

theorem exStack_cooled : exStack.Cooled := by
  refine ⟨?_, .inl ⟨3, rfl⟩⟩
  rintro bc (h | h) ht v hv
  · simp only [exStack, Option.some.injEq] at h
    subst h
    simp only [Option.some.injEq] at hv
    subst hv
    norm_num
  · simp only [exStack, Option.some.injEq] at h
    subst h
    simp at ht

/-- the hypotheses of C76, C77 and C78 are met -/
example : ∃ net, exStack.build (1 / 1000) [25, 25, 25, 25, 25] = .ok (some net) ∧ Grounded net :=
  let ⟨net, h1, h2, _⟩ := c78_solvable exStack_from exStack_geometry (by intro mesh h; simp at h; subst h; exact exMesh_mutual) exStack_cooled
    (minR := 1 / 1000) (by norm_num) (iniT := [25, 25, 25, 25, 25]) rfl 25
  ⟨net, h1, h2⟩

/-- the prism of the lower layer: its power (5) is lost to the flux on the bottom of the last layer (7, not 7 times the area); the top is
covered up to a part of `3/4`, in metres `3/8` -/
example : (exStack.build (1 / 1000) [25, 25, 25, 25, 25]).bind (fun r => .ok (r.map fun net => (hfOf net 2, htcOf net 2))) =
    .ok (some (7, 9 / 8)) := by decide +kernel

/-- the upper prisms: their bottom is exposed up to `1` and `7/4` -/
example : (exStack.build (1 / 1000) [25, 25, 25, 25, 25]).bind (fun r => .ok (r.map fun net => (hfOf net 0, hfOf net 1))) =
    .ok (some (7 / 2, 49 / 8)) := by decide +kernel

example : (exStack.build (1 / 1000) [25, 25, 25, 25, 25]).bind (fun r => .ok (r.map fun net => (conductance net 0 2, conductance net 1 2))) =
    .ok (some (1 / 2, 1 / 5)) := by decide +kernel

end Ecad.PrismT
