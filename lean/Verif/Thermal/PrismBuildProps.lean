import Verif.Thermal.PrismIndexProps
import Verif.Thermal.OpsParallel
import Verif.Thermal.GridBuildProps
/-!
C36: the threads that assemble the network of a prism model.  C47 for prism models.
-/
namespace Ecad.PrismT
open Ecad.Thermal Ecad.GridT

variable {K : Type} [Field K] [LinearOrder K]

/-! ### which node the calls of an element write to -/

theorem mem_link {m : PModel K} {iniT : List K} {i : Nat} {n : Option Nat} {r : Prism K → K → K} {o : Res (Op K)}
    (h : o ∈ m.link iniT i n r) :
    o = .exn ∨ ∃ n' q t, n = some n' ∧ i < n' ∧ m.prisms[n']? = some q ∧ iniT[n']? = some t ∧ o = .ok (.r i n' (r q t)) := by
  unfold PModel.link at h
  cases n with
  | none => simp at h
  | some n' =>
    simp only at h
    split_ifs at h with hi
    · cases hq : m.prisms[n']? with
      | none => rw [hq] at h; left; simpa using h
      | some q =>
        cases ht : iniT[n']? with
        | none => rw [hq, ht] at h; left; simpa using h
        | some t => rw [hq, ht] at h; right; exact ⟨n', q, t, rfl, hi, hq, ht, by simpa using h⟩
    · simp at h

omit [LinearOrder K] in
theorem mem_bcOps {m : PModel K} {bc : Option (BC K)} {i : Nat} {p : Prism K} {n : Option Nat} {o : Res (Op K)}
    (h : o ∈ m.bcOps bc i p n) :
    ∃ v, bc.bind (·.value) = some v ∧ n = none ∧ (o = .ok (.htc i (v * m.area p.elem.tri)) ∨ o = .ok (.hf i (v * m.area p.elem.tri))) := by
  unfold PModel.bcOps at h
  split at h
  · rename_i v; exact ⟨v, rfl, rfl, .inl (by simpa using h)⟩
  · rename_i v; exact ⟨v, rfl, rfl, .inr (by simpa using h)⟩
  · simp at h

/-- every call for an element is for the node of the element, or throws -/
theorem elemOps_writes {m : PModel K} {iniT : List K} {i : Nat} {o : Res (Op K)} (h : o ∈ m.elemOps iniT i) :
    Op.nodes o = 0 ∧ (o = .exn ∨ Op.writes o = some i) := by
  have hlink : ∀ {n : Option Nat} {r : Prism K → K → K}, o ∈ m.link iniT i n r → Op.nodes o = 0 ∧ (o = .exn ∨ Op.writes o = some i) := by
    intro n r ho
    rcases mem_link ho with rfl | ⟨n', q, t, _, hi, _, _, rfl⟩
    · exact ⟨rfl, .inl rfl⟩
    · refine ⟨rfl, .inr ?_⟩
      simp only [Op.writes, Option.some.injEq]
      omega
  have hbc : ∀ {bc : Option (BC K)} {p : Prism K} {n : Option Nat}, o ∈ m.bcOps bc i p n → Op.nodes o = 0 ∧ (o = .exn ∨ Op.writes o = some i) := by
    intro bc p n ho
    obtain ⟨v, _, _, rfl | rfl⟩ := mem_bcOps ho <;> exact ⟨rfl, .inr rfl⟩
  unfold PModel.elemOps at h
  split at h
  · rename_i p t _ _
    simp only [List.mem_append, List.mem_singleton] at h
    rcases h with (((((((h | h) | h) | h) | h) | h) | h) | h) | h
    · unfold powerOps at h
      split at h
      · simp only [List.mem_cons, List.not_mem_nil, or_false] at h
        rcases h with rfl | rfl <;> exact ⟨rfl, .inr rfl⟩
      · simp at h
    · subst h; exact ⟨rfl, .inr rfl⟩
    · exact hlink h
    · exact hlink h
    · exact hlink h
    · exact hbc h
    · exact hlink h
    · exact hbc h
    · exact hlink h
  · have : o = .exn := by simpa using h
    subst this
    exact ⟨rfl, .inl rfl⟩

/-! ### C36 -/

theorem rangeOps_blocks (m : PModel K) (iniT : List K) (bs : List (Nat × Nat)) :
    (bs.map (m.rangeOps iniT)).flatten = (blockElements bs).flatMap (m.elemOps iniT) := by
  unfold blockElements
  induction bs with
  | nil => rfl
  | cons b bs ih => simp [PModel.rangeOps, List.flatMap_append, ih]

/-- disjoint blocks: no element is in two of them -/
theorem blocks_disjoint (bs : List (Nat × Nat)) (h : (blockElements bs).Nodup) :
    bs.Pairwise fun a b => ∀ i, i ∈ List.range' a.1 (a.2 - a.1) → i ∉ List.range' b.1 (b.2 - b.1) := by
  unfold blockElements at h
  rw [List.nodup_flatMap] at h
  refine h.2.imp ?_
  intro a b hab i hi hj
  exact hab hi hj

/-- **C36, assembly on several threads.** Whatever the number of threads, and in whatever order the pool runs the calls
of the blocks in parallel, interleaved call by call, the network is the one assembled on one thread; and
an interleaving fails if and only if the assembly on one thread fails. -/
theorem c36_parallel (minR : K) (m : PModel K) (iniT : List K) (n : Nat) (hn : 0 < n) (net : Network K) {s : List (Res (Op K))}
    (hs : Shuffle ((threadBlocks (totalPrisms m.off) n).map (m.rangeOps iniT)) s) (net' : Network K) :
    run minR net s = .ok net' ↔ run minR net (m.rangeOps iniT (0, totalPrisms m.off)) = .ok net' := by
  have hel := c36_blocks (totalPrisms m.off) n hn
  have hflat : ((threadBlocks (totalPrisms m.off) n).map (m.rangeOps iniT)).flatten = m.rangeOps iniT (0, totalPrisms m.off) := by
    rw [rangeOps_blocks, hel, PModel.rangeOps, List.range_eq_range']
    rfl
  have hnodes : ∀ l ∈ (threadBlocks (totalPrisms m.off) n).map (m.rangeOps iniT), ∀ o ∈ l, Op.nodes o = 0 := by
    intro l hl o ho
    rw [List.mem_map] at hl
    obtain ⟨b, _, rfl⟩ := hl
    unfold PModel.rangeOps at ho
    rw [List.mem_flatMap] at ho
    obtain ⟨i, _, ho⟩ := ho
    exact (elemOps_writes ho).1
  have hdis : ((threadBlocks (totalPrisms m.off) n).map (m.rangeOps iniT)).Pairwise
      fun a b => ∀ o ∈ a, ∀ o' ∈ b, ∀ i, Op.writes o = some i → Op.writes o' ≠ some i := by
    rw [List.pairwise_map]
    refine (blocks_disjoint _ (by rw [hel]; exact List.nodup_range)).imp ?_
    intro a b hab o ho o' ho' i hi hi'
    unfold PModel.rangeOps at ho ho'
    rw [List.mem_flatMap] at ho ho'
    obtain ⟨j, hj, ho⟩ := ho
    obtain ⟨j', hj', ho'⟩ := ho'
    have h1 : i = j := by
      rcases (elemOps_writes ho).2 with rfl | h
      · simp [Op.writes] at hi
      · rw [hi] at h; simpa using h
    have h2 : i = j' := by
      rcases (elemOps_writes ho').2 with rfl | h
      · simp [Op.writes] at hi'
      · rw [hi'] at h; simpa using h
    subst h1
    subst h2
    exact hab i hj hj'
  rw [← hflat]
  constructor
  · intro h
    refine run_reorder (l := s) ?_ ?_ ?_ h
    · intro o ho
      rw [hs.mem] at ho
      obtain ⟨l, hl, ho⟩ := ho
      exact hnodes l hl o ho
    · intro o; rw [hs.mem, List.mem_flatten]
    · intro i; exact (shuffle_filter hs hdis i).symm
  · exact run_shuffle hs hnodes hdis

/-! ### what the nodes hold in the end -/

/-- The parts of a model belong together: as many prisms as the offsets say, and lines numbered after them
(`c34_lines`). -/
structure PModel.WF (m : PModel K) : Prop where
  prisms : m.prisms.length = totalPrisms m.off
  lines : ∀ (n : Nat) (l : Line K), m.lines[n]? = some l → l.id = totalPrisms m.off + n

/-- the flux or the heat transfer a boundary condition asks for on a face, times the area of the face -/
def onFace (ty : BCType) (bc : BC K) (area : K) : List K :=
  match bc.value with
  | some v => if bc.type = ty then [v * area] else []
  | none => []

/-- All boundary conditions of a type on the free faces of a prism: the uniform ones first, then the blocks
that contain it. -/
def PModel.faces (m : PModel K) (ty : BCType) (p : Prism K) : List K :=
  (if p.top = none then m.topBC.toList.flatMap fun bc => onFace ty bc (m.area p.elem.tri) else []) ++
  (if p.bot = none then m.botBC.toList.flatMap fun bc => onFace ty bc (m.area p.elem.tri) else []) ++
  (m.topBlocks.flatMap fun b => if b.2 p.elem.tri ∧ p.elem.top = none then onFace ty b.1 (m.area p.elem.tri) else []) ++
  (m.botBlocks.flatMap fun b => if b.2 p.elem.tri ∧ p.elem.bot = none then onFace ty b.1 (m.area p.elem.tri) else [])

/-- all heat a prism receives at temperature `t`: its power and the fluxes through its free faces -/
def PModel.sources (m : PModel K) (p : Prism K) (t : K) : List K :=
  (p.elem.cell.power.toList.map fun w => w.2.2 t * w.1) ++ m.faces .heatFlux p

theorem fold_writes {β : Type _} (eff : Res (Op K) → β → β) (i : Nat) (heff : ∀ o b, Op.writes o ≠ some i → eff o b = b)
    (l : List (Res (Op K))) (b : β) :
    l.foldl (fun b o => eff o b) b = (l.filter fun o => Op.writes o = some i).foldl (fun b o => eff o b) b := by
  induction l generalizing b with
  | nil => rfl
  | cons o l ih =>
    by_cases h : Op.writes o = some i
    · rw [List.filter_cons_of_pos (by simpa using h), List.foldl_cons, List.foldl_cons, ih]
    · rw [List.filter_cons_of_neg (by simpa using h), List.foldl_cons, heff o b h, ih]

omit [LinearOrder K] in
theorem hfAt_writes (i : Nat) (o : Res (Op K)) (b : K) (h : Op.writes o ≠ some i) : Op.hfAt i o b = b := by
  rcases o with op | _ | _
  · cases op <;> simp_all [Op.writes, Op.hfAt]
  · rfl
  · rfl

omit [LinearOrder K] in
theorem htcAt_writes (i : Nat) (o : Res (Op K)) (b : K) (h : Op.writes o ≠ some i) : Op.htcAt i o b = b := by
  rcases o with op | _ | _
  · cases op <;> simp_all [Op.writes, Op.htcAt]
  · rfl
  · rfl

theorem filter_flatMap_single {α β : Type _} [DecidableEq α] (f : α → List β) (q : β → Bool) (a : α) {l : List α} (nd : l.Nodup)
    (hm : a ∈ l) (h : ∀ b ∈ l, b ≠ a → ∀ o ∈ f b, q o = false) : (l.flatMap f).filter q = (f a).filter q := by
  rw [List.filter_flatMap, flatMap_single (fun x => (f x).filter q) a l nd, if_pos hm]
  intro b hb hne
  rw [List.filter_eq_nil_iff]
  intro o ho
  simp [h b hb hne o ho]

/-- of the calls for all elements, those of element `i` count for node `i` -/
theorem range_fold {β : Type _} (eff : Res (Op K) → β → β) (m : PModel K) (iniT : List K) (i : Nat)
    (hi : i < totalPrisms m.off) (heff : ∀ o b, Op.writes o ≠ some i → eff o b = b) (b : β) :
    (m.rangeOps iniT (0, totalPrisms m.off)).foldl (fun b o => eff o b) b = (m.elemOps iniT i).foldl (fun b o => eff o b) b := by
  rw [fold_writes eff i heff, fold_writes eff i heff (m.elemOps iniT i)]
  congr 1
  unfold PModel.rangeOps
  apply filter_flatMap_single
  · exact List.nodup_range'
  · rw [List.mem_range'_1]; omega
  · intro j _ hj o ho
    rcases (elemOps_writes ho).2 with rfl | h
    · simp [Op.writes]
    · rw [h]; simpa using hj

theorem range_fold_lines {β : Type _} (eff : Res (Op K) → β → β) (m : PModel K) (iniT : List K) (i : Nat)
    (hi : totalPrisms m.off ≤ i) (heff : ∀ o b, Op.writes o ≠ some i → eff o b = b) (b : β) :
    (m.rangeOps iniT (0, totalPrisms m.off)).foldl (fun b o => eff o b) b = b := by
  rw [fold_writes eff i heff]
  have : (m.rangeOps iniT (0, totalPrisms m.off)).filter (fun o => Op.writes o = some i) = [] := by
    rw [List.filter_eq_nil_iff]
    intro o ho
    unfold PModel.rangeOps at ho
    rw [List.mem_flatMap] at ho
    obtain ⟨j, hj, ho⟩ := ho
    rw [List.mem_range'_1] at hj
    rcases (elemOps_writes ho).2 with rfl | h
    · simp [Op.writes]
    · rw [h]; simp; omega
  rw [this]; rfl

theorem link_quiet (m : PModel K) (iniT : List K) (i j : Nat) (n : Option Nat) (r : Prism K → K → K) :
    (∀ o ∈ m.link iniT i n r, NoAdd o) ∧ (m.link iniT i n r).filterMap (wHF j) = [] ∧
    (m.link iniT i n r).filterMap (wHTC j) = [] := by
  refine ⟨?_, ?_, ?_⟩
  · intro o ho
    rcases mem_link ho with rfl | ⟨_, _, _, _, _, _, _, rfl⟩ <;> trivial
  · rw [List.filterMap_eq_nil_iff]
    intro o ho
    rcases mem_link ho with rfl | ⟨_, _, _, _, _, _, _, rfl⟩ <;> rfl
  · rw [List.filterMap_eq_nil_iff]
    intro o ho
    rcases mem_link ho with rfl | ⟨_, _, _, _, _, _, _, rfl⟩ <;> rfl

omit [LinearOrder K] in
theorem bcOps_noAdd (m : PModel K) (bc : Option (BC K)) (i : Nat) (p : Prism K) (n : Option Nat) : ∀ o ∈ m.bcOps bc i p n, NoAdd o := by
  intro o ho
  obtain ⟨_, _, _, rfl | rfl⟩ := mem_bcOps ho <;> trivial

omit [LinearOrder K] in
theorem bcOps_hf (m : PModel K) (bc : Option (BC K)) (i : Nat) (p : Prism K) (n : Option Nat) :
    (m.bcOps bc i p n).filterMap (wHF i) =
      if n = none then bc.toList.flatMap fun bc => onFace .heatFlux bc (m.area p.elem.tri) else [] := by
  cases n with
  | some n => simp [PModel.bcOps]
  | none =>
    rcases bc with _ | ⟨ty, v⟩
    · simp [PModel.bcOps]
    · rcases v with _ | v <;> cases ty <;> simp [PModel.bcOps, onFace, wHF]

omit [LinearOrder K] in
theorem bcOps_htc (m : PModel K) (bc : Option (BC K)) (i : Nat) (p : Prism K) (n : Option Nat) :
    (m.bcOps bc i p n).filterMap (wHTC i) =
      if n = none then bc.toList.flatMap fun bc => onFace .htc bc (m.area p.elem.tri) else [] := by
  cases n with
  | some n => simp [PModel.bcOps]
  | none =>
    rcases bc with _ | ⟨ty, v⟩
    · simp [PModel.bcOps]
    · rcases v with _ | v <;> cases ty <;> simp [PModel.bcOps, onFace, wHTC]

/-- the calls of an element after its power -/
def PModel.restOps (m : PModel K) (iniT : List K) (i : Nat) (p : Prism K) (t : K) : List (Res (Op K)) :=
  [.ok (.c i (m.heat p.elem.cell.mat t * m.rho p.elem.cell.mat t * (m.area p.elem.tri * m.height p.layer)))] ++
    m.link iniT i (p.edge 0) (fun q tq => m.sideR p q 0 t tq) ++
    m.link iniT i (p.edge 1) (fun q tq => m.sideR p q 1 t tq) ++
    m.link iniT i (p.edge 2) (fun q tq => m.sideR p q 2 t tq) ++
    m.bcOps m.topBC i p p.top ++ m.link iniT i p.top (fun q tq => m.vertR p q t tq) ++
    m.bcOps m.botBC i p p.bot ++ m.link iniT i p.bot (fun q tq => m.vertR p q t tq)

theorem elemOps_eq {m : PModel K} {iniT : List K} {i : Nat} {p : Prism K} {t : K} (hp : m.prisms[i]? = some p)
    (ht : iniT[i]? = some t) : m.elemOps iniT i = powerOps i p t ++ m.restOps iniT i p t := by
  unfold PModel.elemOps PModel.restOps
  rw [hp, ht]
  simp only [List.append_assoc]

theorem restOps_noAdd (m : PModel K) (iniT : List K) (i : Nat) (p : Prism K) (t : K) : ∀ o ∈ m.restOps iniT i p t, NoAdd o := by
  intro o h
  unfold PModel.restOps at h
  simp only [List.mem_append, List.mem_singleton] at h
  rcases h with ((((((h | h) | h) | h) | h) | h) | h) | h
  · subst h; trivial
  · exact (link_quiet m iniT i i _ _).1 o h
  · exact (link_quiet m iniT i i _ _).1 o h
  · exact (link_quiet m iniT i i _ _).1 o h
  · exact bcOps_noAdd _ _ _ _ _ o h
  · exact (link_quiet m iniT i i _ _).1 o h
  · exact bcOps_noAdd _ _ _ _ _ o h
  · exact (link_quiet m iniT i i _ _).1 o h

theorem getLastD_append {α : Type _} (a b : List α) (d : α) : (a ++ b).getLastD d = b.getLastD (a.getLastD d) := by
  induction a generalizing d with
  | nil => rfl
  | cons x a ih => rw [List.cons_append, getLastD_cons', getLastD_cons', ih]

theorem elem_hf {m : PModel K} {iniT : List K} {i : Nat} {p : Prism K} {t : K} (hp : m.prisms[i]? = some p)
    (ht : iniT[i]? = some t) :
    (m.elemOps iniT i).foldl (fun b o => Op.hfAt i o b) 0 =
      ((p.elem.cell.power.toList.map fun w => w.2.2 t * w.1) ++
        (if p.top = none then m.topBC.toList.flatMap fun bc => onFace .heatFlux bc (m.area p.elem.tri) else []) ++
        (if p.bot = none then m.botBC.toList.flatMap fun bc => onFace .heatFlux bc (m.area p.elem.tri) else [])).getLastD 0 := by
  have hpow : (powerOps i p t).foldl (fun b o => Op.hfAt i o b) 0 = (p.elem.cell.power.toList.map fun w => w.2.2 t * w.1).getLastD 0 := by
    unfold powerOps
    rcases p.elem.cell.power with _ | ⟨ratio, scen, lut⟩
    · rfl
    · simp [Op.hfAt]
  rw [elemOps_eq hp ht, List.foldl_append, hpow, fold_hf i _ (restOps_noAdd m iniT i p t)]
  have hw : (m.restOps iniT i p t).filterMap (wHF i) =
      (if p.top = none then m.topBC.toList.flatMap fun bc => onFace .heatFlux bc (m.area p.elem.tri) else []) ++
      (if p.bot = none then m.botBC.toList.flatMap fun bc => onFace .heatFlux bc (m.area p.elem.tri) else []) := by
    unfold PModel.restOps
    simp only [List.filterMap_append, (link_quiet m iniT i i _ _).2.1, bcOps_hf]
    simp [wHF]
  rw [hw]
  conv_rhs => rw [List.append_assoc, getLastD_append]

theorem elem_htc {m : PModel K} {iniT : List K} {i : Nat} {p : Prism K} {t : K} (hp : m.prisms[i]? = some p)
    (ht : iniT[i]? = some t) :
    (m.elemOps iniT i).foldl (fun b o => Op.htcAt i o b) 0 =
      ((if p.top = none then m.topBC.toList.flatMap fun bc => onFace .htc bc (m.area p.elem.tri) else []) ++
        (if p.bot = none then m.botBC.toList.flatMap fun bc => onFace .htc bc (m.area p.elem.tri) else [])).getLastD 0 := by
  have hpow : (powerOps i p t).foldl (fun b o => Op.htcAt i o b) (0 : K) = 0 := by
    unfold powerOps
    rcases p.elem.cell.power with _ | ⟨ratio, scen, lut⟩
    · rfl
    · simp [Op.htcAt]
  rw [elemOps_eq hp ht, List.foldl_append, hpow, fold_htc i _ (restOps_noAdd m iniT i p t)]
  congr 1
  unfold PModel.restOps
  simp only [List.filterMap_append, (link_quiet m iniT i i _ _).2.2, bcOps_htc]
  simp [wHTC]

/-! ### lines and blocks -/

theorem mem_lineR {m : PModel K} {l : Line K} {t : K} {nb : Nat} {o : Res (Op K)} (h : o ∈ m.lineR l t nb) :
    o = .exn ∨ (isPrima m.off nb = true ∧ ∃ v, o = .ok (.r nb l.id v)) ∨ (isPrima m.off nb = false ∧ l.id < nb ∧ ∃ v, o = .ok (.r l.id nb v)) := by
  unfold PModel.lineR at h
  split_ifs at h with h1 h2
  · exact .inr (.inl ⟨h1, _, by simpa using h⟩)
  · cases hq : m.lines[lineLocalIndex m.off nb]? with
    | none => rw [hq] at h; exact .inl (by simpa using h)
    | some q => rw [hq] at h; exact .inr (.inr ⟨by simpa using h1, h2, _, by simpa using h⟩)
  · simp at h

theorem mem_lineOps {m : PModel K} {iniT : List K} {l : Line K} {o : Res (Op K)} (h : o ∈ m.lineOps iniT l) :
    o = .exn ∨ (∃ v, o = .ok (.c l.id v)) ∨ o = .ok (.scen l.id l.scen) ∨ (∃ v, o = .ok (.addHF l.id v)) ∨
    ∃ nb, (nb ∈ l.front ∨ nb ∈ l.back) ∧ ∃ t, iniT[l.id]? = some t ∧ o ∈ m.lineR l t nb := by
  unfold PModel.lineOps at h
  cases ht : iniT[l.id]? with
  | none => rw [ht] at h; exact .inl (by simpa using h)
  | some t =>
    rw [ht] at h
    simp only [List.mem_append, List.mem_cons, List.not_mem_nil, or_false, List.mem_flatMap] at h
    rcases h with (((rfl | rfl) | h) | ⟨nb, hnb, h⟩) | ⟨nb, hnb, h⟩
    · exact .inr (.inl ⟨_, rfl⟩)
    · exact .inr (.inr (.inl rfl))
    · split_ifs at h
      · exact .inr (.inr (.inr (.inl ⟨_, by simpa using h⟩)))
      · simp at h
    · exact .inr (.inr (.inr (.inr ⟨nb, .inl hnb, t, rfl, h⟩)))
    · exact .inr (.inr (.inr (.inr ⟨nb, .inr hnb, t, rfl, h⟩)))

/-- calls of lines do not touch the heat flow of other nodes, nor any transfer coefficient -/
theorem lines_quiet {m : PModel K} {iniT : List K} {l : Line K} {o : Res (Op K)} (h : o ∈ m.lineOps iniT l) (i : Nat) (b : K) :
    (l.id ≠ i → Op.hfAt i o b = b) ∧ Op.htcAt i o b = b ∧ Op.nodes o = 0 := by
  rcases mem_lineOps h with rfl | ⟨v, rfl⟩ | rfl | ⟨v, rfl⟩ | ⟨nb, _, t, _, h⟩
  · exact ⟨fun _ => rfl, rfl, rfl⟩
  · exact ⟨fun _ => rfl, rfl, rfl⟩
  · exact ⟨fun _ => rfl, rfl, rfl⟩
  · refine ⟨fun hne => ?_, rfl, rfl⟩
    simp [Op.hfAt, hne]
  · rcases mem_lineR h with rfl | ⟨_, v, rfl⟩ | ⟨_, _, v, rfl⟩ <;> exact ⟨fun _ => rfl, rfl, rfl⟩

theorem foldl_id {α β : Type _} (f : β → α → β) (l : List α) (b : β) (h : ∀ a ∈ l, ∀ b, f b a = b) : l.foldl f b = b := by
  induction l generalizing b with
  | nil => rfl
  | cons a l ih => rw [List.foldl_cons, h a (by simp), ih _ fun a' ha' => h a' (by simp [ha'])]

theorem zipIdx_pick {α β : Type _} (l : List α) (i : Nat) (g : α × Nat → Option β) (hg : ∀ x, x.2 ≠ i → g x = none) :
    l.zipIdx.filterMap g = (l[i]?.bind fun a => g (a, i)).toList := by
  suffices H : ∀ (l : List α) (k : Nat), (l.zipIdx k).filterMap g = if k ≤ i then (l[i - k]?.bind fun a => g (a, i)).toList else [] by
    simpa using H l 0
  clear l
  intro l
  induction l with
  | nil => intro k; simp
  | cons a l ih =>
    intro k
    rw [List.zipIdx_cons, List.filterMap_cons, ih]
    by_cases hk : k = i
    · subst hk
      rw [if_neg (by omega), if_pos (le_refl _)]
      simp
      cases g (a, k) <;> rfl
    · rw [hg (a, k) hk]
      by_cases h2 : k ≤ i
      · rw [if_pos h2, if_pos (by omega)]
        obtain ⟨d, hd⟩ : ∃ d, i - k = d + 1 := ⟨i - k - 1, by omega⟩
        rw [hd, List.getElem?_cons_succ]
        have : i - (k + 1) = d := by omega
        rw [this]
      · rw [if_neg h2, if_neg (by omega)]

omit [LinearOrder K] in
theorem blockOps_noAdd (m : PModel K) (side : Elem K → Option Nat) (b : BC K × (Nat → Bool)) : ∀ o ∈ m.blockOps side b, NoAdd o ∧ Op.nodes o = 0 := by
  intro o ho
  unfold PModel.blockOps at ho
  cases hv : b.1.value with
  | none => rw [hv] at ho; simp at ho
  | some v =>
    rw [hv] at ho
    simp only [List.mem_filterMap] at ho
    obtain ⟨p, _, hp⟩ := ho
    split_ifs at hp
    cases ht : b.1.type <;> rw [ht] at hp <;> simp only [Option.some.injEq] at hp <;> subst hp <;> exact ⟨trivial, rfl⟩

omit [LinearOrder K] in
theorem block_hf {m : PModel K} {i : Nat} {p : Prism K} (hp : m.prisms[i]? = some p) (side : Elem K → Option Nat)
    (b : BC K × (Nat → Bool)) :
    (m.blockOps side b).filterMap (wHF i) = if b.2 p.elem.tri ∧ side p.elem = none then onFace .heatFlux b.1 (m.area p.elem.tri) else [] := by
  unfold PModel.blockOps onFace
  cases hv : b.1.value with
  | none => simp
  | some v =>
    simp only
    rw [List.filterMap_filterMap, zipIdx_pick _ i _ ?_, hp]
    · simp only [Option.bind_some]
      by_cases hc : b.2 p.elem.tri = true ∧ side p.elem = none
      · rw [if_pos hc, if_pos hc]
        cases b.1.type <;> simp [wHF]
      · rw [if_neg hc, if_neg hc]; rfl
    · intro x hx
      split_ifs
      · cases b.1.type <;> simp [wHF, hx]
      · rfl

omit [LinearOrder K] in
theorem block_htc {m : PModel K} {i : Nat} {p : Prism K} (hp : m.prisms[i]? = some p) (side : Elem K → Option Nat)
    (b : BC K × (Nat → Bool)) :
    (m.blockOps side b).filterMap (wHTC i) = if b.2 p.elem.tri ∧ side p.elem = none then onFace .htc b.1 (m.area p.elem.tri) else [] := by
  unfold PModel.blockOps onFace
  cases hv : b.1.value with
  | none => simp
  | some v =>
    simp only
    rw [List.filterMap_filterMap, zipIdx_pick _ i _ ?_, hp]
    · simp only [Option.bind_some]
      by_cases hc : b.2 p.elem.tri = true ∧ side p.elem = none
      · rw [if_pos hc, if_pos hc]
        cases b.1.type <;> simp [wHTC]
      · rw [if_neg hc, if_neg hc]; rfl
    · intro x hx
      split_ifs
      · cases b.1.type <;> simp [wHTC, hx]
      · rfl

omit [LinearOrder K] in
theorem blocksOps_noAdd (m : PModel K) : ∀ o ∈ m.blocksOps, NoAdd o ∧ Op.nodes o = 0 := by
  intro o ho
  unfold PModel.blocksOps at ho
  simp only [List.mem_append, List.mem_flatMap] at ho
  rcases ho with ⟨b, _, ho⟩ | ⟨b, _, ho⟩
  · exact blockOps_noAdd _ _ _ o ho
  · exact blockOps_noAdd _ _ _ o ho

omit [LinearOrder K] in
theorem blocks_hf {m : PModel K} {i : Nat} {p : Prism K} (hp : m.prisms[i]? = some p) :
    m.blocksOps.filterMap (wHF i) =
      (m.topBlocks.flatMap fun b => if b.2 p.elem.tri ∧ p.elem.top = none then onFace .heatFlux b.1 (m.area p.elem.tri) else []) ++
      (m.botBlocks.flatMap fun b => if b.2 p.elem.tri ∧ p.elem.bot = none then onFace .heatFlux b.1 (m.area p.elem.tri) else []) := by
  unfold PModel.blocksOps
  rw [List.filterMap_append, List.filterMap_flatMap, List.filterMap_flatMap]
  simp only [block_hf hp]

omit [LinearOrder K] in
theorem blocks_htc {m : PModel K} {i : Nat} {p : Prism K} (hp : m.prisms[i]? = some p) :
    m.blocksOps.filterMap (wHTC i) =
      (m.topBlocks.flatMap fun b => if b.2 p.elem.tri ∧ p.elem.top = none then onFace .htc b.1 (m.area p.elem.tri) else []) ++
      (m.botBlocks.flatMap fun b => if b.2 p.elem.tri ∧ p.elem.bot = none then onFace .htc b.1 (m.area p.elem.tri) else []) := by
  unfold PModel.blocksOps
  rw [List.filterMap_append, List.filterMap_flatMap, List.filterMap_flatMap]
  simp only [block_htc hp]

theorem build_run {minR : K} {m : PModel K} {iniT : List K} {net : Network K} (h : m.build minR iniT = .ok (some net)) :
    iniT.length = m.total ∧ run minR (Network.new noScen m.total) (m.ops iniT) = .ok net := by
  unfold PModel.build at h
  split_ifs at h with hl
  · simp at h
  · refine ⟨not_not.1 hl, ?_⟩
    cases hr : run minR (Network.new noScen m.total) (m.ops iniT) with
    | ok n => rw [hr] at h; simpa using h
    | ub => rw [hr] at h; simp at h
    | exn => rw [hr] at h; simp at h

/-- **Last writer.** The heat flow of the node of a prism is the last of its sources, its transfer coefficient the last of
the boundary conditions on its faces. -/
theorem build_last {minR : K} {m : PModel K} {iniT : List K} {net : Network K} (h : m.build minR iniT = .ok (some net))
    (wf : m.WF) {i : Nat} {p : Prism K} {t : K} (hp : m.prisms[i]? = some p) (ht : iniT[i]? = some t) :
    hfOf net i = (m.sources p t).getLastD 0 ∧ htcOf net i = (m.faces .htc p).getLastD 0 := by
  have hi : i < totalPrisms m.off := by rw [← wf.prisms]; exact (List.getElem?_eq_some_iff.1 hp).1
  have hne : ∀ l ∈ m.lines, l.id ≠ i := by
    intro l hl
    obtain ⟨n, hn⟩ := List.mem_iff_getElem?.1 hl
    have := wf.lines n l hn
    omega
  have hv := run_values (build_run h).2
  constructor
  · rw [hv.1 i, hfOf_new, PModel.ops, List.foldl_append, List.foldl_append, range_fold (Op.hfAt i) m iniT i hi (hfAt_writes i),
      elem_hf hp ht, foldl_id _ (m.lines.flatMap _), fold_hf i _ (fun o ho => (blocksOps_noAdd m o ho).1), blocks_hf hp]
    · unfold PModel.sources PModel.faces
      rw [← getLastD_append]
      simp only [List.append_assoc]
    · intro o ho b
      rw [List.mem_flatMap] at ho
      obtain ⟨l, hl, ho⟩ := ho
      exact (lines_quiet ho i b).1 (hne l hl)
  · rw [hv.2.1 i, htcOf_new, PModel.ops, List.foldl_append, List.foldl_append, range_fold (Op.htcAt i) m iniT i hi (htcAt_writes i),
      elem_htc hp ht, foldl_id _ (m.lines.flatMap _), fold_htc i _ (fun o ho => (blocksOps_noAdd m o ho).1), blocks_htc hp]
    · unfold PModel.faces
      rw [← getLastD_append]
      simp only [List.append_assoc]
    · intro o ho b
      rw [List.mem_flatMap] at ho
      obtain ⟨l, hl, ho⟩ := ho
      exact (lines_quiet ho i b).2.1

/-- The heat flow of the node of a line is its joule heat. -/
theorem build_line {minR : K} {m : PModel K} {iniT : List K} {net : Network K} (h : m.build minR iniT = .ok (some net))
    (wf : m.WF) {n : Nat} {l : Line K} {t : K} (hl : m.lines[n]? = some l) (ht : iniT[l.id]? = some t) :
    hfOf net l.id = max 0 (m.joule l t) := by
  have hid := wf.lines n l hl
  have hv := run_values (build_run h).2
  rw [hv.1 l.id, hfOf_new, PModel.ops, List.foldl_append, List.foldl_append,
    range_fold_lines (Op.hfAt l.id) m iniT l.id (by omega) (hfAt_writes l.id)]
  have hb : ∀ b, m.blocksOps.foldl (fun b o => Op.hfAt l.id o b) b = b := by
    intro b
    apply foldl_id
    intro o ho b
    unfold PModel.blocksOps at ho
    have key : ∀ side (bl : BC K × (Nat → Bool)), o ∈ m.blockOps side bl → Op.hfAt l.id o b = b := by
      intro side bl ho
      unfold PModel.blockOps at ho
      cases hv : bl.1.value with
      | none => rw [hv] at ho; simp at ho
      | some v =>
        rw [hv] at ho
        simp only [List.mem_filterMap] at ho
        obtain ⟨p, hpm, hp⟩ := ho
        have hlt : p.2 < totalPrisms m.off := by
          rw [← wf.prisms]
          rw [List.mem_zipIdx_iff_getElem?] at hpm
          exact (List.getElem?_eq_some_iff.1 hpm).1
        split_ifs at hp
        cases ht : bl.1.type <;> rw [ht] at hp <;> simp only [Option.some.injEq] at hp <;> subst hp
        · rfl
        · simp only [Op.hfAt]; rw [if_neg (by omega)]
    simp only [List.mem_append, List.mem_flatMap] at ho
    rcases ho with ⟨bl, _, ho⟩ | ⟨bl, _, ho⟩
    · exact key _ _ ho
    · exact key _ _ ho
  rw [hb]
  -- the lines
  have hsplit : m.lines = m.lines.take n ++ l :: m.lines.drop (n + 1) := by
    have hlt := (List.getElem?_eq_some_iff.1 hl).1
    have hge := (List.getElem?_eq_some_iff.1 hl).2
    rw [← hge, List.getElem_cons_drop, List.take_append_drop]
  have hother : ∀ ls : List (Line K), (∀ l' ∈ ls, l'.id ≠ l.id) → ∀ b,
      (ls.flatMap (m.lineOps iniT)).foldl (fun b o => Op.hfAt l.id o b) b = b := by
    intro ls hls b
    apply foldl_id
    intro o ho b
    rw [List.mem_flatMap] at ho
    obtain ⟨l', hl', ho⟩ := ho
    exact (lines_quiet ho l.id b).1 (hls l' hl')
  rw [hsplit, List.flatMap_append, List.flatMap_cons, List.foldl_append, List.foldl_append, hother, hother]
  · unfold PModel.lineOps
    rw [ht]
    simp only [List.foldl_append]
    have hq : ∀ ns : List Nat, ∀ b, (ns.flatMap (m.lineR l t)).foldl (fun b o => Op.hfAt l.id o b) b = b := by
      intro ns b
      apply foldl_id
      intro o ho b
      rw [List.mem_flatMap] at ho
      obtain ⟨nb, _, ho⟩ := ho
      rcases mem_lineR ho with rfl | ⟨_, v, rfl⟩ | ⟨_, _, v, rfl⟩ <;> rfl
    rw [hq, hq]
    split_ifs with hj
    · simp [Op.hfAt, max_eq_right hj.le]
    · simp only [List.foldl_cons, List.foldl_nil, Op.hfAt]
      rw [max_eq_left (not_lt.1 hj)]
  · intro l' hl' he
    obtain ⟨k, hk⟩ := List.mem_iff_getElem?.1 hl'
    have hkn : k < n := by
      have := (List.getElem?_eq_some_iff.1 hk).1
      simp at this; omega
    rw [List.getElem?_take_of_lt hkn] at hk
    have := wf.lines _ l' hk
    omega
  · intro l' hl' he
    obtain ⟨k, hk⟩ := List.mem_iff_getElem?.1 hl'
    rw [List.getElem?_drop] at hk
    have := wf.lines _ l' hk
    omega

/-! ### C47 -/

/-- **C47 for prism models, partial.** If no more than one source puts heat into a prism - its power, or one boundary heat
flux - the heat flow of its node is the power plus the boundary heat flux; and the heat flow of the
node of a bond wire segment is its joule heat. Missing: prisms with several sources, for which the claim is false
(`c47_prism_refuted`). -/
theorem c47_prism_partial {minR : K} {m : PModel K} {iniT : List K} {net : Network K}
    (h : m.build minR iniT = .ok (some net)) (wf : m.WF) :
    (∀ (i : Nat) (p : Prism K) (t : K), m.prisms[i]? = some p → iniT[i]? = some t → (m.sources p t).length ≤ 1 →
      hfOf net i = (m.sources p t).sum) ∧
    (∀ (n : Nat) (l : Line K) (t : K), m.lines[n]? = some l → iniT[l.id]? = some t →
      hfOf net l.id = max 0 (l.current ^ 2 * (m.resist l.mat t * l.length / l.area))) := by
  refine ⟨fun i p t hp ht hs => ?_, fun n l t hl ht => ?_⟩
  swap
  · rw [build_line h wf hl ht]
    unfold PModel.joule
    split
    · rename_i h0; rw [h0]; simp
    · congr 1; ring
  rw [(build_last h wf hp ht).1]
  match hl : m.sources p t, hs with
  | [], _ => simp
  | [v], _ => simp
  | _ :: _ :: _, hs => simp at hs

/-- **C47 for prism models is false**: of several sources of heat of a prism only the last counts. -/
theorem c47_prism_refuted {minR : K} {m : PModel K} {iniT : List K} {net : Network K}
    (h : m.build minR iniT = .ok (some net)) (wf : m.WF) {i : Nat} {p : Prism K} {t : K} (hp : m.prisms[i]? = some p)
    (ht : iniT[i]? = some t) (others : List K) (v : K) (hs : m.sources p t = others ++ [v]) (hne : others.sum ≠ 0) :
    hfOf net i = v ∧ hfOf net i ≠ (m.sources p t).sum := by
  have h1 : hfOf net i = v := by rw [(build_last h wf hp ht).1, hs]; simp
  refine ⟨h1, ?_⟩
  rw [h1, hs]
  simpa using hne

/-- two prisms, one above the other, the upper one with a power of two watts, and a bond wire segment -/
def exPrism (top : Option (BC ℚ)) : PModel ℚ :=
  { off := [0, 1, 2],
    prisms := [⟨0, ⟨⟨0, some (1, 0, fun _ => 2)⟩, 0, 0, fun _ => none, none, some 0⟩, fun _ => none, none, some 1⟩,
      ⟨1, ⟨⟨0, none⟩, 0, 0, fun _ => none, some 0, none⟩, fun _ => none, some 0, none⟩],
    lines := [⟨2, 0, 0, 1, 1, 3, [0], [1]⟩],
    area := fun _ => 1 / 2, edgeLen := fun _ _ => 1, toSide := fun _ _ => 1, dist := fun _ _ => 1, height := fun _ => 1,
    k := fun _ _ _ => 1, heat := fun _ _ => 1, rho := fun _ _ => 1, resist := fun _ _ => 2,
    topBC := top, botBC := some ⟨.htc, some 4⟩, topBlocks := [], botBlocks := [] }

theorem exPrism_wf (top : Option (BC ℚ)) : (exPrism top).WF := by
  refine ⟨rfl, ?_⟩
  intro n l hl
  match n, hl with
  | 0, hl => simp [exPrism] at hl; subst hl; rfl
  | n + 1, hl => simp [exPrism] at hl

/-- the heat flow of a node of the network, if it is built -/
def heatOf (r : Res (Option (Network ℚ))) (i : Nat) : Option ℚ :=
  match r with
  | .ok (some net) => some (hfOf net i)
  | _ => none

/-- without a flux the power arrives, with a flux on the top it is lost -/
example : heatOf ((exPrism none).build (1 / 1000) [25, 25, 25]) 0 = some 2 ∧
    heatOf ((exPrism none).build (1 / 1000) [25, 25, 25]) 2 = some 18 ∧
    heatOf ((exPrism (some ⟨.heatFlux, some 10⟩)).build (1 / 1000) [25, 25, 25]) 0 = some 5 ∧
    (exPrism (some ⟨.heatFlux, some 10⟩)).sources ((exPrism none).prisms[0]'(by decide)) 25 = [2] ++ [5] := by
  decide +kernel

/-- an interleaving of two threads -/
example : Shuffle ((threadBlocks 2 2).map ((exPrism none).rangeOps [25, 25, 25]))
    ((exPrism none).elemOps [25, 25, 25] 1 ++ (exPrism none).elemOps [25, 25, 25] 0) := by
  have h : ∀ (a b : List (Res (Op ℚ))), Shuffle [a, b] (b ++ a) := by
    intro a b
    induction b with
    | nil =>
      induction a with
      | nil => exact .done _ (by simp)
      | cons x a ih => exact .step [] [[]] x a a ih
    | cons x b ih => exact .step [a] [] x b _ ih
  have e : (threadBlocks 2 2).map ((exPrism none).rangeOps [25, 25, 25]) =
      [(exPrism none).elemOps [25, 25, 25] 0, (exPrism none).elemOps [25, 25, 25] 1] := by
    simp [threadBlocks, PModel.rangeOps, List.range_succ]
  rw [e]
  exact h _ _

end Ecad.PrismT
