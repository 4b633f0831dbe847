import Verif.Thermal.GridIndexProps
/-!
C47 for grid models: what the builder writes into the nodes.
-/
namespace Ecad.GridT
open Ecad.Thermal

variable {K : Type} [Field K] [LinearOrder K]

/-! ### overwriting calls -/

/-- the heat flow a call stores in node `i` -/
def wHF (i : Nat) : Res (Op K) → Option K
  | .ok (.hf j v) => if j = i then some v else none
  | _ => none

/-- the transfer coefficient a call stores in node `i` -/
def wHTC (i : Nat) : Res (Op K) → Option K
  | .ok (.htc j v) => if j = i then some v else none
  | _ => none

/-- no call adds to what is there -/
def NoAdd : Res (Op K) → Prop
  | .ok (.addHF _ _) => False
  | .ok (.addHTC _ _) => False
  | _ => True

theorem getLastD_cons' {α : Type _} (l : List α) (a d : α) : (a :: l).getLastD d = l.getLastD a := by
  cases l <;> simp [List.getLastD]

theorem fold_hf (i : Nat) (l : List (Res (Op K))) (hl : ∀ o ∈ l, NoAdd o) : ∀ h,
    l.foldl (fun b o => Op.hfAt i o b) h = (l.filterMap (wHF i)).getLastD h := by
  induction l with
  | nil => intro h; simp
  | cons o l ih =>
    intro h
    have hl' : ∀ o ∈ l, NoAdd o := fun o ho => hl o (by simp [ho])
    have h1 := hl o (by simp)
    rw [List.foldl_cons, ih hl']
    rcases o with op | _ | _
    · cases op
      case hf j v =>
        by_cases hj : j = i
        · simp only [Op.hfAt, hj, wHF, List.filterMap_cons, if_true]
          rw [getLastD_cons']
        · simp [Op.hfAt, hj, wHF, List.filterMap_cons]
      case addHF j v => exact absurd h1 (by simp [NoAdd])
      all_goals simp [Op.hfAt, wHF, List.filterMap_cons]
    · simp [Op.hfAt, wHF, List.filterMap_cons]
    · simp [Op.hfAt, wHF, List.filterMap_cons]

theorem fold_htc (i : Nat) (l : List (Res (Op K))) (hl : ∀ o ∈ l, NoAdd o) : ∀ h,
    l.foldl (fun b o => Op.htcAt i o b) h = (l.filterMap (wHTC i)).getLastD h := by
  induction l with
  | nil => intro h; simp
  | cons o l ih =>
    intro h
    have hl' : ∀ o ∈ l, NoAdd o := fun o ho => hl o (by simp [ho])
    have h1 := hl o (by simp)
    rw [List.foldl_cons, ih hl']
    rcases o with op | _ | _
    · cases op
      case htc j v =>
        by_cases hj : j = i
        · simp only [Op.htcAt, hj, wHTC, List.filterMap_cons, if_true]
          rw [getLastD_cons']
        · simp [Op.htcAt, hj, wHTC, List.filterMap_cons]
      case addHTC j v => exact absurd h1 (by simp [NoAdd])
      all_goals simp [Op.htcAt, wHTC, List.filterMap_cons]
    · simp [Op.htcAt, wHTC, List.filterMap_cons]
    · simp [Op.htcAt, wHTC, List.filterMap_cons]

/-- a function that gives something for one element only -/
theorem flatMap_single {α β : Type _} [DecidableEq α] (f : α → List β) (a : α) : ∀ l : List α, l.Nodup →
    (∀ b ∈ l, b ≠ a → f b = []) → l.flatMap f = if a ∈ l then f a else [] := by
  intro l
  induction l with
  | nil => intro _ _; simp
  | cons b l ih =>
    intro nd h
    rw [List.nodup_cons] at nd
    rw [List.flatMap_cons, ih nd.2 (fun c hc => h c (by simp [hc]))]
    by_cases hb : b = a
    · subst hb; simp [nd.1]
    · rw [h b (by simp) hb]
      simp [Ne.symm hb]

theorem filterMap_toList {α β : Type _} (f : α → Option β) (l : List α) :
    l.filterMap f = l.flatMap fun a => (f a).toList := by
  induction l with
  | nil => rfl
  | cons a l ih => rw [List.filterMap_cons, List.flatMap_cons, ← ih]; cases f a <;> simp

/-! ### cells -/

theorem mem_cells {xs ys : List Nat} {c : Nat × Nat} : c ∈ cells xs ys ↔ c.1 ∈ xs ∧ c.2 ∈ ys := by
  obtain ⟨x, y⟩ := c
  simp [cells]

theorem nodup_cells {xs ys : List Nat} (hx : xs.Nodup) (hy : ys.Nodup) : (cells xs ys).Nodup := by
  unfold cells
  rw [List.nodup_flatMap]
  refine ⟨fun x _ => hy.map (fun a b h => by simpa using h), ?_⟩
  refine List.Pairwise.imp ?_ hx
  intro a b hab p hp hq
  simp only [List.mem_map] at hp hq
  obtain ⟨_, _, rfl⟩ := hp
  obtain ⟨_, _, h⟩ := hq
  exact hab (by simpa using (congrArg Prod.fst h).symm)

theorem mem_allCells {s : Size2} {c : Nat × Nat} : c ∈ allCells s ↔ c.1 < s.x ∧ c.2 < s.y := by
  rw [allCells, mem_cells, List.mem_range, List.mem_range]

theorem mem_blockCells {ll ur : Size2} {c : Nat × Nat} :
    c ∈ blockCells ll ur ↔ (ll.x ≤ c.1 ∧ c.1 ≤ ur.x) ∧ ll.y ≤ c.2 ∧ c.2 ≤ ur.y := by
  rw [blockCells, mem_cells, List.mem_range'_1, List.mem_range'_1]
  omega

theorem nodup_allCells (s : Size2) : (allCells s).Nodup := nodup_cells List.nodup_range List.nodup_range

theorem nodup_blockCells (ll ur : Size2) : (blockCells ll ur).Nodup := nodup_cells List.nodup_range' List.nodup_range'

/-! ### the specification: sources of heat of a cell -/

/-- a block lies in the grid -/
def BlockIn (s : Size2) (b : Size2 × Size2) : Prop := b.2.x < s.x ∧ b.2.y < s.y

/-- a cell lies in a block -/
def InBlock (b : Size2 × Size2) (g : Size3) : Prop :=
  b.1.x ≤ g.x ∧ g.x ≤ b.2.x ∧ b.1.y ≤ g.y ∧ g.y ≤ b.2.y

instance (b : Size2 × Size2) (g : Size3) : Decidable (InBlock b g) := by unfold InBlock; infer_instance

/-- the heat flow of a boundary condition into one cell, if it is a valid heat flux -/
def BC.flux (b : BC K) (area : K) : List K :=
  match b.type, b.value with
  | .heatFlux, some v => [area * v]
  | _, _ => []

/-- the transfer coefficient of a boundary condition for one cell, if it is a valid one -/
def BC.trans (b : BC K) (area : K) : List K :=
  match b.type, b.value with
  | .htc, some v => [area * v]
  | _, _ => []

/-- the power of a power model in one cell at a temperature -/
def Power.inCell (ip : List (K × K) → K → Res K) (t : K) (g : Size3) : Power K → List K
  | .grid tb =>
    match query ip tb t g.x g.y with
    | .ok (some v) => [v]
    | _ => []
  | .block .. => []

/-- boundary conditions touching a cell, in the order uniform top, uniform bottom, blocks on top, blocks
on the bottom -/
def GModel.bcsAt (m : GModel K) (g : Size3) : List (BC K) :=
  (if g.z = 0 then m.topBC.toList else []) ++
  (if g.z + 1 = m.layers.length then m.botBC.toList else []) ++
  ((m.topBlocks.filter fun b => g.z = 0 ∧ InBlock b.1 g).map Prod.snd) ++
  ((m.botBlocks.filter fun b => g.z + 1 = m.layers.length ∧ InBlock b.1 g).map Prod.snd)

/-- All heat put into a cell: power at the cell's temperature `t`, then boundary heat flux. -/
def GModel.sources (ip : List (K × K) → K → Res K) (m : GModel K) (t : K) (g : Size3) : List K :=
  ((m.layers[g.z]?.map TLayer.powers).getD []).flatMap (Power.inCell ip t g) ++
  (m.bcsAt g).flatMap fun b => b.flux m.areaZ

/-- the blocks of the model lie in the grid -/
structure GModel.BlocksIn (m : GModel K) : Prop where
  top : ∀ b ∈ m.topBlocks, BlockIn m.size b.1
  bot : ∀ b ∈ m.botBlocks, BlockIn m.size b.1

/-! ### what the builder writes -/

omit [LinearOrder K] in
theorem w_cellOps (w : Res (Op K) → Option K) (h1 : ∀ i v, w (.ok (.c i v)) = none) (h2 : ∀ a b v, w (.ok (.r a b v)) = none)
    (h3 : w .ub = none) (h4 : w .exn = none) (m : GModel K) (i : Nat) : (m.cellOps i).filterMap w = [] := by
  unfold GModel.cellOps
  cases gridIndex m.size i with
  | ok g =>
    have hl : ∀ o, (m.link i g o).filterMap w = [] := by
      intro o
      unfold GModel.link
      by_cases hv : valid (neighbor m.size3 g o) = true
      · simp only [hv, if_true]; simp [h2]
      · simp only [hv, if_false]; rfl
    simp [List.filterMap_cons, h1, hl]
  | ub => simp [h3]
  | exn => simp [h4]

omit [LinearOrder K] in
theorem w_jumpOps (w : Res (Op K) → Option K) (h2 : ∀ a b v, w (.ok (.r a b v)) = none)
    (h4 : w .exn = none) (m : GModel K) (iniT : List K) (j) : (m.jumpOps iniT j).filterMap w = [] := by
  unfold GModel.jumpOps
  simp only
  split_ifs <;> simp [h2, h4]

omit [LinearOrder K] in
theorem size3_flat (m : GModel K) : m.size3.flat = m.size := rfl

omit [LinearOrder K] in
theorem flatten_cell (m : GModel K) {g : Size3} (hg : InGrid m.size3 g) {c : Nat × Nat} {z : Nat}
    (hc : c.1 < m.size.x ∧ c.2 < m.size.y) (hz : z < m.layers.length) :
    flatten m.size ⟨c.1, c.2, z⟩ = flatten m.size g ↔ c = (g.x, g.y) ∧ z = g.z := by
  constructor
  · intro h
    have : (⟨c.1, c.2, z⟩ : Size3) = g := flatten_inj (m := m.size3) ⟨hc.1, hc.2, hz⟩ hg h
    subst this
    simp
  · rintro ⟨rfl, rfl⟩; rfl

theorem w_heat (ip : List (K × K) → K → Res K) (m : GModel K) (iniT : List K) (t : Table K) {g : Size3}
    (hg : InGrid m.size3 g) {T : K} (hT : iniT[flatten m.size g]? = some T) {z : Nat} (hz : z < m.layers.length) :
    ((allCells m.size).flatMap (m.heatOps ip iniT t z)).filterMap (wHF (flatten m.size g)) =
      if z = g.z then Power.inCell ip T g (.grid t) else [] := by
  rw [List.filterMap_flatMap]
  rw [flatMap_single _ (g.x, g.y) _ (nodup_allCells _)]
  · rw [if_pos (mem_allCells.2 ⟨hg.1, hg.2.1⟩)]
    unfold GModel.heatOps
    simp only
    by_cases hzg : z = g.z
    · subst hzg
      rw [hT, if_pos rfl]
      simp only [Power.inCell]
      cases hq : query ip t T g.x g.y with
      | ok o => cases o <;> simp [wHF]
      | ub => simp [wHF]
      | exn => simp [wHF]
    · rw [if_neg hzg]
      have hne : flatten m.size ⟨g.x, g.y, z⟩ ≠ flatten m.size g := by
        intro h
        exact hzg ((flatten_cell m hg (c := (g.x, g.y)) ⟨hg.1, hg.2.1⟩ hz).1 h).2
      cases iniT[flatten m.size ⟨g.x, g.y, z⟩]? with
      | none => simp [wHF]
      | some key =>
        simp only
        cases hq : query ip t key g.x g.y with
        | ok o => cases o <;> simp [wHF, hne]
        | ub => simp [wHF]
        | exn => simp [wHF]
  · intro c hc hne
    rw [mem_allCells] at hc
    have hne' : flatten m.size ⟨c.1, c.2, z⟩ ≠ flatten m.size g := by
      intro h
      exact hne ((flatten_cell m hg hc hz).1 h).1
    unfold GModel.heatOps
    simp only
    cases iniT[flatten m.size ⟨c.1, c.2, z⟩]? with
    | none => simp [wHF]
    | some key =>
      simp only
      cases hq : query ip t key c.1 c.2 with
      | ok o => cases o <;> simp [wHF, hne']
      | ub => simp [wHF]
      | exn => simp [wHF]

theorem w_powers (ip : List (K × K) → K → Res K) (m : GModel K) (iniT : List K) {g : Size3}
    (hg : InGrid m.size3 g) {T : K} (hT : iniT[flatten m.size g]? = some T) (ps : List (Nat × Power K)) :
    ∀ n, m.total ≤ n → (∀ p ∈ ps, p.1 < m.layers.length) →
    (m.powersOps ip iniT n ps).filterMap (wHF (flatten m.size g)) =
      ps.flatMap fun p => if p.1 = g.z then Power.inCell ip T g p.2 else [] := by
  induction ps with
  | nil => intro n _ _; simp [GModel.powersOps]
  | cons p ps ih =>
    intro n hn hp
    obtain ⟨z, p⟩ := p
    rw [GModel.powersOps, List.filterMap_append, ih _ (by omega) (fun q hq => hp q (by simp [hq])), List.flatMap_cons]
    congr 1
    cases p with
    | grid t => exact w_heat ip m iniT t hg hT (hp _ (List.mem_cons_self ..))
    | block ll ur total =>
      have hlt : flatten m.size g < m.total := flatten_lt (m := m.size3) hg
      simp only [GModel.powerOps, Power.inCell, ite_self]
      rw [List.filterMap_cons, List.filterMap_cons]
      simp only [wHF, if_neg (show ¬ n = flatten m.size g by omega)]
      rw [List.filterMap_eq_nil_iff]
      intro o ho
      rw [List.mem_map] at ho
      obtain ⟨c, _, rfl⟩ := ho
      rfl

theorem flatMap_layers (m : GModel K) (f : Power K → List K) (z : Nat) (hz : z < m.layers.length) :
    (m.powers.flatMap fun p => if p.1 = z then f p.2 else []) =
      ((m.layers[z]?.map TLayer.powers).getD []).flatMap f := by
  unfold GModel.powers
  rw [List.flatMap_assoc]
  have : (fun p : TLayer K × Nat => (p.1.powers.map fun q => (p.2, q)).flatMap fun p => if p.1 = z then f p.2 else []) =
      fun p => if p.2 = z then p.1.powers.flatMap f else [] := by
    funext p
    rw [List.flatMap_map]
    by_cases h : p.2 = z <;> simp [h]
  rw [this]
  have key : ∀ (l : List (TLayer K)) (k : Nat), (l.zipIdx k).flatMap (fun p => if p.2 = z then p.1.powers.flatMap f else []) =
      if k ≤ z then ((l[z - k]?.map TLayer.powers).getD []).flatMap f else [] := by
    intro l
    induction l with
    | nil => intro k; simp
    | cons a l ih =>
      intro k
      rw [List.zipIdx_cons, List.flatMap_cons, ih]
      by_cases h1 : k = z
      · subst h1; simp
      · rw [if_neg h1, List.nil_append]
        by_cases h2 : k ≤ z
        · rw [if_pos h2, if_pos (by omega), show z - k = (z - (k + 1)) + 1 by omega, List.getElem?_cons_succ]
        · rw [if_neg h2, if_neg (by omega)]
  rw [key, if_pos (Nat.zero_le _), Nat.sub_zero]

omit [LinearOrder K] in
theorem w_bc_one (m : GModel K) {g : Size3} (hg : InGrid m.size3 g) (b : BC K) {z : Nat}
    (hz : z < m.layers.length) (cs : List (Nat × Nat)) (nd : cs.Nodup) (hc : ∀ c ∈ cs, c.1 < m.size.x ∧ c.2 < m.size.y) :
    (m.bcOps b z cs).filterMap (wHF (flatten m.size g)) =
      (if z = g.z ∧ (g.x, g.y) ∈ cs then b.flux m.areaZ else []) ∧
    (m.bcOps b z cs).filterMap (wHTC (flatten m.size g)) =
      (if z = g.z ∧ (g.x, g.y) ∈ cs then b.trans m.areaZ else []) := by
  have gen : ∀ (v : K) (w : Res (Op K) → Option K) (r : List K),
      (∀ c ∈ cs, c ≠ (g.x, g.y) ∨ z ≠ g.z → w (m.bcOp b.type v z c) = none) →
      (z = g.z → (w (m.bcOp b.type v z (g.x, g.y))).toList = r) →
      (cs.map (m.bcOp b.type v z)).filterMap w = if z = g.z ∧ (g.x, g.y) ∈ cs then r else [] := by
    intro v w r h1 h2
    rw [List.filterMap_map, filterMap_toList]
    rw [flatMap_single _ (g.x, g.y) _ nd]
    · by_cases hm : (g.x, g.y) ∈ cs
      · rw [if_pos hm]
        by_cases hzg : z = g.z
        · rw [if_pos ⟨hzg, hm⟩]; exact h2 hzg
        · rw [if_neg (by tauto)]
          simp only [Function.comp, h1 _ hm (.inr hzg), Option.toList_none]
      · rw [if_neg hm, if_neg (by tauto)]
    · intro c hc' hne
      simp only [Function.comp, h1 _ hc' (.inl hne), Option.toList_none]
  have ne : ∀ c ∈ cs, c ≠ (g.x, g.y) ∨ z ≠ g.z → flatten m.size ⟨c.1, c.2, z⟩ ≠ flatten m.size g := by
    intro c hc' h e
    have := (flatten_cell m hg (hc c hc') hz).1 e
    rcases h with h | h
    · exact h this.1
    · exact h this.2
  unfold GModel.bcOps BC.flux BC.trans
  cases hv : b.value with
  | none => constructor <;> simp
  | some v =>
    simp only
    constructor
    · refine (gen v (wHF (flatten m.size g)) (match b.type with | .heatFlux => [m.areaZ * v] | .htc => []) ?_ ?_).trans ?_
      · intro c hc' h
        cases b.type <;> simp [GModel.bcOp, wHF, ne c hc' h]
      · intro hzg
        subst hzg
        cases b.type <;> simp [GModel.bcOp, wHF]
      · cases b.type <;> rfl
    · refine (gen v (wHTC (flatten m.size g)) (match b.type with | .htc => [m.areaZ * v] | .heatFlux => []) ?_ ?_).trans ?_
      · intro c hc' h
        cases b.type <;> simp [GModel.bcOp, wHTC, ne c hc' h]
      · intro hzg
        subst hzg
        cases b.type <;> simp [GModel.bcOp, wHTC]
      · cases b.type <;> rfl

theorem flatMap_if {α β : Type _} (p : α → Prop) [DecidablePred p] (f : α → List β) (l : List α) :
    (l.flatMap fun a => if p a then f a else []) = (l.filter fun a => decide (p a)).flatMap f := by
  induction l with
  | nil => rfl
  | cons a l ih =>
    rw [List.flatMap_cons, ih]
    by_cases h : p a <;> simp [h]

omit [LinearOrder K] in
theorem w_bcs_gen (m : GModel K) {g : Size3} (hg : InGrid m.size3 g) (hb : m.BlocksIn) (w : Res (Op K) → Option K)
    (φ : BC K → List K) (hf : m.layers.length ≤ invalidIndex)
    (h : ∀ (b : BC K) {z : Nat}, z < m.layers.length → ∀ cs : List (Nat × Nat), cs.Nodup →
      (∀ c ∈ cs, c.1 < m.size.x ∧ c.2 < m.size.y) →
      (m.bcOps b z cs).filterMap w = if z = g.z ∧ (g.x, g.y) ∈ cs then φ b else []) :
    (m.bcs.flatMap fun b => m.bcOps b.1 b.2.1 b.2.2).filterMap w = (m.bcsAt g).flatMap φ := by
  have hz : 0 < m.layers.length := by have := hg.2.2; simp only [GModel.size3] at this; omega
  have hp : pred64 m.layers.length = m.layers.length - 1 := by unfold pred64; rw [if_neg (by omega)]
  have hlast : (m.layers.length - 1 = g.z) ↔ (g.z + 1 = m.layers.length) := by omega
  have hmem : (g.x, g.y) ∈ allCells m.size := mem_allCells.2 ⟨hg.1, hg.2.1⟩
  have hbc : ∀ b : Size2 × Size2, BlockIn m.size b → ∀ c ∈ blockCells b.1 b.2, c.1 < m.size.x ∧ c.2 < m.size.y := by
    intro b hb c hc
    rw [mem_blockCells] at hc
    obtain ⟨h1, h2⟩ := hb
    omega
  unfold GModel.bcs GModel.bcsAt
  simp only [List.flatMap_append, List.filterMap_append, hp]
  congr 1
  congr 1
  congr 1
  · rw [List.flatMap_map]
    cases m.topBC with
    | none => simp
    | some b =>
      simp only [Option.toList_some, List.flatMap_cons, List.flatMap_nil, List.append_nil]
      rw [h b hz _ (nodup_allCells _) (fun c hc => mem_allCells.1 hc)]
      by_cases h0 : g.z = 0
      · simp [h0, hmem]
      · rw [if_neg (by tauto), if_neg h0]; rfl
  · rw [List.flatMap_map]
    cases m.botBC with
    | none => simp
    | some b =>
      simp only [Option.toList_some, List.flatMap_cons, List.flatMap_nil, List.append_nil]
      rw [h b (by omega) _ (nodup_allCells _) (fun c hc => mem_allCells.1 hc)]
      by_cases h0 : g.z + 1 = m.layers.length
      · simp [hlast, h0, hmem]
      · rw [if_neg (by tauto), if_neg h0]; rfl
  · rw [List.flatMap_map, List.filterMap_flatMap, List.flatMap_map, ← flatMap_if]
    have e : ∀ (l : List ((Size2 × Size2) × BC K)) (f f' : (Size2 × Size2) × BC K → List K), (∀ b ∈ l, f b = f' b) → l.flatMap f = l.flatMap f' := by
      intro l f f' hh
      induction l with
      | nil => rfl
      | cons a l ih => rw [List.flatMap_cons, List.flatMap_cons, hh a (by simp), ih (fun b hb => hh b (by simp [hb]))]
    apply e
    intro b hbm
    simp only
    rw [h b.2 hz _ (nodup_blockCells _ _) (hbc _ (hb.top b hbm))]
    by_cases h0 : g.z = 0 ∧ InBlock b.1 g
    · rw [if_pos h0, if_pos ⟨h0.1.symm, mem_blockCells.2 ⟨⟨h0.2.1, h0.2.2.1⟩, h0.2.2.2⟩⟩]
    · rw [if_neg h0, if_neg]
      rintro ⟨h1, h2⟩
      rw [mem_blockCells] at h2
      exact h0 ⟨h1.symm, h2.1.1, h2.1.2, h2.2⟩
  · rw [List.flatMap_map, List.filterMap_flatMap, List.flatMap_map, ← flatMap_if]
    have e : ∀ (l : List ((Size2 × Size2) × BC K)) (f f' : (Size2 × Size2) × BC K → List K), (∀ b ∈ l, f b = f' b) → l.flatMap f = l.flatMap f' := by
      intro l f f' hh
      induction l with
      | nil => rfl
      | cons a l ih => rw [List.flatMap_cons, List.flatMap_cons, hh a (by simp), ih (fun b hb => hh b (by simp [hb]))]
    apply e
    intro b hbm
    simp only
    rw [h b.2 (by omega) _ (nodup_blockCells _ _) (hbc _ (hb.bot b hbm))]
    by_cases h0 : g.z + 1 = m.layers.length ∧ InBlock b.1 g
    · rw [if_pos h0, if_pos ⟨hlast.2 h0.1, mem_blockCells.2 ⟨⟨h0.2.1, h0.2.2.1⟩, h0.2.2.2⟩⟩]
    · rw [if_neg h0, if_neg]
      rintro ⟨h1, h2⟩
      rw [mem_blockCells] at h2
      exact h0 ⟨hlast.1 h1, h2.1.1, h2.1.2, h2.2⟩

omit [LinearOrder K] in
theorem noAdd_cells (m : GModel K) : ∀ o ∈ (List.range m.total).flatMap m.cellOps, NoAdd o := by
  intro o ho
  rw [List.mem_flatMap] at ho
  obtain ⟨i, _, ho⟩ := ho
  unfold GModel.cellOps at ho
  have hl : ∀ g o', o ∈ m.link i g o' → NoAdd o := by
    intro g o' h
    unfold GModel.link at h
    simp only at h
    by_cases hv : valid (neighbor m.size3 g o') = true
    · rw [if_pos hv] at h; simp at h; subst h; trivial
    · rw [if_neg hv] at h; simp at h
  cases hgi : gridIndex m.size i with
  | ok g =>
    rw [hgi] at ho
    simp only [List.mem_cons, List.mem_append] at ho
    rcases ho with rfl | (ho | ho) | ho
    · trivial
    · exact hl _ _ ho
    · exact hl _ _ ho
    · exact hl _ _ ho
  | ub => rw [hgi] at ho; simp at ho; subst ho; trivial
  | exn => rw [hgi] at ho; simp at ho; subst ho; trivial

omit [LinearOrder K] in
theorem noAdd_jumps (m : GModel K) (iniT : List K) : ∀ o ∈ m.jumps.flatMap (m.jumpOps iniT), NoAdd o := by
  intro o ho
  rw [List.mem_flatMap] at ho
  obtain ⟨i, _, ho⟩ := ho
  unfold GModel.jumpOps at ho
  simp only at ho
  split_ifs at ho <;> simp at ho <;> subst ho <;> trivial

theorem heatOps_cases (ip : List (K × K) → K → Res K) (m : GModel K) (iniT : List K) (t : Table K) (z : Nat) (c : Nat × Nat)
    {o : Res (Op K)} (ho : o ∈ m.heatOps ip iniT t z c) :
    o = .ub ∨ o = .exn ∨ ∃ v, o = .ok (.hf (flatten m.size ⟨c.1, c.2, z⟩) v) := by
  unfold GModel.heatOps at ho
  simp only at ho
  cases h1 : iniT[flatten m.size ⟨c.1, c.2, z⟩]? with
  | none => rw [h1] at ho; simp at ho; tauto
  | some key =>
    rw [h1] at ho
    simp only at ho
    cases h2 : query ip t key c.1 c.2 with
    | ok a =>
      rw [h2] at ho
      cases a with
      | none => simp at ho
      | some v => simp at ho; exact .inr (.inr ⟨v, ho⟩)
    | ub => rw [h2] at ho; simp at ho; tauto
    | exn => rw [h2] at ho; simp at ho; tauto

theorem noAdd_powers (ip : List (K × K) → K → Res K) (m : GModel K) (iniT : List K) (ps : List (Nat × Power K)) :
    ∀ n, ∀ o ∈ m.powersOps ip iniT n ps, NoAdd o := by
  induction ps with
  | nil => intro n o ho; simp [GModel.powersOps] at ho
  | cons p ps ih =>
    intro n o ho
    obtain ⟨z, p⟩ := p
    rw [GModel.powersOps] at ho
    rcases List.mem_append.1 ho with ho | ho
    · cases p with
      | grid t =>
        rw [GModel.powerOps, List.mem_flatMap] at ho
        obtain ⟨c, _, ho⟩ := ho
        rcases heatOps_cases ip m iniT t z c ho with rfl | rfl | ⟨v, rfl⟩ <;> trivial
      | block ll ur total =>
        rw [GModel.powerOps] at ho
        simp only [List.mem_cons, List.mem_map] at ho
        rcases ho with rfl | rfl | ⟨c, _, rfl⟩ <;> trivial
    · exact ih _ o ho

omit [LinearOrder K] in
theorem bcOps_cases (m : GModel K) (b : BC K) (z : Nat) (cs : List (Nat × Nat)) {o : Res (Op K)} (ho : o ∈ m.bcOps b z cs) :
    ∃ c ∈ cs, ∃ v, b.value = some v ∧
      ((b.type = .htc ∧ o = .ok (.htc (flatten m.size ⟨c.1, c.2, z⟩) (m.areaZ * v))) ∨
       (b.type = .heatFlux ∧ o = .ok (.hf (flatten m.size ⟨c.1, c.2, z⟩) (m.areaZ * v)))) := by
  unfold GModel.bcOps at ho
  cases hv : b.value with
  | none => rw [hv] at ho; simp at ho
  | some v =>
    rw [hv] at ho
    simp only [List.mem_map] at ho
    obtain ⟨c, hc, rfl⟩ := ho
    refine ⟨c, hc, v, rfl, ?_⟩
    cases ht : b.type <;> simp [GModel.bcOp]

theorem noAdd_ops (ip : List (K × K) → K → Res K) (m : GModel K) (iniT : List K) : ∀ o ∈ m.ops ip iniT, NoAdd o := by
  intro o ho
  unfold GModel.ops at ho
  simp only [List.mem_append] at ho
  rcases ho with ((ho | ho) | ho) | ho
  · exact noAdd_cells m o ho
  · exact noAdd_jumps m iniT o ho
  · exact noAdd_powers ip m iniT _ _ o ho
  · rw [List.mem_flatMap] at ho
    obtain ⟨b, _, ho⟩ := ho
    obtain ⟨c, _, v, _, h⟩ := bcOps_cases m _ _ _ ho
    rcases h with ⟨_, rfl⟩ | ⟨_, rfl⟩ <;> trivial

omit [LinearOrder K] in
theorem powers_layer (m : GModel K) : ∀ p ∈ m.powers, p.1 < m.layers.length := by
  intro p hp
  unfold GModel.powers at hp
  rw [List.mem_flatMap] at hp
  obtain ⟨⟨l, i⟩, hl, hp⟩ := hp
  rw [List.mem_map] at hp
  obtain ⟨q, _, rfl⟩ := hp
  rw [List.mem_zipIdx_iff_getElem?] at hl
  exact (List.getElem?_eq_some_iff.1 hl).1

theorem build_run {minR : K} {ip : List (K × K) → K → Res K} {m : GModel K} {iniT : List K} {net : Network K}
    (h : m.build minR ip iniT = .ok (some net)) :
    iniT.length = m.total ∧ run minR (Network.new noScen m.total) (m.ops ip iniT) = .ok net := by
  unfold GModel.build at h
  split_ifs at h with hl
  · simp at h
  · refine ⟨by simpa using hl, ?_⟩
    cases hr : run minR (Network.new noScen m.total) (m.ops ip iniT) with
    | ok n => rw [hr] at h; simp at h; rw [h]
    | ub => rw [hr] at h; simp at h
    | exn => rw [hr] at h; simp at h

/-- The heat flow of a cell of the network is that of the last of its sources, its transfer coefficient
that of the last boundary condition touching it. -/
theorem build_last {minR : K} {ip : List (K × K) → K → Res K} {m : GModel K} {iniT : List K} {net : Network K}
    (h : m.build minR ip iniT = .ok (some net)) (hf : Fits m.size3) (hb : m.BlocksIn) {g : Size3} (hg : InGrid m.size3 g)
    {T : K} (hT : iniT[flatten m.size g]? = some T) :
    hfOf net (flatten m.size g) = (m.sources ip T g).getLastD 0 ∧
    htcOf net (flatten m.size g) = ((m.bcsAt g).flatMap fun b => b.trans m.areaZ).getLastD 0 := by
  obtain ⟨_, hr⟩ := build_run h
  obtain ⟨v1, v2, _⟩ := run_values hr
  have hz : m.layers.length ≤ invalidIndex := hf.2.2
  refine ⟨?_, ?_⟩
  · rw [v1, fold_hf _ _ (noAdd_ops ip m iniT), hfOf_new]
    congr 1
    unfold GModel.ops GModel.sources
    simp only [List.filterMap_append]
    rw [w_bcs_gen m hg hb (wHF (flatten m.size g)) (fun b => b.flux m.areaZ) hz
      (fun b z h1 cs h2 h3 => (w_bc_one m hg b h1 cs h2 h3).1),
      w_powers ip m iniT hg hT _ _ (le_refl _) (powers_layer m), flatMap_layers m _ _ hg.2.2]
    have e1 : ((List.range m.total).flatMap m.cellOps).filterMap (wHF (flatten m.size g)) = [] := by
      rw [List.filterMap_flatMap, List.flatMap_eq_nil_iff]
      intro i _
      exact w_cellOps _ (fun _ _ => rfl) (fun _ _ _ => rfl) rfl rfl m i
    have e2 : (m.jumps.flatMap (m.jumpOps iniT)).filterMap (wHF (flatten m.size g)) = [] := by
      rw [List.filterMap_flatMap, List.flatMap_eq_nil_iff]
      intro i _
      exact w_jumpOps _ (fun _ _ _ => rfl) rfl m iniT i
    rw [e1, e2]; rfl
  · rw [v2, fold_htc _ _ (noAdd_ops ip m iniT), htcOf_new]
    congr 1
    unfold GModel.ops
    simp only [List.filterMap_append]
    rw [w_bcs_gen m hg hb (wHTC (flatten m.size g)) (fun b => b.trans m.areaZ) hz
      (fun b z h1 cs h2 h3 => (w_bc_one m hg b h1 cs h2 h3).2)]
    have e1 : ((List.range m.total).flatMap m.cellOps).filterMap (wHTC (flatten m.size g)) = [] := by
      rw [List.filterMap_flatMap, List.flatMap_eq_nil_iff]
      intro i _
      exact w_cellOps _ (fun _ _ => rfl) (fun _ _ _ => rfl) rfl rfl m i
    have e2 : (m.jumps.flatMap (m.jumpOps iniT)).filterMap (wHTC (flatten m.size g)) = [] := by
      rw [List.filterMap_flatMap, List.flatMap_eq_nil_iff]
      intro i _
      exact w_jumpOps _ (fun _ _ _ => rfl) rfl m iniT i
    have e3 : ∀ (ps : List (Nat × Power K)) (n : Nat), (m.powersOps ip iniT n ps).filterMap (wHTC (flatten m.size g)) = [] := by
      intro ps
      induction ps with
      | nil => intro n; rfl
      | cons p ps ih =>
        intro n
        obtain ⟨z, p⟩ := p
        rw [GModel.powersOps, List.filterMap_append, ih, List.append_nil, List.filterMap_eq_nil_iff]
        intro o ho
        cases p with
        | grid t =>
          rw [GModel.powerOps, List.mem_flatMap] at ho
          obtain ⟨c, _, ho⟩ := ho
          rcases heatOps_cases ip m iniT t z c ho with rfl | rfl | ⟨v, rfl⟩ <;> rfl
        | block ll ur total =>
          rw [GModel.powerOps] at ho
          simp only [List.mem_cons, List.mem_map] at ho
          rcases ho with rfl | rfl | ⟨c, _, rfl⟩ <;> rfl
    rw [e1, e2, e3]; rfl

/-! ### nodes of block powers -/

/-- the total powers of the block power models in order -/
def GModel.blockTotals (m : GModel K) : List K :=
  m.powers.filterMap fun p => match p.2 with
    | .block _ _ total => some total
    | .grid _ => none

omit [LinearOrder K] in
theorem bcs_inside (m : GModel K) (hb : m.BlocksIn) (hz : 0 < m.layers.length) {b : BC K × Nat × List (Nat × Nat)}
    (h : b ∈ m.bcs) : b.2.1 < m.layers.length ∧ ∀ c ∈ b.2.2, c.1 < m.size.x ∧ c.2 < m.size.y := by
  have hp : pred64 m.layers.length = m.layers.length - 1 := by unfold pred64; rw [if_neg (by omega)]
  have hbc : ∀ b : Size2 × Size2, BlockIn m.size b → ∀ c ∈ blockCells b.1 b.2, c.1 < m.size.x ∧ c.2 < m.size.y := by
    intro b hb c hc
    rw [mem_blockCells] at hc
    obtain ⟨h1, h2⟩ := hb
    omega
  unfold GModel.bcs at h
  simp only [List.mem_append, List.mem_map, hp] at h
  rcases h with ((⟨q, _, rfl⟩ | ⟨q, _, rfl⟩) | ⟨q, hq, rfl⟩) | ⟨q, hq, rfl⟩
  · exact ⟨hz, fun c hc => mem_allCells.1 hc⟩
  · exact ⟨by simp only; omega, fun c hc => mem_allCells.1 hc⟩
  · exact ⟨hz, hbc _ (hb.top q hq)⟩
  · exact ⟨by simp only; omega, hbc _ (hb.bot q hq)⟩

theorem w_block_powers (ip : List (K × K) → K → Res K) (m : GModel K) (iniT : List K) (ps : List (Nat × Power K)) :
    ∀ n k, m.total ≤ n → (∀ p ∈ ps, p.1 < m.layers.length) →
    (m.powersOps ip iniT n ps).filterMap (wHF (n + k)) =
      ((ps.filterMap fun p => match p.2 with
        | .block _ _ total => some total
        | .grid _ => none)[k]?).toList ∧
    ∀ i, i < n → m.total ≤ i → (m.powersOps ip iniT n ps).filterMap (wHF i) = [] := by
  induction ps with
  | nil => intro n k _ _; simp [GModel.powersOps]
  | cons p ps ih =>
    intro n k hn hp
    have hps : ∀ p ∈ ps, p.1 < m.layers.length := fun q hq => hp q (by simp [hq])
    obtain ⟨z, p⟩ := p
    have hz : z < m.layers.length := hp _ (List.mem_cons_self ..)
    cases p with
    | grid t =>
      have hg : ∀ i, m.total ≤ i → ((allCells m.size).flatMap (m.heatOps ip iniT t z)).filterMap (wHF i) = [] := by
        intro i hi
        rw [List.filterMap_eq_nil_iff]
        intro o ho
        rw [List.mem_flatMap] at ho
        obtain ⟨c, hc, ho⟩ := ho
        rw [mem_allCells] at hc
        rcases heatOps_cases ip m iniT t z c ho with rfl | rfl | ⟨v, rfl⟩
        · rfl
        · rfl
        · have : flatten m.size ⟨c.1, c.2, z⟩ < m.total := flatten_lt (m := m.size3) ⟨hc.1, hc.2, hz⟩
          simp only [wHF]
          rw [if_neg (by omega)]
      obtain ⟨i1, i2⟩ := ih n k hn hps
      simp only [GModel.powersOps, GModel.powerOps, Power.appends, Nat.add_zero, List.filterMap_append, List.filterMap_cons]
      refine ⟨?_, fun i hi hi' => ?_⟩
      · rw [hg _ (by omega), i1]; rfl
      · rw [hg _ hi', i2 i hi hi']; rfl
    | block ll ur total =>
      simp only [GModel.powersOps, GModel.powerOps, Power.appends, List.filterMap_append]
      have hr : ∀ i, (((blockCells ll ur).map fun c => (.ok (.r (flatten m.size ⟨c.1, c.2, z⟩) n thermalRd) : Res (Op K))).filterMap (wHF i)) = [] := by
        intro i
        rw [List.filterMap_eq_nil_iff]
        intro o ho
        rw [List.mem_map] at ho
        obtain ⟨c, _, rfl⟩ := ho
        rfl
      refine ⟨?_, fun i hi hi' => ?_⟩
      · rw [List.filterMap_cons, List.filterMap_cons]
        cases k with
        | zero =>
          obtain ⟨_, i2⟩ := ih (n + 1) 0 (by omega) hps
          simp only [wHF, Nat.add_zero, if_true, List.filterMap_cons]
          rw [i2 n (by omega) hn]
          simp [hr n]
        | succ k =>
          obtain ⟨i1, _⟩ := ih (n + 1) k (by omega) hps
          have e : n + (k + 1) = n + 1 + k := by omega
          rw [e, i1]
          simp only [wHF]
          rw [if_neg (by omega), hr]
          simp
      · obtain ⟨_, i2⟩ := ih (n + 1) 0 (by omega) hps
        rw [List.filterMap_cons, List.filterMap_cons, i2 i (by omega) hi']
        simp only [wHF]
        rw [if_neg (by omega), hr]
        rfl

theorem powersOps_nodes (ip : List (K × K) → K → Res K) (m : GModel K) (iniT : List K) (ps : List (Nat × Power K)) :
    ∀ n, nodesOf (m.powersOps ip iniT n ps) = (ps.filterMap fun p => match p.2 with
        | .block _ _ total => some total
        | .grid _ => none).length := by
  induction ps with
  | nil => intro n; rfl
  | cons p ps ih =>
    intro n
    obtain ⟨z, p⟩ := p
    rw [GModel.powersOps, nodesOf_append, ih]
    cases p with
    | grid t =>
      have : nodesOf ((allCells m.size).flatMap (m.heatOps ip iniT t z)) = 0 := by
        unfold nodesOf
        rw [List.sum_eq_zero]
        intro k hk
        rw [List.mem_map] at hk
        obtain ⟨o, ho, rfl⟩ := hk
        rw [List.mem_flatMap] at ho
        obtain ⟨c, _, ho⟩ := ho
        rcases heatOps_cases ip m iniT t z c ho with rfl | rfl | ⟨v, rfl⟩ <;> rfl
      simp only [GModel.powerOps, this, List.filterMap_cons]
      omega
    | block ll ur total =>
      have : nodesOf ((blockCells ll ur).map fun c => (.ok (.r (flatten m.size ⟨c.1, c.2, z⟩) n thermalRd) : Res (Op K))) = 0 := by
        unfold nodesOf
        rw [List.sum_eq_zero]
        intro k hk
        rw [List.mem_map] at hk
        obtain ⟨o, ho, rfl⟩ := hk
        rw [List.mem_map] at ho
        obtain ⟨c, _, rfl⟩ := ho
        rfl
      simp only [GModel.powerOps, nodesOf_cons, this, List.filterMap_cons, List.length_cons, Op.nodes]
      omega

omit [LinearOrder K] in
theorem nodes_cells (m : GModel K) : nodesOf ((List.range m.total).flatMap m.cellOps) = 0 := by
  unfold nodesOf
  rw [List.sum_eq_zero]
  intro k hk
  rw [List.mem_map] at hk
  obtain ⟨o, ho, rfl⟩ := hk
  rw [List.mem_flatMap] at ho
  obtain ⟨i, _, ho⟩ := ho
  unfold GModel.cellOps at ho
  have hl : ∀ g o', o ∈ m.link i g o' → Op.nodes o = 0 := by
    intro g o' h
    unfold GModel.link at h
    simp only at h
    by_cases hv : valid (neighbor m.size3 g o') = true
    · rw [if_pos hv] at h; simp at h; subst h; rfl
    · rw [if_neg hv] at h; simp at h
  cases hgi : gridIndex m.size i with
  | ok g =>
    rw [hgi] at ho
    simp only [List.mem_cons, List.mem_append] at ho
    rcases ho with rfl | (ho | ho) | ho
    · rfl
    · exact hl _ _ ho
    · exact hl _ _ ho
    · exact hl _ _ ho
  | ub => rw [hgi] at ho; simp at ho; subst ho; rfl
  | exn => rw [hgi] at ho; simp at ho; subst ho; rfl

omit [LinearOrder K] in
theorem nodes_jumps (m : GModel K) (iniT : List K) : nodesOf (m.jumps.flatMap (m.jumpOps iniT)) = 0 := by
  unfold nodesOf
  rw [List.sum_eq_zero]
  intro k hk
  rw [List.mem_map] at hk
  obtain ⟨o, ho, rfl⟩ := hk
  rw [List.mem_flatMap] at ho
  obtain ⟨i, _, ho⟩ := ho
  unfold GModel.jumpOps at ho
  simp only at ho
  split_ifs at ho <;> simp at ho <;> subst ho <;> rfl

omit [LinearOrder K] in
theorem nodes_bcs (m : GModel K) : nodesOf (m.bcs.flatMap fun b => m.bcOps b.1 b.2.1 b.2.2) = 0 := by
  unfold nodesOf
  rw [List.sum_eq_zero]
  intro k hk
  rw [List.mem_map] at hk
  obtain ⟨o, ho, rfl⟩ := hk
  rw [List.mem_flatMap] at ho
  obtain ⟨b, _, ho⟩ := ho
  obtain ⟨c, _, v, _, h⟩ := bcOps_cases m _ _ _ ho
  rcases h with ⟨_, rfl⟩ | ⟨_, rfl⟩ <;> rfl

theorem build_blocks {minR : K} {ip : List (K × K) → K → Res K} {m : GModel K} {iniT : List K} {net : Network K}
    (h : m.build minR ip iniT = .ok (some net)) (hb : m.BlocksIn) (hz : 0 < m.layers.length) :
    net.length = m.total + m.blockTotals.length ∧
    ∀ k, hfOf net (m.total + k) = (m.blockTotals[k]?).getD 0 := by
  obtain ⟨_, hr⟩ := build_run h
  refine ⟨?_, fun k => ?_⟩
  · rw [run_length _ hr, length_new]
    unfold GModel.ops
    simp only [nodesOf_append, nodes_cells, nodes_jumps, nodes_bcs, powersOps_nodes]
    unfold GModel.blockTotals
    omega
  · obtain ⟨v1, _⟩ := run_values hr
    rw [v1, fold_hf _ _ (noAdd_ops ip m iniT), hfOf_new]
    unfold GModel.ops
    simp only [List.filterMap_append]
    have e1 : ((List.range m.total).flatMap m.cellOps).filterMap (wHF (m.total + k)) = [] := by
      rw [List.filterMap_flatMap, List.flatMap_eq_nil_iff]
      intro i _
      exact w_cellOps _ (fun _ _ => rfl) (fun _ _ _ => rfl) rfl rfl m i
    have e2 : (m.jumps.flatMap (m.jumpOps iniT)).filterMap (wHF (m.total + k)) = [] := by
      rw [List.filterMap_flatMap, List.flatMap_eq_nil_iff]
      intro i _
      exact w_jumpOps _ (fun _ _ _ => rfl) rfl m iniT i
    have e4 : (m.bcs.flatMap fun b => m.bcOps b.1 b.2.1 b.2.2).filterMap (wHF (m.total + k)) = [] := by
      rw [List.filterMap_eq_nil_iff]
      intro o ho
      rw [List.mem_flatMap] at ho
      obtain ⟨b, hbm, ho⟩ := ho
      obtain ⟨c, hc, v, _, h⟩ := bcOps_cases m _ _ _ ho
      obtain ⟨h1, h2⟩ := bcs_inside m hb hz hbm
      have : flatten m.size ⟨c.1, c.2, b.2.1⟩ < m.total := flatten_lt (m := m.size3) ⟨(h2 c hc).1, (h2 c hc).2, h1⟩
      rcases h with ⟨_, rfl⟩ | ⟨_, rfl⟩
      · rfl
      · simp only [wHF]; rw [if_neg (by omega)]
    rw [e1, e2, e4, (w_block_powers ip m iniT m.powers m.total k (le_refl _) (powers_layer m)).1]
    unfold GModel.blockTotals
    cases (m.powers.filterMap fun p => match p.2 with
      | .block _ _ total => some total
      | .grid _ => none)[k]? <;> simp [List.getLastD]

/-! ### C47 -/

/-- **C47 for grid models, partial.** If no more than one source puts heat into a cell - one power table, or
one boundary heat flux - the heat flow of its node is the power of the model plus the boundary heat flux; and
every block power has a node of its own with its total power.
Missing: cells with several sources, for which the claim is false (`c47_grid_refuted`). -/
theorem c47_grid_partial {minR : K} {ip : List (K × K) → K → Res K} {m : GModel K} {iniT : List K} {net : Network K}
    (h : m.build minR ip iniT = .ok (some net)) (hf : Fits m.size3) (hb : m.BlocksIn) :
    (∀ (g : Size3) (T : K), InGrid m.size3 g → iniT[flatten m.size g]? = some T →
      (m.sources ip T g).length ≤ 1 → hfOf net (flatten m.size g) = (m.sources ip T g).sum) ∧
    (0 < m.layers.length → net.length = m.total + m.blockTotals.length ∧
      ∀ k, hfOf net (m.total + k) = (m.blockTotals[k]?).getD 0) := by
  refine ⟨fun g T hg hT hs => ?_, fun hz => build_blocks h hb hz⟩
  rw [(build_last h hf hb hg hT).1]
  match hl : m.sources ip T g, hs with
  | [], _ => simp
  | [v], _ => simp
  | _ :: _ :: _, hs => simp at hs

/-- **C47 for grid models is false**: of several sources of heat of a cell only the last counts; whenever the
others do not cancel, the heat flow of the node is not the power of the model plus the boundary heat flux. -/
theorem c47_grid_refuted {minR : K} {ip : List (K × K) → K → Res K} {m : GModel K} {iniT : List K} {net : Network K}
    (h : m.build minR ip iniT = .ok (some net)) (hf : Fits m.size3) (hb : m.BlocksIn) {g : Size3} {T : K}
    (hg : InGrid m.size3 g) (hT : iniT[flatten m.size g]? = some T) (others : List K) (v : K)
    (hs : m.sources ip T g = others ++ [v]) (hne : others.sum ≠ 0) :
    hfOf net (flatten m.size g) = v ∧ hfOf net (flatten m.size g) ≠ (m.sources ip T g).sum := by
  have h1 : hfOf net (flatten m.size g) = v := by
    rw [(build_last h hf hb hg hT).1, hs]
    simp
  refine ⟨h1, ?_⟩
  rw [h1, hs]
  simpa using hne

/-- a table with one sample -/
def exTable (v : ℚ) : Table ℚ := ⟨⟨1, 2⟩, [(25, ⟨1, 2, fun _ _ => v⟩)]⟩

/-- two cells in one layer, two watts each, and a heat flux on the top -/
def exHeat (top : Option (BC ℚ)) : GModel ℚ :=
  { size := ⟨1, 2⟩, resX := 1, resY := 1, scaleH := 1,
    layers := [⟨1, fun _ _ => 1, [.grid (exTable 2), .block ⟨0, 0⟩ ⟨0, 1⟩ 7]⟩],
    jumps := [], topBC := top, botBC := none, topBlocks := [], botBlocks := [] }

/-- hypotheses of the partial theorem: no boundary condition -/
example : ∃ net, (exHeat none).build (1 / 1000) (fun _ _ => .exn) [25, 25] = .ok (some net) ∧ Fits (exHeat none).size3 ∧
    (exHeat none).BlocksIn ∧ InGrid (exHeat none).size3 ⟨0, 1, 0⟩ ∧
    (exHeat none).sources (fun _ _ => .exn) 25 ⟨0, 1, 0⟩ = [2] ∧ (exHeat none).blockTotals = [7] := by
  refine ⟨_, rfl, by unfold Fits; decide, ⟨by simp [exHeat], by simp [exHeat]⟩, by unfold InGrid; decide, ?_, ?_⟩
  · decide +kernel
  · decide +kernel

/-- hypotheses of the refutation: a heat flux of one half on the top -/
example : ∃ net, (exHeat (some ⟨.heatFlux, some (1 / 2)⟩)).build (1 / 1000) (fun _ _ => .exn) [25, 25] = .ok (some net) ∧
    (exHeat (some ⟨.heatFlux, some (1 / 2)⟩)).sources (fun _ _ => .exn) 25 ⟨0, 1, 0⟩ = [2] ++ [1 / 2] ∧
    ([2] : List ℚ).sum ≠ 0 := by
  refine ⟨_, rfl, ?_, ?_⟩
  · decide +kernel
  · norm_num

end Ecad.GridT
