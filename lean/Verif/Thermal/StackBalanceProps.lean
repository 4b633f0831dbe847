import Verif.Thermal.PrismBalanceProps
import Verif.Thermal.StackPrismNetProps
/-!
C125: In the steady state a stackup prism model gives off the loss power of the power blocks it was made from and the joule heat of its bond wires
through the exposed parts of its faces: from the power blocks and bond wires of the layer cut model over the stackup prism model with its contacts,
the network and the iteration of the static solver to the temperatures.
-/
namespace Ecad.StackBal
open Ecad.Thermal Ecad.GridT Ecad.PrismT Ecad.PrismBal Finset

/-! ## specification -/

/-- Models of the claim: made from meshes, one for each layer, whose neighbourhoods are mutual; every power block is whole in a layer; cooled on one
side, and no uniform boundary condition asks for a heat flux; lengths and areas are not negative. -/
structure Proper (c : CutM) (v : View) (m : SModel ℚ) (g : Tris ℚ) (s : ℚ) (meshes : List Mesh) (wires : List (Wire ℚ)) : Prop where
  blocks : UMap.WF c.blocks
  hits : Hits c v
  made : FromMeshes m g meshes (infoOf c v) wires
  geometry : g.Geometry m s
  nbs : ∀ mesh ∈ meshes, Mutual mesh
  whole : ∀ e ∈ c.blocks, ∃ k, k < meshes.length ∧ Whole c v (meshes.getD k []).length k e.1 e.2
  areas : ∀ l t, 0 ≤ v.area l t
  cooled : m.Cooled
  noFlux : ∀ bc, (m.topBC = some bc ∨ m.botBC = some bc) → bc.value ≠ none → bc.type = .htc
  wires : ∀ w ∈ wires, 0 ≤ w.area ∧ ∀ n, 0 ≤ w.length n

/-- the coefficient with which a prism gives off heat: of its exposed faces with a transfer coefficient, the last of top and bottom -/
def lost (g : Tris ℚ) (m : SModel ℚ) (s : ℚ) (p : SPrism ℚ) : ℚ :=
  if 0 < share .htc m.botBC (s * bareBot g m.prisms p) then share .htc m.botBC (s * bareBot g m.prisms p)
  else share .htc m.topBC (s * bareTop g m.prisms p)

/-- the heat given off at temperatures `x` -/
def given (g : Tris ℚ) (m : SModel ℚ) (s refT : ℚ) (x : Nat → ℚ) : ℚ :=
  ∑ i ∈ range m.prisms.length, ((m.prisms[i]?.map (lost g m s)).getD 0) * (x i - refT)

/-! ## power blocks -/

/-- the number of the prism of a triangle -/
def num (ps : List (SPrism ℚ)) (l t : Nat) : Nat := ps.findIdx fun p => p.base.layer == l && p.base.elem.tri == t

theorem num_eq {g : Tris ℚ} {meshes : List Mesh} {info : Nat → Nat → Option (Cell ℚ)} {ps : List (SPrism ℚ)} (h : Stacked g meshes info ps)
    {i : Nat} {p : SPrism ℚ} (hp : ps[i]? = some p) : num ps p.base.layer p.base.elem.tri = i := by
  have hlt := (List.getElem?_eq_some_iff.1 hp).1
  have hget := (List.getElem?_eq_some_iff.1 hp).2
  unfold num
  rw [List.findIdx_eq hlt]
  refine ⟨by rw [hget]; simp, fun j hj => ?_⟩
  have hq : ps[j]? = some (ps[j]'(by omega)) := List.getElem?_eq_getElem (by omega)
  have := (h.order j i _ _ hq hp).1 hj
  simp only [Bool.and_eq_false_iff, beq_eq_false_iff_ne]
  omega

/-- a sum over the prisms as a sum over layers and triangles -/
theorem sum_stack {g : Tris ℚ} {meshes : List Mesh} {info : Nat → Nat → Option (Cell ℚ)} {ps : List (SPrism ℚ)} (h : Stacked g meshes info ps)
    (F : Nat → ℚ) :
    ∑ i ∈ range ps.length, F i =
      ∑ l ∈ range meshes.length, ∑ t ∈ range (bound meshes), ((cellS meshes info l t).map fun _ => F (num ps l t)).getD 0 := by
  rw [← Finset.sum_product' (range meshes.length) (range (bound meshes)) fun l t => ((cellS meshes info l t).map fun _ => F (num ps l t)).getD 0]
  have e1 : ∑ x ∈ range meshes.length ×ˢ range (bound meshes), ((cellS meshes info x.1 x.2).map fun _ => F (num ps x.1 x.2)).getD 0 =
      ∑ x ∈ (range meshes.length ×ˢ range (bound meshes)).filter fun x => (cellS meshes info x.1 x.2).isSome, F (num ps x.1 x.2) := by
    rw [Finset.sum_filter]
    apply Finset.sum_congr rfl
    intro x _
    cases cellS meshes info x.1 x.2 <;> simp
  rw [e1]
  have key : ∀ x ∈ (range meshes.length ×ˢ range (bound meshes)).filter fun x => (cellS meshes info x.1 x.2).isSome,
      ∃ p, ps[num ps x.1 x.2]? = some p ∧ p.base.layer = x.1 ∧ p.base.elem.tri = x.2 := by
    intro x hx
    obtain ⟨c, hc⟩ := Option.isSome_iff_exists.1 (Finset.mem_filter.1 hx).2
    obtain ⟨i, p, hp, h1, h2⟩ := h.all _ _ _ hc
    have := num_eq h hp
    rw [h1, h2] at this
    exact ⟨p, by rw [this]; exact hp, h1, h2⟩
  symm
  apply Finset.sum_bij fun x _ => num ps x.1 x.2
  · intro x hx
    obtain ⟨p, hp, -⟩ := key x hx
    exact Finset.mem_range.2 (List.getElem?_eq_some_iff.1 hp).1
  · intro x hx y hy he
    obtain ⟨p, hp, h1, h2⟩ := key x hx
    obtain ⟨q, hq, h3, h4⟩ := key y hy
    rw [he, hq, Option.some.injEq] at hp
    subst hp
    exact Prod.ext (h1.symm.trans h3) (h2.symm.trans h4)
  · intro i hi
    rw [Finset.mem_range] at hi
    obtain ⟨p, hp⟩ : ∃ p, ps[i]? = some p := ⟨_, List.getElem?_eq_getElem hi⟩
    have hc := h.cell i p hp
    obtain ⟨mesh, hm, ht, -⟩ := cellS_some hc
    have hl := (List.getElem?_eq_some_iff.1 hm).1
    have hb := le_bound hm
    exact ⟨(p.base.layer, p.base.elem.tri), Finset.mem_filter.2 ⟨Finset.mem_product.2 ⟨Finset.mem_range.2 hl, Finset.mem_range.2 (by omega)⟩,
      by rw [hc]; rfl⟩, num_eq h hp⟩
  · intros; rfl

/-- the power of a stackup model by layers and triangles -/
theorem heat_stack (meshes : List Mesh) (info : Nat → Nat → Option (Cell ℚ)) (T : Nat → Nat → ℚ) (ls : List (List (Elem ℚ)))
    (h : stackLayers meshes info = .ok ls) :
    totalHeat (fun l t _ lut => lut (T l t)) ls =
      ∑ l ∈ range meshes.length, ∑ t ∈ range (bound meshes), ((cellS meshes info l t).map fun c =>
        (c.power.toList.map fun w => w.2.2 (T l t) * w.1).sum).getD 0 := by
  rw [stackLayers_eq, Res.ok.injEq] at h
  subst h
  unfold totalHeat
  rw [List.length_map, List.length_range]
  apply Finset.sum_congr rfl
  intro l hl
  rw [Finset.mem_range] at hl
  rw [List.getD_eq_getElem?_getD, List.getElem?_map, List.getElem?_range hl, Option.map_some, Option.getD_some]
  unfold layerOf
  rw [sum_range_filterMap]
  apply Finset.sum_congr rfl
  intro t _
  rw [Option.map_map]
  cases cellS meshes info l t with
  | none => rfl
  | some c =>
    simp only [Option.map_some, Option.getD_some, Function.comp, elemHeat, elemS]
    cases c.power with
    | none => rfl
    | some w => simp [mul_comm]

section
variable {c : CutM} {v : View} {m : SModel ℚ} {g : Tris ℚ} {s : ℚ} {meshes : List Mesh} {wires : List (Wire ℚ)}

theorem no_asked (h : Proper c v m g s meshes wires) (i : Nat) (p : SPrism ℚ) : m.topAsked .heatFlux i p = [] ∧ m.botAsked .heatFlux i p = [] := by
  have key : ∀ bc : Option (BC ℚ), (∀ b, bc = some b → b.value ≠ none → b.type = .htc) → ∀ f, asked .heatFlux bc f = [] := by
    intro bc hb f
    unfold asked
    rcases bc with _ | ⟨ty, _ | x⟩
    · rfl
    · rfl
    · have := hb _ rfl (by simp)
      simp only at this
      subst this
      simp
  have k1 := key m.topBC fun b hb => h.noFlux b (.inl hb)
  have k2 := key m.botBC fun b hb => h.noFlux b (.inr hb)
  constructor
  · unfold SModel.topAsked
    cases p.base.top with
    | none => exact k1 _
    | some n => simp only [k1, ite_self]
  · unfold SModel.botAsked
    cases p.base.bot with
    | none => exact k2 _
    | some n => simp only [k2, ite_self]

theorem prism_hf (h : Proper c v m g s meshes wires) {minR : ℚ} {iniT : List ℚ} {net : Network ℚ} (hb : m.build minR iniT = .ok (some net))
    {i : Nat} {p : SPrism ℚ} {t : ℚ} (hp : m.prisms[i]? = some p) (ht : iniT[i]? = some t) :
    hfOf net i = (p.base.elem.cell.power.toList.map fun w => w.2.2 t * w.1).sum := by
  rw [(stack_last h.made hb hp ht).1, (no_asked h i p).1, (no_asked h i p).2, List.append_nil, List.append_nil]
  cases p.base.elem.cell.power <;> simp

theorem prism_htc (h : Proper c v m g s meshes wires) {minR : ℚ} {iniT : List ℚ} {net : Network ℚ} (hb : m.build minR iniT = .ok (some net))
    {i : Nat} {p : SPrism ℚ} (hp : m.prisms[i]? = some p) : htcOf net i = lost g m s p := by
  have hpos : Acts .htc m.botBC (s * bareBot g m.prisms p) → 0 < share .htc m.botBC (s * bareBot g m.prisms p) :=
    share_pos fun b hb' => h.cooled.positive b (.inr hb')
  unfold lost
  by_cases h2 : Acts .htc m.botBC (s * bareBot g m.prisms p)
  · rw [if_pos (hpos h2)]
    by_cases h1 : Acts .htc m.topBC (s * bareTop g m.prisms p)
    · exact c77_both_refuted h.made h.geometry hb hp h1 h2
    · have h0 : share .htc m.topBC (s * bareTop g m.prisms p) = 0 := by
        rcases side_asked (ty := .htc) (bc := m.topBC) (a := s * bareTop g m.prisms p) with ⟨-, a⟩ | ⟨-, z, -⟩
        · exact absurd a h1
        · exact z
      rw [c77_htc_partial h.made h.geometry hb hp (fun a => h1 a.1), h0, zero_add]
  · have h0 : share .htc m.botBC (s * bareBot g m.prisms p) = 0 := by
      rcases side_asked (ty := .htc) (bc := m.botBC) (a := s * bareBot g m.prisms p) with ⟨-, a⟩ | ⟨-, z, -⟩
      · exact absurd a h2
      · exact z
    rw [c77_htc_partial h.made h.geometry hb hp (fun a => h2 a.2), h0, add_zero, if_neg (lt_irrefl 0)]

/-- the heat flows into the nodes of the prisms add up to what the power blocks bring -/
theorem prisms_hf (h : Proper c v m g s meshes wires) {minR : ℚ} {iniT : List ℚ} {net : Network ℚ} (hb : m.build minR iniT = .ok (some net)) :
    ∑ i ∈ range m.prisms.length, hfOf net i =
      (c.blocks.map fun e => blockHeat c v (fun l t _ lut => lut (iniT.getD (num m.prisms l t) 0))
        (fun l => (meshes.getD l []).length) meshes.length e.1 e.2).sum := by
  obtain ⟨hlen, hst, -⟩ := fromMeshes_facts h.made
  obtain ⟨ls, h1, h2⟩ := c114_stack c v (fun l t _ lut => lut (iniT.getD (num m.prisms l t) 0)) h.blocks meshes
  rw [← h2, heat_stack meshes (infoOf c v) (fun l t => iniT.getD (num m.prisms l t) 0) ls h1, sum_stack hst]
  apply Finset.sum_congr rfl
  intro l _
  apply Finset.sum_congr rfl
  intro t _
  cases hc : cellS meshes (infoOf c v) l t with
  | none => rfl
  | some y =>
    simp only [Option.map_some, Option.getD_some]
    obtain ⟨i, p, hp, e1, e2⟩ := hst.all _ _ _ hc
    have hn := num_eq hst hp
    rw [e1, e2] at hn
    rw [hn]
    have hlt := (List.getElem?_eq_some_iff.1 hp).1
    have hini := (stack_run hb).1
    unfold SModel.total at hini
    have ht : iniT[i]? = some (iniT.getD i 0) := by
      rw [List.getD_eq_getElem?_getD, List.getElem?_eq_getElem (by omega)]; rfl
    have hcell := hst.cell i p hp
    rw [e1, e2, hc, Option.some.injEq] at hcell
    rw [prism_hf h hb hp ht, hcell]

/-! ## bond wires -/

/-- the heat flow of the node of a line is its joule heat -/
theorem stack_line (h : Proper c v m g s meshes wires) {minR : ℚ} {iniT : List ℚ} {net : Network ℚ} (hb : m.build minR iniT = .ok (some net))
    {n : Nat} {l : Line ℚ} {t : ℚ} (hl : m.lines[n]? = some l) (ht : iniT[l.id]? = some t) :
    hfOf net l.id = max 0 (m.wires.joule l t) := by
  obtain ⟨hlen, hst, hlines⟩ := fromMeshes_facts h.made
  have hid := hlines.id n l hl
  have hv := run_values (stack_run hb).2
  rw [hv.1 l.id, hfOf_new, SModel.ops, stacked_blocks hst, List.append_nil, List.foldl_append, foldl_id _ (m.rangeOps _ _)]
  swap
  · intro o ho b
    unfold SModel.rangeOps at ho
    rw [List.mem_flatMap] at ho
    obtain ⟨j, hj, ho⟩ := ho
    rw [List.mem_range'_1] at hj
    apply hfAt_writes
    rcases (stack_writes ho).2 with rfl | hw
    · simp [Op.writes]
    · rw [hw]
      intro he
      simp only [Option.some.injEq] at he
      omega
  have hsplit : m.lines = m.lines.take n ++ l :: m.lines.drop (n + 1) := by
    have hlt := (List.getElem?_eq_some_iff.1 hl).1
    have hge := (List.getElem?_eq_some_iff.1 hl).2
    rw [← hge, List.getElem_cons_drop, List.take_append_drop]
  have hother : ∀ ls : List (Line ℚ), (∀ l' ∈ ls, l'.id ≠ l.id) → ∀ b,
      (ls.flatMap (m.wires.lineOps iniT)).foldl (fun b o => Op.hfAt l.id o b) b = b := by
    intro ls hls b
    apply foldl_id
    intro o ho b
    rw [List.mem_flatMap] at ho
    obtain ⟨l', hl', ho⟩ := ho
    exact (lines_quiet ho l.id b).1 (hls l' hl')
  rw [hsplit, List.flatMap_append, List.flatMap_cons, List.foldl_append, List.foldl_append, hother, hother]
  · unfold PModel.lineOps
    rw [ht]
    simp only [List.foldl_append]
    have hq : ∀ ns : List Nat, ∀ b, (ns.flatMap (m.wires.lineR l t)).foldl (fun b o => Op.hfAt l.id o b) b = b := by
      intro ns b
      apply foldl_id
      intro o ho b
      rw [List.mem_flatMap] at ho
      obtain ⟨nb, _, ho⟩ := ho
      rcases mem_lineR ho with rfl | ⟨_, v, rfl⟩ | ⟨_, _, v, rfl⟩ <;> rfl
    rw [hq, hq]
    split_ifs with hj
    · simp [Op.hfAt, max_eq_right hj.le]
    · simp only [List.foldl_cons, List.foldl_nil, Op.hfAt]
      rw [max_eq_left (not_lt.1 hj)]
  · intro l' hl' he
    obtain ⟨k, hk⟩ := List.mem_iff_getElem?.1 hl'
    have hkn : k < n := by
      have := (List.getElem?_eq_some_iff.1 hk).1
      simp at this; omega
    rw [List.getElem?_take_of_lt hkn] at hk
    have := hlines.id _ l' hk
    omega
  · intro l' hl' he
    obtain ⟨k, hk⟩ := List.mem_iff_getElem?.1 hl'
    rw [List.getElem?_drop] at hk
    have := hlines.id _ l' hk
    omega

theorem line_lengths (h : Proper c v m g s meshes wires) {l : Line ℚ} (hl : l ∈ m.lines) : 0 ≤ l.length ∧ 0 ≤ l.area := by
  have h1 : Line.data l ∈ m.lines.map Line.data := List.mem_map_of_mem hl
  rw [data_wires _ _ _ _ h.made.lines, List.map_nil, List.nil_append, List.mem_flatMap] at h1
  obtain ⟨w, hw, h2⟩ := h1
  rw [List.mem_map] at h2
  obtain ⟨n, -, hs⟩ := h2
  have := h.wires w hw
  simp only [Line.data, Prod.mk.injEq] at hs
  obtain ⟨-, -, e1, e2⟩ := hs
  rw [← e1, ← e2]
  exact ⟨this.2 n, this.1⟩

theorem stack_lines_hf (h : Proper c v m g s meshes wires) {minR : ℚ} {iniT : List ℚ} {net : Network ℚ} (hb : m.build minR iniT = .ok (some net))
    {rlo rhi : Nat → ℚ} (hr : ∀ k T, 0 ≤ rlo k ∧ rlo k ≤ m.resist k T ∧ m.resist k T ≤ rhi k) {n : Nat} (hn : n < m.lines.length) :
    0 ≤ hfOf net (totalPrisms m.off + n) ∧ segHeat rlo (Line.data m.lines[n]) ≤ hfOf net (totalPrisms m.off + n) ∧
      hfOf net (totalPrisms m.off + n) ≤ segHeat rhi (Line.data m.lines[n]) := by
  obtain ⟨-, -, hlines⟩ := fromMeshes_facts h.made
  have hl : m.lines[n]? = some m.lines[n] := List.getElem?_eq_getElem hn
  have hid := hlines.id n _ hl
  have hlen := (stack_run hb).1
  unfold SModel.total at hlen
  have hlt : m.lines[n].id < iniT.length := by omega
  obtain ⟨t, ht⟩ : ∃ t, iniT[m.lines[n].id]? = some t := ⟨iniT[m.lines[n].id]'hlt, List.getElem?_eq_getElem hlt⟩
  have hv := stack_line h hb hl ht
  rw [hid] at hv
  obtain ⟨d1, d2⟩ := line_lengths h (List.getElem_mem hn)
  have r1 := hr m.lines[n].mat t
  have hj : m.wires.joule m.lines[n] t = segHeat (fun k => m.resist k t) (Line.data m.lines[n]) := by
    unfold PModel.joule segHeat
    split
    · rename_i h0
      simp only [Line.data]
      rw [h0]
      simp
    · simp only [Line.data, SModel.wires]
      ring
  have hpos : 0 ≤ segHeat (fun k => m.resist k t) (Line.data m.lines[n]) := segHeat_nonneg (r1.1.trans r1.2.1) d1 d2
  rw [hj, max_eq_right hpos] at hv
  rw [hv]
  exact ⟨hpos, segHeat_mono (r := rlo) (r' := fun k => m.resist k t) (d := Line.data m.lines[n]) r1.2.1 d1 d2,
    segHeat_mono (r := fun k => m.resist k t) (r' := rhi) (d := Line.data m.lines[n]) r1.2.2 d1 d2⟩

/-! ## balance -/

theorem stack_prism_nonneg (h : Proper c v m g s meshes wires) {minR : ℚ} {iniT : List ℚ} {net : Network ℚ} (hb : m.build minR iniT = .ok (some net))
    (hpos : ∀ e ∈ c.blocks, ∀ T, 0 ≤ e.2.lut T) {i : Nat} (hi : i < m.prisms.length) : 0 ≤ hfOf net i := by
  obtain ⟨hlenp, hst, -⟩ := fromMeshes_facts h.made
  obtain ⟨p, hp⟩ : ∃ p, m.prisms[i]? = some p := ⟨_, List.getElem?_eq_getElem hi⟩
  have hlen := (stack_run hb).1
  unfold SModel.total at hlen
  obtain ⟨t, ht⟩ : ∃ t, iniT[i]? = some t := ⟨_, List.getElem?_eq_getElem (by omega)⟩
  rw [prism_hf h hb hp ht]
  obtain ⟨mesh, -, -, hy⟩ := cellS_some (hst.cell i p hp)
  generalize p.base.elem.cell = y at hy ⊢
  cases hw : y.power with
  | none => simp
  | some w =>
    simp only [Option.toList_some, List.map_cons, List.map_nil, List.sum_cons, List.sum_nil, add_zero]
    unfold infoOf at hy
    cases hs : search c v p.base.layer p.base.elem.tri with
    | none => rw [hs] at hy; simp at hy
    | some pid =>
      rw [hs] at hy
      dsimp only at hy
      split_ifs at hy
      rw [Option.some.injEq] at hy
      subst hy
      simp only [cellPower] at hw
      cases hf : UMap.find? c.blocks pid with
      | none => rw [hf] at hw; simp at hw
      | some b =>
        rw [hf] at hw
        dsimp only at hw
        split_ifs at hw
        rw [Option.some.injEq] at hw
        subst hw
        have hmem := UMap.find?_mem hf
        obtain ⟨k, -, hwh⟩ := h.whole _ hmem
        exact mul_nonneg (hpos _ hmem t) (div_nonneg (h.areas _ _) (whole_area h.areas hwh))

theorem stack_balance (h : Proper c v m g s meshes wires) {minR : ℚ} {iniT : List ℚ} {net : Network ℚ} (hb : m.build minR iniT = .ok (some net))
    (hg : Grounded net) {lo hi : Block → ℚ} (hlut : ∀ e ∈ c.blocks, ∀ T, lo e.2 ≤ e.2.lut T ∧ e.2.lut T ≤ hi e.2)
    {rlo rhi : Nat → ℚ} (hr : ∀ k T, 0 ≤ rlo k ∧ rlo k ≤ m.resist k T ∧ m.resist k T ≤ rhi k) {refT : ℚ} {x : Nat → ℚ} (hx : Solves net refT x) :
    net.length = m.total ∧ power c wires lo rlo ≤ given g m s refT x ∧ given g m s refT x ≤ power c wires hi rhi ∧
      ((∀ e ∈ c.blocks, 0 ≤ lo e.2) → ∀ k < net.length, refT ≤ x k) := by
  obtain ⟨hlenp, hst, -⟩ := fromMeshes_facts h.made
  have hini := (stack_run hb).1
  have hlen : net.length = m.total := by
    obtain ⟨net', hb', hl'⟩ := c78_builds h.made minR hini
    rw [hb, Res.ok.injEq, Option.some.injEq] at hb'
    rw [hb', hl']
  have htotal : m.total = m.prisms.length + m.lines.length := by unfold SModel.total; omega
  have hen := (c29_energy hg.inRange).2.2 refT x (fun i hi => by
    rw [← mulVec_eq_entries net.length x i _ (fun t ht => (mem_gTriplets hg.inRange ht).2)]
    exact hx i hi)
  have hgiven : given g m s refT x = ∑ i ∈ range net.length, htcOf net i * (x i - refT) := by
    rw [hlen, htotal, Finset.sum_range_add, Finset.sum_eq_zero (s := range m.lines.length), add_zero]
    · unfold given
      refine Finset.sum_congr rfl fun i hi => ?_
      rw [Finset.mem_range] at hi
      obtain ⟨p, hp⟩ : ∃ p, m.prisms[i]? = some p := ⟨_, List.getElem?_eq_getElem hi⟩
      rw [prism_htc h hb hp, hp]
      rfl
    · intro n _
      rw [stack_line_htc h.made hb (by omega), zero_mul]
  have htot : given g m s refT x = ∑ i ∈ range m.prisms.length, hfOf net i + ∑ n ∈ range m.lines.length, hfOf net (totalPrisms m.off + n) := by
    rw [hgiven, hen, Balance.totalHF_eq, hlen, htotal, Finset.sum_range_add, hlenp]
  have hblocks := prisms_hf h hb
  have hbetween : ∀ e ∈ c.blocks,
      lo e.2 ≤ blockHeat c v (fun l t _ lut => lut (iniT.getD (num m.prisms l t) 0)) (fun l => (meshes.getD l []).length) meshes.length e.1 e.2 ∧
      blockHeat c v (fun l t _ lut => lut (iniT.getD (num m.prisms l t) 0)) (fun l => (meshes.getD l []).length) meshes.length e.1 e.2 ≤ hi e.2 := by
    intro e he
    obtain ⟨k, hk, hw⟩ := h.whole e he
    exact whole_between (w := fun l t _ lut => lut (iniT.getD (num m.prisms l t) 0)) h.hits h.areas
      (tris := fun l => (meshes.getD l []).length) hw hk fun l t => hlut e he _
  have hlines : ∀ r : Nat → ℚ, (wires.map fun w => ∑ s ∈ range (w.points - 1), w.current ^ 2 * (r w.mat * w.length s / w.area)).sum =
      ∑ n ∈ range m.lines.length, (m.lines[n]?.map fun l => segHeat r (Line.data l)).getD 0 := by
    intro r
    rw [← sum_lines]
    exact (lines_sum (m := m.wires) h.made.lines (segHeat r)).symm
  refine ⟨hlen, ?_, ?_, ?_⟩
  · rw [htot, hblocks]
    unfold power
    rw [hlines]
    refine add_le_add (list_sum_le fun e he => (hbetween e he).1) (Finset.sum_le_sum fun n hn => ?_)
    rw [Finset.mem_range] at hn
    rw [List.getElem?_eq_getElem hn]
    exact (stack_lines_hf h hb hr hn).2.1
  · rw [htot, hblocks]
    unfold power
    rw [hlines]
    refine add_le_add (list_sum_le fun e he => (hbetween e he).2) (Finset.sum_le_sum fun n hn => ?_)
    rw [Finset.mem_range] at hn
    rw [List.getElem?_eq_getElem hn]
    exact (stack_lines_hf h hb hr hn).2.2
  · intro hpos
    refine (c30_maximum hg refT x hx).2.1 ?_
    intro n hn
    obtain ⟨k, hk⟩ := List.getElem?_of_mem hn
    have hkl := (List.getElem?_eq_some_iff.1 hk).1
    have hnk : hfOf net k = n.hf := by unfold hfOf; rw [hk]
    rw [← hnk]
    by_cases hkp : k < m.prisms.length
    · exact stack_prism_nonneg h hb (fun e he T => (hpos e he).trans (hlut e he T).1) hkp
    · have := (stack_lines_hf h hb hr (n := k - totalPrisms m.off) (by omega)).1
      rwa [show totalPrisms m.off + (k - totalPrisms m.off) = k by omega] at this

end

/-! ## the claim -/

/-- C125: for every proper stackup prism model and all bounds of the loss powers of its blocks and of the resistivities: the network is built for all
temperatures before, and it has exactly one steady state.  In it the heat given off by the prisms lies between the sums of the bounds over power
blocks and segments of bond wires, and no element is colder than the surroundings if no block cools. -/
theorem c125_steady {c : CutM} {v : View} {m : SModel ℚ} {g : Tris ℚ} {s : ℚ} {meshes : List Mesh} {wires : List (Wire ℚ)}
    (h : Proper c v m g s meshes wires)
    {lo hi : Block → ℚ} (hlut : ∀ e ∈ c.blocks, ∀ T, lo e.2 ≤ e.2.lut T ∧ e.2.lut T ≤ hi e.2)
    {rlo rhi : Nat → ℚ} (hr : ∀ k T, 0 ≤ rlo k ∧ rlo k ≤ m.resist k T ∧ m.resist k T ≤ rhi k) {minR : ℚ} (hm : 0 < minR) (refT : ℚ)
    (iniT : List ℚ) (hl : iniT.length = m.total) :
    ∃ net x, m.build minR iniT = .ok (some net) ∧ Solves net refT x ∧ (∀ y, Solves net refT y → ∀ i < m.total, y i = x i) ∧
      power c wires lo rlo ≤ given g m s refT x ∧ given g m s refT x ≤ power c wires hi rhi ∧
      ((∀ e ∈ c.blocks, 0 ≤ lo e.2) → ∀ k < m.total, refT ≤ x k) := by
  obtain ⟨net, hb, hg, x, hx, hu⟩ := c78_solvable h.made h.geometry h.nbs h.cooled hm hl refT
  obtain ⟨b1, b2, b3, b4⟩ := stack_balance h hb hg hlut hr hx
  rw [b1] at hu b4
  exact ⟨net, x, hb, hx, hu, b2, b3, b4⟩

/-- C125 for loss powers and resistivities which do not depend on the temperature: the heat given off is the sum of the powers. -/
theorem c125_constant {c : CutM} {v : View} {m : SModel ℚ} {g : Tris ℚ} {s : ℚ} {meshes : List Mesh} {wires : List (Wire ℚ)}
    (h : Proper c v m g s meshes wires)
    {p : Block → ℚ} (hlut : ∀ e ∈ c.blocks, ∀ T, e.2.lut T = p e.2) {r : Nat → ℚ} (hr : ∀ k T, 0 ≤ r k ∧ m.resist k T = r k)
    {minR : ℚ} (hm : 0 < minR) (refT : ℚ) (iniT : List ℚ) (hl : iniT.length = m.total) :
    ∃ net, m.build minR iniT = .ok (some net) ∧ ∀ x, Solves net refT x → given g m s refT x = power c wires p r := by
  obtain ⟨net, hb, hg, -⟩ := c78_solvable h.made h.geometry h.nbs h.cooled hm hl refT
  refine ⟨net, hb, fun x hx => ?_⟩
  obtain ⟨-, b2, b3, -⟩ := stack_balance h hb hg (lo := p) (hi := p) (fun e he T => ⟨(hlut e he T).ge, (hlut e he T).le⟩) (rlo := r) (rhi := r)
    (fun k T => ⟨(hr k T).1, (hr k T).2.ge, (hr k T).2.le⟩) hx
  exact le_antisymm b3 b2

/-- C125 for the whole run of the static solver: with a linear solver that solves the systems given to it, the run ends after any positive
number of rounds allowed with a temperature for each element, and the heat given off at these temperatures lies between the sums of the bounds.
No element is colder than the surroundings if no block cools. -/
theorem c125_static {c : CutM} {v : View} {m : SModel ℚ} {g : Tris ℚ} {s : ℚ} {meshes : List Mesh} {wires : List (Wire ℚ)}
    (h : Proper c v m g s meshes wires)
    {lo hi : Block → ℚ} (hlut : ∀ e ∈ c.blocks, ∀ T, lo e.2 ≤ e.2.lut T ∧ e.2.lut T ≤ hi e.2)
    {rlo rhi : Nat → ℚ} (hr : ∀ k T, 0 ≤ rlo k ∧ rlo k ≤ m.resist k T ∧ m.resist k T ≤ rhi k) {minR : ℚ} (hm : 0 < minR)
    (envT limit : ℚ) (maximum celsius : Bool) (iteration : Nat) (hit : 1 ≤ iteration)
    (solve : Network ℚ → List ℚ) (hlen : ∀ net, (solve net).length = net.length)
    (hsol : ∀ net, Grounded net → Solves net envT fun i => (solve net)[i]?.getD 0) (fuel : Nat) (hf : iteration ≤ fuel) :
    ∃ r, Static.solveStatic (m.build minR) solve m.total envT limit maximum iteration celsius fuel = some (.ok (some r)) ∧
      r.length = m.total ∧
      let kelvin := fun k => r[k]?.getD 0 + if celsius then (27315 / 100 : ℚ) else 0
      power c wires lo rlo ≤ given g m s envT kelvin ∧ given g m s envT kelvin ≤ power c wires hi rhi ∧
      ((∀ e ∈ c.blocks, 0 ≤ lo e.2) → ∀ k < r.length, envT ≤ kelvin k) := by
  have hbuild : ∀ T : List ℚ, T.length = m.total → ∃ net, m.build minR T = .ok (some net) ∧ net.length = m.total ∧ Grounded net := by
    intro T hT
    obtain ⟨net, hbd, hg, -⟩ := c78_solvable h.made h.geometry h.nbs h.cooled hm hT envT
    obtain ⟨b1, -⟩ := stack_balance h hbd hg hlut hr (hsol net hg)
    exact ⟨net, hbd, b1, hg⟩
  obtain ⟨T, n, t1, t2, t3, t4, t5, -⟩ := Static.c67_static_partial (m.build minR) solve m.total envT limit maximum celsius iteration hit
    (fun T hT => by obtain ⟨net, n1, n2, _⟩ := hbuild T hT; exact ⟨net, n1, n2⟩) hlen fuel hf
  obtain ⟨net, r1, r2⟩ := t5 (n - 1) (by omega)
  rw [Nat.sub_add_cancel t2] at r2
  have hTlen : (T (n - 1)).length = m.total := (stack_run r1).1
  obtain ⟨net', n1, n2, hg⟩ := hbuild _ hTlen
  rw [r1, Res.ok.injEq, Option.some.injEq] at n1
  subst n1
  obtain ⟨b1, b2, b3, b4⟩ := stack_balance h r1 hg hlut hr (hsol net hg)
  have hlT : (T n).length = m.total := by rw [r2, hlen, b1]
  refine ⟨_, t4, by split_ifs <;> simp [hlT], ?_⟩
  intro kelvin
  have hk : ∀ k < m.total, kelvin k = (solve net)[k]?.getD 0 := by
    intro k hk
    simp only [kelvin]
    rw [← r2]
    have hkT : k < (T n).length := by rw [hlT]; exact hk
    cases celsius
    · simp
    · simp [List.getElem?_eq_getElem hkT]
  have hgv : given g m s envT kelvin = given g m s envT fun i => (solve net)[i]?.getD 0 := by
    unfold given
    refine Finset.sum_congr rfl fun i hi => ?_
    rw [Finset.mem_range, (fromMeshes_facts h.made).1] at hi
    rw [hk]
    unfold SModel.total
    omega
  rw [hgv]
  refine ⟨b2, b3, fun hpos k hkr => ?_⟩
  have hkl : k < m.total := by
    have e : (if celsius = true then (T n).map (· - 27315 / 100) else T n).length = m.total := by split_ifs <;> simp [hlT]
    rwa [e] at hkr
  rw [hk k hkl]
  exact b4 hpos k (by rw [b1]; exact hkl)

/-! ## example -/

/-- the triangles of two meshes: the triangles of the layers lie over each other -/
def exTri : Tris ℚ := ⟨fun _ _ => 1, fun _ _ _ _ => true, fun _ t _ t' => if t = t' then 1 else 0⟩

def exSModel (off : List Nat) (ps : List (SPrism ℚ)) (ls : List (Line ℚ)) : SModel ℚ :=
  { off := off, prisms := ps, lines := ls,
    area := fun _ _ => 1, edgeLen := fun _ _ _ => 1, toSide := fun _ _ _ => 1, dist := fun _ _ _ => 2, height := fun _ => 5,
    k := fun _ _ _ => 1, heat := fun _ _ => 1, rho := fun _ _ => 1, resist := fun _ _ => 1,
    topBC := some ⟨.htc, some 4⟩, botBC := none, topBlocks := [], botBlocks := [] }

/-- the example is proper; its wire has 40 W, so that it gives off 43 W -/
example : ∃ m : SModel ℚ, Proper exCut exPowerView m exTri 1 [exPowerMesh, exPowerMesh] [PrismBal.exWire] ∧ m.total = 6 ∧
    (∀ e ∈ exCut.blocks, ∀ T, e.2.lut T = 3) ∧ (∀ k T, (0 : ℚ) ≤ 1 ∧ m.resist k T = 1) ∧
    power exCut [PrismBal.exWire] (fun _ => 3) (fun _ => 1) = 43 := by
  obtain ⟨off, ps, h, -, -⟩ := stack_built exTri [exPowerMesh, exPowerMesh] (infoOf exCut exPowerView) 4
  have hoff : ((stackLayers [exPowerMesh, exPowerMesh] (infoOf exCut exPowerView)).bind fun ls => buildStack exTri ls 4).bind
      (fun r => .ok r.1) = .ok [0, 2, 4] := by decide +kernel
  rw [h, Res.bind_ok, Res.ok.injEq] at hoff
  have ht : totalPrisms off = 4 := by rw [show off = [0, 2, 4] from hoff]; rfl
  obtain ⟨ls, hls⟩ : ∃ ls, addWires off [] [PrismBal.exWire] = .ok ls := ⟨_, rfl⟩
  have hll : ls.length = 2 := by
    have := congrArg List.length (data_wires _ _ _ _ hls)
    rw [List.length_map] at this
    rw [this]
    rfl
  refine ⟨exSModel off ps ls, ⟨?_, ?_, ⟨⟨4, h⟩, hls, ?_⟩, ?_, ?_, ?_, ?_, ?_, ?_, ?_⟩, ?_, ?_, ?_, ?_⟩
  · simp [exCut, UMap.WF, UMap.keys]
  · exact exPower_hits
  · intro w hw
    rw [List.mem_singleton] at hw
    subst hw
    show _ ∧ (∀ x ∈ [0], x < totalPrisms off) ∧ ∀ x ∈ [3], x < totalPrisms off
    rw [ht]
    exact ⟨by simp [PrismBal.exWire], by simp, by simp⟩
  · refine ⟨fun _ _ => by norm_num [exTri], fun _ _ _ _ _ => rfl, ?_, ?_, by norm_num, fun _ _ => by norm_num [exTri, exSModel]⟩
    · intro l t l' t'
      simp only [exTri, eq_comm]
    · intro l t l' t'
      simp only [exTri]
      split_ifs <;> norm_num
  · intro mesh hmesh
    have : mesh = exPowerMesh := by simpa using hmesh
    subst this
    intro t n t' hn
    match t, n with
    | 0, 0 => exact ⟨0, by simp [nbOf, exPowerMesh] at hn; subst hn; rfl⟩
    | 1, 0 => exact ⟨0, by simp [nbOf, exPowerMesh] at hn; subst hn; rfl⟩
    | 0, 1 => simp [nbOf, exPowerMesh] at hn
    | 0, 2 => simp [nbOf, exPowerMesh] at hn
    | 1, 1 => simp [nbOf, exPowerMesh] at hn
    | 1, 2 => simp [nbOf, exPowerMesh] at hn
    | t + 2, n => simp [nbOf, exPowerMesh] at hn
  · intro e he
    have : e = (0, ⟨⟨10, 5⟩, 7, fun _ => 3⟩) := by simpa [exCut] using he
    subst this
    refine ⟨0, by decide, by decide, by decide, ⟨[0], rfl, by simp, ?_⟩, by decide, by decide +kernel⟩
    intro t _ _ i hi hne
    simp at hi
    exact absurd hi hne
  · intro l t
    simp [exPowerView]
  · refine ⟨?_, .inl ⟨4, rfl⟩⟩
    rintro bc (hbc | hbc) _ x hx
    · simp only [exSModel, Option.some.injEq] at hbc
      subst hbc
      simp at hx
      rw [← hx]
      norm_num
    · simp [exSModel] at hbc
  · rintro bc (hbc | hbc)
    · simp only [exSModel, Option.some.injEq] at hbc
      subst hbc
      simp
    · simp [exSModel] at hbc
  · intro w hw
    rw [List.mem_singleton] at hw
    subst hw
    refine ⟨by norm_num [PrismBal.exWire], fun n => ?_⟩
    unfold PrismBal.exWire
    dsimp only
    split_ifs <;> norm_num
  · show ls.length + totalPrisms off = 6
    rw [hll, ht]
  · intro e he T
    have : e = (0, ⟨⟨10, 5⟩, 7, fun _ => 3⟩) := by simpa [exCut] using he
    subst this
    rfl
  · intro k T
    exact ⟨by norm_num, rfl⟩
  · decide +kernel

end Ecad.StackBal
