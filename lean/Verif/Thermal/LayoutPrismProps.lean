import Mathlib.Tactic.IntervalCases
import Verif.Thermal.LayoutPrismModel
import Verif.Thermal.PrismBalanceProps
import Verif.Thermal.StackBalanceProps
import Verif.Geom.CutExProps
import Verif.Basic.LookupProps
/-!
C143: In the steady state the prism models of a layout give off the loss power of its components, the joule heat of its solder joints and that of its
bond wires: from the objects of the layout over the layer cut model, the prism model, the network and the static solver to the temperatures.
-/
namespace Ecad.LayoutPrism
open Ecad.Thermal Ecad.GridT Ecad.PrismT Ecad.CutEx Finset

/-! ## specification -/

/-- the components with a loss power -/
def sources (I : Input) : List CompIn := I.comps.filter fun c => !c.power.isEmpty

/-- the joule heat of the solder joint at the start of a wire: the square of the current times the resistance of the joint -/
def jointHeat (E : Env) (w : WireIn) : Option ℚ :=
  if 0 < w.current then (w.top.bind Joint.place).bind fun p => (w.top).map fun j => w.current ^ 2 * (j.resist * p.2.2 / E.area p.1.outline)
  else none

/-- the joule heat of all joints -/
def joints (E : Env) (I : Input) : List ℚ :=
  I.prims.filterMap fun
    | .wire w => jointHeat E w
    | _ => none

/-- The power of a layout: `p` for each component with a loss power, the joule heat of the joints, and for each segment of a bond wire the square of
its current times its resistance at resistivity `r` of its material. -/
def power (E : Env) (I : Input) (L : WireLib) (p : CompIn → ℚ) (r : Nat → ℚ) : ℚ :=
  ((sources I).map p).sum + (joints E I).sum +
    ((wiresOf I.prims).map fun w => ∑ s ∈ range (w.points.length - 1), w.current ^ 2 * (r (matNo w.mat) * L.len (w.radius, w.points) s / L.cross (w.radius, w.points))).sum

/-- Layouts of the claim: complete (C96); what heats is more than two height units thick and made of a rigid material. -/
structure Ready (E : Env) (I : Input) (b : CutEx.Shape) (fluid : List Int) : Prop where
  complete : Complete I
  solid : CutEx.Solid I
  boundary : I.boundary = some b
  thick : ∀ x ∈ items E I b, ∀ q ∈ x.pieces, q.heat ≠ none → 2 < q.thick * E.scale
  rigid : ∀ x ∈ items E I b, ∀ q ∈ x.pieces, q.heat ≠ none → matNo q.mat ∉ fluid.map matNo ∧ matNo q.mat ≠ matNo (-1)

/-- What heats is seen: in the layer where the heat of a polygon begins, the triangles with centre in the polygon have its area, and every other polygon
of the layer around such a centre is greater. -/
def Seen (c : CutM) (v : View) (tris : Nat → Nat) : Prop :=
  ∀ e ∈ c.blocks, ∀ k ps, c.cut.layerByHeight e.2.range.high = some k → c.cut.lut k = some ps →
    c.area e.1 ≠ 0 ∧ (∑ t ∈ (Finset.range (tris k)).filter fun t => v.contains k t e.1 = true, v.area k t = c.area e.1) ∧
    ∀ t < tris k, v.contains k t e.1 = true → ∀ i ∈ ps, i ≠ e.1 → v.contains k t i = true → c.area e.1 < c.area i

/-- Prism models of the claim: extracted from the layer cut model with a mesh whose neighbourhood is mutual; cooled on one face, and no boundary
condition asks for a heat flux; lengths and areas are not negative. -/
structure Made (c : CutM) (v : View) (m : PModel ℚ) (mesh : Mesh) (ws : List WireOut) (L : WireLib) : Prop where
  hits : Hits c v
  seen : Seen c v fun _ => mesh.length
  extracted : Extracted m mesh c.cut.total (infoOf c v) (ws.map (readWire L))
  nbs : Mutual mesh
  areas : ∀ l t, 0 ≤ v.area l t
  cooled : m.Cooled
  noFlux : ∀ bc ∈ m.topBC.toList ++ m.botBC.toList ++ m.topBlocks.map Prod.fst ++ m.botBlocks.map Prod.fst, bc.value ≠ none → bc.type = .htc
  wires : ∀ p, 0 ≤ L.cross p ∧ ∀ s, 0 ≤ L.len p s

/-- The same for stackup prism models, with a mesh for each layer. -/
structure MadeS (c : CutM) (v : View) (m : SModel ℚ) (g : Tris ℚ) (s : ℚ) (meshes : List Mesh) (ws : List WireOut) (L : WireLib) : Prop where
  hits : Hits c v
  seen : Seen c v fun k => (meshes.getD k []).length
  layers : meshes.length = c.cut.total
  made : FromMeshes m g meshes (infoOf c v) (ws.map (readWire L))
  geometry : g.Geometry m s
  nbs : ∀ mesh ∈ meshes, Mutual mesh
  areas : ∀ l t, 0 ≤ v.area l t
  cooled : m.Cooled
  noFlux : ∀ bc, (m.topBC = some bc ∨ m.botBC = some bc) → bc.value ≠ none → bc.type = .htc
  wires : ∀ p, 0 ≤ L.cross p ∧ ∀ n, 0 ≤ L.len p n

/-! ## loss power tables -/

theorem loss_bounds {s : List (ℚ × ℚ)} (hne : s ≠ []) {lo hi : ℚ} (h : ∀ e ∈ s, lo ≤ e.2 ∧ e.2 ≤ hi) (T : ℚ) : lo ≤ lossOf s T ∧ lossOf s T ≤ hi := by
  obtain ⟨v, hv, -, -, -, -, hb⟩ := Lookup.c10_lookup s hne T
  unfold lossOf
  rw [hv]
  exact hb lo hi fun e he => h e (List.mem_of_find?_eq_some he)

/-- the least and the greatest value of a table are taken -/
theorem loss_least {s : List (ℚ × ℚ)} (hne : s ≠ []) :
    (∃ v, (∀ T, v ≤ lossOf s T) ∧ ∃ T, lossOf s T = v) ∧ ∃ v, (∀ T, lossOf s T ≤ v) ∧ ∃ T, lossOf s T = v := by
  have hk : (s.toFinset.filter fun e => s.find? (fun x => x.1 = e.1) = some e).Nonempty := by
    cases s with
    | nil => exact absurd rfl hne
    | cons a s => exact ⟨a, by simp⟩
  have hat : ∀ e : ℚ × ℚ, Lookup.Kept s e → lossOf s e.1 = e.2 := by
    intro e he
    obtain ⟨v, hv, h1, -⟩ := Lookup.c10_lookup s hne e.1
    unfold lossOf
    rw [hv]
    exact h1 e he rfl
  constructor
  · obtain ⟨e, he, hmin⟩ := Finset.exists_min_image _ (fun e : ℚ × ℚ => e.2) hk
    rw [Finset.mem_filter] at he
    refine ⟨e.2, fun T => ?_, e.1, hat e he.2⟩
    obtain ⟨v, hv, -, -, -, -, hb⟩ := Lookup.c10_lookup s hne T
    obtain ⟨e2, he2, hmax⟩ := Finset.exists_max_image _ (fun e : ℚ × ℚ => e.2) hk
    unfold lossOf
    rw [hv]
    refine (hb e.2 e2.2 fun x hx => ?_).1
    have hm : x ∈ s.toFinset.filter fun e => s.find? (fun x => x.1 = e.1) = some e :=
      Finset.mem_filter.2 ⟨List.mem_toFinset.2 (List.mem_of_find?_eq_some hx), hx⟩
    exact ⟨hmin x hm, hmax x hm⟩
  · obtain ⟨e, he, hmax⟩ := Finset.exists_max_image _ (fun e : ℚ × ℚ => e.2) hk
    rw [Finset.mem_filter] at he
    refine ⟨e.2, fun T => ?_, e.1, hat e he.2⟩
    obtain ⟨v, hv, -, -, -, -, hb⟩ := Lookup.c10_lookup s hne T
    obtain ⟨e2, he2, hmin⟩ := Finset.exists_min_image _ (fun e : ℚ × ℚ => e.2) hk
    unfold lossOf
    rw [hv]
    refine (hb e2.2 e.2 fun x hx => ?_).2
    have hm : x ∈ s.toFinset.filter fun e => s.find? (fun x => x.1 = e.1) = some e :=
      Finset.mem_filter.2 ⟨List.mem_toFinset.2 (List.mem_of_find?_eq_some hx), hx⟩
    exact ⟨hmin x hm, hmax x hm⟩

open Classical in
/-- the least value of a function, if there is one -/
noncomputable def least (f : ℚ → ℚ) : ℚ := if h : ∃ v, (∀ T, v ≤ f T) ∧ ∃ T, f T = v then h.choose else 0

open Classical in
/-- the greatest value of a function, if there is one -/
noncomputable def most (f : ℚ → ℚ) : ℚ := if h : ∃ v, (∀ T, f T ≤ v) ∧ ∃ T, f T = v then h.choose else 0

theorem least_spec {s : List (ℚ × ℚ)} (hne : s ≠ []) :
    (∀ T, least (lossOf s) ≤ lossOf s T ∧ lossOf s T ≤ most (lossOf s)) ∧ (∃ T, lossOf s T = least (lossOf s)) ∧ ∃ T, lossOf s T = most (lossOf s) := by
  obtain ⟨h1, h2⟩ := loss_least hne
  unfold least most
  rw [dif_pos h1, dif_pos h2]
  exact ⟨fun T => ⟨h1.choose_spec.1 T, h2.choose_spec.1 T⟩, h1.choose_spec.2, h2.choose_spec.2⟩

/-! ## sums over the blocks -/

theorem blocks_sum {β : Type} {m : List (Nat × β)} (wf : UMap.WF m) {n : Nat} (hn : ∀ e ∈ m, e.1 < n) (g : β → ℚ) :
    (m.map fun e => g e.2).sum = ∑ i ∈ Finset.range n, ((UMap.find? m i).map g).getD 0 := by
  have h1 : ∀ i ∈ Finset.range n, ((UMap.find? m i).map g).getD 0 = (m.map fun e => if i = e.1 then g e.2 else 0).sum := fun i _ => (sum_find m wf i g).symm
  rw [Finset.sum_congr rfl h1, sum_list_comm]
  congr 1
  apply List.map_congr_left
  intro e he
  rw [Finset.sum_ite_eq' (Finset.range n) e.1 fun _ => g e.2, if_pos (Finset.mem_range.2 (hn e he))]

/-- the heat of a piece, its table weighed by `p` -/
def pieceHeat (p : List (ℚ × ℚ) → ℚ) (q : Piece) : ℚ := (q.heat.map fun h => p h.2.1).getD 0

theorem range_getD (f : Piece → ℚ) (ps : List Piece) : ∑ i ∈ Finset.range ps.length, ((ps[i]?).map f).getD 0 = (ps.map f).sum := by
  induction ps with
  | nil => simp
  | cons a ps ih =>
    rw [List.length_cons, Finset.sum_range_succ', List.map_cons, List.sum_cons, add_comm, ← ih]
    simp

theorem filter_sum {α : Type} (f : α → ℚ) (p : α → Bool) (l : List α) (h : ∀ a ∈ l, p a = false → f a = 0) : ((l.filter p).map f).sum = (l.map f).sum := by
  induction l with
  | nil => rfl
  | cons a l ih =>
    rw [List.map_cons, List.sum_cons, ← ih fun b hb => h b (by simp [hb])]
    cases hp : p a with
    | true => rw [List.filter_cons_of_pos hp, List.map_cons, List.sum_cons]
    | false => rw [List.filter_cons_of_neg (by simp [hp]), h a (by simp) hp, zero_add]

/-- the heat of an item -/
def itemHeat (p : List (ℚ × ℚ) → ℚ) : Item → ℚ
  | .shape .. => 0
  | .heat _ _ _ _ _ t _ => p t

theorem item_heat (p : List (ℚ × ℚ) → ℚ) (x : Item) : (x.pieces.map (pieceHeat p)).sum = itemHeat p x := by
  cases x with
  | shape net solid hole s e t =>
    simp only [Item.pieces, List.map_cons, List.sum_cons, itemHeat, List.map_map]
    have : (s.holes.map (pieceHeat p ∘ fun h => (⟨net, hole, h, true, e, t, none⟩ : Piece))) = s.holes.map fun _ => 0 := by
      apply List.map_congr_left; intro h _; rfl
    rw [this]
    simp [pieceHeat]
  | heat mat q e t scen power pos => simp [Item.pieces, itemHeat, pieceHeat]

theorem items_heat (p : List (ℚ × ℚ) → ℚ) (xs : List Item) : ((xs.flatMap Item.pieces).map (pieceHeat p)).sum = (xs.map (itemHeat p)).sum := by
  rw [PrismBal.sum_flatMap]
  congr 1
  exact List.map_congr_left fun x _ => item_heat p x

theorem flat_zero {α : Type} (p : List (ℚ × ℚ) → ℚ) (f : α → List Item) (l : List α) (h : ∀ a ∈ l, ((f a).map (itemHeat p)).sum = 0) :
    ((l.flatMap f).map (itemHeat p)).sum = 0 := by
  rw [PrismBal.sum_flatMap]
  apply List.sum_eq_zero
  intro x hx
  obtain ⟨a, ha, rfl⟩ := List.mem_map.1 hx
  exact h a ha

theorem comp_heat (p : List (ℚ × ℚ) → ℚ) {I : Input} (C : Complete I) {c : CompIn} (hc : c ∈ I.comps) :
    ((compItems I.layers c).map (itemHeat p)).sum = if c.power.isEmpty then 0 else p c.power := by
  obtain ⟨h1, h2, ⟨k, l, hk, hl, -⟩, -⟩ := C.comps c hc
  obtain ⟨b, hb⟩ := Option.isSome_iff_exists.1 h1
  obtain ⟨mat, hm⟩ := Option.isSome_iff_exists.1 h2
  have hf : findLayer I.layers c.part.layer = some l := by
    unfold findLayer
    rw [hk, if_neg (by omega)]
    exact hl
  simp only [compItems, hf, hb, hm, List.map_cons, List.sum_cons]
  have htail : ∀ y : List Item, (y = [] ∨ ∃ a b c d e f, y = [Item.shape a b c d e f]) → (y.map (itemHeat p)).sum = 0 := by
    rintro y (rfl | ⟨a, b, c, d, e, f, rfl⟩) <;> simp [itemHeat]
  rw [htail]
  · by_cases he : c.power = []
    · simp [he, itemHeat]
    · have h1 : ¬ c.power.isEmpty = true := by simpa using he
      rw [if_neg h1, if_neg he]
      simp [itemHeat]
  · cases c.solderMat with
    | none => exact .inl rfl
    | some sm =>
      dsimp only
      by_cases hs : 0 < c.part.solder
      · rw [if_pos hs]; exact .inr ⟨_, _, _, _, _, _, rfl⟩
      · rw [if_neg hs]; exact .inl rfl

theorem prim_heat (p : List (ℚ × ℚ) → ℚ) (E : Env) {I : Input} (C : Complete I) {x : Prim} (hx : x ∈ I.prims) :
    ((primItems E I.layers x).map (itemHeat p)).sum =
      (((match x with | .wire w => jointHeat E w | _ => none : Option ℚ)).map fun q => p [(29815 / 100, q)]).getD 0 := by
  cases x with
  | other => rfl
  | geom s net lyr =>
    unfold primItems
    dsimp only
    split
    · split <;> simp [itemHeat]
    · rfl
  | wire w =>
    obtain ⟨-, h2, h3, h4⟩ := C.wires w hx
    have hbot : ((jointItems E w w.bot).map (itemHeat p)).sum = 0 := by
      unfold jointItems
      cases hb : w.bot with
      | none => rfl
      | some j =>
        dsimp only
        cases j.place with
        | none => rfl
        | some q =>
          cases j.mat with
          | none => rfl
          | some mat =>
            have : w.current ≤ 0 := h4 (by rw [hb]; rfl)
            simp only
            rw [if_neg (by linarith)]
            simp [itemHeat]
    rw [show primItems E I.layers (.wire w) = jointItems E w w.top ++ jointItems E w w.bot from rfl, List.map_append, List.sum_append, hbot, add_zero]
    simp only [jointItems, jointHeat]
    cases ht : w.top with
    | none =>
      simp
    | some j =>
      obtain ⟨h5, h6⟩ := h2 j ht
      obtain ⟨⟨s, e, t⟩, hp⟩ := Option.isSome_iff_exists.1 h5
      obtain ⟨mat, hm⟩ := Option.isSome_iff_exists.1 h6
      simp only [hp, hm]
      by_cases hc : 0 < w.current
      · simp [hc, itemHeat, ht, hp]
      · simp [hc, itemHeat]

theorem filterMap_sum {α : Type} (f : α → Option ℚ) (g : ℚ → ℚ) (l : List α) : (l.map fun a => ((f a).map g).getD 0).sum = ((l.filterMap f).map g).sum := by
  induction l with
  | nil => rfl
  | cons a l ih =>
    rw [List.map_cons, List.sum_cons, ih]
    cases hf : f a <;> simp [hf]

/-- the heat of all items of a layout -/
theorem layout_heat (p : List (ℚ × ℚ) → ℚ) (E : Env) {I : Input} (C : Complete I) (b : CutEx.Shape) :
    ((items E I b).map (itemHeat p)).sum = ((sources I).map fun c => p c.power).sum + ((joints E I).map fun q => p [(29815 / 100, q)]).sum := by
  unfold items
  rw [List.map_append, List.map_append, List.map_append, List.sum_append, List.sum_append, List.sum_append,
    flat_zero p (stackItems b), flat_zero p (padItems I.layers), zero_add, add_zero]
  · congr 1
    · rw [PrismBal.sum_flatMap]
      unfold sources
      rw [show (I.comps.map fun c => ((compItems I.layers c).map (itemHeat p)).sum) = I.comps.map fun c => if c.power.isEmpty then 0 else p c.power from
        List.map_congr_left fun c hc => comp_heat p C hc]
      rw [← filter_sum (fun c : CompIn => if c.power.isEmpty then 0 else p c.power) (fun c => !c.power.isEmpty)]
      · congr 1
        apply List.map_congr_left
        intro c hc
        have := (List.mem_filter.1 hc).2
        rw [if_neg (by simpa using this)]
      · intro c _ hc
        rw [if_pos (by simpa using hc)]
    · rw [PrismBal.sum_flatMap]
      unfold joints
      rw [← filterMap_sum]
      congr 1
      apply List.map_congr_left
      intro x hx
      rw [prim_heat p E C hx]
      cases x <;> rfl
  · intro q hq
    unfold padItems
    split_ifs
    · apply flat_zero
      intro k _
      unfold padItem
      split <;> simp [itemHeat]
    · rfl
  · intro l _
    unfold stackItems
    split <;> simp [itemHeat]

/-! ## the blocks of a layout -/

theorem item_pos (E : Env) {I : Input} {b : CutEx.Shape} {x : Item} (hx : x ∈ items E I b) {q : Piece} (hq : q ∈ x.pieces) {h : Nat × List (ℚ × ℚ) × ℚ}
    (hh : q.heat = some h) : 0 ≤ h.2.2 ∧ h.2.2 ≤ 1 / 2 ∧ h.2.1 ≠ [] := by
  have key : ∀ mat o e t sc tb pos, Item.heat mat o e t sc tb pos ∈ items E I b → 0 ≤ pos ∧ pos ≤ 1 / 2 ∧ tb ≠ [] := by
    intro mat o e t sc tb pos hm
    unfold items at hm
    simp only [List.mem_append, List.mem_flatMap] at hm
    have hj : ∀ (w : WireIn) (j : Option Joint), Item.heat mat o e t sc tb pos ∈ jointItems E w j → 0 ≤ pos ∧ pos ≤ 1 / 2 ∧ tb ≠ [] := by
      intro w j h
      unfold jointItems at h
      split at h
      · simp at h
      · split at h
        · split_ifs at h
          · simp only [List.mem_singleton, Item.heat.injEq] at h
            obtain ⟨-, -, -, -, -, rfl, rfl⟩ := h
            norm_num
          · simp at h
        · simp at h
    rcases hm with ((⟨l, -, hl⟩ | ⟨c, -, hc⟩) | ⟨p, -, hp⟩) | ⟨p, -, hp⟩
    · unfold stackItems at hl
      split at hl <;> simp at hl
    · unfold compItems at hc
      split at hc
      · simp only [List.mem_cons] at hc
        rcases hc with hc | hc
        · by_cases he : c.power = []
          · simp [he] at hc
          · rw [if_neg he] at hc
            simp only [Item.heat.injEq] at hc
            obtain ⟨-, -, -, -, -, rfl, rfl⟩ := hc
            exact ⟨by norm_num, by norm_num, he⟩
        · split at hc
          · split_ifs at hc <;> simp at hc
          · simp at hc
      · simp at hc
    · unfold primItems at hp
      split at hp
      · simp at hp
      · rcases List.mem_append.1 hp with h | h
        · exact hj _ _ h
        · exact hj _ _ h
      · split at hp
        · split at hp <;> simp at hp
        · simp at hp
    · unfold padItems at hp
      split_ifs at hp
      · obtain ⟨k, -, hk⟩ := List.mem_flatMap.1 hp
        unfold padItem at hk
        split at hk <;> simp at hk
      · simp at hp
  cases x with
  | shape net solid hole s e t =>
    simp only [Item.pieces, List.mem_cons, List.mem_map] at hq
    rcases hq with rfl | ⟨o, -, rfl⟩ <;> simp at hh
  | heat mat o e t sc tb pos =>
    simp only [Item.pieces, List.mem_singleton] at hq
    subst hq
    simp only [Option.some.injEq] at hh
    subst hh
    exact key _ _ _ _ _ _ _ hx

theorem round_lt {x y : ℚ} (h : y + 1 < x) : Geom.round y < Geom.round x := by
  have h1 := abs_le.1 (Geom.round_close x)
  have h2 := abs_le.1 (Geom.round_close y)
  have : (Geom.round y : ℚ) < Geom.round x := by linarith [h1.1, h2.2]
  exact_mod_cast this

/-- what is known of a block -/
structure Fact (E : Env) (I : Input) (b : CutEx.Shape) (m : Model) (c : Geom.Cut) (e : Nat × CutEx.Block) : Prop where
  piece : ∃ x ∈ items E I b, ∃ q ∈ x.pieces, q.heat ≠ none ∧ m.mats[e.1]? = some q.mat
  table : e.2.power ≠ []
  layer : ∃ k l, c.layerByHeight e.2.range.high = some k ∧ k < c.total ∧ c.lut k = some l ∧ e.1 ∈ l

theorem blocks_of {E : Env} {I : Input} {b : CutEx.Shape} {fluid : List Int} (R : Ready E I b fluid) {ratio : ℚ} {fuel : Nat} {m : Model} {c : Geom.Cut}
    (hx : CutEx.extract E ratio fuel I = .ok (m, some (.ok c))) :
    UMap.WF m.blocks ∧ m.wires = wiresOf I.prims ∧ (∀ e ∈ m.blocks, Fact E I b m c e) ∧
    ∀ p : List (ℚ × ℚ) → ℚ, (m.blocks.map fun e => p e.2.power).sum =
      ((sources I).map fun c => p c.power).sum + ((joints E I).map fun q => p [(29815 / 100, q)]).sum := by
  obtain ⟨m0, hg, rep⟩ := rep_generate R.complete E b R.boundary
  unfold CutEx.extract at hx
  rw [hg, Res.bind_ok, Res.ok.injEq, Prod.mk.injEq] at hx
  obtain ⟨hm, hc⟩ := hx
  have hmb : m.blocks = m0.blocks ∧ m.wires = m0.wires := by
    rw [← hm, foldl_imprint]
    exact ⟨rfl, rfl⟩
  have hmm : m.mats = m0.mats ++ I.imprints.map (fun _ => -1) ∧ m.ranges = m0.ranges ++ I.imprints.map (fun _ => ⟨-2147483647, 2147483647⟩) ∧
      m.polygons = m0.polygons ++ I.imprints := by
    rw [← hm, foldl_imprint]
    exact ⟨rfl, rfl, rfl⟩
  rw [hm] at hc
  set ps := ((items E I b).flatMap Item.pieces).filter (Piece.Thick E) with hps
  have hfind : ∀ e ∈ m.blocks, ∃ q, ps[e.1]? = some q ∧ q.block E e.1 = some e.2 := by
    intro e he
    rw [hmb.1] at he
    have h1 := rep.blocks e.1
    rw [(UMap.find?_eq_some_iff rep.wf e.1 e.2).2 he] at h1
    cases hq : ps[e.1]? with
    | none => rw [hq] at h1; cases h1
    | some q => rw [hq] at h1; exact ⟨q, rfl, h1.symm⟩
  refine ⟨by rw [hmb.1]; exact rep.wf, by rw [hmb.2]; exact rep.wires, ?_, ?_⟩
  · intro e he
    obtain ⟨q, hq, hqb⟩ := hfind e he
    obtain ⟨hqm, hthick⟩ := List.mem_filter.1 (List.mem_of_getElem? hq)
    obtain ⟨x, hxi, hxq⟩ := List.mem_flatMap.1 hqm
    have hlen := (List.getElem?_eq_some_iff.1 hq).1
    unfold Piece.block at hqb
    cases hh : q.heat with
    | none => simp [hh] at hqb
    | some h =>
      rw [hh, Option.map_some, Option.some.injEq] at hqb
      have hne : q.heat ≠ none := by rw [hh]; simp
      obtain ⟨p1, p2, p3⟩ := item_pos E hxi hxq hh
      have ht := R.thick x hxi q hxq hne
      have hmat : m.mats[e.1]? = some q.mat := by
        rw [hmm.1, List.getElem?_append_left (by rw [rep.mats]; simpa using hlen), rep.mats, List.getElem?_map, hq]
        rfl
      refine ⟨⟨x, hxi, q, hxq, hne, hmat⟩, by rw [← hqb]; exact p3, ?_⟩
      have hpoly : m.polyAt e.1 = some ⟨q.range E, true, some e.2.range⟩ := by
        unfold Model.polyAt
        have hsolid : q.mat ≠ noId := fun hbad => (R.rigid x hxi q hxq hne).2 (by rw [hbad]; rfl)
        rw [hmat, hmm.2.1, List.getElem?_append_left (by rw [rep.ranges]; simpa using hlen), rep.ranges, List.getElem?_map, hq, hmb.1, rep.blocks, hq]
        simp only [Option.map_some, Option.bind_some, Piece.block, hh]
        rw [← hqb]
        simp [hsolid]
      have hsome : ∀ i, i < m.polygons.length → (m.polyAt i).isSome = true := by
        intro i hi
        have l1 : i < m.ranges.length := by
          rw [hmm.2.2, rep.polygons] at hi
          rw [hmm.2.1, rep.ranges]
          simpa using hi
        have l2 : i < m.mats.length := by
          rw [hmm.2.2, rep.polygons] at hi
          rw [hmm.1, rep.mats]
          simpa using hi
        unfold Model.polyAt
        rw [List.getElem?_eq_getElem l1, List.getElem?_eq_getElem l2]
        rfl
      have hpolys : m.polys[e.1]? = some ⟨q.range E, true, some e.2.range⟩ := by
        have hi : e.1 < m.polygons.length := by rw [hmm.2.2, rep.polygons]; simp only [List.length_append, List.length_map]; omega
        unfold Model.polys
        rw [(filterMap_range_get _ _ hsome).2 e.1 hi]
        exact hpoly
      have hr : e.2.range = Geom.powerRange E.scale q.elev q.thick h.2.2 (1 / 10) := by rw [← hqb]
      have hhigh : e.2.range.high = Geom.round ((q.elev - q.thick * h.2.2) * E.scale) := by rw [hr]; rfl
      have hv : (q.range E).low < (q.range E).high := by
        unfold Piece.Thick at hthick
        simpa [Piece.range] using hthick
      have h1 : (q.range E).low < e.2.range.high := by
        rw [hhigh]
        apply round_lt
        nlinarith
      have h2 : e.2.range.high ≤ (q.range E).high := by
        rw [hhigh]
        apply Geom.round_mono
        nlinarith
      obtain ⟨k, l, k1, -, k3, k4, k5⟩ := c114_layer hc hpolys rfl hv rfl h1 h2
      exact ⟨k, l, k1, k3, k4, k5⟩
  · intro p
    have hn : ∀ e ∈ m.blocks, e.1 < ps.length := by
      intro e he
      obtain ⟨q, hq, -⟩ := hfind e he
      exact (List.getElem?_eq_some_iff.1 hq).1
    rw [blocks_sum (m := m.blocks) (by rw [hmb.1]; exact rep.wf) hn fun b => p b.power]
    have hterm : ∀ i ∈ Finset.range ps.length, ((UMap.find? m.blocks i).map fun b : CutEx.Block => p b.power).getD 0 = ((ps[i]?).map (pieceHeat p)).getD 0 := by
      intro i hi
      rw [hmb.1, rep.blocks i]
      cases hq : ps[i]? with
      | none => rfl
      | some q =>
        simp only [Option.bind_some, Option.map_some, Option.getD_some, Piece.block, pieceHeat, Option.map_map]
        rfl
    rw [Finset.sum_congr rfl hterm, range_getD, hps, filter_sum, items_heat, layout_heat p E R.complete b]
    intro q hq hthin
    obtain ⟨x, hxi, hxq⟩ := List.mem_flatMap.1 hq
    unfold pieceHeat
    cases hh : q.heat with
    | none => rfl
    | some h =>
      exfalso
      have ht := R.thick x hxi q hxq (by rw [hh]; simp)
      unfold Piece.Thick at hthin
      rw [decide_eq_false_iff_not] at hthin
      apply hthin
      apply round_lt
      nlinarith

/-- **C143, blocks.** In the layer cut model of a layout the power blocks are those of the components with a loss power and of the heated joints: whatever
is added up over their tables. Each belongs to a layer of its polygon, and its polygon has a rigid material. -/
theorem c143_blocks {E : Env} {I : Input} {b : CutEx.Shape} {fluid : List Int} (R : Ready E I b fluid) {ratio : ℚ} {fuel : Nat} {lc : Model}
    {cut : Geom.Cut} (hx : CutEx.extract E ratio fuel I = .ok (lc, some (.ok cut))) (area : Polygon → ℚ) :
    let c := readCut lc cut fluid area
    (∀ p : (ℚ → ℚ) → ℚ, (c.blocks.map fun e => p e.2.lut).sum =
      ((sources I).map fun x => p (lossOf x.power)).sum + ((joints E I).map fun q => p fun _ => q).sum) ∧
    ∀ e ∈ c.blocks, PrismT.Solid c e.1 ∧ ∃ k l, c.cut.layerByHeight e.2.range.high = some k ∧ k < cut.total ∧ c.cut.lut k = some l ∧ e.1 ∈ l := by
  obtain ⟨-, -, hf, hs⟩ := blocks_of R hx
  intro c
  have h1 : ∀ q : ℚ, lossOf [(29815 / 100, q)] = fun _ => q := fun q => rfl
  refine ⟨fun p => ?_, fun e he => ?_⟩
  · have := hs fun t => p (lossOf t)
    simp only [h1] at this
    rw [← this]
    show ((lc.blocks.map _).map _).sum = _
    rw [List.map_map]
    rfl
  · obtain ⟨e0, he0, rfl⟩ := List.mem_map.1 (show e ∈ lc.blocks.map _ from he)
    obtain ⟨⟨x, hxi, q, hxq, hne, hmat⟩, -, k, l, k1, k2, k3, k4⟩ := hf e0 he0
    obtain ⟨r1, r2⟩ := R.rigid x hxi q hxq hne
    refine ⟨⟨?_, ?_⟩, k, l, k1, k2, k3, k4⟩
    · show decide (matNo ((lc.mats[e0.1]?).getD noId) ∈ fluid.map matNo) = false
      rw [hmat]
      simpa using r1
    · show matNo ((lc.mats[e0.1]?).getD noId) ≠ matNo noId
      rw [hmat]
      exact r2

/-! ## materials -/

/-- the polygons of a layout, in the order of the layer cut model -/
def pieces (E : Env) (I : Input) (b : CutEx.Shape) : List Piece := ((items E I b).flatMap Item.pieces).filter (Piece.Thick E)

/-- a polygon reaches through a layer from its upper to its lower height -/
def Spans (E : Env) (cut : Geom.Cut) (k : Nat) (q : Piece) : Prop :=
  ∃ s e, cut.order[s]? = some (Geom.round (q.elev * E.scale)) ∧ cut.order[e]? = some (Geom.round ((q.elev - q.thick) * E.scale)) ∧ s ≤ k ∧ k < e

theorem polys_of {E : Env} {I : Input} {b : CutEx.Shape} (C : Complete I) (hb : I.boundary = some b) {ratio : ℚ} {fuel : Nat} {lc : Model}
    {cut : Geom.Cut} (hx : CutEx.extract E ratio fuel I = .ok (lc, some (.ok cut))) :
    Geom.build ratio fuel lc.polys = some (.ok cut) ∧
    (∀ (i : Nat) q, (pieces E I b)[i]? = some q → lc.mats[i]? = some q.mat ∧ ∃ mt pw, lc.polys[i]? = some ⟨q.range E, mt, pw⟩ ∧ (q.range E).low < (q.range E).high) ∧
    ∀ (i : Nat) p, lc.polys[i]? = some p → p.range.low < p.range.high → ∃ q, (pieces E I b)[i]? = some q := by
  obtain ⟨m, ps, hg, hps, hpol, ⟨rs, hrs, hlen, hinv⟩, hmat, -, -, -, -⟩ := c96_extract_partial E I C b hb
  unfold CutEx.extract at hx
  rw [hg, Res.bind_ok, Res.ok.injEq, Prod.mk.injEq] at hx
  obtain ⟨rfl, hc⟩ := hx
  have hps' : pieces E I b = ps := hps.symm
  have hsome : ∀ i, i < m.polygons.length → (m.polyAt i).isSome = true := by
    intro i hi
    rw [hpol, List.length_append, List.length_map] at hi
    have l1 : i < m.ranges.length := by rw [hrs, List.length_append, List.length_map, hlen]; exact hi
    have l2 : i < m.mats.length := by rw [hmat, List.length_append, List.length_map, List.length_map]; exact hi
    unfold Model.polyAt
    rw [List.getElem?_eq_getElem l1, List.getElem?_eq_getElem l2]
    rfl
  obtain ⟨f1, f2⟩ := filterMap_range_get _ _ hsome
  refine ⟨hc, fun i q hq => ?_, fun i p hp hv => ?_⟩
  · rw [hps'] at hq
    have hi := (List.getElem?_eq_some_iff.1 hq).1
    have hm : m.mats[i]? = some q.mat := by rw [hmat, List.getElem?_append_left (by simpa using hi), List.getElem?_map, hq]; rfl
    have hr : m.ranges[i]? = some (q.range E) := by rw [hrs, List.getElem?_append_left (by simpa using hi), List.getElem?_map, hq]; rfl
    refine ⟨hm, decide (q.mat ≠ noId), (UMap.find? m.blocks i).map CutEx.Block.range, ?_, ?_⟩
    · unfold Model.polys
      rw [f2 i (by rw [hpol, List.length_append, List.length_map]; omega)]
      unfold Model.polyAt
      rw [hr, hm]
    · have := (List.mem_filter.1 (hps ▸ List.mem_of_getElem? hq)).2
      unfold Piece.Thick at this
      simpa [Piece.range] using this
  · have hi : i < m.polygons.length := by
      have := (List.getElem?_eq_some_iff.1 hp).1
      unfold Model.polys at this
      rwa [f1] at this
    unfold Model.polys at hp
    rw [f2 i hi] at hp
    rw [hps']
    by_cases hlt : i < ps.length
    · exact ⟨_, List.getElem?_eq_getElem hlt⟩
    · exfalso
      unfold Model.polyAt at hp
      split at hp
      · rename_i r mt hr _
        rw [Option.some.injEq] at hp
        subst hp
        rw [hrs, List.getElem?_append_right (by simp; omega)] at hr
        exact absurd (hinv r (List.mem_of_getElem? hr)) (not_lt.2 hv.le)
      · cases hp

/-- **C143, materials.** An element of a layer has the material of the least of the polygons of the layout around its centre that reach through the
layer, and this material is rigid. -/
theorem c143_material {E : Env} {I : Input} {b : CutEx.Shape} (C : Complete I) (hb : I.boundary = some b) {ratio : ℚ} {fuel : Nat} {lc : Model}
    {cut : Geom.Cut} (hx : CutEx.extract E ratio fuel I = .ok (lc, some (.ok cut))) (fluid : List Int) (area : Polygon → ℚ) {v : View}
    (hh : Hits (readCut lc cut fluid area) v) (k t : Nat) (y : Cell ℚ) (hy : infoOf (readCut lc cut fluid area) v k t = some y) :
    ∃ i q, (pieces E I b)[i]? = some q ∧ Spans E cut k q ∧ v.contains k t i = true ∧ y.mat = matNo q.mat ∧ matNo q.mat ∉ fluid.map matNo ∧
      matNo q.mat ≠ matNo (-1) ∧ ∀ j q', (pieces E I b)[j]? = some q' → Spans E cut k q' → v.contains k t j = true →
        (readCut lc cut fluid area).area i ≤ (readCut lc cut fluid area).area j := by
  obtain ⟨hbd, h1, h2⟩ := polys_of C hb hx
  obtain ⟨i, hs, ⟨s1, s2⟩, hym⟩ := (c114_material (readCut lc cut fluid area) v k t).1 y hy
  obtain ⟨ls, hl, hil, hc, hmin⟩ := search_some hh hs
  obtain ⟨hso, hcov, hval⟩ := Geom.c26_cover hbd
  obtain ⟨p, hp, hv⟩ := (hval k ls hl).2 i hil
  obtain ⟨q, hq⟩ := h2 i p hp hv
  obtain ⟨hm, mt, pw, hp', hv'⟩ := h1 i q hq
  have hmat : (readCut lc cut fluid area).mat i = matNo q.mat := by
    show matNo ((lc.mats[i]?).getD noId) = _
    rw [hm]
    rfl
  rw [hmat] at s1 s2 hym
  have span : ∀ j q', (pieces E I b)[j]? = some q' → (Spans E cut k q' ↔ ∃ l, cut.lut k = some l ∧ j ∈ l) := by
    intro j q' hq'
    obtain ⟨-, mt', pw', hpj, hvj⟩ := h1 j q' hq'
    obtain ⟨s, e, -, e1, e2, e3⟩ := hcov j _ hpj hvj
    rw [e3 k]
    constructor
    · rintro ⟨s', e', f1, f2, f3, f4⟩
      have : s' = s := Nat.le_antisymm ((Geom.desc_le_iff hso e1 f1).1 (le_refl _)) ((Geom.desc_le_iff hso f1 e1).1 (le_refl _))
      have : e' = e := Nat.le_antisymm ((Geom.desc_le_iff hso e2 f2).1 (le_refl _)) ((Geom.desc_le_iff hso f2 e2).1 (le_refl _))
      omega
    · rintro ⟨f3, f4⟩
      exact ⟨s, e, e1, e2, f3, f4⟩
  refine ⟨i, q, hq, (span i q hq).2 ⟨ls, hl, hil⟩, hc, hym, by simpa [readCut] using s1, s2, fun j q' hq' hsp hcj => ?_⟩
  obtain ⟨l', hl', hjl⟩ := (span j q' hq').1 hsp
  have hl2 : cut.lut k = some ls := hl
  have : l' = ls := Option.some.inj (hl'.symm.trans hl2)
  subst this
  exact hmin j hjl hcj

/-! ## the claim -/

theorem whole_of {E : Env} {I : Input} {b : CutEx.Shape} {fluid : List Int} (R : Ready E I b fluid) {ratio : ℚ} {fuel : Nat} {lc : Model}
    {cut : Geom.Cut} (hx : CutEx.extract E ratio fuel I = .ok (lc, some (.ok cut))) (area : Polygon → ℚ) {v : View} {tris : Nat → Nat}
    (hseen : Seen (readCut lc cut fluid area) v tris) :
    ∀ e ∈ (readCut lc cut fluid area).blocks, ∃ k, k < cut.total ∧ Whole (readCut lc cut fluid area) v (tris k) k e.1 e.2 := by
  intro e he
  obtain ⟨hsol, k, l, k1, k2, k3, k4⟩ := (c143_blocks R hx area).2 e he
  obtain ⟨s1, s2, s3⟩ := hseen e he k l k1 k3
  exact ⟨k, k2, hsol, k1, ⟨l, k3, k4, s3⟩, s1, s2⟩

theorem wf_map {β γ : Type} {m : List (Nat × β)} (h : UMap.WF m) (f : β → γ) : UMap.WF (m.map fun e => (e.1, f e.2)) := by
  have : UMap.keys (m.map fun e => (e.1, f e.2)) = UMap.keys m := by unfold UMap.keys; rw [List.map_map]; rfl
  unfold UMap.WF
  rw [this]
  exact h

theorem proper_of {E : Env} {I : Input} {b : CutEx.Shape} {fluid : List Int} (R : Ready E I b fluid) {ratio : ℚ} {fuel : Nat} {lc : Model}
    {cut : Geom.Cut} (hx : CutEx.extract E ratio fuel I = .ok (lc, some (.ok cut))) {area : Polygon → ℚ} {v : View} {m : PModel ℚ} {mesh : Mesh}
    {L : WireLib} (h : Made (readCut lc cut fluid area) v m mesh lc.wires L) :
    PrismBal.Proper (readCut lc cut fluid area) v m mesh cut.total (lc.wires.map (readWire L)) where
  blocks := wf_map (blocks_of R hx).1 fun x : CutEx.Block => (⟨x.range, x.scen, lossOf x.power⟩ : PrismT.Block)
  hits := h.hits
  extracted := h.extracted
  nbs := h.nbs
  whole := whole_of R hx area h.seen
  areas := h.areas
  cooled := h.cooled
  noFlux := h.noFlux
  wires := by
    intro w hw
    obtain ⟨x, hx, rfl⟩ := List.mem_map.1 hw
    exact h.wires _

theorem properS_of {E : Env} {I : Input} {b : CutEx.Shape} {fluid : List Int} (R : Ready E I b fluid) {ratio : ℚ} {fuel : Nat} {lc : Model}
    {cut : Geom.Cut} (hx : CutEx.extract E ratio fuel I = .ok (lc, some (.ok cut))) {area : Polygon → ℚ} {v : View} {m : SModel ℚ} {g : Tris ℚ} {s : ℚ}
    {meshes : List Mesh} {L : WireLib} (h : MadeS (readCut lc cut fluid area) v m g s meshes lc.wires L) :
    StackBal.Proper (readCut lc cut fluid area) v m g s meshes (lc.wires.map (readWire L)) where
  blocks := wf_map (blocks_of R hx).1 fun x : CutEx.Block => (⟨x.range, x.scen, lossOf x.power⟩ : PrismT.Block)
  hits := h.hits
  made := h.made
  geometry := h.geometry
  nbs := h.nbs
  whole := by rw [h.layers]; exact whole_of R hx area h.seen
  areas := h.areas
  cooled := h.cooled
  noFlux := h.noFlux
  wires := by
    intro w hw
    obtain ⟨x, hx, rfl⟩ := List.mem_map.1 hw
    exact h.wires _

/-- the least values of the tables of blocks and the greatest bound their loss powers -/
theorem lut_bounds {E : Env} {I : Input} {b : CutEx.Shape} {fluid : List Int} (R : Ready E I b fluid) {ratio : ℚ} {fuel : Nat} {lc : Model}
    {cut : Geom.Cut} (hx : CutEx.extract E ratio fuel I = .ok (lc, some (.ok cut))) (area : Polygon → ℚ) :
    ∀ e ∈ (readCut lc cut fluid area).blocks, (∀ T, least e.2.lut ≤ e.2.lut T ∧ e.2.lut T ≤ most e.2.lut) ∧ ∃ T, e.2.lut T = least e.2.lut := by
  intro e he
  obtain ⟨e0, he0, rfl⟩ := List.mem_map.1 (show e ∈ lc.blocks.map _ from he)
  obtain ⟨h1, h2, -⟩ := least_spec ((blocks_of R hx).2.2.1 e0 he0).table
  exact ⟨h1, h2⟩

/-- the power of the layout lies within that of blocks and wires -/
theorem power_bounds {E : Env} {I : Input} {b : CutEx.Shape} {fluid : List Int} (R : Ready E I b fluid) {ratio : ℚ} {fuel : Nat} {lc : Model}
    {cut : Geom.Cut} (hx : CutEx.extract E ratio fuel I = .ok (lc, some (.ok cut))) (area : Polygon → ℚ) (L : WireLib) {lo hi : CompIn → ℚ}
    (hb : ∀ c ∈ sources I, ∀ e ∈ c.power, lo c ≤ e.2 ∧ e.2 ≤ hi c) (rlo rhi : Nat → ℚ) :
    power E I L lo rlo ≤ PrismBal.power (readCut lc cut fluid area) (lc.wires.map (readWire L)) (fun b => least b.lut) rlo ∧
    PrismBal.power (readCut lc cut fluid area) (lc.wires.map (readWire L)) (fun b => most b.lut) rhi ≤ power E I L hi rhi := by
  have hsum := (c143_blocks R hx area).1
  have hw : lc.wires = wiresOf I.prims := (blocks_of R hx).2.1
  have hc : ∀ q : ℚ, least (fun _ => q) = q ∧ most (fun _ => q) = q := by
    intro q
    obtain ⟨-, ⟨_, h1⟩, ⟨_, h2⟩⟩ := least_spec (s := [(0, q)]) (by simp)
    exact ⟨h1.symm, h2.symm⟩
  have hne : ∀ c ∈ sources I, c.power ≠ [] := by
    intro c hcm
    have := (List.mem_filter.1 hcm).2
    simpa using this
  have hwire : ∀ r : Nat → ℚ, ((lc.wires.map (readWire L)).map fun w => ∑ s ∈ range (w.points - 1), w.current ^ 2 * (r w.mat * w.length s / w.area)).sum =
      ((wiresOf I.prims).map fun w => ∑ s ∈ range (w.points.length - 1), w.current ^ 2 * (r (matNo w.mat) * L.len (w.radius, w.points) s / L.cross (w.radius, w.points))).sum := by
    intro r
    rw [hw, List.map_map]
    rfl
  unfold power PrismBal.power
  rw [hwire, hwire, hsum least, hsum most]
  simp only [(hc _).1, (hc _).2, List.map_id']
  constructor
  · refine add_le_add (add_le_add (PrismBal.list_sum_le fun c hcm => ?_) (le_refl _)) (le_refl _)
    obtain ⟨-, ⟨T, hT⟩, -⟩ := least_spec (hne c hcm)
    rw [← hT]
    exact (loss_bounds (hne c hcm) (hb c hcm) T).1
  · refine add_le_add (add_le_add (PrismBal.list_sum_le fun c hcm => ?_) (le_refl _)) (le_refl _)
    obtain ⟨-, -, T, hT⟩ := least_spec (hne c hcm)
    rw [← hT]
    exact (loss_bounds (hne c hcm) (hb c hcm) T).2

/-- no block cools -/
theorem lo_nonneg {E : Env} {I : Input} {b : CutEx.Shape} {fluid : List Int} (R : Ready E I b fluid) {ratio : ℚ} {fuel : Nat} {lc : Model}
    {cut : Geom.Cut} (hx : CutEx.extract E ratio fuel I = .ok (lc, some (.ok cut))) (area : Polygon → ℚ) {lo hi : CompIn → ℚ}
    (hb : ∀ c ∈ sources I, ∀ e ∈ c.power, lo c ≤ e.2 ∧ e.2 ≤ hi c) (h0 : ∀ c ∈ sources I, 0 ≤ lo c) (h1 : ∀ q ∈ joints E I, 0 ≤ q) :
    ∀ e ∈ (readCut lc cut fluid area).blocks, 0 ≤ least e.2.lut := by
  classical
  intro e he
  obtain ⟨T, hT⟩ := (lut_bounds R hx area e he).2
  rw [← hT]
  have hsum := (c143_blocks R hx area).1 fun f => if f = e.2.lut then 1 else 0
  by_contra hneg
  have hz : ((sources I).map fun x => if lossOf x.power = e.2.lut then (1 : ℚ) else 0).sum + ((joints E I).map fun q => if (fun _ => q) = e.2.lut then (1 : ℚ) else 0).sum = 0 := by
    rw [List.sum_eq_zero, List.sum_eq_zero, add_zero]
    · intro x hxm
      obtain ⟨q, hq, rfl⟩ := List.mem_map.1 hxm
      rw [if_neg]
      intro hbad
      exact hneg (by rw [← hbad]; exact h1 q hq)
    · intro x hxm
      obtain ⟨c, hc, rfl⟩ := List.mem_map.1 hxm
      rw [if_neg]
      intro hbad
      apply hneg
      rw [← hbad]
      have hne : c.power ≠ [] := by simpa using (List.mem_filter.1 hc).2
      exact le_trans (h0 c hc) (loss_bounds hne (hb c hc) T).1
  rw [hz] at hsum
  have hpos : (1 : ℚ) ≤ ((readCut lc cut fluid area).blocks.map fun x => if x.2.lut = e.2.lut then (1 : ℚ) else 0).sum := by
    refine List.single_le_sum (fun x hxm => ?_) _ (List.mem_map.2 ⟨e, he, if_pos rfl⟩)
    obtain ⟨y, -, rfl⟩ := List.mem_map.1 hxm
    split_ifs <;> norm_num
  linarith

/-- **C143** for prism models: for every layout of the claim and all bounds of the loss powers of its components and of the resistivities: the network is
built for all temperatures before, and it has exactly one steady state. In it the heat given off lies between the sums of the bounds over components,
joints and segments of bond wires, and no element is colder than the surroundings if nothing cools. -/
theorem c143_steady {E : Env} {I : Input} {b : CutEx.Shape} {fluid : List Int} (R : Ready E I b fluid) {ratio : ℚ} {fuel : Nat} {lc : Model}
    {cut : Geom.Cut} (hx : CutEx.extract E ratio fuel I = .ok (lc, some (.ok cut))) {area : Polygon → ℚ} {v : View} {m : PModel ℚ} {mesh : Mesh}
    {L : WireLib} (h : Made (readCut lc cut fluid area) v m mesh lc.wires L) {lo hi : CompIn → ℚ}
    (hb : ∀ c ∈ sources I, ∀ e ∈ c.power, lo c ≤ e.2 ∧ e.2 ≤ hi c) {rlo rhi : Nat → ℚ}
    (hr : ∀ k T, 0 ≤ rlo k ∧ rlo k ≤ m.resist k T ∧ m.resist k T ≤ rhi k) {minR : ℚ} (hm : 0 < minR) (refT : ℚ)
    (iniT : List ℚ) (hl : iniT.length = m.total) :
    ∃ net x, m.build minR iniT = .ok (some net) ∧ Solves net refT x ∧ (∀ y, Solves net refT y → ∀ i < m.total, y i = x i) ∧
      power E I L lo rlo ≤ PrismBal.given m refT x ∧ PrismBal.given m refT x ≤ power E I L hi rhi ∧
      ((∀ c ∈ sources I, 0 ≤ lo c) → (∀ q ∈ joints E I, 0 ≤ q) → ∀ k < m.total, refT ≤ x k) := by
  obtain ⟨net, x, n1, n2, n3, n4, n5, n6⟩ := PrismBal.c124_steady (proper_of R hx h) (lo := fun b => least b.lut) (hi := fun b => most b.lut)
    (fun e he T => (lut_bounds R hx area e he).1 T) hr hm refT iniT hl
  obtain ⟨b1, b2⟩ := power_bounds R hx area L hb rlo rhi
  exact ⟨net, x, n1, n2, n3, le_trans b1 n4, le_trans n5 b2, fun h0 h1 => n6 (lo_nonneg R hx area hb h0 h1)⟩

/-- **C143** for loss powers and resistivities which do not depend on the temperature: the heat given off is the power of the layout. -/
theorem c143_constant {E : Env} {I : Input} {b : CutEx.Shape} {fluid : List Int} (R : Ready E I b fluid) {ratio : ℚ} {fuel : Nat} {lc : Model}
    {cut : Geom.Cut} (hx : CutEx.extract E ratio fuel I = .ok (lc, some (.ok cut))) {area : Polygon → ℚ} {v : View} {m : PModel ℚ} {mesh : Mesh}
    {L : WireLib} (h : Made (readCut lc cut fluid area) v m mesh lc.wires L) {w : CompIn → ℚ} (hw : ∀ c ∈ sources I, ∀ e ∈ c.power, e.2 = w c)
    {r : Nat → ℚ} (hr : ∀ k T, 0 ≤ r k ∧ m.resist k T = r k) {minR : ℚ} (hm : 0 < minR) (refT : ℚ) (iniT : List ℚ) (hl : iniT.length = m.total) :
    ∃ net, m.build minR iniT = .ok (some net) ∧ ∀ x, Solves net refT x → PrismBal.given m refT x = power E I L w r := by
  obtain ⟨net, x, n1, n2, n3, n4, n5, -⟩ := c143_steady R hx h (lo := w) (hi := w) (fun c hc e he => ⟨(hw c hc e he).ge, (hw c hc e he).le⟩)
    (rlo := r) (rhi := r) (fun k T => ⟨(hr k T).1, (hr k T).2.ge, (hr k T).2.le⟩) hm refT iniT hl
  refine ⟨net, n1, fun y hy => ?_⟩
  rw [← le_antisymm n5 n4]
  unfold PrismBal.given
  refine Finset.sum_congr rfl fun i hi => ?_
  rw [Finset.mem_range, (extracted_wf h.extracted).1.prisms] at hi
  rw [n3 y hy i]
  unfold PModel.total
  omega

/-- **C143** for the whole run of the static solver on a prism model, with a linear solver that solves the systems given to it. -/
theorem c143_static {E : Env} {I : Input} {b : CutEx.Shape} {fluid : List Int} (R : Ready E I b fluid) {ratio : ℚ} {fuel : Nat} {lc : Model}
    {cut : Geom.Cut} (hx : CutEx.extract E ratio fuel I = .ok (lc, some (.ok cut))) {area : Polygon → ℚ} {v : View} {m : PModel ℚ} {mesh : Mesh}
    {L : WireLib} (h : Made (readCut lc cut fluid area) v m mesh lc.wires L) {lo hi : CompIn → ℚ}
    (hb : ∀ c ∈ sources I, ∀ e ∈ c.power, lo c ≤ e.2 ∧ e.2 ≤ hi c) {rlo rhi : Nat → ℚ}
    (hr : ∀ k T, 0 ≤ rlo k ∧ rlo k ≤ m.resist k T ∧ m.resist k T ≤ rhi k) {minR : ℚ} (hm : 0 < minR)
    (envT limit : ℚ) (maximum celsius : Bool) (iteration : Nat) (hit : 1 ≤ iteration)
    (solve : Network ℚ → List ℚ) (hlen : ∀ net, (solve net).length = net.length)
    (hsol : ∀ net, Grounded net → Solves net envT fun i => (solve net)[i]?.getD 0) (fuel' : Nat) (hf : iteration ≤ fuel') :
    ∃ t, Static.solveStatic (m.build minR) solve m.total envT limit maximum iteration celsius fuel' = some (.ok (some t)) ∧ t.length = m.total ∧
      let kelvin := fun k => t[k]?.getD 0 + if celsius then (27315 / 100 : ℚ) else 0
      power E I L lo rlo ≤ PrismBal.given m envT kelvin ∧ PrismBal.given m envT kelvin ≤ power E I L hi rhi ∧
      ((∀ c ∈ sources I, 0 ≤ lo c) → (∀ q ∈ joints E I, 0 ≤ q) → ∀ k < t.length, envT ≤ kelvin k) := by
  obtain ⟨t, n1, n2, n4, n5, n6⟩ := PrismBal.c124_static (proper_of R hx h) (lo := fun b => least b.lut) (hi := fun b => most b.lut)
    (fun e he T => (lut_bounds R hx area e he).1 T) hr hm envT limit maximum celsius iteration hit solve hlen hsol fuel' hf
  obtain ⟨b1, b2⟩ := power_bounds R hx area L hb rlo rhi
  exact ⟨t, n1, n2, le_trans b1 n4, le_trans n5 b2, fun h0 h1 => n6 (lo_nonneg R hx area hb h0 h1)⟩

/-- **C143** for stackup prism models: the same, through the exposed parts of their faces. -/
theorem c143_stack {E : Env} {I : Input} {b : CutEx.Shape} {fluid : List Int} (R : Ready E I b fluid) {ratio : ℚ} {fuel : Nat} {lc : Model}
    {cut : Geom.Cut} (hx : CutEx.extract E ratio fuel I = .ok (lc, some (.ok cut))) {area : Polygon → ℚ} {v : View} {m : SModel ℚ} {g : Tris ℚ} {s : ℚ}
    {meshes : List Mesh} {L : WireLib} (h : MadeS (readCut lc cut fluid area) v m g s meshes lc.wires L) {lo hi : CompIn → ℚ}
    (hb : ∀ c ∈ sources I, ∀ e ∈ c.power, lo c ≤ e.2 ∧ e.2 ≤ hi c) {rlo rhi : Nat → ℚ}
    (hr : ∀ k T, 0 ≤ rlo k ∧ rlo k ≤ m.resist k T ∧ m.resist k T ≤ rhi k) {minR : ℚ} (hm : 0 < minR) (refT : ℚ)
    (iniT : List ℚ) (hl : iniT.length = m.total) :
    ∃ net x, m.build minR iniT = .ok (some net) ∧ Solves net refT x ∧ (∀ y, Solves net refT y → ∀ i < m.total, y i = x i) ∧
      power E I L lo rlo ≤ StackBal.given g m s refT x ∧ StackBal.given g m s refT x ≤ power E I L hi rhi ∧
      ((∀ c ∈ sources I, 0 ≤ lo c) → (∀ q ∈ joints E I, 0 ≤ q) → ∀ k < m.total, refT ≤ x k) := by
  obtain ⟨net, x, n1, n2, n3, n4, n5, n6⟩ := StackBal.c125_steady (properS_of R hx h) (lo := fun b => least b.lut) (hi := fun b => most b.lut)
    (fun e he T => (lut_bounds R hx area e he).1 T) hr hm refT iniT hl
  obtain ⟨b1, b2⟩ := power_bounds R hx area L hb rlo rhi
  exact ⟨net, x, n1, n2, n3, le_trans b1 n4, le_trans n5 b2, fun h0 h1 => n6 (lo_nonneg R hx area hb h0 h1)⟩

/-- **C143** for the whole run of the static solver on a stackup prism model. -/
theorem c143_stack_static {E : Env} {I : Input} {b : CutEx.Shape} {fluid : List Int} (R : Ready E I b fluid) {ratio : ℚ} {fuel : Nat} {lc : Model}
    {cut : Geom.Cut} (hx : CutEx.extract E ratio fuel I = .ok (lc, some (.ok cut))) {area : Polygon → ℚ} {v : View} {m : SModel ℚ} {g : Tris ℚ} {s : ℚ}
    {meshes : List Mesh} {L : WireLib} (h : MadeS (readCut lc cut fluid area) v m g s meshes lc.wires L) {lo hi : CompIn → ℚ}
    (hb : ∀ c ∈ sources I, ∀ e ∈ c.power, lo c ≤ e.2 ∧ e.2 ≤ hi c) {rlo rhi : Nat → ℚ}
    (hr : ∀ k T, 0 ≤ rlo k ∧ rlo k ≤ m.resist k T ∧ m.resist k T ≤ rhi k) {minR : ℚ} (hm : 0 < minR)
    (envT limit : ℚ) (maximum celsius : Bool) (iteration : Nat) (hit : 1 ≤ iteration)
    (solve : Network ℚ → List ℚ) (hlen : ∀ net, (solve net).length = net.length)
    (hsol : ∀ net, Grounded net → Solves net envT fun i => (solve net)[i]?.getD 0) (fuel' : Nat) (hf : iteration ≤ fuel') :
    ∃ t, Static.solveStatic (m.build minR) solve m.total envT limit maximum iteration celsius fuel' = some (.ok (some t)) ∧ t.length = m.total ∧
      let kelvin := fun k => t[k]?.getD 0 + if celsius then (27315 / 100 : ℚ) else 0
      power E I L lo rlo ≤ StackBal.given g m s envT kelvin ∧ StackBal.given g m s envT kelvin ≤ power E I L hi rhi ∧
      ((∀ c ∈ sources I, 0 ≤ lo c) → (∀ q ∈ joints E I, 0 ≤ q) → ∀ k < t.length, envT ≤ kelvin k) := by
  obtain ⟨t, n1, n2, n4, n5, n6⟩ := StackBal.c125_static (properS_of R hx h) (lo := fun b => least b.lut) (hi := fun b => most b.lut)
    (fun e he T => (lut_bounds R hx area e he).1 T) hr hm envT limit maximum celsius iteration hit solve hlen hsol fuel' hf
  obtain ⟨b1, b2⟩ := power_bounds R hx area L hb rlo rhi
  exact ⟨t, n1, n2, le_trans b1 n4, le_trans n5 b2, fun h0 h1 => n6 (lo_nonneg R hx area hb h0 h1)⟩

/-! ## example -/

/-- a board of one layer with a die of 4 W and a wire with 2 A -/
def exIn : Input where
  layers := [⟨⟨"top", 0, true, 4, 4⟩, some 5, some 6⟩]
  boundary := some ⟨sq 0 0 10, [], none⟩
  comps := [⟨⟨0, false, 4, 0⟩, some (sq 0 0 10), some 7, none, [(300, 4)], 0⟩]
  prims := [.other, .wire ⟨some 9, 3, 1 / 10, 2, 1, [((1, 1), 8), ((9, 9), 4)], none, none⟩]
  pads := []
  imprints := []

/-- its layer cut model -/
def exLc : Model where
  ranges := [⟨4000, 0⟩, ⟨8000, 4000⟩]
  polygons := [sq 0 0 10, sq 0 0 10]
  mats := [6, 7]
  nets := [-1, -1]
  blocks := [(1, ⟨1, ⟨7600, 7200⟩, 0, [(300, 4)]⟩)]
  steiner := []
  wires := [⟨3, 1 / 10, 9, 2, 1, [((1, 1), 8), ((9, 9), 4)]⟩]

/-- the layers of it -/
def exLay : Geom.Cut :=
  ⟨[8000, 7600, 7200, 4000, 0], fun k => if k = 0 then some [1] else if k = 1 then some [1] else if k = 2 then some [1] else if k = 3 then some [0] else none⟩

theorem ex_extract : CutEx.extract exEnv 0 1 exIn = .ok (exLc, some (.ok exLay)) := by
  have hg : generate exEnv exIn = .ok exLc := by decide +kernel
  unfold CutEx.extract
  rw [hg, Res.bind_ok]
  congr 3
  have hp : exLc.polys = [⟨⟨4000, 0⟩, true, none⟩, ⟨⟨8000, 4000⟩, true, some ⟨7600, 7200⟩⟩] := by decide +kernel
  rw [hp]
  unfold Geom.build
  dsimp only
  have h1 : Geom.layerOrder [⟨⟨4000, 0⟩, true, none⟩, ⟨⟨8000, 4000⟩, true, some ⟨7600, 7200⟩⟩] = [8000, 7600, 7200, 4000, 0] := by decide +kernel
  rw [h1]
  have h2 : Geom.fillLut [8000, 7600, 7200, 4000, 0] 0 [⟨⟨4000, 0⟩, true, none⟩, ⟨⟨8000, 4000⟩, true, some ⟨7600, 7200⟩⟩] (fun _ => none) = .ok exLay.lut := by
    have : ∃ m, Geom.fillLut [8000, 7600, 7200, 4000, 0] 0 [⟨⟨4000, 0⟩, true, none⟩, ⟨⟨8000, 4000⟩, true, some ⟨7600, 7200⟩⟩] (fun _ => none) = .ok m ∧
        ∀ k, m k = exLay.lut k := by
      refine ⟨_, rfl, fun k => ?_⟩
      match k with
      | 0 => rfl
      | 1 => rfl
      | 2 => rfl
      | 3 => rfl
      | k + 4 => rfl
    obtain ⟨m, h, hm⟩ := this
    rw [h, funext hm]
  rw [h2]
  dsimp only
  rw [if_neg (by norm_num)]
  rfl

theorem ex_ready : Ready exEnv exIn ⟨sq 0 0 10, [], none⟩ [4] := by
  have hits : items exEnv exIn ⟨sq 0 0 10, [], none⟩ = [.shape (-1) 6 (-1) ⟨sq 0 0 10, [], none⟩ 4 4, .heat 7 (sq 0 0 10) (4 + 0 + 4) 4 0 [(300, 4)] (1 / 10)] := by
    rfl
  have hq : ∀ x ∈ items exEnv exIn ⟨sq 0 0 10, [], none⟩, ∀ q ∈ x.pieces, q.heat ≠ none → q.thick = 4 ∧ q.mat = 7 := by
    rw [hits]
    intro x hx q hq hne
    rcases List.mem_cons.1 hx with rfl | hx
    · simp only [Item.pieces, List.map_nil, List.mem_singleton] at hq
      subst hq
      exact absurd rfl hne
    · rw [List.mem_singleton] at hx
      subst hx
      simp only [Item.pieces, List.mem_singleton] at hq
      subst hq
      exact ⟨rfl, rfl⟩
  refine ⟨⟨?_, ?_, ?_, ?_, ?_, ?_⟩, ⟨?_, ?_, ?_, ?_⟩, rfl, ?_, ?_⟩
  · intro k l h
    match k, h with
    | 0, h => simp only [exIn, List.getElem?_cons_zero, Option.some.injEq] at h; subst h; rfl
    | k + 1, h => simp [exIn] at h
  · simp [exIn]
  · simp only [exIn, List.mem_singleton, forall_eq, Option.isSome_some, true_and]
    exact ⟨⟨0, _, rfl, rfl, rfl⟩, by simp⟩
  · intro w hw
    simp only [exIn, List.mem_cons, List.not_mem_nil, or_false, reduceCtorEq, false_or, Prim.wire.injEq] at hw
    subst hw
    simp [JointOk]
  · intro s net lyr h
    simp [exIn] at h
  · simp [exIn]
  · simp [exIn]
  · simp [exIn]
  · intro w hw j hj
    simp only [exIn, List.mem_cons, List.not_mem_nil, or_false, reduceCtorEq, false_or, Prim.wire.injEq] at hw
    subst hw
    simp at hj
  · simp [exIn]
  · intro x hx q hxq hne
    rw [(hq x hx q hxq hne).1]
    norm_num [exEnv]
  · intro x hx q hxq hne
    rw [(hq x hx q hxq hne).2]
    decide

/-- the joint of the example of C96: 2² · (1 · 1/10 / 4) W -/
example : joints exEnv CutEx.exIn = [1 / 10] ∧ (sources CutEx.exIn).map CompIn.power = [[(300, 4)]] := by decide +kernel

/-- both triangles lie in both polygons -/
def exView : View := ⟨fun _ _ _ => true, fun l _ => (exLay.lut l).getD [], fun _ _ => 50⟩

/-- a wire of length 5 and cross section 1/2 between two prisms -/
def exWires : WireLib := ⟨fun _ _ => 5, fun _ => 1 / 2, fun _ => [0], fun _ => [3]⟩

theorem ex_hits : Hits (readCut exLc exLay [4] fun p => (area2 p : ℚ) / 2) exView := by
  intro l t qs hl i
  have hq : (exLay.lut l).getD [] = qs := by rw [show exLay.lut l = some qs from hl]; rfl
  show (i ∈ (exLay.lut l).getD [] → i ∈ qs) ∧ (i ∈ qs → true = true → i ∈ (exLay.lut l).getD [])
  rw [hq]
  exact ⟨id, fun h _ => h⟩

theorem ex_seen : Seen (readCut exLc exLay [4] fun p => (area2 p : ℚ) / 2) exView fun _ => exPowerMesh.length := by
  intro e he k qs hk hl
  have : e = (1, ⟨⟨7600, 7200⟩, 0, lossOf [(300, 4)]⟩) := by simpa [readCut, exLc] using he
  subst this
  have hk1 : k = 1 := by
    have : (readCut exLc exLay [4] fun p => (area2 p : ℚ) / 2).cut.layerByHeight 7600 = some 1 := by decide
    rw [this] at hk
    exact (Option.some.inj hk).symm
  subst hk1
  have hqs : qs = [1] := by
    have : (readCut exLc exLay [4] fun p => (area2 p : ℚ) / 2).cut.lut 1 = some [1] := rfl
    rw [this] at hl
    exact (Option.some.inj hl).symm
  subst hqs
  refine ⟨by decide +kernel, by decide +kernel, ?_⟩
  intro t _ _ i hi hne
  rw [List.mem_singleton] at hi
  exact absurd hi hne

theorem ex_mutual : Mutual exPowerMesh := by
  intro t n t' hn
  match t, n with
  | 0, 0 => exact ⟨0, by simp [nbOf, exPowerMesh] at hn; subst hn; rfl⟩
  | 1, 0 => exact ⟨0, by simp [nbOf, exPowerMesh] at hn; subst hn; rfl⟩
  | 0, 1 => simp [nbOf, exPowerMesh] at hn
  | 0, 2 => simp [nbOf, exPowerMesh] at hn
  | 1, 1 => simp [nbOf, exPowerMesh] at hn
  | 1, 2 => simp [nbOf, exPowerMesh] at hn
  | t + 2, n => simp [nbOf, exPowerMesh] at hn

theorem ex_const : ∀ c ∈ sources exIn, ∀ e ∈ c.power, e.2 = 4 := by
  intro c hc e he
  have : c ∈ exIn.comps := (List.mem_filter.1 hc).1
  simp only [exIn, List.mem_singleton] at this
  subst this
  simp only [List.mem_singleton] at he
  rw [he]

/-- the prisms of the die have its material, those below that of the layer -/
example : (infoOf (readCut exLc exLay [4] fun p => (area2 p : ℚ) / 2) exView 0 1).map Cell.mat = some (matNo 7) ∧
    (infoOf (readCut exLc exLay [4] fun p => (area2 p : ℚ) / 2) exView 3 1).map Cell.mat = some (matNo 6) := by decide +kernel

/-- the hypotheses are met, and the layout has 4 W of the die and 2² · 5 / (1/2) = 40 W of the wire -/
theorem ex_model : ∃ m : PModel ℚ, Made (readCut exLc exLay [4] fun p => (area2 p : ℚ) / 2) exView m exPowerMesh exLc.wires exWires ∧
    (∀ c ∈ sources exIn, ∀ e ∈ c.power, e.2 = 4) ∧ (∀ k T, (0 : ℚ) ≤ 1 ∧ m.resist k T = 1) ∧
    power exEnv exIn exWires (fun _ => 4) (fun _ => 1) = 44 := by
  obtain ⟨off, ps, h, ho, -⟩ := buildPrisms_eq exPowerMesh 4 (infoOf (readCut exLc exLay [4] fun p => (area2 p : ℚ) / 2) exView)
  have ht : totalPrisms off = 8 := by rw [ho]; decide +kernel
  obtain ⟨ls, hls⟩ : ∃ ls, addWires off [] (exLc.wires.map (readWire exWires)) = .ok ls := ⟨_, rfl⟩
  refine ⟨PrismBal.exModel off ps ls, ⟨?_, ?_, ⟨h, hls, ?_⟩, ?_, ?_, ?_, ?_, ?_⟩, ?_, ?_, ?_⟩
  · exact ex_hits
  · exact ex_seen
  · intro w hw
    simp only [exLc, List.map_cons, List.map_nil, List.mem_singleton] at hw
    subst hw
    show _ ∧ (∀ x ∈ [0], x < totalPrisms off) ∧ ∀ x ∈ [3], x < totalPrisms off
    rw [ht]
    exact ⟨by simp [readWire, exWires], by simp, by simp⟩
  · exact ex_mutual
  · intro l t
    norm_num [exView]
  · refine ⟨fun t => by simp [PrismBal.exModel, exPowerModel], ?_, .inl ⟨4, rfl⟩⟩
    intro bc hbc _ x hx
    simp only [PrismBal.exModel, exPowerModel, List.not_mem_nil, false_and, exists_false, or_false, reduceCtorEq] at hbc
    rw [Option.some.injEq] at hbc
    subst hbc
    simp at hx
    rw [← hx]
    norm_num
  · intro bc hbc
    simp [PrismBal.exModel, exPowerModel] at hbc
    subst hbc
    simp
  · intro p
    norm_num [exWires]
  · exact ex_const
  · intro k T
    exact ⟨by norm_num, rfl⟩
  · decide +kernel

/-- the same layout as a stackup model with a mesh for each of the four layers -/
theorem ex_model_stack : ∃ m : SModel ℚ, MadeS (readCut exLc exLay [4] fun p => (area2 p : ℚ) / 2) exView m StackBal.exTri 1
    [exPowerMesh, exPowerMesh, exPowerMesh, exPowerMesh] exLc.wires exWires ∧
    (∀ c ∈ sources exIn, ∀ e ∈ c.power, e.2 = 4) ∧ (∀ k T, (0 : ℚ) ≤ 1 ∧ m.resist k T = 1) := by
  obtain ⟨off, ps, h, -, -⟩ := stack_built StackBal.exTri [exPowerMesh, exPowerMesh, exPowerMesh, exPowerMesh]
    (infoOf (readCut exLc exLay [4] fun p => (area2 p : ℚ) / 2) exView) 4
  have hoff : ((stackLayers [exPowerMesh, exPowerMesh, exPowerMesh, exPowerMesh]
      (infoOf (readCut exLc exLay [4] fun p => (area2 p : ℚ) / 2) exView)).bind fun ls => buildStack StackBal.exTri ls 4).bind
      (fun r => .ok r.1) = .ok [0, 2, 4, 6, 8] := by decide +kernel
  rw [h, Res.bind_ok, Res.ok.injEq] at hoff
  have ht : totalPrisms off = 8 := by rw [show off = [0, 2, 4, 6, 8] from hoff]; rfl
  obtain ⟨ls, hls⟩ : ∃ ls, addWires off [] (exLc.wires.map (readWire exWires)) = .ok ls := ⟨_, rfl⟩
  refine ⟨StackBal.exSModel off ps ls, ⟨ex_hits, ?_, by decide +kernel, ⟨⟨4, h⟩, hls, ?_⟩, ?_, ?_, ?_, ?_, ?_, ?_⟩, ex_const, fun k T => ⟨by norm_num, rfl⟩⟩
  · intro e he k qs hk hl
    have hk4 : k < 4 := by
      by_contra h
      have : exLay.lut k = none := by
        unfold exLay
        dsimp only
        rw [if_neg (by omega), if_neg (by omega), if_neg (by omega), if_neg (by omega)]
      rw [show exLay.lut k = some qs from hl] at this
      cases this
    have := ex_seen e he k qs hk hl
    interval_cases k <;> exact this
  · intro w hw
    simp only [exLc, List.map_cons, List.map_nil, List.mem_singleton] at hw
    subst hw
    show _ ∧ (∀ x ∈ [0], x < totalPrisms off) ∧ ∀ x ∈ [3], x < totalPrisms off
    rw [ht]
    exact ⟨by simp [readWire, exWires], by simp, by simp⟩
  · refine ⟨fun _ _ => by norm_num [StackBal.exTri], fun _ _ _ _ _ => rfl, ?_, ?_, by norm_num,
      fun _ _ => by norm_num [StackBal.exTri, StackBal.exSModel]⟩
    · intro l t l' t'
      simp only [StackBal.exTri, eq_comm]
    · intro l t l' t'
      simp only [StackBal.exTri]
      split_ifs <;> norm_num
  · intro mesh hmesh
    have : mesh = exPowerMesh := by simpa using hmesh
    subst this
    exact ex_mutual
  · intro l t
    norm_num [exView]
  · refine ⟨?_, .inl ⟨4, rfl⟩⟩
    rintro bc (hbc | hbc) _ x hx
    · simp only [StackBal.exSModel, Option.some.injEq] at hbc
      subst hbc
      simp at hx
      rw [← hx]
      norm_num
    · simp [StackBal.exSModel] at hbc
  · rintro bc (hbc | hbc)
    · simp only [StackBal.exSModel, Option.some.injEq] at hbc
      subst hbc
      simp
    · simp [StackBal.exSModel] at hbc
  · intro p
    norm_num [exWires]

end Ecad.LayoutPrism
