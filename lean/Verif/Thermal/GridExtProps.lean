import Verif.Thermal.GridExtModel
import Verif.Thermal.GridPowerProps
import Verif.Thermal.GridSolveProps
import Verif.Ctm.LayoutProps
import Mathlib.Tactic.FieldSimp
/-!
C104: The grid thermal model of a layout has the layers of the layout, its bond wires between the cells of their ends, and its boundary
conditions on the cells they cover.
-/
namespace Ecad.GridExt
open Ecad.GridT Ecad.Geom Ecad.Units Ecad.L2C Ecad.Thermal

variable {S : Type}

/-! ## specification -/

/-- the box of a block in coordinates -/
def coords (a : In S) (b : Block) : (Int × Int) × (Int × Int) :=
  ((toCoord a.units b.1.1.1, toCoord a.units b.1.1.2), (toCoord a.units b.1.2.1, toCoord a.units b.1.2.2))

/-- a block has a point in a tile -/
def Meets (a : In S) (b : Block) (i j : Nat) : Prop :=
  GridPower.Touches a.x i (coords a b).1.1 (coords a b).2.1 ∧ GridPower.Touches a.y j (coords a b).1.2 (coords a b).2.2

/-- a block lies in the region and does not reach its upper bounds -/
def Inside (a : In S) (b : Block) : Prop := GridPower.Within a.x a.y (coords a b)

open Classical in
/-- the conditions for a cell: uniform ones of the face it is on, blocks which meet its tile; only valid ones -/
noncomputable def conditions (a : In S) (layers : Nat) (g : Size3) : List (BC ℚ) :=
  ((if g.z = 0 then [a.topBC] else []) ++ (if g.z + 1 = layers then [a.botBC] else []) ++
    ((a.topBlocks.filter fun b => g.z = 0 ∧ Meets a b g.x g.y).map Prod.snd) ++
    ((a.botBlocks.filter fun b => g.z + 1 = layers ∧ Meets a b g.x g.y).map Prod.snd)).filter fun b => b.value.isSome

/-! ## parts of the extraction -/

theorem mapRes_ok {α β : Type} (f : α → Res β) (l : List α) {r : List β} (h : PrismT.mapRes f l = .ok r) :
    List.Forall₂ (fun a b => f a = .ok b) l r := by
  induction l generalizing r with
  | nil =>
    simp only [PrismT.mapRes, Res.ok.injEq] at h
    subst h
    exact .nil
  | cons a l ih =>
    rw [PrismT.mapRes] at h
    cases ha : f a with
    | ub => simp [ha] at h
    | exn => simp [ha] at h
    | ok b =>
      rw [ha, Res.bind_ok] at h
      cases hl : PrismT.mapRes f l with
      | ub => simp [hl] at h
      | exn => simp [hl] at h
      | ok bs =>
        rw [hl, Res.bind_ok, Res.ok.injEq] at h
        subst h
        exact .cons ha (ih hl)

theorem mapRes_total {α β : Type} (f : α → Res β) (l : List α) (h : ∀ a ∈ l, ∃ b, f a = .ok b) : ∃ r, PrismT.mapRes f l = .ok r := by
  induction l with
  | nil => exact ⟨[], rfl⟩
  | cons a l ih =>
    obtain ⟨b, hb⟩ := h a (by simp)
    obtain ⟨r, hr⟩ := ih fun a ha => h a (by simp [ha])
    exact ⟨b :: r, by rw [PrismT.mapRes, hb, Res.bind_ok, hr, Res.bind_ok]⟩

theorem cellOf_total (a : In S) (hx : 0 < a.x.stride) (hy : 0 < a.y.stride) (p : Int × Int) : ∃ c, cellOf a.x a.y p = .ok c := by
  obtain ⟨r, hr⟩ := GridPower.getIndex_total a.x a.y hx hy p
  exact ⟨_, by rw [cellOf, hr, Res.bind_ok]⟩

/-- the cell of a point in the region -/
theorem cellOf_in (a : In S) (hx : 0 < a.x.stride) (hy : 0 < a.y.stride) (p : Int × Int) (h1 : a.x.rlo ≤ p.1) (h2 : p.1 ≤ a.x.ehi)
    (h3 : a.y.rlo ≤ p.2) (h4 : p.2 ≤ a.y.ehi) :
    ∃ c, cellOf a.x a.y p = .ok c ∧ a.x.InTile c.x p.1 ∧ a.y.InTile c.y p.2 ∧ (c.x < a.x.grid ↔ p.1 < a.x.ehi) ∧ (c.y < a.y.grid ↔ p.2 < a.y.ehi) ∧
      c.x ≤ a.x.grid ∧ c.y ≤ a.y.grid := by
  obtain ⟨i, i1, i2, i3, i4⟩ := index_ok a.x hx p.1 h1 h2
  obtain ⟨j, j1, j2, j3, j4⟩ := index_ok a.y hy p.2 h3 h4
  exact ⟨⟨i, j⟩, by rw [cellOf, getIndex, i1, Res.bind_ok, j1, Res.bind_ok, Res.bind_ok]; rfl, i2, j2, i3, j3, i4, j4⟩

theorem cellOf_out (a : In S) (p : Int × Int) (h : p.1 < a.x.rlo ∨ a.x.ehi < p.1) {c : Size2} (hc : cellOf a.x a.y p = .ok c) : c.x = invalidIndex := by
  have hn : a.x.index p.1 = .ok none := by rw [Axis.index, if_neg (by omega)]
  rw [cellOf, getIndex, hn, Res.bind_ok] at hc
  cases hj : a.y.index p.2 with
  | ub => simp [hj] at hc
  | exn => simp [hj] at hc
  | ok j =>
    rw [hj, Res.bind_ok, Res.bind_ok, Res.ok.injEq] at hc
    rw [← hc]
    rfl

/-- the pieces of an extracted model -/
theorem extract_parts {dist : Int × Int → Int × Int → ℚ} {pi : ℚ} {part : Box → S → ℚ} {a : In S} {m : GModel ℚ} (h : extract dist pi part a = .ok m) :
    ∃ pm, PrismT.mapRes (jump dist pi a) a.wires = .ok m.jumps ∧
      GridPower.powerModels a.x a.y (addLayers part a).2 a.comps = .ok pm ∧ addPowers (addLayers part a).1 pm = .ok m.layers ∧
      blocks a a.topBlocks = .ok m.topBlocks ∧ blocks a a.botBlocks = .ok m.botBlocks ∧ m.size = ⟨a.x.grid, a.y.grid⟩ ∧ m.scaleH = 1 ∧
      m.topBC = uniform a.topBC ∧ m.botBC = uniform a.botBC ∧
      (0 ≤ a.units.precision → 0 < a.x.stride → 0 < a.y.stride → m.resX = a.x.stride * a.units.precision ∧ m.resY = a.y.stride * a.units.precision) := by
  unfold extract at h
  simp only at h
  cases h1 : PrismT.mapRes (jump dist pi a) a.wires with
  | ub => simp [h1] at h
  | exn => simp [h1] at h
  | ok js =>
  cases h2 : GridPower.powerModels a.x a.y (addLayers part a).2 a.comps with
  | ub => simp [h1, h2] at h
  | exn => simp [h1, h2] at h
  | ok pm =>
  cases h3 : addPowers (addLayers part a).1 pm with
  | ub => simp [h1, h2, h3] at h
  | exn => simp [h1, h2, h3] at h
  | ok ls =>
  cases h4 : blocks a a.topBlocks with
  | ub => simp [h1, h2, h3, h4] at h
  | exn => simp [h1, h2, h3, h4] at h
  | ok tb =>
  cases h5 : blocks a a.botBlocks with
  | ub => simp [h1, h2, h3, h4, h5] at h
  | exn => simp [h1, h2, h3, h4, h5] at h
  | ok bb =>
  simp only [h1, h2, h3, h4, h5, Res.bind_ok, Res.ok.injEq] at h
  subst h
  refine ⟨pm, rfl, rfl, h3, rfl, rfl, rfl, rfl, rfl, rfl, fun hp hx hy => ?_⟩
  have hx' : (0 : ℚ) ≤ a.x.stride * a.units.precision := mul_nonneg (by exact_mod_cast hx.le) hp
  have hy' : (0 : ℚ) ≤ a.y.stride * a.units.precision := mul_nonneg (by exact_mod_cast hy.le) hp
  simp only [toUnitIn, div_one]
  rw [if_neg (by push Not; exact ⟨hx', hy'⟩)]
  exact ⟨rfl, rfl⟩

/-! ## layers -/

theorem addLayers_eq (part : Box → S → ℚ) (a : In S) (ls : List Layer) (ht : ∀ l ∈ ls, 0 ≤ thickness a.units l.thick)
    (hid : (ls.map Layer.id).Nodup) :
    (ls.foldl (addLayer part a) ([], [])).1 = ls.map (tlayer part a) ∧
    (∀ (k : Nat) (l : Layer), ls[k]? = some l → UMap.find? (ls.foldl (addLayer part a) ([], [])).2 (l.id : Int) = some k) ∧
    (∀ (i : Int) (k : Nat), UMap.find? (ls.foldl (addLayer part a) ([], [])).2 i = some k → ∃ l, ls[k]? = some l ∧ (l.id : Int) = i) := by
  induction ls using List.reverseRecOn with
  | nil => simp [UMap.find?]
  | append_singleton ls b ih =>
    rw [List.map_append, List.nodup_append] at hid
    obtain ⟨n1, _, n3⟩ := hid
    obtain ⟨i1, i2, i3⟩ := ih (fun l hl => ht l (by simp [hl])) n1
    rw [List.foldl_append, List.foldl_cons, List.foldl_nil]
    generalize ls.foldl (addLayer part a) ([], []) = r at i1 i2 i3
    rw [addLayer, if_neg (not_lt.2 (ht b (by simp)))]
    have hlen : r.1.length = ls.length := by rw [i1, List.length_map]
    have hnew : UMap.find? r.2 (b.id : Int) = none := by
      cases hf : UMap.find? r.2 (b.id : Int) with
      | none => rfl
      | some k =>
        obtain ⟨l, hl, hli⟩ := i3 _ _ hf
        exact absurd (by exact_mod_cast hli) (n3 l.id (List.mem_map.2 ⟨l, List.mem_of_getElem? hl, rfl⟩) b.id (by simp))
    refine ⟨by rw [i1, List.map_append]; rfl, ?_, ?_⟩
    · intro k l hk
      rw [UMap.find?_emplace']
      by_cases hkl : k < ls.length
      · rw [List.getElem?_append_left hkl] at hk
        have hf := i2 k l hk
        have hne : (l.id : Int) ≠ b.id := by
          intro he
          rw [he, hnew] at hf
          cases hf
        simp [hne, hf]
      · have hk' : k = ls.length := by
          have := (List.getElem?_eq_some_iff.1 hk).1
          simp only [List.length_append, List.length_singleton] at this
          omega
        subst hk'
        rw [List.getElem?_append_right (le_refl _)] at hk
        simp only [Nat.sub_self, List.getElem?_cons_zero, Option.some.injEq] at hk
        subst hk
        simp [hnew, hlen]
    · intro i k hf
      rw [UMap.find?_emplace'] at hf
      by_cases hi : i = (b.id : Int)
      · subst hi
        simp [hnew, hlen] at hf
        exact ⟨b, by rw [← hf]; simp, rfl⟩
      · simp [hi] at hf
        obtain ⟨l, hl, hli⟩ := i3 i k hf
        exact ⟨l, by rw [List.getElem?_append_left (List.getElem?_eq_some_iff.1 hl).1]; exact hl, hli⟩

theorem thickness_make {user data t : ℚ} (hu : user ≠ 0) (hd : data ≠ 0) : thickness (Units.make user data) t = t * user := by
  unfold thickness toUnitIn scale2Coord Units.make
  simp only
  field_simp

theorem addPowers_get {ls ls' : List (TLayer ℚ)} {pm : List (Nat × Table ℚ)} (h : addPowers ls pm = .ok ls') :
    ls'.length = ls.length ∧ ∀ (k : Nat) (t : TLayer ℚ), ls[k]? = some t → ls'[k]? = some { t with powers := t.powers ++ (UMap.find? pm k).toList.map Power.grid } := by
  unfold addPowers at h
  split at h
  · rw [Res.ok.injEq] at h
    subst h
    refine ⟨by simp, fun k t hk => ?_⟩
    rw [List.getElem?_map, List.getElem?_zipIdx, hk]
    simp
  · cases h

/-- C104: the layers of the extracted model are the stackup layers in order, with their thickness in metres and in each tile the part of it covered
with metal; each has the power of the components placed on it (see C95). -/
theorem c104_layers {dist : Int × Int → Int × Int → ℚ} {pi : ℚ} {part : Box → S → ℚ} {a : In S} {m : GModel ℚ} (h : extract dist pi part a = .ok m)
    {user data : ℚ} (hu : a.units = Units.make user data) (hu0 : 0 < user) (hd0 : 0 < data) (ht : ∀ l ∈ a.layers, 0 ≤ l.thick)
    (hid : (a.layers.map Layer.id).Nodup) (hx : 0 < a.x.stride) (hy : 0 < a.y.stride) :
    m.size = ⟨a.x.grid, a.y.grid⟩ ∧ m.lenX = a.x.stride * data ∧ m.lenY = a.y.stride * data ∧ m.layers.length = a.layers.length ∧
    ∃ lyr pm, (∀ (k : Nat) (l : Layer), a.layers[k]? = some l → UMap.find? lyr (l.id : Int) = some k) ∧
      GridPower.powerModels a.x a.y lyr a.comps = .ok pm ∧
      ∀ (k : Nat) (l : Layer), a.layers[k]? = some l → ∃ t, m.layers[k]? = some t ∧ t.thickness = l.thick * user ∧
        (∀ i j, t.fraction i j = metal part a.nets a.prims l.id (tile a.x a.y i j)) ∧ t.powers = (UMap.find? pm k).toList.map Power.grid := by
  obtain ⟨pm, _, h2, h3, _, _, h6, h7, _, _, h10⟩ := extract_parts h
  have ht' : ∀ l ∈ a.layers, 0 ≤ thickness a.units l.thick := by
    intro l hl
    rw [hu, thickness_make hu0.ne' hd0.ne']
    exact mul_nonneg (ht l hl) hu0.le
  obtain ⟨l1, l2, _⟩ := addLayers_eq part a a.layers ht' hid
  have hpr : a.units.precision = data := by rw [hu]; rfl
  obtain ⟨r1, r2⟩ := h10 (hpr ▸ hd0.le) hx hy
  obtain ⟨p1, p2⟩ := addPowers_get h3
  have e1 : (addLayers part a).1 = a.layers.map (tlayer part a) := l1
  refine ⟨h6, by rw [GModel.lenX, r1, h7, hpr, mul_one], by rw [GModel.lenY, r2, h7, hpr, mul_one], by rw [p1, e1, List.length_map], _, pm, l2, h2, ?_⟩
  intro k l hk
  refine ⟨_, p2 k (tlayer part a l) (by rw [e1, List.getElem?_map, hk]; rfl), ?_, fun i j => fraction_eq _ _ _ _ _ _ _ _, by simp [tlayer]⟩
  simp only [tlayer]
  rw [hu, thickness_make hu0.ne' hd0.ne']

/-- C104: the extraction succeeds whenever the components with power lie in the region. -/
theorem c104_extract (dist : Int × Int → Int × Int → ℚ) (pi : ℚ) (part : Box → S → ℚ) (a : In S)
    (ht : ∀ l ∈ a.layers, 0 ≤ thickness a.units l.thick) (hid : (a.layers.map Layer.id).Nodup) (hx : 0 < a.x.stride) (hy : 0 < a.y.stride)
    (hc : ∀ c ∈ a.comps, GridPower.Fits a.x a.y c) : ∃ m, extract dist pi part a = .ok m := by
  obtain ⟨l1, _, l3⟩ := addLayers_eq part a a.layers ht hid
  obtain ⟨pm, h2, _, hp, _⟩ := GridPower.c95_power_partial a.x a.y hx hy (addLayers part a).2 a.comps hc
  obtain ⟨js, h1⟩ := mapRes_total (jump dist pi a) a.wires (by
    intro w _
    obtain ⟨c, hc⟩ := cellOf_total a hx hy w.s
    obtain ⟨c', hc'⟩ := cellOf_total a hx hy w.e
    exact ⟨_, by rw [jump, hc, Res.bind_ok, hc', Res.bind_ok]⟩)
  have hb : ∀ bs, ∃ r, blocks a bs = .ok r := by
    intro bs
    refine mapRes_total _ _ ?_
    intro b _
    obtain ⟨c, hc⟩ := cellOf_total a hx hy (coords a b).1
    obtain ⟨c', hc'⟩ := cellOf_total a hx hy (coords a b).2
    unfold coords at hc hc'
    exact ⟨_, by rw [block, hc, Res.bind_ok, hc', Res.bind_ok]⟩
  obtain ⟨tb, h4⟩ := hb a.topBlocks
  obtain ⟨bb, h5⟩ := hb a.botBlocks
  have h3 : ∃ ls, addPowers (addLayers part a).1 pm = .ok ls := by
    unfold addPowers
    rw [if_pos]
    · exact ⟨_, rfl⟩
    · rw [List.all_eq_true]
      intro e he
      have hsome : (UMap.find? pm e.1).isSome = true := (UMap.find?_isSome_iff pm e.1).2 (List.mem_map_of_mem he)
      obtain ⟨c, _, _, hf, _⟩ := (hp e.1).1 hsome
      obtain ⟨l, hl, _⟩ := l3 _ _ hf
      have := (List.getElem?_eq_some_iff.1 hl).1
      rw [show (addLayers part a).1 = a.layers.map (tlayer part a) from l1]
      simpa using this
  obtain ⟨ls, h3⟩ := h3
  unfold extract
  simp only [h1, h2, h3, h4, h5, Res.bind_ok]
  exact ⟨_, rfl⟩

/-! ## boundary conditions -/

theorem blocks_in {a : In S} (hx : 0 < a.x.stride) (hy : 0 < a.y.stride) {bs : List Block} (hb : ∀ b ∈ bs, b.2.value.isSome = true → Inside a b)
    {r : List ((Size2 × Size2) × BC ℚ)} (h : blocks a bs = .ok r) :
    List.Forall₂ (fun (b : Block) c => c.2 = b.2 ∧ BlockIn ⟨a.x.grid, a.y.grid⟩ c.1 ∧ ∀ g : Size3, InBlock c.1 g ↔ Meets a b g.x g.y)
      (bs.filter fun b => b.2.value.isSome) r := by
  have h' := mapRes_ok _ _ h
  rw [List.forall₂_iff_zip] at h' ⊢
  refine ⟨h'.1, ?_⟩
  intro b c hbc
  have hmem := List.mem_filter.1 (List.of_mem_zip hbc).1
  obtain ⟨⟨w1, w2, w3⟩, ⟨v1, v2, v3⟩⟩ := hb b hmem.1 hmem.2
  have heq := h'.2 hbc
  obtain ⟨ll, e1, e2, e3, e4, e5, _⟩ := cellOf_in a hx hy (coords a b).1 w1 (w2.trans w3.le) v1 (v2.trans v3.le)
  obtain ⟨ur, f1, f2, f3, f4, f5, _⟩ := cellOf_in a hx hy (coords a b).2 (w1.trans w2) w3.le (v1.trans v2) v3.le
  rw [block, show (toCoord a.units b.1.1.1, toCoord a.units b.1.1.2) = (coords a b).1 from rfl, e1, Res.bind_ok,
    show (toCoord a.units b.1.2.1, toCoord a.units b.1.2.2) = (coords a b).2 from rfl, f1, Res.bind_ok, Res.ok.injEq] at heq
  subst heq
  refine ⟨rfl, ⟨f4.2 w3, f5.2 v3⟩, fun g => ?_⟩
  unfold Meets InBlock
  rw [GridPower.touches_iff a.x hx w2 e2 f2, GridPower.touches_iff a.y hy v2 e3 f3]
  tauto

open Classical in
theorem filter_blocks {a : In S} {n : Nat} {g : Size3} (q : Prop) {bs : List Block} {r : List ((Size2 × Size2) × BC ℚ)}
    (h : List.Forall₂ (fun (b : Block) c => c.2 = b.2 ∧ BlockIn ⟨a.x.grid, a.y.grid⟩ c.1 ∧ ∀ g : Size3, InBlock c.1 g ↔ Meets a b g.x g.y)
      (bs.filter fun b => b.2.value.isSome) r) :
    (r.filter fun b => q ∧ InBlock b.1 g).map Prod.snd =
      ((bs.filter fun b => q ∧ Meets a b g.x g.y).map Prod.snd).filter fun b => b.value.isSome := by
  have hc : ((bs.filter fun b => q ∧ Meets a b g.x g.y).map Prod.snd).filter (fun b => b.value.isSome) =
      (((bs.filter fun b => b.2.value.isSome).filter fun b => q ∧ Meets a b g.x g.y).map Prod.snd) := by
    rw [List.filter_map, List.filter_filter, List.filter_filter]
    congr 1
    apply List.filter_congr
    intro b _
    simp [Bool.and_comm]
  rw [hc]
  generalize (bs.filter fun b => b.2.value.isSome) = bs' at h
  induction h with
  | nil => rfl
  | cons hbc _ ih =>
    obtain ⟨h1, _, h3⟩ := hbc
    rw [List.filter_cons, List.filter_cons]
    simp only [h3 g]
    split
    · rw [List.map_cons, List.map_cons, ih, h1]
    · exact ih

theorem bcsAt_eq {dist : Int × Int → Int × Int → ℚ} {pi : ℚ} {part : Box → S → ℚ} {a : In S} {m : GModel ℚ} (h : extract dist pi part a = .ok m)
    (hx : 0 < a.x.stride) (hy : 0 < a.y.stride) (htb : ∀ b ∈ a.topBlocks, b.2.value.isSome = true → Inside a b)
    (hbb : ∀ b ∈ a.botBlocks, b.2.value.isSome = true → Inside a b) (g : Size3) :
    m.BlocksIn ∧ m.bcsAt g = conditions a m.layers.length g := by
  obtain ⟨pm, _, _, _, h4, h5, h6, _, h8, h9, _⟩ := extract_parts h
  have f4 := blocks_in hx hy htb h4
  have f5 := blocks_in hx hy hbb h5
  refine ⟨⟨?_, ?_⟩, ?_⟩
  · intro b hb
    rw [h6]
    obtain ⟨k, hk⟩ := List.getElem?_of_mem hb
    rw [List.forall₂_iff_get] at f4
    obtain ⟨e, he⟩ := List.getElem?_eq_some_iff.1 hk
    have := (f4.2 k (f4.1 ▸ e) e).2.1
    simp only [List.get_eq_getElem, he] at this
    exact this
  · intro b hb
    rw [h6]
    obtain ⟨k, hk⟩ := List.getElem?_of_mem hb
    rw [List.forall₂_iff_get] at f5
    obtain ⟨e, he⟩ := List.getElem?_eq_some_iff.1 hk
    have := (f5.2 k (f5.1 ▸ e) e).2.1
    simp only [List.get_eq_getElem, he] at this
    exact this
  · unfold GModel.bcsAt conditions
    rw [h8, h9]
    simp only [List.filter_append]
    have hu : ∀ (b : BC ℚ) (q : Prop) [Decidable q], (if q then (uniform b).toList else []) =
        (if q then [b] else []).filter fun b => b.value.isSome := by
      intro b q _
      unfold uniform
      by_cases hq : q
      · simp only [if_pos hq]
        cases hv : b.value <;> simp [hv]
      · simp [hq]
    rw [hu, hu]
    have k4 := filter_blocks (g := g) (n := 0) (g.z = 0) f4
    have k5 := filter_blocks (g := g) (n := 0) (g.z + 1 = m.layers.length) f5
    congr 1
    · congr 1
      refine Eq.trans ?_ (k4.trans ?_)
      · congr 1
        apply List.filter_congr
        intro b _
        simp
      · congr 2
        apply List.filter_congr
        intro b _
        simp
    · refine Eq.trans ?_ (k5.trans ?_)
      · congr 1
        apply List.filter_congr
        intro b _
        simp
      · congr 2
        apply List.filter_congr
        intro b _
        simp

/-- C104 for blocks inside the region: in every network built from the extracted model the transfer coefficient of each cell is that of
the last condition for it, times the area of a tile; the heat flow of a cell on layers without power is that of the last heat flux. -/
theorem c104_boundary_partial {dist : Int × Int → Int × Int → ℚ} {pi : ℚ} {part : Box → S → ℚ} {a : In S} {m : GModel ℚ}
    (h : extract dist pi part a = .ok m) (hx : 0 < a.x.stride) (hy : 0 < a.y.stride) (hp : 0 ≤ a.units.precision)
    (htb : ∀ b ∈ a.topBlocks, b.2.value.isSome = true → Inside a b) (hbb : ∀ b ∈ a.botBlocks, b.2.value.isSome = true → Inside a b)
    (hf : Fits m.size3) {minR : ℚ} {ip : List (ℚ × ℚ) → ℚ → Res ℚ} {iniT : List ℚ} {net : Network ℚ} (hb : m.build minR ip iniT = .ok (some net))
    {g : Size3} (hg : InGrid m.size3 g) :
    let area := (a.x.stride * a.units.precision) * (a.y.stride * a.units.precision)
    htcOf net (flatten m.size g) = ((conditions a m.layers.length g).flatMap fun b => b.trans area).getLastD 0 ∧
    (((m.layers[g.z]?.map TLayer.powers).getD []) = [] →
      hfOf net (flatten m.size g) = ((conditions a m.layers.length g).flatMap fun b => b.flux area).getLastD 0) := by
  intro area
  obtain ⟨b1, b2⟩ := bcsAt_eq h hx hy htb hbb g
  obtain ⟨pm, _, _, _, _, _, h6, h7, _, _, h10⟩ := extract_parts h
  obtain ⟨r1, r2⟩ := h10 hp hx hy
  have harea : m.areaZ = area := by
    rw [GModel.areaZ, GModel.lenX, GModel.lenY, r1, r2, h7, mul_one, mul_one]
  obtain ⟨hl, hr⟩ := build_run hb
  have hlt : flatten m.size g < iniT.length := by
    rw [hl]
    exact flatten_lt hg
  obtain ⟨v1, v2⟩ := build_last hb hf b1 hg (List.getElem?_eq_getElem hlt)
  refine ⟨by rw [v2, b2, harea], fun hpw => ?_⟩
  rw [v1, GModel.sources, hpw, b2, harea]
  rfl


/-! ## calls of the builder -/

theorem safe_fits (l : List (Res (Op ℚ))) : ∀ n, Safe n l → ∀ o ∈ l, Op.Fits (n + nodesOf l) o := by
  induction l with
  | nil => intro n _ o ho; simp at ho
  | cons b l ih =>
    intro n hs o ho
    rw [Safe] at hs
    rw [nodesOf_cons]
    rcases List.mem_cons.1 ho with rfl | ho
    · exact fits_mono (by omega) hs.1
    · have := ih _ hs.2 o ho
      rwa [Nat.add_assoc] at this

theorem addLayers_bare (part : Box → S → ℚ) (a : In S) : ∀ t ∈ (addLayers part a).1, t.powers = [] := by
  unfold addLayers
  have : ∀ (ls : List Layer) (r : List (TLayer ℚ) × List (Int × Nat)), (∀ t ∈ r.1, t.powers = []) →
      ∀ t ∈ (ls.foldl (addLayer part a) r).1, t.powers = [] := by
    intro ls
    induction ls with
    | nil => intro r h; exact h
    | cons l ls ih =>
      intro r h
      rw [List.foldl_cons]
      apply ih
      intro t ht
      unfold addLayer at ht
      split_ifs at ht
      · exact h t ht
      · rw [List.mem_append, List.mem_singleton] at ht
        rcases ht with ht | rfl
        · exact h t ht
        · rfl
  exact this _ _ (by simp)

theorem build_fits {dist : Int × Int → Int × Int → ℚ} {pi : ℚ} {part : Box → S → ℚ} {a : In S} {m : GModel ℚ} (h : extract dist pi part a = .ok m)
    {minR : ℚ} {ip : List (ℚ × ℚ) → ℚ → Res ℚ} {iniT : List ℚ} {net : Network ℚ} (hb : m.build minR ip iniT = .ok (some net)) :
    ∀ o ∈ m.ops ip iniT, Op.Fits m.total o := by
  obtain ⟨_, hr⟩ := build_run hb
  have hs := (run_safe (minR := minR) (m.ops ip iniT) (net := Network.new noScen m.total)).1 ⟨net, hr⟩
  rw [length_new] at hs
  have hn : nodesOf (m.ops ip iniT) = 0 := by
    unfold GModel.ops
    rw [nodesOf_append, nodesOf_append, nodesOf_append, nodes_cells, nodes_jumps, nodes_bcs, powersOps_nodes]
    simp only [Nat.zero_add, Nat.add_zero, List.length_eq_zero_iff, List.filterMap_eq_nil_iff]
    rintro ⟨z, p⟩ hp
    rw [GModel.powers, List.mem_flatMap] at hp
    obtain ⟨⟨t, k⟩, htk, hp⟩ := hp
    rw [List.mem_map] at hp
    obtain ⟨q, hq, hqe⟩ := hp
    obtain ⟨pm, _, _, h3, _⟩ := extract_parts h
    unfold addPowers at h3
    split at h3
    · rw [Res.ok.injEq] at h3
      have ht : t ∈ m.layers := by
        obtain ⟨_, _, ht⟩ := List.mem_zipIdx htk
        rw [ht]
        exact List.getElem_mem _
      rw [← h3, List.mem_map] at ht
      obtain ⟨⟨t', k'⟩, ht', rfl⟩ := ht
      have hbare : t'.powers = [] := by
        obtain ⟨_, _, ht⟩ := List.mem_zipIdx ht'
        rw [ht]
        exact addLayers_bare part a _ (List.getElem_mem _)
      simp only [hbare, List.nil_append, List.mem_map] at hq
      obtain ⟨tb, _, rfl⟩ := hq
      obtain ⟨rfl, rfl⟩ := hqe
      rfl
    · cases h3
  have := safe_fits _ _ hs
  rwa [hn, Nat.add_zero] at this

/-- the call for a cell of a block on the top -/
theorem top_op {m : GModel ℚ} {b : (Size2 × Size2) × BC ℚ} (hb : b ∈ m.topBlocks) {v : ℚ} (hv : b.2.value = some v) {i j : Nat}
    (hc : (i, j) ∈ blockCells b.1.1 b.1.2) (ip : List (ℚ × ℚ) → ℚ → Res ℚ) (iniT : List ℚ) : m.bcOp b.2.type v 0 (i, j) ∈ m.ops ip iniT := by
  unfold GModel.ops
  rw [List.mem_append]
  right
  rw [List.mem_flatMap]
  refine ⟨(b.2, 0, blockCells b.1.1 b.1.2), ?_, ?_⟩
  · unfold GModel.bcs
    simp only [List.mem_append, List.mem_map]
    exact .inl (.inr ⟨b, hb, rfl⟩)
  · unfold GModel.bcOps
    simp only [hv]
    exact List.mem_map.2 ⟨(i, j), hc, rfl⟩

theorem blocks_mem {a : In S} {bs : List Block} {r : List ((Size2 × Size2) × BC ℚ)} (h : blocks a bs = .ok r) {b : Block} (hb : b ∈ bs)
    (hv : b.2.value.isSome = true) : ∃ c ∈ r, block a b = .ok c := by
  have h' := mapRes_ok _ _ h
  obtain ⟨k, hk⟩ := List.getElem?_of_mem (List.mem_filter (p := fun b : Block => b.2.value.isSome).2 ⟨hb, hv⟩)
  rw [List.forall₂_iff_get] at h'
  obtain ⟨e, he⟩ := List.getElem?_eq_some_iff.1 hk
  have := h'.2 k e (h'.1 ▸ e)
  simp only [List.get_eq_getElem, he] at this
  exact ⟨_, List.getElem_mem _, this⟩

/-- C104 is false for blocks which reach beyond the region: a block on the top with its lower corner in the region and its upper corner
to the right of it, and no network can be built. -/
theorem c104_above_refuted {dist : Int × Int → Int × Int → ℚ} {pi : ℚ} {part : Box → S → ℚ} {a : In S} {m : GModel ℚ}
    (h : extract dist pi part a = .ok m) (hx : 0 < a.x.stride) (hy : 0 < a.y.stride) (hs : Fits m.size3) (hf : m.total < invalidIndex)
    {b : Block} (hb : b ∈ a.topBlocks) {v : ℚ} (hv : b.2.value = some v) (hny : 0 < a.y.grid)
    (hlx : a.x.rlo ≤ (coords a b).1.1 ∧ (coords a b).1.1 ≤ a.x.ehi) (hux : a.x.ehi < (coords a b).2.1)
    (hly : a.y.rlo ≤ (coords a b).1.2 ∧ (coords a b).1.2 ≤ (coords a b).2.2 ∧ (coords a b).2.2 ≤ a.y.ehi)
    (minR : ℚ) (ip : List (ℚ × ℚ) → ℚ → Res ℚ) (iniT : List ℚ) (net : Network ℚ) : m.build minR ip iniT ≠ .ok (some net) := by
  intro hbd
  obtain ⟨pm, _, _, _, h4, _, h6, _⟩ := extract_parts h
  obtain ⟨c, hc, hbc⟩ := blocks_mem h4 hb (by simp [hv])
  obtain ⟨ll, e1, e2, e3, _, _, e6, e7⟩ := cellOf_in a hx hy (coords a b).1 hlx.1 hlx.2 hly.1 (hly.2.1.trans hly.2.2)
  obtain ⟨ur, f1⟩ := cellOf_total a hx hy (coords a b).2
  have f2 := cellOf_out a _ (.inr hux) f1
  obtain ⟨j, j1, j2, j3, j4⟩ := index_ok a.y hy (coords a b).2.2 (hly.1.trans hly.2.1) hly.2.2
  have f3 : ur.y = j := by
    rw [cellOf, getIndex] at f1
    cases hi : a.x.index (coords a b).2.1 with
    | ub => simp [hi] at f1
    | exn => simp [hi] at f1
    | ok i =>
      rw [hi, Res.bind_ok, j1, Res.bind_ok, Res.bind_ok, Res.ok.injEq] at f1
      rw [← f1]
      rfl
  rw [block, show (toCoord a.units b.1.1.1, toCoord a.units b.1.1.2) = (coords a b).1 from rfl, e1, Res.bind_ok,
    show (toCoord a.units b.1.2.1, toCoord a.units b.1.2.2) = (coords a b).2 from rfl, f1, Res.bind_ok, Res.ok.injEq] at hbc
  subst hbc
  have hle : ll.y ≤ ur.y := by
    rw [f3]
    have := (GridPower.touches_iff a.y hy hly.2.1 e3 j2 ll.y).1 ⟨(coords a b).1.2, le_refl _, hly.2.1, e3⟩
    exact this.2
  have hllx : ll.x ≤ invalidIndex := by
    have := hs.1
    rw [GModel.size3, h6] at this
    exact e6.trans this
  have hin : (invalidIndex, ll.y) ∈ blockCells ll ur := by
    rw [mem_blockCells, f2]
    exact ⟨⟨hllx, le_refl _⟩, le_refl _, hle⟩
  have hop := build_fits h hbd _ (top_op hc hv hin ip iniT)
  have hidx : m.total ≤ flatten m.size ⟨invalidIndex, ll.y, 0⟩ := by
    rw [flatten, h6]
    simp only
    have := Nat.mul_le_mul_right invalidIndex hny
    omega
  unfold GModel.bcOp at hop
  cases hty : b.2.type <;> simp only [hty, Op.Fits] at hop <;> omega

/-- C104 is false for blocks which reach the upper bound of the region: a block on the top that reaches the upper bound in y also cools the
first tile of the column to the right of it. -/
theorem c104_edge_refuted {dist : Int × Int → Int × Int → ℚ} {pi : ℚ} {part : Box → S → ℚ} {a : In S} {m : GModel ℚ}
    (h : extract dist pi part a = .ok m) (hx : 0 < a.x.stride) (hy : 0 < a.y.stride)
    {b : Block} (hb : a.topBlocks = [b]) (hb' : a.botBlocks = []) (hu : a.topBC.value = none) (hu' : a.botBC.value = none)
    {v : ℚ} (hv : b.2 = ⟨.htc, some v⟩)
    (hlx : a.x.rlo ≤ (coords a b).1.1 ∧ (coords a b).1.1 ≤ (coords a b).2.1 ∧ (coords a b).2.1 ≤ a.x.ehi)
    (hly : a.y.rlo ≤ (coords a b).1.2 ∧ (coords a b).1.2 ≤ (coords a b).2.2 ∧ (coords a b).2.2 = a.y.ehi) {i : Nat} (hi : a.x.InTile i (coords a b).2.1)
    {minR : ℚ} {ip : List (ℚ × ℚ) → ℚ → Res ℚ} {iniT : List ℚ} {net : Network ℚ} (hbd : m.build minR ip iniT = .ok (some net)) :
    ¬ Meets a b (i + 1) 0 ∧ htcOf net (flatten m.size ⟨i + 1, 0, 0⟩) = m.areaZ * v := by
  obtain ⟨pm, _, _, _, h4, h5, h6, _, h8, h9, _⟩ := extract_parts h
  obtain ⟨ll, e1, e2, e3, _, _, e6, e7⟩ := cellOf_in a hx hy (coords a b).1 hlx.1 (hlx.2.1.trans hlx.2.2) hly.1 (hly.2.1.trans hly.2.2.le)
  obtain ⟨ur, f1, f2, f3, _, f5, _, f7⟩ := cellOf_in a hx hy (coords a b).2 (hlx.1.trans hlx.2.1) hlx.2.2 (hly.1.trans hly.2.1) hly.2.2.le
  have hury : ur.y = a.y.grid := by
    have : ¬ ur.y < a.y.grid := fun hc => absurd (f5.1 hc) (by rw [hly.2.2]; exact lt_irrefl _)
    omega
  have huri : ur.x = i := by
    have h1 := (GridPower.touches_iff a.x hx (le_refl _) f2 f2 i).1 ⟨_, le_refl _, le_refl _, hi⟩
    omega
  have hc : m.topBlocks = [((ll, ur), b.2)] := by
    rw [hb, blocks, List.filter_cons, if_pos (by rw [hv]; rfl), List.filter_nil, PrismT.mapRes, block,
      show (toCoord a.units b.1.1.1, toCoord a.units b.1.1.2) = (coords a b).1 from rfl, e1, Res.bind_ok,
      show (toCoord a.units b.1.2.1, toCoord a.units b.1.2.2) = (coords a b).2 from rfl, f1, Res.bind_ok, Res.bind_ok, PrismT.mapRes,
      Res.bind_ok, Res.ok.injEq] at h4
    exact h4.symm
  have hc' : m.botBlocks = [] := by
    rw [hb', blocks, List.filter_nil, PrismT.mapRes, Res.ok.injEq] at h5
    exact h5.symm
  refine ⟨?_, ?_⟩
  · rintro ⟨hm, _⟩
    have := (GridPower.touches_iff a.x hx hlx.2.1 e2 f2 (i + 1)).1 hm
    omega
  · obtain ⟨_, hr⟩ := build_run hbd
    obtain ⟨_, v2, _⟩ := run_values hr
    rw [v2, fold_htc _ _ (noAdd_ops ip m iniT), htcOf_new]
    have hin : (i, a.y.grid) ∈ blockCells ll ur := by
      rw [mem_blockCells, hury, huri]
      have := (GridPower.touches_iff a.x hx hlx.2.1 e2 f2 ll.x).1 ⟨_, le_refl _, hlx.2.1, e2⟩
      exact ⟨⟨by omega, le_refl _⟩, e7, le_refl _⟩
    have hop := top_op (m := m) (b := ((ll, ur), b.2)) (by rw [hc]; simp) (v := v) (by rw [hv]) hin ip iniT
    simp only [hv, GModel.bcOp] at hop
    have hfl : flatten m.size ⟨i, a.y.grid, 0⟩ = flatten m.size ⟨i + 1, 0, 0⟩ := by
      rw [flatten, flatten, h6]
      simp only
      ring
    rw [hfl] at hop
    have hmem : m.areaZ * v ∈ (m.ops ip iniT).filterMap (wHTC (flatten m.size ⟨i + 1, 0, 0⟩)) :=
      List.mem_filterMap.2 ⟨_, hop, by simp [wHTC]⟩
    have hall : ∀ w ∈ (m.ops ip iniT).filterMap (wHTC (flatten m.size ⟨i + 1, 0, 0⟩)), w = m.areaZ * v := by
      intro w hw
      obtain ⟨c, hc1, _, u, hc3, rfl⟩ := wHTC_ops hw
      have : c = b.2 := by
        simpa [GModel.allBCs, h8, h9, uniform, hu, hu', hc, hc'] using hc1
      rw [this, hv] at hc3
      simp only [Option.some.injEq] at hc3
      rw [hc3]
    generalize (m.ops ip iniT).filterMap (wHTC (flatten m.size ⟨i + 1, 0, 0⟩)) = l at hmem hall
    cases l with
    | nil => simp at hmem
    | cons w l =>
      rw [getLastD_cons', List.getLastD_eq_getLast?]
      cases hl : l.getLast? with
      | none => exact hall w (by simp)
      | some w' => exact hall w' (by simp [List.mem_of_getLast? hl])

/-! ## bond wires -/

/-- C104: a bond wire with its ends in the region connects the cells of its ends, both on the first layer, with the ratio of cross section
and length. -/
theorem c104_wires {dist : Int × Int → Int × Int → ℚ} {pi : ℚ} {part : Box → S → ℚ} {a : In S} {m : GModel ℚ}
    (h : extract dist pi part a = .ok m) {user data : ℚ} (hu : a.units = Units.make user data) (hu0 : 0 < user) (hd0 : 0 < data)
    (hx : 0 < a.x.stride) (hy : 0 < a.y.stride)
    (hw : ∀ w ∈ a.wires, (a.x.rlo ≤ w.s.1 ∧ w.s.1 ≤ a.x.ehi ∧ a.y.rlo ≤ w.s.2 ∧ w.s.2 ≤ a.y.ehi) ∧
      (a.x.rlo ≤ w.e.1 ∧ w.e.1 ≤ a.x.ehi ∧ a.y.rlo ≤ w.e.2 ∧ w.e.2 ≤ a.y.ehi)) :
    List.Forall₂ (fun (w : Wire) j =>
      (a.x.InTile j.1.x w.s.1 ∧ a.y.InTile j.1.y w.s.2 ∧ j.1.z = 0) ∧ (a.x.InTile j.2.1.x w.e.1 ∧ a.y.InTile j.2.1.y w.e.2 ∧ j.2.1.z = 0) ∧
      j.2.2 = pi * (w.radius * user) ^ 2 / (dist w.s w.e * data)) a.wires m.jumps := by
  obtain ⟨pm, h1, _⟩ := extract_parts h
  have h1' := mapRes_ok _ _ h1
  rw [List.forall₂_iff_zip] at h1' ⊢
  refine ⟨h1'.1, fun {w j} hwj => ?_⟩
  obtain ⟨⟨w1, w2, w3, w4⟩, ⟨v1, v2, v3, v4⟩⟩ := hw w (List.of_mem_zip hwj).1
  have heq := h1'.2 hwj
  obtain ⟨c, c1, c2, c3, _⟩ := cellOf_in a hx hy w.s w1 w2 w3 w4
  obtain ⟨d, d1, d2, d3, _⟩ := cellOf_in a hx hy w.e v1 v2 v3 v4
  simp only [jump] at heq
  rw [c1, Res.bind_ok, d1, Res.bind_ok, Res.ok.injEq] at heq
  subst heq
  refine ⟨⟨c2, c3, rfl⟩, ⟨d2, d3, rfl⟩, ?_⟩
  have hr : toUnitIn a.units (w.radius * scale2Coord a.units) 1 = w.radius * user := by
    rw [hu]
    exact thickness_make hu0.ne' hd0.ne'
  have hl : toUnitIn a.units (dist w.s w.e) 1 = dist w.s w.e * data := by
    rw [hu]
    simp [toUnitIn, Units.make]
  simp only [hr, hl]
  ring

/-- C104 is false for bond wires which start outside the region and end in it: no network can be built. -/
theorem c104_wire_refuted {dist : Int × Int → Int × Int → ℚ} {pi : ℚ} {part : Box → S → ℚ} {a : In S} {m : GModel ℚ}
    (h : extract dist pi part a = .ok m) (hx : 0 < a.x.stride) (hy : 0 < a.y.stride) (hf : m.total < invalidIndex) (hny : 0 < a.y.grid)
    (hz : 0 < m.layers.length) {w : Wire} (hw : w ∈ a.wires) (hs : w.s.1 < a.x.rlo ∨ a.x.ehi < w.s.1)
    (he : (a.x.rlo ≤ w.e.1 ∧ w.e.1 < a.x.ehi) ∧ a.y.rlo ≤ w.e.2 ∧ w.e.2 < a.y.ehi)
    (minR : ℚ) (ip : List (ℚ × ℚ) → ℚ → Res ℚ) (iniT : List ℚ) (net : Network ℚ) : m.build minR ip iniT ≠ .ok (some net) := by
  intro hbd
  obtain ⟨pm, h1, _, _, _, _, h6, _⟩ := extract_parts h
  obtain ⟨hlen, _⟩ := build_run hbd
  obtain ⟨c, c1⟩ := cellOf_total a hx hy w.s
  have c2 := cellOf_out a _ hs c1
  obtain ⟨d, d1, _, _, d4, d5, _⟩ := cellOf_in a hx hy w.e he.1.1 he.1.2.le he.2.1 he.2.2.le
  have h1' := mapRes_ok _ _ h1
  obtain ⟨k, hk⟩ := List.getElem?_of_mem hw
  rw [List.forall₂_iff_get] at h1'
  obtain ⟨e, hke⟩ := List.getElem?_eq_some_iff.1 hk
  have hj := h1'.2 k e (h1'.1 ▸ e)
  simp only [List.get_eq_getElem, hke, jump] at hj
  rw [c1, Res.bind_ok, d1, Res.bind_ok, Res.ok.injEq] at hj
  have hjm := List.getElem_mem (l := m.jumps) (h1'.1 ▸ e)
  rw [← hj] at hjm
  have hbig : m.total ≤ flatten m.size ⟨c.x, c.y, 0⟩ := by
    rw [flatten, h6, c2]
    simp only
    have := Nat.mul_le_mul_right invalidIndex hny
    omega
  have hsmall : flatten m.size ⟨d.x, d.y, 0⟩ < m.total := by
    have : InGrid m.size3 ⟨d.x, d.y, 0⟩ := by
      rw [GModel.size3, h6]
      exact ⟨d4.2 he.1.2, d5.2 he.2.2, hz⟩
    exact flatten_lt this
  have hexn : (Res.exn : Res (Op ℚ)) ∈ m.ops ip iniT := by
    unfold GModel.ops
    simp only [List.mem_append]
    refine .inl (.inl (.inr (List.mem_flatMap.2 ⟨_, hjm, ?_⟩)))
    unfold GModel.jumpOps
    simp only
    rw [if_neg (by omega), if_neg (by omega)]
    simp
  exact build_fits h hbd _ hexn

/-! ## example -/

/-- two by two tiles of one micrometre, two layers, one wire, a block on the top and a cooled bottom -/
def exIn (b : (ℚ × ℚ) × (ℚ × ℚ)) (x : Int) (bot : Option ℚ) : In Box :=
  { units := Units.make (1 / 1000000) (1 / 1000000000), x := ⟨0, 2000, 0, 0, 2⟩, y := ⟨0, 2000, 0, 0, 2⟩, nets := [1],
    prims := [⟨some 7, 1, some (⟨1000, 0, 2000, 1000⟩, [⟨1000, 0, 1500, 500⟩])⟩], layers := [⟨7, "M1", 3, true⟩, ⟨9, "D1", 5, false⟩],
    wires := [⟨(x, 200), (1200, 1700), 1 / 2⟩], comps := [⟨[(300, 8)], 9, some ((100, 200), (900, 700))⟩], topBC := ⟨.htc, none⟩, botBC := ⟨.htc, bot⟩,
    topBlocks := [(b, ⟨.htc, some 10⟩), (b, ⟨.heatFlux, none⟩)], botBlocks := [] }

/-- the exact values of a run: cooling of the cells times 10^12, and metal in the tiles of the first layer -/
def exRun (a : In Box) : Option (List ℚ × List ℚ × List (Size3 × Size3 × ℚ)) :=
  match extract (fun _ _ => 1500) 3 boxPart a with
  | .ok m => match m.build (1 / 1000) (fun _ _ => .exn) (List.replicate m.total 25) with
    | .ok (some net) => some ((List.range m.total).map (fun i => htcOf net i * 1000000000000), m.layers.map (fun l => l.fraction 1 0), m.jumps)
    | _ => none
  | _ => none

/-- block within the lower left tile, uniform cooling below -/
example : exRun (exIn ((0, 0), (1 / 2, 1 / 2)) 300 (some 5)) =
    some ([10, 0, 0, 0, 5, 5, 5, 5], [3 / 4, 0], [(⟨0, 0, 0⟩, ⟨1, 1, 0⟩, 1 / 2000000)]) := by
  decide +kernel

/-- the hypotheses of the positive theorems -/
example : let a := exIn ((0, 0), (1 / 2, 1 / 2)) 300 (some 5)
    0 < a.x.stride ∧ 0 < a.y.stride ∧ (∀ l ∈ a.layers, 0 ≤ l.thick) ∧ (a.layers.map Layer.id).Nodup ∧
    (∀ b ∈ a.topBlocks, Inside a b) ∧ (∀ c ∈ a.comps, GridPower.Fits a.x a.y c) := by
  refine ⟨by decide +kernel, by decide +kernel, by decide +kernel, by decide +kernel, ?_, ?_⟩
  · intro b hb
    simp only [exIn, List.mem_cons, List.not_mem_nil, or_false] at hb
    rcases hb with rfl | rfl <;> · unfold Inside GridPower.Within; decide +kernel
  · intro c hc b hb
    simp only [exIn, List.mem_cons, List.not_mem_nil, or_false] at hc
    subst hc
    simp only [Option.some.injEq] at hb
    subst hb
    unfold GridPower.Within
    decide +kernel

/-- the block reaches the upper bound: the lower right tile is cooled though the block does not meet it -/
example : (exRun (exIn ((0, 0), (1 / 2, 2)) 300 none)).map Prod.fst = some [10, 10, 10, 0, 0, 0, 0, 0] := by
  decide +kernel

/-- the wire starts to the left of the region -/
example : exRun (exIn ((0, 0), (1 / 2, 1 / 2)) (-1) none) = none := by
  decide +kernel

/-- the hypotheses of `c104_above_refuted` and `c104_wire_refuted`: the model is extracted, it has two by two cells in two layers -/
example : (match extract (fun _ _ => 1500) 3 boxPart (exIn ((0, 0), (3, 1 / 2)) (-1) none) with
    | .ok m => some (m.size.x, m.size.y, m.layers.length, m.topBlocks.map fun b => (b.1.2.x == invalidIndex, b.1.2.y))
    | _ => none) = some (2, 2, 2, [(true, 0)]) := by
  decide +kernel

end Ecad.GridExt
