import Verif.Thermal.GridExtProps
import Verif.Thermal.StaticProps
import Verif.Thermal.TableProps
/-!
C123: In the steady state a layout gives off the loss power of its components: from the layout over its grid model, the network and the
iteration of the static solver to the temperatures.
-/
namespace Ecad.Balance
open Ecad.GridT Ecad.Geom Ecad.Units Ecad.L2C Ecad.Thermal Ecad.GridExt Finset

variable {S : Type}

/-! ## specification -/

/-- a component that heats: it has loss power and an outline and is placed on a layer of the stackup -/
def Heats (a : In S) (c : GridPower.Comp ℚ) : Prop := c.loss ≠ [] ∧ c.box ≠ none ∧ ∃ l ∈ a.layers, (l.id : Int) = c.layer

/-- a point in the region and not on its upper bounds -/
def In2 (a : In S) (p : Int × Int) : Prop := (a.x.rlo ≤ p.1 ∧ p.1 < a.x.ehi) ∧ a.y.rlo ≤ p.2 ∧ p.2 < a.y.ehi

/-- Layouts and settings of the claim: positive units, tiles and layers; everything within the region; all conditions are cooling ones, and
one of the two faces is cooled. -/
structure Proper (a : In S) (user data : ℚ) : Prop where
  units : a.units = Units.make user data
  user : 0 < user
  data : 0 < data
  strideX : 0 < a.x.stride
  strideY : 0 < a.y.stride
  size : a.x.grid ≤ invalidIndex ∧ a.y.grid ≤ invalidIndex ∧ a.layers.length ≤ invalidIndex
  layers : a.layers ≠ []
  thick : ∀ l ∈ a.layers, 0 < l.thick
  ids : (a.layers.map Layer.id).Nodup
  comps : ∀ c ∈ a.comps, GridPower.Fits a.x a.y c
  wires : ∀ w ∈ a.wires, In2 a w.s ∧ In2 a w.e
  blocks : ∀ b ∈ a.topBlocks ++ a.botBlocks, b.2.value.isSome = true → Inside a b
  cooling : ∀ b ∈ a.topBC :: a.botBC :: (a.topBlocks ++ a.botBlocks).map Prod.snd, ∀ v, b.value = some v → b.type = .htc ∧ 0 < v
  face : a.topBC.value ≠ none ∨ a.botBC.value ≠ none

/-- what a cell gives off per kelvin: area of a tile times the coefficient of the last condition for the cell -/
noncomputable def cool (a : In S) (data : ℚ) (g : Size3) : ℚ :=
  match (conditions a a.layers.length g).getLast? with
  | some b => ((a.x.stride : ℚ) * data) * ((a.y.stride : ℚ) * data) * b.value.getD 0
  | none => 0

/-- the heat given off at temperatures `x` of the cells, numbered layer by layer, column by column -/
noncomputable def given (a : In S) (data refT : ℚ) (x : Nat → ℚ) : ℚ :=
  ∑ z ∈ range a.layers.length, ∑ i ∈ range a.x.grid, ∑ j ∈ range a.y.grid,
    cool a data ⟨i, j, z⟩ * (x (a.x.grid * a.y.grid * z + a.y.grid * i + j) - refT)

open Classical in
/-- the sum of a power over the components that heat -/
noncomputable def power (a : In S) (w : GridPower.Comp ℚ → ℚ) : ℚ := (a.comps.map fun c => if Heats a c then w c else 0).sum

/-! ## sums -/

theorem sum_block (f : Nat → ℚ) (b : Nat) : ∀ n, ∑ k ∈ range (b * n), f k = ∑ z ∈ range n, ∑ r ∈ range b, f (b * z + r) := by
  intro n
  induction n with
  | zero => simp
  | succ n ih => rw [Nat.mul_succ, sum_range_add_sum_range f, ih, sum_range_succ]
where
  sum_range_add_sum_range (f : Nat → ℚ) {p q : Nat} : ∑ k ∈ range (p + q), f k = ∑ k ∈ range p, f k + ∑ r ∈ range q, f (p + r) :=
    Finset.sum_range_add f p q

theorem sum_cells (f : Nat → ℚ) (nx ny n : Nat) :
    ∑ k ∈ range (nx * ny * n), f k = ∑ z ∈ range n, ∑ i ∈ range nx, ∑ j ∈ range ny, f (nx * ny * z + ny * i + j) := by
  rw [sum_block]
  refine Finset.sum_congr rfl fun z _ => ?_
  rw [Nat.mul_comm nx ny, sum_block (fun r => f (ny * nx * z + r)) ny nx]
  refine Finset.sum_congr rfl fun i _ => Finset.sum_congr rfl fun j _ => ?_
  rw [Nat.add_assoc]

theorem totalHF_eq (net : Network ℚ) : totalHF net = ∑ i ∈ range net.length, hfOf net i := by
  unfold totalHF
  have := sum_zipIdx net (fun n _ => n.hf) ⟨noScen, none, 0, 0, 0, []⟩ 0
  simp only [List.getD_eq_getElem?_getD] at this
  rw [show (net.map Node.hf) = ((net.zipIdx 0).map fun p => p.1.hf) by
    conv_lhs => rw [← List.zipIdx_map_fst 0 net]
    rw [List.map_map]
    rfl, this]
  refine Finset.sum_congr rfl fun i hi => ?_
  rw [Finset.mem_range] at hi
  unfold hfOf
  rw [List.getElem?_eq_getElem hi]
  rfl

/-! ## power of a layer -/

theorem lossAt_between {c : GridPower.Comp ℚ} (h : c.loss ≠ []) {lo hi : ℚ} (hb : ∀ e ∈ c.loss, lo ≤ e.2 ∧ e.2 ≤ hi) (t : ℚ) :
    lo ≤ GridPower.lossAt c t ∧ GridPower.lossAt c t ≤ hi := by
  obtain ⟨v, hv, -, -, -, -, h5⟩ := Lookup.c10_lookup c.loss h t
  have h1 : c.lossPower t = .ok v := hv
  have h2 := h5 lo hi (fun z hz => hb z (List.mem_of_find?_eq_some hz))
  simp only [GridPower.lossAt, h1]
  exact h2

/-- a component with the same power at all temperatures -/
def flat (w : GridPower.Comp ℚ → ℚ) (c : GridPower.Comp ℚ) : GridPower.Comp ℚ := { c with loss := c.loss.map fun e => (e.1, w c) }

theorem flat_on (w : GridPower.Comp ℚ → ℚ) (lyr : List (Int × Nat)) (l : Nat) (c : GridPower.Comp ℚ) :
    GridPower.On lyr l (flat w c) ↔ GridPower.On lyr l c := by
  unfold GridPower.On flat
  simp

theorem flat_loss (w : GridPower.Comp ℚ → ℚ) {c : GridPower.Comp ℚ} (h : c.loss ≠ []) (t : ℚ) : GridPower.lossAt (flat w c) t = w c := by
  have := lossAt_between (c := flat w c) (lo := w c) (hi := w c) (by simpa [flat] using h) (by
    intro e he
    simp only [flat, List.mem_map] at he
    obtain ⟨_, _, rfl⟩ := he
    exact ⟨le_refl _, le_refl _⟩) t
  exact le_antisymm this.2 this.1

theorem flat_tiles (w : GridPower.Comp ℚ → ℚ) (x y : Axis) (c : GridPower.Comp ℚ) : GridPower.tiles x y (flat w c) = GridPower.tiles x y c := rfl

/-- the shares of constant powers add up to them -/
theorem flat_sum (x y : Axis) (hx : 0 < x.stride) (hy : 0 < y.stride) (lyr : List (Int × Nat)) (cs : List (GridPower.Comp ℚ))
    (hc : ∀ c ∈ cs, GridPower.Fits x y c) (w : GridPower.Comp ℚ → ℚ) (l : Nat) :
    ∑ i ∈ range x.grid, ∑ j ∈ range y.grid, (cs.map fun c => GridPower.share x y lyr l 0 i j (flat w c)).sum =
      (cs.map fun c => open Classical in if GridPower.On lyr l c then w c else 0).sum := by
  have h := GridPower.mem_grid_sum x y lyr (cs.map (flat w)) l 0 (by
    intro c hcs ho h0
    rw [List.mem_map] at hcs
    obtain ⟨d, hd, rfl⟩ := hcs
    rw [flat_on] at ho
    rw [flat_tiles] at h0
    cases hb : d.box with
    | none => exact ho.2.2 hb
    | some b =>
      obtain ⟨i0, j0, i1, j1, -, -, -, -, -, card⟩ := GridPower.corners x y hx hy d b hb (hc d hd b hb)
      rw [card] at h0
      simp [GridPower.totalTiles] at h0)
  simp only [List.map_map, Function.comp_def] at h
  rw [h]
  congr 1
  apply List.map_congr_left
  intro c _
  by_cases ho : GridPower.On lyr l c
  · rw [if_pos ho, if_pos ((flat_on w lyr l c).2 ho), flat_loss w ho.1]
  · rw [if_neg ho, if_neg (fun h => ho ((flat_on w lyr l c).1 h))]

theorem share_between (x y : Axis) (lyr : List (Int × Nat)) (l : Nat) (t : ℚ) (i j : Nat) (c : GridPower.Comp ℚ) {lo hi : GridPower.Comp ℚ → ℚ}
    (hb : ∀ e ∈ c.loss, lo c ≤ e.2 ∧ e.2 ≤ hi c) :
    GridPower.share x y lyr l 0 i j (flat lo c) ≤ GridPower.share x y lyr l t i j c ∧
    GridPower.share x y lyr l t i j c ≤ GridPower.share x y lyr l 0 i j (flat hi c) := by
  unfold GridPower.share
  rw [flat_tiles, flat_tiles]
  by_cases h : GridPower.On lyr l c ∧ (i, j) ∈ GridPower.tiles x y c
  · rw [if_pos h, if_pos ⟨(flat_on lo lyr l c).2 h.1, h.2⟩, if_pos ⟨(flat_on hi lyr l c).2 h.1, h.2⟩, flat_loss lo h.1.1, flat_loss hi h.1.1]
    obtain ⟨h1, h2⟩ := lossAt_between h.1.1 hb t
    exact ⟨div_le_div_of_nonneg_right h1 (Nat.cast_nonneg _), div_le_div_of_nonneg_right h2 (Nat.cast_nonneg _)⟩
  · rw [if_neg h, if_neg (fun h' => h ⟨(flat_on lo lyr l c).1 h'.1, h'.2⟩), if_neg (fun h' => h ⟨(flat_on hi lyr l c).1 h'.1, h'.2⟩)]
    exact ⟨le_refl _, le_refl _⟩

/-- a table with five samples answers every query in its grid, between bounds of the samples -/
theorem query_between {ip : List (ℚ × ℚ) → ℚ → Res ℚ} (hip : Pchip ip) {t : Table ℚ} {x y : Nat} (hx : x < t.size.x) (hy : y < t.size.y)
    (hlen : 4 ≤ t.samples.length) (hs : t.samples.Pairwise fun a b => a.1 < b.1) {lo hi : ℚ}
    (hb : ∀ e ∈ t.samples, lo ≤ e.2.val x y ∧ e.2.val x y ≤ hi) (key : ℚ) :
    ∃ v, query ip t key x y = .ok (some v) ∧ lo ≤ v ∧ v ≤ hi := by
  unfold query
  rw [if_neg (by omega)]
  match hts : t.samples with
  | [] => simp [hts] at hlen
  | [s] => simp [hts] at hlen
  | s :: s' :: rest =>
    simp only
    have hlast : (s' :: rest).getLast (by simp) ∈ t.samples := by
      rw [hts]
      exact List.mem_cons_of_mem _ (List.getLast_mem _)
    split_ifs with h1 h2
    · exact ⟨_, rfl, hb s (by rw [hts]; simp)⟩
    · exact ⟨_, rfl, hb _ hlast⟩
    · have hpw : (t.samples.map fun p => (p.1, p.2.val x y)).Pairwise (fun a b => a.1 < b.1) := by
        rw [List.pairwise_map]
        exact hs
      obtain ⟨v, hv, ⟨p, hp, hpv⟩, q, hq, hqv⟩ := hip.between (t.samples.map fun p => (p.1, p.2.val x y)) key (by simpa using hlen) hpw
        ⟨(s.1, s.2.val x y), List.mem_map_of_mem (by rw [hts]; simp), by simpa using (not_le.1 h1).le⟩
        ⟨_, List.mem_map_of_mem hlast, (not_le.1 h2).le⟩
      rw [hts] at hv
      refine ⟨v, by rw [hv, Res.bind_ok], ?_, ?_⟩
      · rw [List.mem_map] at hp
        obtain ⟨e, he, rfl⟩ := hp
        exact (hb e he).1.trans hpv
      · rw [List.mem_map] at hq
        obtain ⟨e, he, rfl⟩ := hq
        exact hqv.trans (hb e he).2

theorem list_sum_le {α : Type} (l : List α) (f g : α → ℚ) (h : ∀ a ∈ l, f a ≤ g a) : (l.map f).sum ≤ (l.map g).sum := by
  induction l with
  | nil => simp
  | cons a l ih =>
    simp only [List.map_cons, List.sum_cons]
    exact add_le_add (h a (by simp)) (ih fun b hb => h b (by simp [hb]))

/-! ## the extracted model -/

/-- what is needed of the model of a proper layout -/
structure Made (a : In S) (data : ℚ) (m : GModel ℚ) (pm : List (Nat × Table ℚ)) (lyr : List (Int × Nat)) : Prop where
  size : m.size = ⟨a.x.grid, a.y.grid⟩
  layers : m.layers.length = a.layers.length
  powers : ∀ (z : Nat) (t : TLayer ℚ), m.layers[z]? = some t → t.powers = (UMap.find? pm z).toList.map Power.grid
  none : ∀ l, UMap.find? pm l = none → ∀ c ∈ a.comps, ¬ GridPower.On lyr l c
  table : ∀ l p, UMap.find? pm l = some p → p.size = ⟨a.x.grid, a.y.grid⟩ ∧
        p.samples = GridPower.temps.map fun t => (GridPower.toKelvin t, GridPower.specGrid a.x a.y lyr a.comps l t)
  on : ∀ (i : Int) (k : Nat), UMap.find? lyr i = some k ↔ ∃ l, a.layers[k]? = some l ∧ (l.id : Int) = i
  area : m.areaZ = ((a.x.stride : ℚ) * data) * ((a.y.stride : ℚ) * data)
  blocks : m.BlocksIn
  conds : ∀ g, m.bcsAt g = conditions a a.layers.length g
  jumps : ∀ j ∈ m.jumps, InGrid m.size3 j.1 ∧ InGrid m.size3 j.2.1
  physical : m.Physical
  cooled : m.Cooled

theorem made {dist : Int × Int → Int × Int → ℚ} {pi : ℚ} {part : Box → S → ℚ} {a : In S} {user data : ℚ} (h : Proper a user data) :
    ∃ m pm lyr, extract dist pi part a = .ok m ∧ Made a data m pm lyr := by
  have ht : ∀ l ∈ a.layers, 0 < thickness a.units l.thick := by
    intro l hl
    rw [h.units, thickness_make h.user.ne' h.data.ne']
    exact mul_pos (h.thick l hl) h.user
  have ht' : ∀ l ∈ a.layers, 0 ≤ thickness a.units l.thick := fun l hl => (ht l hl).le
  have hx := h.strideX
  have hy := h.strideY
  obtain ⟨m, hm⟩ := c104_extract dist pi part a ht' h.ids hx hy h.comps
  obtain ⟨l1, l2, l3⟩ := addLayers_eq part a a.layers ht' h.ids
  obtain ⟨pm, h1, h2, h3, h4, h5, h6, h7, h8, h9, h10⟩ := extract_parts hm
  have hpr : a.units.precision = data := by rw [h.units]; rfl
  obtain ⟨r1, r2⟩ := h10 (hpr ▸ h.data.le) hx hy
  obtain ⟨p1, p2⟩ := addPowers_get h3
  have e1 : (addLayers part a).1 = a.layers.map (tlayer part a) := l1
  obtain ⟨pm', q1, q2, q3, q4⟩ := GridPower.powerModels_ok a.x a.y hx hy (addLayers part a).2 a.comps h.comps
  rw [h2, Res.ok.injEq] at q1
  subst q1
  have hlen : m.layers.length = a.layers.length := by rw [p1, e1, List.length_map]
  have hget : ∀ (z : Nat) (t : TLayer ℚ), m.layers[z]? = some t → ∃ l, a.layers[z]? = some l ∧
      t = { tlayer part a l with powers := (UMap.find? pm z).toList.map Power.grid } := by
    intro z t hz
    have hz' : z < a.layers.length := by
      rw [← hlen]
      exact (List.getElem?_eq_some_iff.1 hz).1
    refine ⟨a.layers[z], List.getElem?_eq_getElem hz', ?_⟩
    have := p2 z (tlayer part a a.layers[z]) (by rw [e1, List.getElem?_map, List.getElem?_eq_getElem hz']; rfl)
    rw [hz, Option.some.injEq] at this
    rw [this]
    simp [tlayer]
  have hbb := bcsAt_eq hm hx hy (fun b hb => h.blocks b (by simp [hb])) (fun b hb => h.blocks b (by simp [hb]))
  have hvalid : ∀ b ∈ m.allBCs, b ∈ a.topBC :: a.botBC :: (a.topBlocks ++ a.botBlocks).map Prod.snd := by
    have hbl : ∀ (bs : List Block) r, blocks a bs = .ok r → ∀ c ∈ r, c.2 ∈ bs.map Prod.snd := by
      intro bs r hr c hc
      have := mapRes_ok _ _ hr
      obtain ⟨k, hk⟩ := List.getElem?_of_mem hc
      rw [List.forall₂_iff_get] at this
      obtain ⟨e, he⟩ := List.getElem?_eq_some_iff.1 hk
      have h' := this.2 k (this.1 ▸ e) e
      simp only [List.get_eq_getElem, he] at h'
      have hmem := List.mem_filter.1 (List.getElem_mem (l := bs.filter fun b => b.2.value.isSome) (this.1 ▸ e))
      have : c.2 = ((bs.filter fun b => b.2.value.isSome)[k]'(this.1 ▸ e)).2 := by
        unfold block at h'
        cases ha : cellOf a.x a.y (toCoord a.units ((bs.filter fun b => b.2.value.isSome)[k]'(this.1 ▸ e)).1.1.1,
            toCoord a.units ((bs.filter fun b => b.2.value.isSome)[k]'(this.1 ▸ e)).1.1.2) with
        | ub => simp [ha] at h'
        | exn => simp [ha] at h'
        | ok ll =>
          rw [ha, Res.bind_ok] at h'
          cases hb : cellOf a.x a.y (toCoord a.units ((bs.filter fun b => b.2.value.isSome)[k]'(this.1 ▸ e)).1.2.1,
            toCoord a.units ((bs.filter fun b => b.2.value.isSome)[k]'(this.1 ▸ e)).1.2.2) with
          | ub => simp [hb] at h'
          | exn => simp [hb] at h'
          | ok ur =>
            rw [hb, Res.bind_ok, Res.ok.injEq] at h'
            rw [← h']
      rw [this]
      exact List.mem_map_of_mem hmem.1
    intro b hb
    unfold GModel.allBCs at hb
    simp only [List.mem_append, Option.mem_toList, List.mem_map] at hb
    have hu : ∀ (q b : BC ℚ), uniform q = some b → b = q := by
      intro q b hq
      unfold uniform at hq
      split_ifs at hq
      exact (Option.some.inj hq).symm
    rcases hb with ((hb | hb) | ⟨c, hc, rfl⟩) | ⟨c, hc, rfl⟩
    · rw [h8] at hb
      rw [hu _ _ hb]
      simp
    · rw [h9] at hb
      rw [hu _ _ hb]
      simp
    · have := hbl _ _ h4 c hc
      rw [List.map_append]
      simp only [List.mem_cons, List.mem_append]
      exact .inr (.inr (.inl this))
    · have := hbl _ _ h5 c hc
      rw [List.map_append]
      simp only [List.mem_cons, List.mem_append]
      exact .inr (.inr (.inr this))
  have hX : (0 : ℚ) < a.x.stride := by exact_mod_cast hx
  have hY : (0 : ℚ) < a.y.stride := by exact_mod_cast hy
  refine ⟨m, pm, (addLayers part a).2, hm, ?_⟩
  refine ⟨h6, hlen, ?_, fun l hl => (q3 l).1 hl, q4, ?_, ?_, (hbb ⟨0, 0, 0⟩).1, ?_, ?_, ?_, ?_⟩
  · intro z t hz
    obtain ⟨l, _, rfl⟩ := hget z t hz
    rfl
  · intro i k
    constructor
    · exact l3 i k
    · rintro ⟨l, hl, rfl⟩
      exact l2 k l hl
  · rw [GModel.areaZ, GModel.lenX, GModel.lenY, r1, r2, h7, hpr, mul_one, mul_one]
  · intro g
    rw [(hbb g).2, hlen]
  · intro j hj
    have h1' := mapRes_ok _ _ h1
    obtain ⟨k, hk⟩ := List.getElem?_of_mem hj
    rw [List.forall₂_iff_get] at h1'
    obtain ⟨e, he⟩ := List.getElem?_eq_some_iff.1 hk
    have h' := h1'.2 k (h1'.1 ▸ e) e
    simp only [List.get_eq_getElem, he] at h'
    obtain ⟨⟨w1, w2⟩, w3⟩ := (h.wires _ (List.getElem_mem (h1'.1 ▸ e))), trivial
    obtain ⟨⟨s1, s2⟩, s3, s4⟩ := w1
    obtain ⟨⟨t1, t2⟩, t3, t4⟩ := w2
    obtain ⟨c, c1, _, _, c4, c5, _⟩ := cellOf_in a hx hy _ s1 s2.le s3 s4.le
    obtain ⟨d, d1, _, _, d4, d5, _⟩ := cellOf_in a hx hy _ t1 t2.le t3 t4.le
    unfold jump at h'
    simp only at h'
    rw [c1, Res.bind_ok, d1, Res.bind_ok, Res.ok.injEq] at h'
    rw [← h']
    have hz : 0 < m.layers.length := by
      rw [hlen]
      exact List.length_pos_of_ne_nil h.layers
    unfold InGrid GModel.size3
    rw [h6]
    exact ⟨⟨c4.2 s2, c5.2 s4, hz⟩, d4.2 t2, d5.2 t4, hz⟩
  · refine ⟨?_, ?_, ?_, ?_, ?_⟩
    · rw [r1, hpr]; exact mul_pos hX h.data
    · rw [r2, hpr]; exact mul_pos hY h.data
    · rw [h7]; exact one_pos
    · intro t htm
      obtain ⟨z, hz⟩ := List.getElem?_of_mem htm
      obtain ⟨l, hl, rfl⟩ := hget z t hz
      exact ht l (List.mem_of_getElem? hl)
    · intro t htm i j
      obtain ⟨z, hz⟩ := List.getElem?_of_mem htm
      obtain ⟨l, hl, rfl⟩ := hget z t hz
      rw [show TLayer.fraction { tlayer part a l with powers := (UMap.find? pm z).toList.map Power.grid } i j =
        metal part a.nets a.prims l.id (tile a.x a.y i j) from fraction_eq _ _ _ _ _ _ _ _]
      unfold metal
      exact ⟨le_max_left _ _, max_le zero_le_one (min_le_left _ _)⟩
  · refine ⟨fun b hb _ v hv => (h.cooling b (hvalid b hb) v hv).2, ?_⟩
    rcases h.face with hf | hf
    · left
      obtain ⟨v, hv⟩ := Option.ne_none_iff_exists'.1 hf
      refine ⟨a.topBC, by rw [h8, uniform, hv]; rfl, (h.cooling _ (by simp) v hv).1, hf⟩
    · right
      obtain ⟨v, hv⟩ := Option.ne_none_iff_exists'.1 hf
      refine ⟨a.botBC, by rw [h9, uniform, hv]; rfl, (h.cooling _ (by simp) v hv).1, hf⟩

/-! ## heat flows and cooling of the network -/

section
variable {a : In S} {user data : ℚ} {m : GModel ℚ} {pm : List (Nat × Table ℚ)} {lyr : List (Int × Nat)}

theorem table_query (M : Made a data m pm lyr) {ip : List (ℚ × ℚ) → ℚ → Res ℚ} (hip : Pchip ip) {lo hi : GridPower.Comp ℚ → ℚ}
    (hb : ∀ c ∈ a.comps, ∀ e ∈ c.loss, lo c ≤ e.2 ∧ e.2 ≤ hi c) {z : Nat} {p : Table ℚ} (hp : UMap.find? pm z = some p) (key : ℚ) {i j : Nat}
    (hi' : i < a.x.grid) (hj : j < a.y.grid) : ∃ v, query ip p key i j = .ok (some v) ∧
      (a.comps.map fun c => GridPower.share a.x a.y lyr z 0 i j (flat lo c)).sum ≤ v ∧
      v ≤ (a.comps.map fun c => GridPower.share a.x a.y lyr z 0 i j (flat hi c)).sum := by
  obtain ⟨h1, h2⟩ := M.table z p hp
  refine query_between hip (by rw [h1]; exact hi') (by rw [h1]; exact hj) (by rw [h2]; simp [GridPower.temps]) ?_ ?_ key
  · rw [h2, List.pairwise_map]
    simp only [GridPower.temps, GridPower.toKelvin]
    norm_num
  · intro e he
    rw [h2, List.mem_map] at he
    obtain ⟨t, _, rfl⟩ := he
    simp only [GridPower.specGrid]
    exact ⟨list_sum_le _ _ _ fun c hc => (share_between a.x a.y lyr z t i j c (hb c hc)).1,
      list_sum_le _ _ _ fun c hc => (share_between a.x a.y lyr z t i j c (hb c hc)).2⟩

theorem sound (h : Proper a user data) (M : Made a data m pm lyr) {ip : List (ℚ × ℚ) → ℚ → Res ℚ} (hip : Pchip ip) {lo hi : GridPower.Comp ℚ → ℚ}
    (hb : ∀ c ∈ a.comps, ∀ e ∈ c.loss, lo c ≤ e.2 ∧ e.2 ≤ hi c) : m.Sound ip := by
  have hpw : ∀ t ∈ m.layers, ∀ q ∈ t.powers, ∃ z p, UMap.find? pm z = some p ∧ q = Power.grid p := by
    intro t ht q hq
    obtain ⟨z, hz⟩ := List.getElem?_of_mem ht
    rw [M.powers z t hz, List.mem_map] at hq
    obtain ⟨p, hp, rfl⟩ := hq
    exact ⟨z, p, by simpa using hp, rfl⟩
  refine ⟨?_, by rw [M.layers]; exact List.length_pos_of_ne_nil h.layers, M.blocks, M.jumps, ?_, ?_⟩
  · unfold Fits GModel.size3
    rw [M.size, M.layers]
    exact h.size
  · intro l hl ll ur total hp
    obtain ⟨z, p, _, hq⟩ := hpw l hl _ hp
    cases hq
  · intro l hl t ht key x y
    obtain ⟨z, p, hz, hq⟩ := hpw l hl _ ht
    cases hq
    by_cases hxy : x < a.x.grid ∧ y < a.y.grid
    · obtain ⟨v, hv, _⟩ := table_query M hip hb hz key hxy.1 hxy.2
      exact ⟨_, hv⟩
    · refine ⟨none, ?_⟩
      unfold query
      rw [if_pos (by rw [(M.table z t hz).1]; simp only; omega)]

theorem conditions_htc (h : Proper a user data) (g : Size3) : ∀ b ∈ conditions a a.layers.length g, b.type = .htc ∧ ∃ v, b.value = some v ∧ 0 < v := by
  intro b hb
  unfold conditions at hb
  rw [List.mem_filter] at hb
  obtain ⟨hb, hv⟩ := hb
  obtain ⟨v, hv⟩ := Option.isSome_iff_exists.1 hv
  have hmem : b ∈ a.topBC :: a.botBC :: (a.topBlocks ++ a.botBlocks).map Prod.snd := by
    simp only [List.mem_append] at hb
    rcases hb with ((hb | hb) | hb) | hb
    · split_ifs at hb <;> simp at hb
      simp [hb]
    · split_ifs at hb <;> simp at hb
      simp [hb]
    · rw [List.mem_map] at hb
      obtain ⟨c, hc, rfl⟩ := hb
      have := (List.mem_filter.1 hc).1
      rw [List.map_append]
      simp only [List.mem_cons, List.mem_append]
      exact .inr (.inr (.inl (List.mem_map_of_mem this)))
    · rw [List.mem_map] at hb
      obtain ⟨c, hc, rfl⟩ := hb
      have := (List.mem_filter.1 hc).1
      rw [List.map_append]
      simp only [List.mem_cons, List.mem_append]
      exact .inr (.inr (.inr (List.mem_map_of_mem this)))
  obtain ⟨k1, k2⟩ := h.cooling b hmem v hv
  exact ⟨k1, v, hv, k2⟩

theorem cool_last (h : Proper a user data) (area : ℚ) (ha : area = ((a.x.stride : ℚ) * data) * ((a.y.stride : ℚ) * data)) (g : Size3) :
    ((conditions a a.layers.length g).flatMap fun b => b.trans area).getLastD 0 = cool a data g := by
  have hc := conditions_htc h g
  unfold cool
  rw [ha]
  generalize conditions a a.layers.length g = l at hc
  have : (l.flatMap fun b => b.trans (((a.x.stride : ℚ) * data) * ((a.y.stride : ℚ) * data))) =
      l.map fun b => ((a.x.stride : ℚ) * data) * ((a.y.stride : ℚ) * data) * b.value.getD 0 := by
    clear ha
    induction l with
    | nil => rfl
    | cons b l ih =>
      rw [List.flatMap_cons, ih fun b hb => hc b (by simp [hb]), List.map_cons]
      obtain ⟨h1, v, h2, _⟩ := hc b (by simp)
      simp [BC.trans, h1, h2]
  rw [this, List.getLastD_eq_getLast?, List.getLast?_map]
  cases l.getLast? <;> rfl

theorem cell_values (h : Proper a user data) (M : Made a data m pm lyr) {ip : List (ℚ × ℚ) → ℚ → Res ℚ} (hip : Pchip ip) {lo hi : GridPower.Comp ℚ → ℚ}
    (hb : ∀ c ∈ a.comps, ∀ e ∈ c.loss, lo c ≤ e.2 ∧ e.2 ≤ hi c) {minR : ℚ} {iniT : List ℚ} {net : Network ℚ} (hbd : m.build minR ip iniT = .ok (some net))
    {i j z : Nat} (hi' : i < a.x.grid) (hj : j < a.y.grid) (hz : z < a.layers.length) :
    htcOf net (a.x.grid * a.y.grid * z + a.y.grid * i + j) = cool a data ⟨i, j, z⟩ ∧
    (a.comps.map fun c => GridPower.share a.x a.y lyr z 0 i j (flat lo c)).sum ≤ hfOf net (a.x.grid * a.y.grid * z + a.y.grid * i + j) ∧
    hfOf net (a.x.grid * a.y.grid * z + a.y.grid * i + j) ≤ (a.comps.map fun c => GridPower.share a.x a.y lyr z 0 i j (flat hi c)).sum := by
  have hs := sound h M hip hb
  have hg : InGrid m.size3 ⟨i, j, z⟩ := by
    unfold InGrid GModel.size3
    rw [M.size, M.layers]
    exact ⟨hi', hj, hz⟩
  have hfl : flatten m.size ⟨i, j, z⟩ = a.x.grid * a.y.grid * z + a.y.grid * i + j := by rw [M.size]; rfl
  obtain ⟨hl, _⟩ := build_run hbd
  have hlt : flatten m.size ⟨i, j, z⟩ < iniT.length := by
    rw [hl]
    exact flatten_lt hg
  obtain ⟨T, hT⟩ : ∃ T, iniT[flatten m.size ⟨i, j, z⟩]? = some T := ⟨_, List.getElem?_eq_getElem hlt⟩
  obtain ⟨v1, v2⟩ := build_last hbd hs.fits M.blocks hg hT
  rw [hfl] at v1 v2
  have hflux : ((m.bcsAt ⟨i, j, z⟩).flatMap fun b => b.flux m.areaZ) = [] := by
    rw [List.flatMap_eq_nil_iff, M.conds]
    intro b hbm
    rw [BC.flux, (conditions_htc h _ b hbm).1]
  have hzm : z < m.layers.length := by rw [M.layers]; exact hz
  refine ⟨by rw [v2, M.conds, cool_last h _ M.area], ?_⟩
  rw [v1, GModel.sources, hflux, List.append_nil, List.getElem?_eq_getElem hzm, Option.map_some, Option.getD_some,
    M.powers z _ (List.getElem?_eq_getElem hzm)]
  cases hp : UMap.find? pm z with
  | some p =>
    obtain ⟨v, hv, hv1, hv2⟩ := table_query M hip hb hp T hi' hj
    have : (((some p).toList.map Power.grid).flatMap (Power.inCell ip T ⟨i, j, z⟩)) = [v] := by
      simp only [Option.toList_some, List.map_cons, List.map_nil, List.flatMap_cons, List.flatMap_nil, Power.inCell, hv, List.append_nil]
    rw [this]
    exact ⟨hv1, hv2⟩
  | none =>
    have hno := M.none z hp
    have h0 : ∀ w : GridPower.Comp ℚ → ℚ, (a.comps.map fun c => GridPower.share a.x a.y lyr z 0 i j (flat w c)).sum = 0 := by
      intro w
      apply List.sum_eq_zero
      intro v hv
      rw [List.mem_map] at hv
      obtain ⟨c, hc, rfl⟩ := hv
      unfold GridPower.share
      rw [if_neg]
      exact fun hh => hno c hc ((flat_on w lyr z c).1 hh.1)
    rw [h0, h0]
    simp

open Classical in
theorem power_layers (h : Proper a user data) (M : Made a data m pm lyr) (w : GridPower.Comp ℚ → ℚ) :
    ∑ z ∈ range a.layers.length, (a.comps.map fun c => if GridPower.On lyr z c then w c else 0).sum = power a w := by
  unfold power
  induction a.comps with
  | nil => simp
  | cons c cs ih =>
    simp only [List.map_cons, List.sum_cons, Finset.sum_add_distrib]
    rw [ih]
    congr 1
    have hon : ∀ z, GridPower.On lyr z c ↔ c.loss ≠ [] ∧ c.box ≠ none ∧ ∃ l, a.layers[z]? = some l ∧ (l.id : Int) = c.layer := by
      intro z
      unfold GridPower.On
      rw [M.on]
      tauto
    by_cases hh : Heats a c
    · rw [if_pos hh]
      obtain ⟨h1, h2, l, hl, hid⟩ := hh
      obtain ⟨k, hk⟩ := List.getElem?_of_mem hl
      have hkl := (List.getElem?_eq_some_iff.1 hk).1
      rw [Finset.sum_eq_single k]
      · rw [if_pos ((hon k).2 ⟨h1, h2, l, hk, hid⟩)]
      · intro z hz hne
        rw [if_neg]
        intro ho
        obtain ⟨-, -, l', hl', hid'⟩ := (hon z).1 ho
        apply hne
        have hnd := List.nodup_iff_injective_get.1 h.ids
        rw [Finset.mem_range] at hz
        have : (⟨z, by simpa using hz⟩ : Fin (a.layers.map Layer.id).length) = ⟨k, by simpa using hkl⟩ := by
          apply hnd
          obtain ⟨_, e1⟩ := List.getElem?_eq_some_iff.1 hl'
          obtain ⟨_, e2⟩ := List.getElem?_eq_some_iff.1 hk
          simp only [List.get_eq_getElem, List.getElem_map, e1, e2]
          have : (l'.id : Int) = l.id := by rw [hid', hid]
          exact_mod_cast this
        exact congrArg Fin.val this
      · intro hn
        exact absurd (Finset.mem_range.2 hkl) hn
    · rw [if_neg hh]
      apply Finset.sum_eq_zero
      intro z _
      rw [if_neg]
      intro ho
      obtain ⟨h1, h2, l, hl, hid⟩ := (hon z).1 ho
      exact hh ⟨h1, h2, l, List.mem_of_getElem? hl, hid⟩

/-- a solution of the network of the model -/
theorem balance (h : Proper a user data) (M : Made a data m pm lyr) {ip : List (ℚ × ℚ) → ℚ → Res ℚ} (hip : Pchip ip) {lo hi : GridPower.Comp ℚ → ℚ}
    (hb : ∀ c ∈ a.comps, ∀ e ∈ c.loss, lo c ≤ e.2 ∧ e.2 ≤ hi c) {minR : ℚ} {iniT : List ℚ} {net : Network ℚ} (hbd : m.build minR ip iniT = .ok (some net))
    (hg : Grounded net) {refT : ℚ} {x : Nat → ℚ} (hx : Solves net refT x) :
    net.length = a.x.grid * a.y.grid * a.layers.length ∧
    power a lo ≤ given a data refT x ∧ given a data refT x ≤ power a hi ∧
    ((∀ c ∈ a.comps, 0 ≤ lo c) → ∀ k < net.length, refT ≤ x k) := by
  have hs := sound h M hip hb
  have hbt : m.blockTotals = [] := by
    unfold GModel.blockTotals
    rw [List.filterMap_eq_nil_iff]
    rintro ⟨z, p⟩ hp
    obtain ⟨_, l, hl, hpl⟩ := mem_powers hp
    obtain ⟨k, hk⟩ := List.getElem?_of_mem hl
    rw [M.powers k l hk, List.mem_map] at hpl
    obtain ⟨t, _, ht⟩ := hpl
    simp only at ht
    rw [← ht]
  have hlen : net.length = a.x.grid * a.y.grid * a.layers.length := by
    rw [Static.net_length hbd, hbt]
    unfold GModel.total
    rw [M.size, M.layers]
    rfl
  have hgiven : given a data refT x = ∑ i ∈ range net.length, htcOf net i * (x i - refT) := by
    rw [hlen, sum_cells]
    unfold given
    refine Finset.sum_congr rfl fun z hz => Finset.sum_congr rfl fun i hi => Finset.sum_congr rfl fun j hj => ?_
    rw [Finset.mem_range] at hz hi hj
    rw [(cell_values h M hip hb hbd hi hj hz).1]
  have hen := (c29_energy hg.inRange).2.2 refT x (fun i hi => by
    rw [← mulVec_eq_entries net.length x i _ (fun t ht => (mem_gTriplets hg.inRange ht).2)]
    exact hx i hi)
  have htot : given a data refT x = ∑ z ∈ range a.layers.length, ∑ i ∈ range a.x.grid, ∑ j ∈ range a.y.grid,
      hfOf net (a.x.grid * a.y.grid * z + a.y.grid * i + j) := by
    rw [hgiven, hen, totalHF_eq, hlen, sum_cells]
  refine ⟨hlen, ?_, ?_, ?_⟩
  · rw [htot, ← power_layers h M lo]
    refine Finset.sum_le_sum fun z hz => ?_
    rw [Finset.mem_range] at hz
    rw [← flat_sum a.x a.y h.strideX h.strideY lyr a.comps h.comps lo z]
    refine Finset.sum_le_sum fun i hi => Finset.sum_le_sum fun j hj => ?_
    rw [Finset.mem_range] at hi hj
    exact (cell_values h M hip hb hbd hi hj hz).2.1
  · rw [htot, ← power_layers h M hi]
    refine Finset.sum_le_sum fun z hz => ?_
    rw [Finset.mem_range] at hz
    rw [← flat_sum a.x a.y h.strideX h.strideY lyr a.comps h.comps hi z]
    refine Finset.sum_le_sum fun i hi => Finset.sum_le_sum fun j hj => ?_
    rw [Finset.mem_range] at hi hj
    exact (cell_values h M hip hb hbd hi hj hz).2.2
  · intro hpos
    refine (c30_maximum hg refT x hx).2.1 ?_
    intro n hn
    obtain ⟨k, hk⟩ := List.getElem?_of_mem hn
    have hkl := (List.getElem?_eq_some_iff.1 hk).1
    obtain ⟨g, hgm, _, hge⟩ := (c33_numbering ⟨a.x.grid, a.y.grid, a.layers.length⟩).2 k (by rw [← hlen]; exact hkl)
    have hv := (cell_values h M hip hb hbd hgm.1 hgm.2.1 hgm.2.2).2.1
    have e : a.x.grid * a.y.grid * g.z + a.y.grid * g.x + g.y = k := hge
    rw [e] at hv
    have hnk : hfOf net k = n.hf := by unfold hfOf; rw [hk]
    rw [hnk] at hv
    refine le_trans ?_ hv
    apply List.sum_nonneg
    intro v hvm
    rw [List.mem_map] at hvm
    obtain ⟨c, hc, rfl⟩ := hvm
    unfold GridPower.share
    split_ifs with ho
    · rw [flat_loss lo ((flat_on lo lyr g.z c).1 ho.1).1]
      exact div_nonneg (hpos c hc) (Nat.cast_nonneg _)
    · exact le_refl _

end

/-! ## the claim -/

/-- C123: for every proper layout and all bounds of the loss powers of its components: the model is extracted, the network is built for all
temperatures before, and it has exactly one steady state.  In it the heat given off by the cells lies between the sums of the bounds over the
components that heat, and no cell is colder than the surroundings if no bound is negative. -/
theorem c123_steady (dist : Int × Int → Int × Int → ℚ) (pi : ℚ) (part : Box → S → ℚ) {a : In S} {user data : ℚ} (h : Proper a user data)
    {ip : List (ℚ × ℚ) → ℚ → Res ℚ} (hip : Pchip ip) {lo hi : GridPower.Comp ℚ → ℚ} (hb : ∀ c ∈ a.comps, ∀ e ∈ c.loss, lo c ≤ e.2 ∧ e.2 ≤ hi c)
    {minR : ℚ} (hm : 0 < minR) (refT : ℚ) :
    ∃ m, extract dist pi part a = .ok m ∧ m.total = a.x.grid * a.y.grid * a.layers.length ∧ ∀ iniT : List ℚ, iniT.length = m.total →
      ∃ net x, m.build minR ip iniT = .ok (some net) ∧ Solves net refT x ∧ (∀ y, Solves net refT y → ∀ i < m.total, y i = x i) ∧
        power a lo ≤ given a data refT x ∧ given a data refT x ≤ power a hi ∧ ((∀ c ∈ a.comps, 0 ≤ lo c) → ∀ k < m.total, refT ≤ x k) := by
  obtain ⟨m, pm, lyr, hm1, M⟩ := made (dist := dist) (pi := pi) (part := part) h
  have htot : m.total = a.x.grid * a.y.grid * a.layers.length := by
    unfold GModel.total
    rw [M.size, M.layers]
  refine ⟨m, hm1, htot, fun iniT hl => ?_⟩
  obtain ⟨net, hbd, hg, x, hx, hu⟩ := c62_solvable (sound h M hip hb) M.physical M.cooled hm hl refT
  obtain ⟨b1, b2, b3, b4⟩ := balance h M hip hb hbd hg hx
  rw [b1, ← htot] at hu b4
  exact ⟨net, x, hbd, hx, hu, b2, b3, b4⟩

/-- C123 for loss powers which do not depend on the temperature: the heat given off is their sum. -/
theorem c123_constant (dist : Int × Int → Int × Int → ℚ) (pi : ℚ) (part : Box → S → ℚ) {a : In S} {user data : ℚ} (h : Proper a user data)
    {ip : List (ℚ × ℚ) → ℚ → Res ℚ} (hip : Pchip ip) {w : GridPower.Comp ℚ → ℚ} (hw : ∀ c ∈ a.comps, ∀ e ∈ c.loss, e.2 = w c)
    {minR : ℚ} (hm : 0 < minR) (refT : ℚ) :
    ∃ m, extract dist pi part a = .ok m ∧ ∀ iniT : List ℚ, iniT.length = m.total →
      ∃ net, m.build minR ip iniT = .ok (some net) ∧ ∀ x, Solves net refT x → given a data refT x = power a w := by
  obtain ⟨m, pm, lyr, hm1, M⟩ := made (dist := dist) (pi := pi) (part := part) h
  have hb : ∀ c ∈ a.comps, ∀ e ∈ c.loss, w c ≤ e.2 ∧ e.2 ≤ w c := fun c hc e he => ⟨(hw c hc e he).ge, (hw c hc e he).le⟩
  refine ⟨m, hm1, fun iniT hl => ?_⟩
  obtain ⟨net, hbd, hg, -⟩ := c62_solvable (sound h M hip hb) M.physical M.cooled hm hl refT
  refine ⟨net, hbd, fun x hx => ?_⟩
  obtain ⟨-, b2, b3, -⟩ := balance h M hip hb hbd hg hx
  exact le_antisymm b3 b2

/-- C123 for the whole run of the static solver: with a linear solver that solves the systems given to it, the run ends after any positive
number of rounds allowed with a temperature for each cell, and the heat given off at these temperatures lies between the sums of the bounds.
No cell is colder than the surroundings if no bound is negative. -/
theorem c123_static (dist : Int × Int → Int × Int → ℚ) (pi : ℚ) (part : Box → S → ℚ) {a : In S} {user data : ℚ} (h : Proper a user data)
    {ip : List (ℚ × ℚ) → ℚ → Res ℚ} (hip : Pchip ip) {lo hi : GridPower.Comp ℚ → ℚ} (hb : ∀ c ∈ a.comps, ∀ e ∈ c.loss, lo c ≤ e.2 ∧ e.2 ≤ hi c)
    {minR : ℚ} (hm : 0 < minR) (envT limit : ℚ) (maximum celsius : Bool) (iteration : Nat) (hit : 1 ≤ iteration)
    (solve : Network ℚ → List ℚ) (hlen : ∀ net, (solve net).length = net.length)
    (hsol : ∀ net, Grounded net → Solves net envT fun i => (solve net)[i]?.getD 0) (fuel : Nat) (hf : iteration ≤ fuel) :
    ∃ m r, extract dist pi part a = .ok m ∧
      Static.solveStatic (m.build minR ip) solve m.total envT limit maximum iteration celsius fuel = some (.ok (some r)) ∧
      r.length = a.x.grid * a.y.grid * a.layers.length ∧
      let kelvin := fun k => r[k]?.getD 0 + if celsius then (27315 / 100 : ℚ) else 0
      power a lo ≤ given a data envT kelvin ∧ given a data envT kelvin ≤ power a hi ∧
      ((∀ c ∈ a.comps, 0 ≤ lo c) → ∀ k < r.length, envT ≤ kelvin k) := by
  obtain ⟨m, pm, lyr, hm1, M⟩ := made (dist := dist) (pi := pi) (part := part) h
  have hs := sound h M hip hb
  have htot : m.total = a.x.grid * a.y.grid * a.layers.length := by
    unfold GModel.total
    rw [M.size, M.layers]
  have hbuild : ∀ T : List ℚ, T.length = m.total → ∃ net, m.build minR ip T = .ok (some net) ∧ net.length = m.total ∧ Grounded net := by
    intro T hT
    obtain ⟨net, hbd, hg, -⟩ := c62_solvable hs M.physical M.cooled hm hT envT
    obtain ⟨b1, -⟩ := balance h M hip hb hbd hg (hsol net hg)
    exact ⟨net, hbd, by rw [b1, htot], hg⟩
  obtain ⟨T, n, t1, t2, t3, t4, t5, -⟩ := Static.c67_static_partial (m.build minR ip) solve m.total envT limit maximum celsius iteration hit
    (fun T hT => by obtain ⟨net, n1, n2, _⟩ := hbuild T hT; exact ⟨net, n1, n2⟩) hlen fuel hf
  obtain ⟨net, r1, r2⟩ := t5 (n - 1) (by omega)
  rw [Nat.sub_add_cancel t2] at r2
  have hTlen : (T (n - 1)).length = m.total := (build_run r1).1
  obtain ⟨net', n1, n2, hg⟩ := hbuild _ hTlen
  rw [r1, Res.ok.injEq, Option.some.injEq] at n1
  subst n1
  obtain ⟨b1, b2, b3, b4⟩ := balance h M hip hb r1 hg (hsol net hg)
  have hlT : (T n).length = a.x.grid * a.y.grid * a.layers.length := by rw [r2, hlen, b1]
  refine ⟨m, _, hm1, t4, by split_ifs <;> simp [hlT], ?_⟩
  intro kelvin
  have hk : ∀ k < a.x.grid * a.y.grid * a.layers.length, kelvin k = (solve net)[k]?.getD 0 := by
    intro k hk
    simp only [kelvin]
    rw [← r2]
    have hkT : k < (T n).length := by rw [hlT]; exact hk
    cases celsius
    · simp
    · simp [List.getElem?_eq_getElem hkT]
  have hgv : given a data envT kelvin = given a data envT fun i => (solve net)[i]?.getD 0 := by
    unfold given
    refine Finset.sum_congr rfl fun z hz => Finset.sum_congr rfl fun i hi => Finset.sum_congr rfl fun j hj => ?_
    rw [Finset.mem_range] at hz hi hj
    rw [hk]
    exact flatten_lt (m := ⟨a.x.grid, a.y.grid, a.layers.length⟩) (g := ⟨i, j, z⟩) ⟨hi, hj, hz⟩
  rw [hgv]
  refine ⟨b2, b3, fun hpos k hk' => ?_⟩
  have hk'' : k < a.x.grid * a.y.grid * a.layers.length := by
    have : k < (T n).length := by
      split_ifs at hk' <;> simpa using hk'
    rwa [hlT] at this
  rw [hk k hk'']
  exact b4 hpos k (by rw [b1]; exact hk'')

/-! ## example -/

/-- the layout of the example of C104: two by two tiles of one micrometre, two layers, a wire, a block on the top, a cooled bottom and a
component of 8 watts -/
theorem exProper : Proper (GridExt.exIn ((0, 0), (1 / 2, 1 / 2)) 300 (some 5)) (1 / 1000000) (1 / 1000000000) := by
  refine ⟨rfl, by norm_num, by norm_num, by decide +kernel, by decide +kernel, by decide +kernel, by decide, by decide +kernel, by decide +kernel,
    ?_, ?_, ?_, ?_, .inr (by decide)⟩
  · intro c hc b hb
    simp only [GridExt.exIn, List.mem_cons, List.not_mem_nil, or_false] at hc
    subst hc
    simp only [Option.some.injEq] at hb
    subst hb
    unfold GridPower.Within
    decide +kernel
  · unfold In2
    decide +kernel
  · intro b hb _
    simp only [GridExt.exIn, List.append_nil, List.mem_cons, List.not_mem_nil, or_false] at hb
    rcases hb with rfl | rfl <;> · unfold Inside GridPower.Within; decide +kernel
  · intro b hb v hv
    simp only [GridExt.exIn, List.append_nil, List.map_cons, List.map_nil, List.mem_cons, List.not_mem_nil, or_false] at hb
    rcases hb with rfl | rfl | rfl | rfl <;> simp at hv <;> subst hv <;> exact ⟨rfl, by norm_num⟩

/-- the hypotheses on powers hold: the component is on the second layer and has 8 watts -/
example : power (GridExt.exIn ((0, 0), (1 / 2, 1 / 2)) 300 (some 5)) (fun _ => 8) = 8 ∧
    ∀ c ∈ (GridExt.exIn ((0, 0), (1 / 2, 1 / 2)) 300 (some 5)).comps, ∀ e ∈ c.loss, e.2 = 8 := by
  refine ⟨?_, by decide +kernel⟩
  have hh : Heats (GridExt.exIn ((0, 0), (1 / 2, 1 / 2)) 300 (some 5)) ⟨[(300, 8)], 9, some ((100, 200), (900, 700))⟩ :=
    ⟨by simp, by simp, ⟨9, "D1", 5, false⟩, by simp [GridExt.exIn], rfl⟩
  unfold power
  rw [show (GridExt.exIn ((0, 0), (1 / 2, 1 / 2)) 300 (some 5)).comps = [⟨[(300, 8)], 9, some ((100, 200), (900, 700))⟩] from rfl,
    List.map_cons, if_pos hh]
  norm_num

/-- a solver as the theorem on the whole run asks for, and the interpolator -/
example : Pchip (K := ℚ) (fun pts key => if pts.length < 4 then .exn else .ok (linear pts key)) ∧ ∃ solve : Network ℚ → List ℚ,
    (∀ net, (solve net).length = net.length) ∧ ∀ net, Grounded net → Solves net 300 fun i => (solve net)[i]?.getD 0 := by
  refine ⟨pchip_linear, ?_⟩
  classical
  refine ⟨fun net => if hg : Grounded net then (List.range net.length).map (c30_exists hg 300).choose else List.replicate net.length 0, ?_, ?_⟩
  · intro net
    beta_reduce
    split_ifs <;> simp
  · intro net hg
    have hx := (c30_exists hg 300).choose_spec
    simp only [dif_pos hg]
    intro i hi
    rw [← hx i hi]
    rw [mulVec_eq_entries net.length _ i _ (fun t ht => (mem_gTriplets hg.inRange ht).2),
      mulVec_eq_entries net.length _ i _ (fun t ht => (mem_gTriplets hg.inRange ht).2)]
    refine Finset.sum_congr rfl fun k hk => ?_
    rw [Finset.mem_range] at hk
    simp [hk]

end Ecad.Balance
