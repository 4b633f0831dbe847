import Verif.Ctm.LayoutModel
import Verif.Ctm.GridProps
import Mathlib.Tactic.FieldSimp
import Mathlib.Tactic.LinearCombination
/-!
C103: The chip thermal model generated from a layout has the layers of the layout, and in each tile the part of it covered with metal.
-/
namespace Ecad.L2C
open Ecad.Ctm Ecad.Units

variable {S : Type}

/-! ## specification -/

/-- what counts for a layer: the primitives on it, of the wanted nets if nets are given -/
def Counts (nets : List Nat) (layer : Nat) (p : Prim S) : Prop := p.layer = some layer ∧ (nets = [] ∨ p.net ∈ nets)

instance (nets : List Nat) (layer : Nat) (p : Prim S) : Decidable (Counts nets layer p) := by unfold Counts; infer_instance

/-- the part of a box covered by a primitive: its outline less its holes -/
def cover (part : Box → S → ℚ) (b : Box) (p : Prim S) : ℚ :=
  match p.shape with
  | none => 0
  | some (o, hs) => part b o - (hs.map (part b)).sum

/-- the part of a box covered with metal on a layer, between 0 and 1 -/
def metal (part : Box → S → ℚ) (nets : List Nat) (ps : List (Prim S)) (layer : Nat) (b : Box) : ℚ :=
  max 0 (min 1 ((ps.map fun p => if Counts nets layer p then cover part b p else 0).sum))

/-- the place of a tile of the chip model: squares side by side from the lower left corner of the region -/
def place (a : Input S) (i j : Nat) : Box :=
  ⟨a.x.lo - toCoord a.units a.x.extLo + i * a.stride, a.y.lo - toCoord a.units a.y.extLo + j * a.stride,
    a.x.lo - toCoord a.units a.x.extLo + (i + 1) * a.stride, a.y.lo - toCoord a.units a.y.extLo + (j + 1) * a.stride⟩

/-- the number of tiles is the least that covers the length -/
def Covers (size : Int → Int → Nat) : Prop := ∀ len s : Int, 0 < len → 0 < s → len ≤ size len s * s ∧ ((size len s : Int) - 1) * s < len

/-! ## fractions -/

theorem select_sum (nets : List Nat) (layer : Nat) (f : S → ℚ) (ps : List (Prim S)) (r : List S × List S) :
    ((ps.foldl (selectStep nets layer) r).1.map f).sum - ((ps.foldl (selectStep nets layer) r).2.map f).sum =
    (r.1.map f).sum - (r.2.map f).sum + (ps.map fun p => if Counts nets layer p then
      (match p.shape with | none => 0 | some (o, hs) => f o - (hs.map f).sum) else 0).sum := by
  induction ps generalizing r with
  | nil => simp
  | cons p ps ih =>
    rw [List.foldl_cons, ih, List.map_cons, List.sum_cons]
    have : ((selectStep nets layer r p).1.map f).sum - ((selectStep nets layer r p).2.map f).sum = (r.1.map f).sum - (r.2.map f).sum +
        (if Counts nets layer p then (match p.shape with | none => 0 | some (o, hs) => f o - (hs.map f).sum) else 0) := by
      obtain ⟨player, pnet, pshape⟩ := p
      unfold selectStep Counts
      cases player with
      | none => simp
      | some l =>
        by_cases hll : l = layer
        · subst hll
          by_cases hn : nets = []
          · subst hn
            cases pshape with
            | none => simp
            | some s => simp; ring
          · have hpos : 0 < nets.length := List.length_pos_iff.2 hn
            by_cases hm : pnet ∈ nets
            · cases pshape with
              | none => simp [hm]
              | some s => simp [hm]; ring
            · simp [hm, hn, hpos]
        · simp [hll]
    rw [this]
    ring

theorem clamp_eq (s h : List ℚ) : Geom.clampFraction s h = max 0 (min 1 (s.sum - h.sum)) := by
  unfold Geom.clampFraction
  simp only
  generalize s.sum - h.sum = r
  by_cases h1 : r < 0
  · rw [if_pos h1, if_neg (by norm_num), max_eq_left]
    exact (min_le_right _ _).trans h1.le
  · rw [if_neg h1]
    push Not at h1
    by_cases h2 : r > 1
    · rw [if_pos h2, min_eq_left h2.le, max_eq_right (by norm_num)]
    · rw [if_neg h2, min_eq_right (not_lt.1 h2), max_eq_right h1]

theorem fraction_eq (part : Box → S → ℚ) (nets : List Nat) (ps : List (Prim S)) (x y : Geom.Axis) (layer i j : Nat) :
    (layerFraction part nets ps x y layer).val i j = metal part nets ps layer (tile x y i j) := by
  unfold layerFraction metal
  simp only
  rw [clamp_eq]
  unfold select
  rw [select_sum nets layer (part (tile x y i j)) ps ([], [])]
  simp only [List.map_nil, List.sum_nil, sub_zero, zero_add]
  rfl

/-! ## layers -/

/-- the numbers of tiles -/
def tiles (size : Int → Int → Nat) (a : Input S) : Nat × Nat := (size (a.x.len a.units) a.stride, size (a.y.len a.units) a.stride)

section
variable (part : Box → S → ℚ) (a : Input S) (nx ny : Nat)

theorem grid_layers (ht : ∀ l ∈ a.layers, 0 ≤ l.thick * a.units.precision) :
    (gridModel part a nx ny).layers.length = a.layers.length ∧
    ∀ (k : Nat) (l : Layer), a.layers[k]? = some l → ∃ g, (gridModel part a nx ny).layers[k]? = some g ∧ g.name = l.name ∧ g.isMetal = l.metal ∧
      g.thick = l.thick * a.units.precision ∧ g.mf = some (layerFraction part a.nets a.prims (a.x.axis a.units nx) (a.y.axis a.units ny) l.id) ∧
      g.powers = [] := by
  obtain ⟨h1, h2⟩ := append_all (nx, ny) (a.layers.map (gridLayer part a (a.x.axis a.units nx) (a.y.axis a.units ny))) (by
    intro g hg
    obtain ⟨l, hl, rfl⟩ := List.mem_map.1 hg
    simpa [gridLayer, toUnitIn] using ht l hl) (by
    intro g hg
    obtain ⟨l, hl, rfl⟩ := List.mem_map.1 hg
    rfl)
  refine ⟨by simpa [gridModel] using h1, ?_⟩
  intro k l hk
  refine ⟨_, h2 k _ (by rw [List.getElem?_map, hk]; rfl), rfl, rfl, ?_, rfl, rfl⟩
  simp [linked, gridLayer, toUnitIn]

theorem grid_names (ht : ∀ l ∈ a.layers, 0 ≤ l.thick * a.units.precision) :
    (gridModel part a nx ny).layers.map GLay.name = a.layers.map Layer.name := by
  obtain ⟨h1, h2⟩ := grid_layers part a nx ny ht
  refine List.ext_getElem? fun k => ?_
  rw [List.getElem?_map, List.getElem?_map]
  cases hk : a.layers[k]? with
  | none =>
    rw [List.getElem?_eq_none_iff] at hk
    rw [List.getElem?_eq_none_iff.2 (h1.symm ▸ hk)]
    rfl
  | some l =>
    obtain ⟨g, hg, hn, _⟩ := h2 k l hk
    rw [hg]
    simp [hn]

end

/-- the layer of the chip model for each grid layer -/
theorem stackOf_getElem {P : Type} (e : ℚ) (ls : List (GLay ℚ P)) (k : Nat) (g : GLay ℚ P) (h : ls[k]? = some g) :
    (stackOf e ls)[k]? = some (⟨g.name, e - (((ls.take k).map GLay.thick).sum) * 1000000, g.thick * 1000000⟩, g) := by
  induction ls generalizing e k with
  | nil => simp at h
  | cons l ls ih =>
    cases k with
    | zero =>
      simp only [List.getElem?_cons_zero, Option.some.injEq] at h
      subst h
      simp [stackOf]
    | succ k =>
      rw [List.getElem?_cons_succ] at h
      rw [stackOf, List.getElem?_cons_succ, ih _ k h]
      simp only [List.take_succ_cons, List.map_cons, List.sum_cons, Option.some.injEq, Prod.mk.injEq, and_true]
      congr 1
      ring

/-- C103: a layout with at least one tile, distinct layer names and no negative thickness has a chip model.  Its layers are those of the
layout, in order; the conducting ones are its metal layers, with the thickness number taken for a coordinate; the density in each tile is the
part covered with metal of the tile of the mapping, whose sides are the rounded quotients of the lengths of the region and the numbers of
tiles. -/
theorem c103_layers {size : Int → Int → Nat} (part : Box → S → ℚ) (a : Input S) (hx : 0 < (tiles size a).1) (hy : 0 < (tiles size a).2)
    (hn : (a.layers.map Layer.name).Nodup) (ht : ∀ l ∈ a.layers, 0 ≤ l.thick * a.units.precision) (hr : 0 ≤ (a.stride : ℚ) * a.units.precision) :
    ∃ c, chip size part a = .ok (some c) ∧ c.tiles = tiles size a ∧ c.res = a.stride * a.units.precision * 1000000 ∧
      c.tech = a.layers.map Layer.name ∧
      (∀ l ∈ a.layers, l.metal = true → ∃ m ∈ c.metals, m.name = l.name ∧ m.thick = l.thick * a.units.precision * 1000000) ∧
      (∀ m ∈ c.metals, ∃ l ∈ a.layers, l.metal = true ∧ m.name = l.name) ∧
      ∀ l ∈ a.layers, ∃ f, densityOf c.densities l.name = some f ∧ (f.w, f.h) = tiles size a ∧ ∀ i j, f.val i j =
        metal part a.nets a.prims l.id (tile (a.x.axis a.units (tiles size a).1) (a.y.axis a.units (tiles size a).2) i j) := by
  unfold chip
  simp only
  change ∃ c, (if (tiles size a).1 = 0 ∨ (tiles size a).2 = 0 then Res.ub else _) = _ ∧ _
  rw [if_neg (by omega)]
  obtain ⟨h1, h2⟩ := grid_layers part a (tiles size a).1 (tiles size a).2 ht
  have hnames := grid_names part a (tiles size a).1 (tiles size a).2 ht
  have hres : (gridModel part a (tiles size a).1 (tiles size a).2).res = ((a.stride : ℚ) * a.units.precision, (a.stride : ℚ) * a.units.precision) := by
    unfold gridModel toUnitIn
    simp only [div_one]
    rw [if_neg (not_lt.2 hr)]
  have hsize : (gridModel part a (tiles size a).1 (tiles size a).2).size = tiles size a := rfl
  change ∃ c, Res.ok (toChip _ (gridModel part a (tiles size a).1 (tiles size a).2)) = _ ∧ _
  generalize gridModel part a (tiles size a).1 (tiles size a).2 = G at *
  have hnd : (G.layers.map GLay.name).Nodup := hnames ▸ hn
  have hback : ∀ g ∈ G.layers, ∃ (k : Nat) (l : Layer), a.layers[k]? = some l ∧ G.layers[k]? = some g := by
    intro g hg
    obtain ⟨k, hk⟩ := List.getElem?_of_mem hg
    have hlt : k < a.layers.length := by
      rw [← h1]
      exact (List.getElem?_eq_some_iff.1 hk).1
    exact ⟨k, a.layers[k], List.getElem?_eq_getElem hlt, hk⟩
  have hmf : ∀ g ∈ G.layers, g.mf = some ((g.mf.getD ⟨0, 0, fun _ _ => 0⟩)) := by
    intro g hg
    obtain ⟨k, l, hk, hgk⟩ := hback g hg
    obtain ⟨g', hg', _, _, _, hm, _⟩ := h2 k l hk
    rw [hgk, Option.some.injEq] at hg'
    subst hg'
    rw [hm]
    rfl
  have hds := densitiesOf_eq G.layers hnd (fun g => g.mf.getD ⟨0, 0, fun _ _ => 0⟩) hmf
  have hlen : (densitiesOf G.layers).length = (stackOf (totalThick G.layers * 1000000) G.layers).length := by
    rw [hds, List.length_map, ← List.length_map (f := Prod.snd), stackOf_snd]
  unfold toChip
  rw [hres]
  simp only [ne_eq, not_true_eq_false, if_false]
  rw [if_neg (by simpa using hlen)]
  refine ⟨_, rfl, hsize, rfl, ?_, ?_, ?_, ?_⟩
  · simp only
    rw [← hnames]
    conv_rhs => rw [← stackOf_snd (totalThick G.layers * 1000000) G.layers]
    rw [List.map_map]
    exact List.map_congr_left fun p hp => (stackOf_mem _ _ p hp).1
  · intro l hl hm
    obtain ⟨k, hk⟩ := List.getElem?_of_mem hl
    obtain ⟨g, hg, g1, g2, g3, _, _⟩ := h2 k l hk
    have hs := stackOf_getElem (totalThick G.layers * 1000000) G.layers k g hg
    refine ⟨_, List.mem_map.2 ⟨_, List.mem_filter.2 ⟨List.mem_of_getElem? hs, by simp [g2, hm]⟩, rfl⟩, g1, ?_⟩
    simp [g3]
  · intro m hm
    obtain ⟨p, hp, rfl⟩ := List.mem_map.1 hm
    obtain ⟨hp1, hp2⟩ := List.mem_filter.1 hp
    have hmem : p.2 ∈ G.layers := by
      rw [← stackOf_snd (totalThick G.layers * 1000000) G.layers]
      exact List.mem_map.2 ⟨p, hp1, rfl⟩
    obtain ⟨k, l, hk, hgk⟩ := hback p.2 hmem
    obtain ⟨g', hg', g1, g2, _⟩ := h2 k l hk
    rw [hgk, Option.some.injEq] at hg'
    refine ⟨l, List.mem_of_getElem? hk, ?_, ?_⟩
    · rw [← g2, ← hg']
      exact hp2
    · rw [(stackOf_mem _ _ p hp1).1, hg', g1]
  · intro l hl
    obtain ⟨k, hk⟩ := List.getElem?_of_mem hl
    obtain ⟨g, hg, g1, _, _, g4, _⟩ := h2 k l hk
    refine ⟨layerFraction part a.nets a.prims (a.x.axis a.units (tiles size a).1) (a.y.axis a.units (tiles size a).2) l.id, ?_, rfl,
      fun i j => fraction_eq _ _ _ _ _ _ _ _⟩
    simp only
    rw [hds, ← g1, densityOf_map G.layers hnd _ (List.mem_of_getElem? hg), g4]
    rfl

/-! ## tiles -/

theorem stride_iff {n : Nat} {len s : Int} (hn : 0 < n) (hs : 0 < s) (h1 : len ≤ n * s) (hl : 0 ≤ len) :
    Geom.round ((len : ℚ) / n) = s ↔ 2 * (n * s - len) ≤ n := by
  have hnq : (0 : ℚ) < n := by exact_mod_cast hn
  unfold Geom.round
  rw [if_pos (by positivity), Int.floor_eq_iff]
  have hle : (len : ℚ) ≤ n * s := by exact_mod_cast h1
  have hq : (len : ℚ) / n ≤ s := by
    rw [div_le_iff₀ hnq]
    linarith
  constructor
  · rintro ⟨h, _⟩
    have h3 : (s : ℚ) - 1 / 2 ≤ len / n := by linarith
    rw [le_div_iff₀ hnq] at h3
    have h4 : (2 : ℚ) * (n * s - len) ≤ n := by linarith
    exact_mod_cast h4
  · intro h
    have h4 : (2 : ℚ) * (n * s - len) ≤ n := by exact_mod_cast h
    have h3 : (s : ℚ) - 1 / 2 ≤ len / n := by
      rw [le_div_iff₀ hnq]
      linarith
    constructor <;> linarith

theorem axis_stride (u : CoordUnits) (s : Side) (n : Nat) : (s.axis u n).stride = Geom.round ((s.len u : ℚ) / n) := rfl

theorem place_iff (a : Input S) (nx ny i j : Nat) (h : (a.x.axis a.units nx).stride = a.stride) (h' : (a.y.axis a.units ny).stride = a.stride) :
    tile (a.x.axis a.units nx) (a.y.axis a.units ny) i j = place a i j := by
  unfold tile place
  rw [h, h']
  rfl

/-- C103: the tiles of the mapping are those of the chip model if and only if in both directions the tiles stick out of the region by half
their number at most (in coordinates). -/
theorem c103_tiles {size : Int → Int → Nat} (hc : Covers size) (a : Input S) (hs : 0 < a.stride) (hx : 0 < a.x.len a.units) (hy : 0 < a.y.len a.units) :
    (∀ i j, i < (tiles size a).1 → j < (tiles size a).2 →
      tile (a.x.axis a.units (tiles size a).1) (a.y.axis a.units (tiles size a).2) i j = place a i j) ↔
    2 * ((tiles size a).1 * a.stride - a.x.len a.units) ≤ (tiles size a).1 ∧ 2 * ((tiles size a).2 * a.stride - a.y.len a.units) ≤ (tiles size a).2 := by
  obtain ⟨hx1, _⟩ := hc _ _ hx hs
  obtain ⟨hy1, _⟩ := hc _ _ hy hs
  have pos : ∀ (n : Nat) (len : Int), 0 < len → len ≤ n * a.stride → 0 < n := by
    intro n len hl h
    rcases Nat.eq_zero_or_pos n with rfl | h'
    · simp at h
      omega
    · exact h'
  have hnx : 0 < (tiles size a).1 := pos _ _ hx hx1
  have hny : 0 < (tiles size a).2 := pos _ _ hy hy1
  rw [← stride_iff hnx hs hx1 hx.le, ← stride_iff hny hs hy1 hy.le, ← axis_stride, ← axis_stride]
  constructor
  · intro h
    have := h 0 0 hnx hny
    unfold tile place at this
    simp only [Box.mk.injEq] at this
    obtain ⟨e1, e2, e3, e4⟩ := this
    constructor
    · rw [show (a.x.axis a.units (tiles size a).1).rlo = a.x.lo - toCoord a.units a.x.extLo from rfl] at e3
      simpa using e3
    · rw [show (a.y.axis a.units (tiles size a).2).rlo = a.y.lo - toCoord a.units a.y.extLo from rfl] at e4
      simpa using e4
  · rintro ⟨h, h'⟩ i j _ _
    exact place_iff a _ _ i j h h'

/-- C103 for lengths which the tiles fill: every density is the part of its tile covered with metal. -/
theorem c103_density_partial {size : Int → Int → Nat} (hc : Covers size) (part : Box → S → ℚ) (a : Input S) (hs : 0 < a.stride) (hp : 0 ≤ a.units.precision)
    (hx : 0 < a.x.len a.units) (hy : 0 < a.y.len a.units) (hdx : a.stride ∣ a.x.len a.units) (hdy : a.stride ∣ a.y.len a.units)
    (hn : (a.layers.map Layer.name).Nodup) (ht : ∀ l ∈ a.layers, 0 ≤ l.thick) :
    ∃ c, chip size part a = .ok (some c) ∧ (c.tiles.1 * a.stride = a.x.len a.units ∧ c.tiles.2 * a.stride = a.y.len a.units) ∧
      c.res = a.stride * a.units.precision * 1000000 ∧ c.tech = a.layers.map Layer.name ∧
      ∀ l ∈ a.layers, ∃ f, densityOf c.densities l.name = some f ∧ ∀ i j, f.val i j = metal part a.nets a.prims l.id (place a i j) := by
  have full : ∀ len : Int, 0 < len → a.stride ∣ len → (size len a.stride : Int) * a.stride = len ∧ 0 < size len a.stride := by
    rintro len hl ⟨q, rfl⟩
    obtain ⟨h1, h2⟩ := hc _ _ hl hs
    rw [mul_comm a.stride q] at h1 h2 ⊢
    have hq : 0 < q := by
      by_contra hq
      nlinarith
    have h1' := le_of_mul_le_mul_right h1 hs
    have h2' := lt_of_mul_lt_mul_right h2 hs.le
    have : (size (q * a.stride) a.stride : Int) = q := by omega
    rw [this]
    exact ⟨rfl, by omega⟩
  obtain ⟨fx, px⟩ := full _ hx hdx
  obtain ⟨fy, py⟩ := full _ hy hdy
  obtain ⟨c, h1, h2, h3, h4, _, _, h5⟩ := c103_layers (size := size) part a px py hn (fun l hl => mul_nonneg (ht l hl) hp)
    (mul_nonneg (by exact_mod_cast hs.le) hp)
  refine ⟨c, h1, by rw [h2]; exact ⟨fx, fy⟩, h3, h4, ?_⟩
  intro l hl
  obtain ⟨f, g1, g2, g3⟩ := h5 l hl
  refine ⟨f, g1, fun i j => ?_⟩
  rw [g3, place_iff a _ _ i j]
  · refine (stride_iff px hs fx.ge hx.le).2 ?_
    rw [fx]
    omega
  · refine (stride_iff py hs fy.ge hy.le).2 ?_
    rw [fy]
    omega

/-- C103 fails for every layout whose tiles stick out further: some density was taken at another place than its tile. -/
theorem c103_tiles_refuted {size : Int → Int → Nat} (hc : Covers size) (a : Input S) (hs : 3 ≤ a.stride) (hx : a.x.len a.units = a.stride + 1)
    (hy : 0 < a.y.len a.units) :
    (tiles size a).1 = 2 ∧ ∀ j : Nat,
      (tile (a.x.axis a.units (tiles size a).1) (a.y.axis a.units (tiles size a).2) 1 j).x0 < (place a 1 j).x0 := by
  obtain ⟨h1, h2⟩ := hc (a.x.len a.units) a.stride (by omega) (by omega)
  have hn : (tiles size a).1 = 2 := by
    change size (a.x.len a.units) a.stride = 2
    generalize size (a.x.len a.units) a.stride = n at h1 h2
    rw [hx] at h1 h2
    have : (n : Int) < 3 := by
      by_contra hge
      push Not at hge
      nlinarith
    have : (1 : Int) < n := by
      by_contra hge
      push Not at hge
      nlinarith
    omega
  refine ⟨hn, fun j => ?_⟩
  rw [hn]
  unfold tile place
  simp only
  rw [axis_stride, hx, show (a.x.axis a.units 2).rlo = a.x.lo - toCoord a.units a.x.extLo from rfl]
  have hr : Geom.round (((a.stride + 1 : Int) : ℚ) / (2 : Nat)) < a.stride := by
    push_cast
    have := Geom.round_half (a.stride + 1)
    push_cast at this
    rw [this, if_pos (by omega)]
    omega
  simpa using hr

/-- C103 fails for the thickness: a conducting layer has in the chip model (in micrometres) its thickness times the ratio of the database unit
to the user unit, which is its thickness only if the two units are the same. -/
theorem c103_thickness_refuted {size : Int → Int → Nat} (part : Box → S → ℚ) (a : Input S) {user data : ℚ} (hu : a.units = Units.make user data)
    (hu0 : 0 < user) (hd0 : 0 < data) (hne : user ≠ data) (hx : 0 < (tiles size a).1) (hy : 0 < (tiles size a).2)
    (hn : (a.layers.map Layer.name).Nodup) (ht : ∀ l ∈ a.layers, 0 ≤ l.thick) (hs : 0 ≤ a.stride) {l : Layer} (hl : l ∈ a.layers) (hm : l.metal = true)
    (h0 : 0 < l.thick) :
    ∃ c, chip size part a = .ok (some c) ∧ ∃ m ∈ c.metals, m.name = l.name ∧ m.thick = (l.thick * user * 1000000) * (data / user) ∧
      m.thick ≠ l.thick * user * 1000000 := by
  have hpr : a.units.precision = data := by rw [hu]; rfl
  obtain ⟨c, h1, _, _, _, h5, _⟩ := c103_layers (size := size) part a hx hy hn (fun l hl => mul_nonneg (ht l hl) (hpr ▸ hd0.le))
    (mul_nonneg (by exact_mod_cast hs) (hpr ▸ hd0.le))
  obtain ⟨m, hm1, hm2, hm3⟩ := h5 l hl hm
  rw [hpr] at hm3
  refine ⟨c, h1, m, hm1, hm2, ?_, ?_⟩
  · rw [hm3]
    field_simp
  · rw [hm3]
    intro h
    have h' := mul_right_cancel₀ (by norm_num : (1000000 : ℚ) ≠ 0) h
    exact hne (mul_left_cancel₀ h0.ne' h').symm

/-! ## examples -/

/-- the least number of tiles -/
def ceilSize (len s : Int) : Nat := ((len + s - 1) / s).toNat

theorem ceilSize_covers : Covers ceilSize := by
  intro len s hl hs
  unfold ceilSize
  have h0 : 0 ≤ (len + s - 1) / s := Int.ediv_nonneg (by omega) hs.le
  rw [Int.toNat_of_nonneg h0]
  have e := Int.mul_ediv_add_emod (len + s - 1) s
  have r1 := Int.emod_nonneg (len + s - 1) hs.ne'
  have r2 := Int.emod_lt_of_pos (len + s - 1) hs
  constructor <;> nlinarith

/-- overlap of two intervals -/
def overlap (a b c d : Int) : Int := max 0 (min b d - max a c)

/-- the part of a box covered by another box -/
def boxPart (b s : Box) : ℚ := (overlap b.x0 b.x1 s.x0 s.x1 * overlap b.y0 b.y1 s.y0 s.y1 : Int) / ((b.x1 - b.x0) * (b.y1 - b.y0) : Int)

/-- micrometres and nanometres; 2 by 1 micrometres in tiles of one micrometre, the right half covered but for a hole -/
def exIn (w x0 : Int) : Input Box :=
  { units := Units.make (1 / 1000000) (1 / 1000000000), x := ⟨0, w, 0, 0⟩, y := ⟨0, 1000, 0, 0⟩, resolution := 1, nets := [1],
    prims := [⟨some 0, 1, some (⟨x0, 0, w, 1000⟩, [⟨x0, 0, x0 + 500, 500⟩])⟩, ⟨some 0, 2, some (⟨0, 0, 1000, 1000⟩, [])⟩, ⟨none, 1, none⟩],
    layers := [⟨0, "M1", 3, true⟩, ⟨1, "V1", 2, false⟩] }

def dens (a : Input Box) (n : String) : List (Option ℚ) :=
  match chip ceilSize boxPart a with
  | .ok (some c) => [(densityOf c.densities n).map fun f => f.val 0 0, (densityOf c.densities n).map fun f => f.val 1 0]
  | _ => []

/-- the hypotheses of `c103_density_partial` and its conclusion for a layout -/
example : 0 < (exIn 2000 1000).stride ∧ (exIn 2000 1000).stride ∣ (exIn 2000 1000).x.len (exIn 2000 1000).units ∧ (exIn 2000 1000).stride ∣ (exIn 2000 1000).y.len (exIn 2000 1000).units ∧
    ((exIn 2000 1000).layers.map Layer.name).Nodup ∧ dens (exIn 2000 1000) "M1" = [some 0, some (3 / 4)] ∧ dens (exIn 2000 1000) "V1" = [some 0, some 0] := by
  decide +kernel

/-- 1.001 micrometres: the second tile of the chip model begins at one micrometre, its density was taken from 501 nanometres on -/
example : (exIn 1001 501).stride = 1000 ∧ (exIn 1001 501).x.len (exIn 1001 501).units = (exIn 1001 501).stride + 1 ∧
    dens (exIn 1001 501) "M1" = [some 0, some (250 / 501)] ∧ metal boxPart [1] (exIn 1001 501).prims 0 (place (exIn 1001 501) 1 0) = 1 / 2000 := by
  decide +kernel

/-- a metal layer of 3 micrometres has 3 nanometres in the chip model -/
example : (match chip ceilSize boxPart (exIn 2000 1000) with
    | .ok (some c) => c.metals.map fun m => m.thick
    | _ => []) = [3 / 1000] := by
  decide +kernel

end Ecad.L2C
