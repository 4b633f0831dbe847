import Verif.Thermal.PrismPowerModel
import Verif.Thermal.PrismNetProps
import Verif.Thermal.StackPrismMeshProps
import Verif.Geom.CutProps
import Mathlib.Algebra.BigOperators.Group.Finset.Basic
import Mathlib.Algebra.BigOperators.Field
import Mathlib.Algebra.Order.BigOperators.Group.Finset
/-!
C114: the heat put into a prism thermal model is the loss power of its power blocks.
-/
namespace Ecad.PrismT
open Ecad.Thermal Ecad.GridT

/-! ### the specification -/

/-- the power of an element, its table evaluated by `w` (which may look at layer and triangle) -/
def elemHeat (w : Nat → Nat → Nat → (ℚ → ℚ) → ℚ) (l : Nat) (e : Elem ℚ) : ℚ :=
  match e.cell.power with
  | some (ratio, scen, lut) => ratio * w l e.tri scen lut
  | none => 0

/-- the power of all elements of the layers -/
def totalHeat (w : Nat → Nat → Nat → (ℚ → ℚ) → ℚ) (ls : List (List (Elem ℚ))) : ℚ :=
  ∑ l ∈ Finset.range ls.length, ((ls.getD l []).map (elemHeat w l)).sum

/-- polygon `pid` becomes elements -/
def Solid (c : CutM) (pid : Nat) : Prop := c.fluid (c.mat pid) = false ∧ c.mat pid ≠ c.noMat

instance (c : CutM) (pid : Nat) : Decidable (Solid c pid) := inferInstanceAs (Decidable (_ ∧ _))

/-- what the block of polygon `pid` brings into layer `l`: the triangles found in the polygon, by their part of its area -/
def blockIn (c : CutM) (v : View) (w : Nat → Nat → Nat → (ℚ → ℚ) → ℚ) (tris l pid : Nat) (b : Block) : ℚ :=
  ∑ t ∈ (Finset.range tris).filter fun t => search c v l t = some pid, v.area l t / c.area pid * w l t b.scen b.lut

/-- what the block of polygon `pid` brings into all layers: only the layer that begins at the upper height of the block counts -/
def blockHeat (c : CutM) (v : View) (w : Nat → Nat → Nat → (ℚ → ℚ) → ℚ) (tris : Nat → Nat) (layers pid : Nat) (b : Block) : ℚ :=
  if Solid c pid then
    match c.cut.layerByHeight b.range.high with
    | some k => if k < layers then blockIn c v w (tris k) k pid b else 0
    | none => 0
  else 0

/-! ### sums -/

theorem sum_range_filterMap {α : Type} (n : Nat) (f : Nat → Option α) (h : α → ℚ) :
    (((List.range n).filterMap f).map h).sum = ∑ t ∈ Finset.range n, ((f t).map h).getD 0 := by
  induction n with
  | zero => simp
  | succ n ih =>
    rw [List.range_succ, List.filterMap_append, List.map_append, List.sum_append, ih, Finset.sum_range_succ]
    cases hf : f n <;> simp [hf]

theorem sum_list_comm {α ι : Type} (s : Finset ι) (l : List α) (g : ι → α → ℚ) :
    ∑ i ∈ s, (l.map (g i)).sum = (l.map fun a => ∑ i ∈ s, g i a).sum := by
  induction l with
  | nil => simp
  | cons a l ih => simp only [List.map_cons, List.sum_cons, Finset.sum_add_distrib, ih]

/-- of a map only the entry of the key counts -/
theorem sum_find {β : Type} (m : List (Nat × β)) (wf : UMap.WF m) (k : Nat) (g : β → ℚ) :
    (m.map fun e => if k = e.1 then g e.2 else 0).sum = ((UMap.find? m k).map g).getD 0 := by
  induction m with
  | nil => simp [UMap.find?_nil]
  | cons e m ih =>
    have wf' : e.1 ∉ UMap.keys m ∧ (UMap.keys m).Nodup := by
      have : (e.1 :: UMap.keys m).Nodup := wf
      exact List.nodup_cons.1 this
    rw [List.map_cons, List.sum_cons, UMap.find?_cons, ih wf'.2]
    by_cases h : k = e.1
    · rw [if_pos h, if_pos h.symm, (UMap.find?_eq_none_iff m k).2 (h ▸ wf'.1)]
      simp
    · rw [if_neg h, if_neg fun h' => h h'.symm, zero_add]

/-- the heat of a triangle as a sum over the blocks -/
theorem cell_heat (c : CutM) (v : View) (w : Nat → Nat → Nat → (ℚ → ℚ) → ℚ) (wf : UMap.WF c.blocks) (l t : Nat) (x : Cell ℚ → Elem ℚ)
    (hx : ∀ y, (x y).cell = y ∧ (x y).tri = t) :
    ((infoOf c v l t).map fun y => elemHeat w l (x y)).getD 0 = (c.blocks.map fun e =>
      if Solid c e.1 ∧ c.cut.layerByHeight e.2.range.high = some l ∧ search c v l t = some e.1 then
        v.area l t / c.area e.1 * w l t e.2.scen e.2.lut else 0).sum := by
  unfold infoOf
  cases hs : search c v l t with
  | none => simp
  | some pid =>
    by_cases hsol : Solid c pid
    · have h1 : ¬ c.fluid (c.mat pid) = true := by rw [hsol.1]; decide
      have h2 : ¬ c.noMat = c.mat pid := fun h => hsol.2 h.symm
      simp only [if_neg h1, if_neg h2, Option.map_some, Option.getD_some]
      have e1 : (c.blocks.map fun e =>
          if Solid c e.1 ∧ c.cut.layerByHeight e.2.range.high = some l ∧ some pid = some e.1 then
            v.area l t / c.area e.1 * w l t e.2.scen e.2.lut else 0) =
          c.blocks.map fun e => if pid = e.1 then (fun b : Block => if c.cut.layerByHeight b.range.high = some l then
            v.area l t / c.area pid * w l t b.scen b.lut else 0) e.2 else 0 := by
        apply List.map_congr_left
        intro e _
        by_cases he : pid = e.1
        · subst he
          simp [hsol]
        · simp [he]
      rw [e1]
      refine Eq.trans ?_ (sum_find c.blocks wf pid fun b : Block => if c.cut.layerByHeight b.range.high = some l then
        v.area l t / c.area pid * w l t b.scen b.lut else 0).symm
      unfold elemHeat
      rw [(hx _).1, (hx _).2]
      unfold cellPower
      cases hf : UMap.find? c.blocks pid with
      | none => simp
      | some b =>
        simp only [Option.map_some, Option.getD_some]
        split_ifs <;> rfl
    · have e1 : (c.blocks.map fun e =>
          if Solid c e.1 ∧ c.cut.layerByHeight e.2.range.high = some l ∧ some pid = some e.1 then
            v.area l t / c.area e.1 * w l t e.2.scen e.2.lut else 0) = c.blocks.map fun _ => (0 : ℚ) := by
        apply List.map_congr_left
        intro e _
        rw [if_neg]
        rintro ⟨h1, -, h2⟩
        rw [Option.some.injEq] at h2
        exact hsol (h2 ▸ h1)
      rw [e1]
      have : (if c.fluid (c.mat pid) = true then none else if c.noMat = c.mat pid then none
          else some ⟨c.mat pid, cellPower c v l t pid⟩ : Option (Cell ℚ)) = none := by
        by_cases h1 : c.fluid (c.mat pid) = true
        · rw [if_pos h1]
        · rw [if_neg h1, if_pos]
          by_contra h2
          exact hsol ⟨by simpa using h1, fun h => h2 h.symm⟩
      simp only [this]
      simp

/-- the layers of any extraction that makes an element of each triangle found -/
theorem layers_heat (c : CutM) (v : View) (w : Nat → Nat → Nat → (ℚ → ℚ) → ℚ) (wf : UMap.WF c.blocks) (tris : Nat → Nat) (layers : Nat)
    (x : Nat → Nat → Cell ℚ → Elem ℚ) (hx : ∀ l t y, (x l t y).cell = y ∧ (x l t y).tri = t) :
    totalHeat w ((List.range layers).map fun l => layerOf (tris l) (infoOf c v l) (x l)) =
      (c.blocks.map fun e => blockHeat c v w tris layers e.1 e.2).sum := by
  unfold totalHeat
  rw [List.length_map, List.length_range]
  have e1 : ∀ l ∈ Finset.range layers,
      ((((List.range layers).map fun l => layerOf (tris l) (infoOf c v l) (x l)).getD l []).map (elemHeat w l)).sum =
      (c.blocks.map fun e => ∑ t ∈ Finset.range (tris l),
        if Solid c e.1 ∧ c.cut.layerByHeight e.2.range.high = some l ∧ search c v l t = some e.1 then
          v.area l t / c.area e.1 * w l t e.2.scen e.2.lut else 0).sum := by
    intro l hl
    rw [Finset.mem_range] at hl
    rw [List.getD_eq_getElem?_getD, List.getElem?_map, List.getElem?_range hl, Option.map_some, Option.getD_some]
    unfold layerOf
    rw [sum_range_filterMap, ← sum_list_comm]
    apply Finset.sum_congr rfl
    intro t _
    rw [← cell_heat c v w wf l t (x l t) (hx l t), Option.map_map]
    rfl
  rw [Finset.sum_congr rfl e1, sum_list_comm]
  congr 1
  apply List.map_congr_left
  intro e _
  unfold blockHeat
  by_cases hsol : Solid c e.1
  · rw [if_pos hsol]
    cases hk : c.cut.layerByHeight e.2.range.high with
    | none => simp
    | some k =>
      dsimp only
      by_cases hl : k < layers
      · rw [if_pos hl, Finset.sum_eq_single k]
        · unfold blockIn
          rw [Finset.sum_filter]
          apply Finset.sum_congr rfl
          intro t _
          simp [hsol]
        · intro l _ hne
          apply Finset.sum_eq_zero
          intro t _
          rw [if_neg]
          rintro ⟨-, h, -⟩
          rw [Option.some.injEq] at h
          exact hne h.symm
        · intro h
          exact absurd (Finset.mem_range.2 hl) h
      · rw [if_neg hl]
        apply Finset.sum_eq_zero
        intro l hl'
        apply Finset.sum_eq_zero
        intro t _
        rw [if_neg]
        rintro ⟨-, h, -⟩
        rw [Option.some.injEq] at h
        rw [Finset.mem_range] at hl'
        omega
  · rw [if_neg hsol]
    apply Finset.sum_eq_zero
    intro l _
    apply Finset.sum_eq_zero
    intro t _
    rw [if_neg fun h => hsol h.1]

/-! ### C114 -/

/-- **C114, prism models.** For every layer cut model and mesh, the power of the elements, at any temperatures, is that of the power blocks: each block
brings into the layer that begins at its upper height the part of its power that the area of the triangles found in its polygon has in the area of
the polygon. -/
theorem c114_prism (c : CutM) (v : View) (w : Nat → Nat → Nat → (ℚ → ℚ) → ℚ) (wf : UMap.WF c.blocks) (mesh : Mesh) (layers : Nat) :
    ∃ ls, extract mesh layers (infoOf c v) = .ok ls ∧
      totalHeat w ls = (c.blocks.map fun e => blockHeat c v w (fun _ => mesh.length) layers e.1 e.2).sum := by
  refine ⟨_, extract_eq mesh layers (infoOf c v), ?_⟩
  rw [← layers_heat c v w wf (fun _ => mesh.length) layers (elemAt mesh layers (infoOf c v)) fun l t y => ⟨rfl, rfl⟩]
  congr 1
  apply List.map_congr_left
  intro l hl
  rw [List.mem_range] at hl
  apply layerOf_congr
  · intro t ht
    unfold cellAt
    rw [if_pos ⟨hl, ht⟩]
  · intros; rfl

theorem layerOf_short {n B : Nat} (hn : n ≤ B) {f g : Nat → Option (Cell ℚ)} (hf : ∀ t < n, f t = g t) (h0 : ∀ t, n ≤ t → f t = none)
    (e : Nat → Cell ℚ → Elem ℚ) : layerOf B f e = layerOf n g e := by
  obtain ⟨k, rfl⟩ : ∃ k, B = n + k := ⟨B - n, by omega⟩
  clear hn
  induction k with
  | zero => exact layerOf_congr hf fun _ _ _ _ => rfl
  | succ k ih =>
    rw [← ih]
    unfold layerOf
    rw [← Nat.add_assoc, List.range_succ, List.filterMap_append]
    simp [h0 (n + k) (by omega)]

/-- **C114, stackup prism models.** The same, with a mesh for each layer. -/
theorem c114_stack (c : CutM) (v : View) (w : Nat → Nat → Nat → (ℚ → ℚ) → ℚ) (wf : UMap.WF c.blocks) (meshes : List Mesh) :
    ∃ ls, stackLayers meshes (infoOf c v) = .ok ls ∧
      totalHeat w ls = (c.blocks.map fun e => blockHeat c v w (fun l => (meshes.getD l []).length) meshes.length e.1 e.2).sum := by
  refine ⟨_, stackLayers_eq meshes (infoOf c v), ?_⟩
  rw [← layers_heat c v w wf (fun l => (meshes.getD l []).length) meshes.length (elemS meshes (infoOf c v)) fun l t y => ⟨rfl, rfl⟩]
  congr 1
  apply List.map_congr_left
  intro l hl
  rw [List.mem_range] at hl
  have hm : meshes[l]? = some meshes[l] := List.getElem?_eq_getElem hl
  have hg : meshes.getD l [] = meshes[l] := by rw [List.getD_eq_getElem?_getD, hm]; rfl
  rw [hg]
  apply layerOf_short (le_bound hm)
  · intro t ht
    unfold cellS
    rw [hm]
    exact if_pos ht
  · intro t ht
    unfold cellS
    rw [hm]
    exact if_neg (by omega)

/-- **C114, materials.** A triangle becomes an element exactly if a solid polygon is found, and the element has the material of that polygon. -/
theorem c114_material (c : CutM) (v : View) (l t : Nat) :
    (∀ y, infoOf c v l t = some y → ∃ pid, search c v l t = some pid ∧ Solid c pid ∧ y.mat = c.mat pid) ∧
    (infoOf c v l t = none ↔ ∀ pid, search c v l t = some pid → ¬ Solid c pid) := by
  unfold infoOf
  cases search c v l t with
  | none => simp
  | some pid =>
    by_cases h1 : c.fluid (c.mat pid) = true
    · simp [Solid, h1]
    · by_cases h2 : c.noMat = c.mat pid
      · simp [Solid, h2]
      · have h3 : Solid c pid := ⟨by simpa using h1, fun h => h2 h.symm⟩
        simp only [if_neg h1, if_neg h2]
        refine ⟨?_, by simp [h3]⟩
        rintro y ⟨⟩
        exact ⟨pid, rfl, h3, rfl⟩

/-- what the spatial index of a layer finds at the centre of a triangle: polygons of the layer, among them all that contain it -/
def Hits (c : CutM) (v : View) : Prop :=
  ∀ l t ps, c.cut.lut l = some ps → ∀ i, (i ∈ v.hits l t → i ∈ ps) ∧ (i ∈ ps → v.contains l t i = true → i ∈ v.hits l t)

/-- what the search finds: a polygon of the layer that contains the centre, and none of those is smaller -/
theorem search_some {c : CutM} {v : View} (hh : Hits c v) {l t pid : Nat} (h : search c v l t = some pid) :
    ∃ ps, c.cut.lut l = some ps ∧ pid ∈ ps ∧ v.contains l t pid = true ∧ ∀ i ∈ ps, v.contains l t i = true → c.area pid ≤ c.area i := by
  unfold search at h
  cases hl : c.cut.lut l with
  | none => simp [hl] at h
  | some ps =>
    simp only [hl] at h
    have := (Geom.c53_search (v.contains l t) (fun i => decide (i ∈ v.hits l t)) c.area ps (v.hits l t)
      (fun i hi hc => by simpa using (hh l t ps hl i).2 hi hc) (fun i => by simpa using (hh l t ps hl i).1)).1 pid h
    exact ⟨ps, rfl, this⟩

/-- a polygon is found if it contains the centre and all others that do are greater -/
theorem search_least {c : CutM} {v : View} (hh : Hits c v) {l t pid : Nat} {ps : List Nat} (hl : c.cut.lut l = some ps) (hp : pid ∈ ps)
    (hc : v.contains l t pid = true) (hmin : ∀ i ∈ ps, i ≠ pid → v.contains l t i = true → c.area pid < c.area i) : search c v l t = some pid := by
  have key := Geom.c53_search (v.contains l t) (fun i => decide (i ∈ v.hits l t)) c.area ps (v.hits l t)
    (fun i hi hc => by simpa using (hh l t ps hl i).2 hi hc) (fun i => by simpa using (hh l t ps hl i).1)
  unfold search
  simp only [hl]
  cases hs : Geom.searchPolygon (v.contains l t) c.area (v.hits l t) with
  | none =>
    have := key.2.1 hs pid hp
    rw [hc] at this
    cases this
  | some r =>
    obtain ⟨h1, h2, h3⟩ := key.1 r hs
    congr 1
    by_contra hne
    have := hmin r h1 hne h2
    have := h3 pid hp hc
    linarith

/-- The block of a polygon is whole in layer `k`: it begins there, the triangles with centre in the polygon have its area, and every other polygon of the
layer around such a centre is greater. -/
structure Whole (c : CutM) (v : View) (tris k pid : Nat) (b : Block) : Prop where
  solid : Solid c pid
  top : c.cut.layerByHeight b.range.high = some k
  listed : ∃ ps, c.cut.lut k = some ps ∧ pid ∈ ps ∧ ∀ t < tris, v.contains k t pid = true →
    ∀ i ∈ ps, i ≠ pid → v.contains k t i = true → c.area pid < c.area i
  area : c.area pid ≠ 0
  tiled : ∑ t ∈ (Finset.range tris).filter fun t => v.contains k t pid = true, v.area k t = c.area pid

/-- the heat of a whole block at one temperature -/
theorem whole_heat {c : CutM} {v : View} (hh : Hits c v) {tris : Nat → Nat} {layers k pid : Nat} {b : Block} (h : Whole c v (tris k) k pid b)
    (hk : k < layers) (w : Nat → (ℚ → ℚ) → ℚ) : blockHeat c v (fun _ _ => w) tris layers pid b = w b.scen b.lut := by
  unfold blockHeat
  rw [if_pos h.solid, h.top]
  dsimp only
  rw [if_pos hk]
  unfold blockIn
  have hf : ((Finset.range (tris k)).filter fun t => search c v k t = some pid) =
      (Finset.range (tris k)).filter fun t => v.contains k t pid = true := by
    apply Finset.filter_congr
    intro t ht
    rw [Finset.mem_range] at ht
    obtain ⟨ps, hl, hp, hmin⟩ := h.listed
    constructor
    · intro hs
      obtain ⟨_, -, -, hc, -⟩ := search_some hh hs
      exact hc
    · intro hc
      exact search_least hh hl hp hc (hmin t ht hc)
  rw [hf, ← Finset.sum_mul, ← Finset.sum_div, h.tiled, div_self h.area, one_mul]

/-- **C114, whole blocks.** If every power block is whole in some layer, the power of the elements at one temperature is the sum of the loss powers of the
blocks; and likewise for the blocks of each scenario. -/
theorem c114_whole (c : CutM) (v : View) (wf : UMap.WF c.blocks) (hh : Hits c v) (mesh : Mesh) (layers : Nat)
    (hw : ∀ e ∈ c.blocks, ∃ k, k < layers ∧ Whole c v mesh.length k e.1 e.2) (T : ℚ) :
    ∃ ls, extract mesh layers (infoOf c v) = .ok ls ∧
      totalHeat (fun _ _ _ lut => lut T) ls = (c.blocks.map fun e => e.2.lut T).sum ∧
      ∀ s, totalHeat (fun _ _ scen lut => if scen = s then lut T else 0) ls =
        ((c.blocks.filter fun e => e.2.scen = s).map fun e => e.2.lut T).sum := by
  have hall : ∀ w : Nat → (ℚ → ℚ) → ℚ, (c.blocks.map fun e => blockHeat c v (fun _ _ => w) (fun _ => mesh.length) layers e.1 e.2) =
      c.blocks.map fun e => w e.2.scen e.2.lut := by
    intro w
    apply List.map_congr_left
    intro e he
    obtain ⟨k, hk, h⟩ := hw e he
    exact whole_heat hh (tris := fun _ => mesh.length) h hk w
  obtain ⟨ls, h1, -⟩ := c114_prism c v (fun _ _ _ _ => 0) wf mesh layers
  have h2 : ∀ w : Nat → (ℚ → ℚ) → ℚ, totalHeat (fun _ _ => w) ls = (c.blocks.map fun e => w e.2.scen e.2.lut).sum := by
    intro w
    obtain ⟨ls', h1', h2⟩ := c114_prism c v (fun _ _ => w) wf mesh layers
    rw [h1, Res.ok.injEq] at h1'
    subst h1'
    rw [h2, hall]
  refine ⟨ls, h1, h2 fun _ lut => lut T, fun s => ?_⟩
  rw [h2 fun scen lut => if scen = s then lut T else 0]
  generalize c.blocks = bs
  induction bs with
  | nil => rfl
  | cons e bs ih =>
    rw [List.map_cons, List.sum_cons, ih]
    by_cases he : e.2.scen = s
    · rw [if_pos he, List.filter_cons_of_pos (by simpa using he), List.map_cons, List.sum_cons]
    · rw [if_neg he, List.filter_cons_of_neg (by simpa using he), zero_add]

/-- **C114, layers.** In the tables of every model that is built, the block of a valid polygon with material that begins above the lower height of
the polygon belongs to a layer of the polygon, the one with the same upper height. -/
theorem c114_layer {ratio : ℚ} {fuel : Nat} {ps : List Geom.Poly} {cut : Geom.Cut} (h : Geom.build ratio fuel ps = some (.ok cut))
    {i : Nat} {p : Geom.Poly} {r : Geom.Range} (hi : ps[i]? = some p) (hm : p.mat = true) (hv : p.range.low < p.range.high) (hr : p.power = some r)
    (h1 : p.range.low < r.high) (h2 : r.high ≤ p.range.high) :
    ∃ k l, cut.layerByHeight r.high = some k ∧ cut.order[k]? = some r.high ∧ k < cut.total ∧ cut.lut k = some l ∧ i ∈ l := by
  obtain ⟨hs, hc, -⟩ := Geom.c26_cover h
  obtain ⟨hp, -⟩ := Geom.c26_power h
  obtain ⟨k, hk⟩ := List.getElem?_of_mem (hp p (List.mem_of_getElem? hi) hv hm r hr).1
  obtain ⟨s, e, hse, e1, e2, e3⟩ := hc i p hi hv
  have hke : k < e := (Geom.desc_lt_iff hs e2 hk).1 h1
  have hsk : s ≤ k := (Geom.desc_le_iff hs hk e1).1 h2
  obtain ⟨l, hl, hil⟩ := (e3 k).2 ⟨hsk, hke⟩
  refine ⟨k, l, ((Geom.c26_queries h 1).1 _ _).2 hk, hk, ?_, hl, hil⟩
  have := (List.getElem?_eq_some_iff.1 e2).1
  unfold Geom.Cut.total
  omega

/-- **C114 fails** for blocks at the lower face of their polygon, or below: no triangle of the layer they begin finds the polygon, and their power is lost. -/
theorem c114_below_refuted {ratio : ℚ} {fuel : Nat} {ps : List Geom.Poly} {c : CutM} {v : View} (h : Geom.build ratio fuel ps = some (.ok c.cut))
    (hh : Hits c v) {i : Nat} {p : Geom.Poly} (hi : ps[i]? = some p) (hv : p.range.low < p.range.high) (b : Block) (hb : b.range.high ≤ p.range.low)
    (w : Nat → Nat → Nat → (ℚ → ℚ) → ℚ) (tris : Nat → Nat) (layers : Nat) : blockHeat c v w tris layers i b = 0 := by
  unfold blockHeat
  split_ifs with hs
  · cases hk : c.cut.layerByHeight b.range.high with
    | none => rfl
    | some k =>
      dsimp only
      split_ifs
      · unfold blockIn
        apply Finset.sum_eq_zero
        intro t ht
        exfalso
        obtain ⟨l, hl, hil, -⟩ := search_some hh (Finset.mem_filter.1 ht).2
        obtain ⟨hso, hc, -⟩ := Geom.c26_cover h
        obtain ⟨s, e, hse, e1, e2, e3⟩ := hc i p hi hv
        have hke := ((e3 k).1 ⟨l, hl, hil⟩).2
        have := (Geom.desc_lt_iff hso e2 (((Geom.c26_queries h 1).1 _ _).1 hk)).2 hke
        omega
      · rfl
  · rfl

/-- **C114 fails** for polygons of a fluid, or without material. -/
theorem c114_fluid_refuted (c : CutM) (v : View) (w : Nat → Nat → Nat → (ℚ → ℚ) → ℚ) (tris : Nat → Nat) (layers pid : Nat) (b : Block)
    (h : c.fluid (c.mat pid) = true ∨ c.mat pid = c.noMat) : blockHeat c v w tris layers pid b = 0 := by
  unfold blockHeat
  rw [if_neg]
  rintro ⟨h1, h2⟩
  rcases h with h | h
  · rw [h] at h1; cases h1
  · exact h2 h

/-- **C114 fails** for blocks under smaller polygons: if the triangles with centre in the polygon have its area, and one of them lies in a smaller polygon of
the layer, part of the power is lost. -/
theorem c114_hidden_refuted {c : CutM} {v : View} (hh : Hits c v) {tris : Nat → Nat} {layers k pid : Nat} {b : Block} (hsol : Solid c pid)
    (htop : c.cut.layerByHeight b.range.high = some k) (hk : k < layers) (ha : 0 < c.area pid) (hp : ∀ t < tris k, 0 < v.area k t)
    (htiled : ∑ t ∈ (Finset.range (tris k)).filter fun t => v.contains k t pid = true, v.area k t = c.area pid)
    {t0 q : Nat} {ps : List Nat} (ht : t0 < tris k) (hc0 : v.contains k t0 pid = true) (hl : c.cut.lut k = some ps) (hq : q ∈ ps)
    (hcq : v.contains k t0 q = true) (hlt : c.area q < c.area pid) (w : Nat → (ℚ → ℚ) → ℚ) (hw : 0 < w b.scen b.lut) :
    blockHeat c v (fun _ _ => w) tris layers pid b < w b.scen b.lut := by
  unfold blockHeat
  rw [if_pos hsol, htop]
  dsimp only
  rw [if_pos hk]
  unfold blockIn
  rw [← Finset.sum_mul, ← Finset.sum_div]
  have hsum : ∑ t ∈ (Finset.range (tris k)).filter (fun t => search c v k t = some pid), v.area k t < c.area pid := by
    rw [← htiled]
    apply Finset.sum_lt_sum_of_subset (i := t0)
    · intro t h
      rw [Finset.mem_filter] at h ⊢
      obtain ⟨_, -, -, hc, -⟩ := search_some hh h.2
      exact ⟨h.1, hc⟩
    · exact Finset.mem_filter.2 ⟨Finset.mem_range.2 ht, hc0⟩
    · intro h
      obtain ⟨ps', hl', -, -, hmin⟩ := search_some hh (Finset.mem_filter.1 h).2
      rw [hl, Option.some.injEq] at hl'
      subst hl'
      have := hmin q hq hcq
      linarith
    · exact hp t0 ht
    · intro t h _
      exact (hp t (Finset.mem_range.1 (Finset.mem_filter.1 h).1)).le
  calc _ < 1 * w b.scen b.lut := by
        apply mul_lt_mul_of_pos_right _ hw
        rw [div_lt_one ha]
        exact hsum
    _ = _ := one_mul _

/-- a sum over the elements, by their numbers, as a sum over layers and triangles -/
theorem sum_gid (tris layers : Nat) (info : Nat → Nat → Option (Cell ℚ)) (F : Nat → ℚ) :
    ∑ i ∈ Finset.range (before tris layers info layers), F i =
      ∑ l ∈ Finset.range layers, ∑ t ∈ Finset.range tris, ((cellAt tris layers info l t).map fun _ => F (gid tris layers info l t)).getD 0 := by
  rw [← Finset.sum_product' (Finset.range layers) (Finset.range tris) fun l t =>
    ((cellAt tris layers info l t).map fun _ => F (gid tris layers info l t)).getD 0]
  have hb := gid_bijective tris layers info
  have e1 : ∑ x ∈ Finset.range layers ×ˢ Finset.range tris,
      ((cellAt tris layers info x.1 x.2).map fun _ => F (gid tris layers info x.1 x.2)).getD 0 =
      ∑ x ∈ (Finset.range layers ×ˢ Finset.range tris).filter fun x => (cellAt tris layers info x.1 x.2).isSome, F (gid tris layers info x.1 x.2) := by
    rw [Finset.sum_filter]
    apply Finset.sum_congr rfl
    intro x _
    cases cellAt tris layers info x.1 x.2 <;> simp
  rw [e1]
  symm
  apply Finset.sum_bij fun x _ => gid tris layers info x.1 x.2
  · intro x hx
    obtain ⟨c, hc⟩ := Option.isSome_iff_exists.1 (Finset.mem_filter.1 hx).2
    exact Finset.mem_range.2 (gid_lt hc)
  · intro x hx y hy he
    obtain ⟨c, hc⟩ := Option.isSome_iff_exists.1 (Finset.mem_filter.1 hx).2
    obtain ⟨d, hd⟩ := Option.isSome_iff_exists.1 (Finset.mem_filter.1 hy).2
    obtain ⟨h1, h2⟩ := hb.1 _ _ _ _ _ _ hc hd he
    exact Prod.ext h1 h2
  · intro i hi
    obtain ⟨l, t, c, hc, rfl⟩ := hb.2 i (Finset.mem_range.1 hi)
    have := cellAt_lt hc
    exact ⟨(l, t), Finset.mem_filter.2 ⟨Finset.mem_product.2 ⟨Finset.mem_range.2 this.1, Finset.mem_range.2 this.2⟩, by rw [hc]; rfl⟩, rfl⟩
  · intros; rfl

/-- the power of a prism model by the numbers of its elements -/
theorem heat_gid (mesh : Mesh) (layers : Nat) (info : Nat → Nat → Option (Cell ℚ)) (T : Nat → ℚ) (ls : List (List (Elem ℚ)))
    (h : extract mesh layers info = .ok ls) :
    totalHeat (fun l t _ lut => lut (T (gid mesh.length layers info l t))) ls =
      ∑ l ∈ Finset.range layers, ∑ t ∈ Finset.range mesh.length, ((cellAt mesh.length layers info l t).map fun c =>
        (c.power.toList.map fun w => w.2.2 (T (gid mesh.length layers info l t)) * w.1).sum).getD 0 := by
  rw [extract_eq, Res.ok.injEq] at h
  subst h
  unfold totalHeat
  rw [List.length_map, List.length_range]
  apply Finset.sum_congr rfl
  intro l hl
  rw [Finset.mem_range] at hl
  rw [List.getD_eq_getElem?_getD, List.getElem?_map, List.getElem?_range hl, Option.map_some, Option.getD_some]
  unfold layerOf
  rw [sum_range_filterMap]
  apply Finset.sum_congr rfl
  intro t _
  rw [Option.map_map]
  cases cellAt mesh.length layers info l t with
  | none => rfl
  | some c =>
    simp only [Option.map_some, Option.getD_some, Function.comp, elemHeat, elemAt]
    cases c.power with
    | none => rfl
    | some w => simp [mul_comm]

/-- **C114, network.** If no heat flux is asked for on the faces of prisms, the heat flows into the nodes of all prisms of the network, at any
temperatures of the elements, add up to what the power blocks bring. -/
theorem c114_network {c : CutM} {v : View} (wf : UMap.WF c.blocks) {minR : ℚ} {m : PModel ℚ} {mesh : Mesh} {layers : Nat} {wires : List (Wire ℚ)}
    (hx : Extracted m mesh layers (infoOf c v) wires) {iniT : List ℚ} {net : Network ℚ} (hb : m.build minR iniT = .ok (some net))
    (hflux : ∀ p ∈ m.prisms, m.faces .heatFlux p = []) :
    ∑ i ∈ Finset.range (totalPrisms m.off), hfOf net i =
      (c.blocks.map fun e => blockHeat c v (fun l t _ lut => lut (iniT.getD (gid mesh.length layers (infoOf c v) l t) 0))
        (fun _ => mesh.length) layers e.1 e.2).sum := by
  obtain ⟨ls, h1, h2⟩ := c114_prism c v (fun l t _ lut => lut (iniT.getD (gid mesh.length layers (infoOf c v) l t) 0)) wf mesh layers
  rw [← h2, heat_gid mesh layers (infoOf c v) (fun i => iniT.getD i 0) ls h1]
  obtain ⟨e1, e2, e3, -⟩ := extracted_prisms hx
  rw [e1, sum_gid]
  apply Finset.sum_congr rfl
  intro l _
  apply Finset.sum_congr rfl
  intro t _
  cases hc : cellAt mesh.length layers (infoOf c v) l t with
  | none => rfl
  | some y =>
    simp only [Option.map_some, Option.getD_some]
    have hp := e3 l t y hc
    have hlt : gid mesh.length layers (infoOf c v) l t < iniT.length := by
      have := (build_run hb).1
      have h3 := gid_lt hc
      unfold PModel.total at this
      omega
    have ht : iniT[gid mesh.length layers (infoOf c v) l t]? = some (iniT.getD (gid mesh.length layers (infoOf c v) l t) 0) := by
      rw [List.getD_eq_getElem?_getD, List.getElem?_eq_getElem hlt]; rfl
    have hs : m.sources (prismAt mesh layers (infoOf c v) l t y) (iniT.getD (gid mesh.length layers (infoOf c v) l t) 0) =
        y.power.toList.map fun w => w.2.2 (iniT.getD (gid mesh.length layers (infoOf c v) l t) 0) * w.1 := by
      unfold PModel.sources
      rw [hflux _ (List.mem_of_getElem? hp), List.append_nil]
      rfl
    rw [(c47_prism_partial hb (extracted_wf hx).1).1 _ _ _ hp ht, hs]
    rw [hs]
    cases y.power <;> simp

/-! ### examples -/

/-- a board with a power block in its upper half, and a smaller polygon on the lower half -/
def exPowerPolys : List Geom.Poly := [⟨⟨10, 0⟩, true, some ⟨10, 5⟩⟩, ⟨⟨5, 0⟩, true, none⟩]

/-- its layers; the block has 3 W at 25 degrees -/
def exPowerCut : CutM where
  cut := ⟨[10, 5, 0], fun k => if k = 0 then some [0] else if k = 1 then some [0, 1] else none⟩
  mat := fun i => i + 1
  fluid := fun _ => false
  noMat := 0
  area := fun i => if i = 0 then 2 else 1
  blocks := [(0, ⟨⟨10, 5⟩, 7, fun T => T / 25 * 3⟩)]

/-- a square of two triangles; the second lies in the smaller polygon -/
def exPowerView : View where
  contains := fun _ t i => i = 0 || t = 1
  hits := fun l t => if l = 0 then [0] else if l = 1 then (if t = 1 then [1, 0] else [0]) else []
  area := fun _ _ => 1

def exPowerMesh : Mesh := [fun n => if n = 0 then some 1 else none, fun n => if n = 0 then some 0 else none]

theorem exPower_hits : Hits exPowerCut exPowerView := by
  intro l t ps hl i
  match l, hl with
  | 0, hl =>
    have : ps = [0] := by simpa [exPowerCut] using hl.symm
    subst this
    simp only [exPowerView, List.mem_singleton, if_true]
    exact ⟨id, fun h _ => h⟩
  | 1, hl =>
    have : ps = [0, 1] := by simpa [exPowerCut] using hl.symm
    subst this
    by_cases ht : t = 1
    · subst ht
      simp [exPowerView]
      omega
    · simp [exPowerView, ht]
      omega
  | l + 2, hl => simp [exPowerCut] at hl

example : Geom.build 0 1 exPowerPolys = some (.ok ⟨[10, 5, 0], (fun k => if k = 0 then some [0] else if k = 1 then some [0, 1] else none)⟩) := by
  have h1 : Geom.layerOrder exPowerPolys = [10, 5, 0] := by decide
  unfold Geom.build
  dsimp only
  rw [h1]
  have h2 : Geom.fillLut [10, 5, 0] 0 exPowerPolys (fun _ => none) =
      .ok (fun k => if k = 0 then some [0] else if k = 1 then some [0, 1] else none) := by
    have : ∃ m, Geom.fillLut [10, 5, 0] 0 exPowerPolys (fun _ => none) = .ok m ∧ ∀ k, m k = if k = 0 then some [0] else if k = 1 then some [0, 1] else none := by
      refine ⟨_, rfl, fun k => ?_⟩
      match k with
      | 0 => rfl
      | 1 => rfl
      | k + 2 => rfl
    obtain ⟨m, h, hm⟩ := this
    rw [h]
    congr 1
    funext k
    exact hm k
  rw [h2]
  rfl

/-- the block is whole in the upper layer; in the lower one the smaller polygon would take half of it -/
example : Whole exPowerCut exPowerView exPowerMesh.length 0 0 ⟨⟨10, 5⟩, 7, fun T => T / 25 * 3⟩ ∧
    blockIn exPowerCut exPowerView (fun _ _ _ lut => lut 25) 2 1 0 ⟨⟨5, 0⟩, 7, fun T => T / 25 * 3⟩ = 3 / 2 := by
  refine ⟨⟨by decide, by decide, ⟨[0], rfl, by simp, ?_⟩, by decide, by decide +kernel⟩, by decide +kernel⟩
  intro t _ _ i hi hne
  simp at hi
  exact absurd hi hne

example : (match extract exPowerMesh 2 (infoOf exPowerCut exPowerView) with
    | .ok ls => (ls.map List.length, totalHeat (fun _ _ _ lut => lut 50) ls)
    | _ => ([], 0)) = ([2, 2], 6) := by decide +kernel

/-- a model of instances, cooled above -/
def exPowerModel (off : List Nat) (ps : List (Prism ℚ)) : PModel ℚ :=
  { off := off, prisms := ps, lines := [],
    area := fun _ => 1, edgeLen := fun _ _ => 1, toSide := fun _ _ => 1, dist := fun _ _ => 2, height := fun _ => 5,
    k := fun _ _ _ => 1, heat := fun _ _ => 1, rho := fun _ _ => 1, resist := fun _ _ => 1,
    topBC := some ⟨.htc, some 4⟩, botBC := none, topBlocks := [], botBlocks := [] }

/-- a network of the example -/
example : ∃ (m : PModel ℚ) (net : Network ℚ), Extracted m exPowerMesh 2 (infoOf exPowerCut exPowerView) [] ∧
    m.build (1 / 1000) (List.replicate m.total 50) = .ok (some net) ∧ ∀ p ∈ m.prisms, m.faces .heatFlux p = [] := by
  obtain ⟨off, ps, h, -⟩ := buildPrisms_eq exPowerMesh 2 (infoOf exPowerCut exPowerView)
  let m := exPowerModel off ps
  have hx : Extracted m exPowerMesh 2 (infoOf exPowerCut exPowerView) [] := ⟨h, rfl, by simp⟩
  obtain ⟨net, hb, -⟩ := c63_builds hx (1 / 1000) (iniT := List.replicate m.total 50) (by simp)
  refine ⟨m, net, hx, hb, fun p _ => ?_⟩
  simp [PModel.faces, m, exPowerModel, onFace]

end Ecad.PrismT
