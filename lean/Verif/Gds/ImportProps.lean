import Verif.Gds.ReaderProps
import Mathlib.Analysis.Real.Pi.Irrational
import Mathlib.Analysis.SpecialFunctions.Trigonometric.Basic
import Mathlib.Analysis.SpecialFunctions.Trigonometric.Angle
/-!
C45, C68, C69, C70: import of cells read from GDSII into layouts.
-/
namespace Ecad.Gds

/-! ### C45: arrays -/

/-- specification: the positions of an array with first position `p`, column step `c` and row step `r` -/
def lattice (p c r : Point) (cols rows : Nat) : List Point :=
  (List.range cols).flatMap fun i : Nat => (List.range rows).map fun j : Nat =>
    (p.1 + (i : Int) * c.1 + (j : Int) * r.1, p.2 + (i : Int) * c.2 + (j : Int) * r.2)

/-- specification: the points written into the file: first position, the position one step beyond the last column, the
position one step beyond the last row -/
def latticePoints (p c r : Point) (cols rows : Nat) : List Point :=
  [p, (p.1 + (cols : Int) * c.1, p.2 + (cols : Int) * c.2), (p.1 + (rows : Int) * r.1, p.2 + (rows : Int) * r.2)]

theorem mem_lattice (p c r : Point) (cols rows : Nat) (x : Point) : x ∈ lattice p c r cols rows ↔
    ∃ i j : Nat, i < cols ∧ j < rows ∧ x = (p.1 + (i : Int) * c.1 + (j : Int) * r.1, p.2 + (i : Int) * c.2 + (j : Int) * r.2) := by
  unfold lattice
  simp only [List.mem_flatMap, List.mem_range, List.mem_map]
  constructor
  · rintro ⟨i, hi, j, hj, rfl⟩; exact ⟨i, j, hi, hj, rfl⟩
  · rintro ⟨i, j, hi, hj, rfl⟩; exact ⟨i, hi, j, hj, rfl⟩

/-- coordinates in a basis are unique -/
theorem coords_unique {c r : Point} (hdet : c.1 * r.2 - c.2 * r.1 ≠ 0) {i j k l : Int} (h1 : i * c.1 + j * r.1 = k * c.1 + l * r.1)
    (h2 : i * c.2 + j * r.2 = k * c.2 + l * r.2) : i = k ∧ j = l := by
  have a : (i - k) * (c.1 * r.2 - c.2 * r.1) = 0 := by linear_combination r.2 * h1 - r.1 * h2
  have b : (j - l) * (c.1 * r.2 - c.2 * r.1) = 0 := by linear_combination c.1 * h2 - c.2 * h1
  have a' := (mul_eq_zero.1 a).resolve_right hdet
  have b' := (mul_eq_zero.1 b).resolve_right hdet
  omega

/-- **C45 is false of the code**: importing an array creates exactly the three instances at the points of the file, whatever
the numbers of columns and rows.  For every array with independent steps only the first of them is a position of the
array; the other `cols * rows - 1` positions stay empty. -/
theorem c45_array_refuted (cells : List Name) (cell : Name) (hc : cell ∈ cells) (p c r : Point) (hdet : c.1 * r.2 - c.2 * r.1 ≠ 0)
    (cols rows : Nat) (h1 : 1 ≤ cols) (h2 : 1 ≤ rows) (rot sc : ℚ) (st : Int) :
    (importRef cells (.array cell cols rows (latticePoints p c r cols rows) rot sc st)).map Inst.position = latticePoints p c r cols rows ∧
    (lattice p c r cols rows).Nodup ∧ (lattice p c r cols rows).length = cols * rows ∧
    ∀ x, (x ∈ (importRef cells (.array cell cols rows (latticePoints p c r cols rows) rot sc st)).map Inst.position ∧
      x ∈ lattice p c r cols rows) ↔ x = p := by
  have hpos : (importRef cells (.array cell cols rows (latticePoints p c r cols rows) rot sc st)).map Inst.position =
      latticePoints p c r cols rows := by
    unfold importRef
    simp only
    rw [if_pos hc]
    rfl
  refine ⟨hpos, ?_, ?_, ?_⟩
  · unfold lattice
    rw [List.nodup_flatMap]
    refine ⟨?_, ?_⟩
    · intro i _
      refine List.Nodup.map ?_ List.nodup_range
      intro j l h
      simp only [Prod.mk.injEq] at h
      have := (coords_unique hdet (i := i) (j := j) (k := i) (l := l) (by linarith [h.1]) (by linarith [h.2])).2
      exact_mod_cast this
    · refine List.Pairwise.imp ?_ (List.nodup_range (n := cols))
      intro i k hik x hx hy
      simp only [List.mem_map, List.mem_range] at hx hy
      obtain ⟨j, _, rfl⟩ := hx
      obtain ⟨l, _, h⟩ := hy
      simp only [Prod.mk.injEq] at h
      have := (coords_unique hdet (i := i) (j := j) (k := k) (l := l) (by linarith [h.1]) (by linarith [h.2])).1
      exact hik (by exact_mod_cast this)
  · unfold lattice
    simp [List.length_flatMap]
  · intro x
    rw [hpos, mem_lattice]
    constructor
    · rintro ⟨hx, i, j, hi, hj, rfl⟩
      simp only [latticePoints, List.mem_cons, List.not_mem_nil, or_false] at hx
      rcases hx with h | h | h
      · exact h
      · simp only [Prod.mk.injEq] at h
        have := (coords_unique hdet (i := i) (j := j) (k := cols) (l := 0) (by linarith [h.1]) (by linarith [h.2])).1
        omega
      · simp only [Prod.mk.injEq] at h
        have := (coords_unique hdet (i := i) (j := j) (k := 0) (l := rows) (by linarith [h.1]) (by linarith [h.2])).2
        omega
    · rintro rfl
      refine ⟨by simp [latticePoints], 0, 0, by omega, by omega, by simp⟩

/-- **C45**, what holds: the first instance is at the first position, and all instances are of the cell named, with scale and
rotation of the array. -/
theorem c45_array_partial (cells : List Name) (cell : Name) (hc : cell ∈ cells) (p c r : Point) (cols rows : Nat)
    (rot sc : ℚ) (st : Int) :
    ∃ i is, importRef cells (.array cell cols rows (latticePoints p c r cols rows) rot sc st) = i :: is ∧ i.position = p ∧
      ∀ x ∈ i :: is, x.cell = cell ∧ x.scale = sc ∧ x.rotation = rot := by
  unfold importRef
  simp only
  rw [if_pos hc]
  refine ⟨_, _, rfl, rfl, ?_⟩
  simp

example : ([65] : Name) ∈ ([[64], [65]] : List Name) ∧ ((20, 1) : Point).1 * ((-1, 30) : Point).2 - ((20, 1) : Point).2 * ((-1, 30) : Point).1 ≠ 0 := by
  decide

/-! ### layer ids -/

theorem idsOf_addId (m : List (Int × List Nat)) (key : Int) (id : Nat) (x : Int) :
    idsOf (addId m key id) x = if x = key then idsOf m x ++ [id] else idsOf m x := by
  induction m with
  | nil =>
    unfold addId idsOf
    by_cases h : x = key
    · subst h; simp
    · rw [if_neg (fun e => h e.symm), if_neg h]
      rfl
  | cons q m ih =>
    obtain ⟨k, l⟩ := q
    rw [addId]
    by_cases hk : k = key
    · subst hk
      rw [if_pos rfl]
      simp only [idsOf]
      by_cases hx : x = k
      · subst hx; simp
      · rw [if_neg (fun e => hx e.symm), if_neg hx, if_neg (fun e => hx e.symm)]
    · rw [if_neg hk]
      simp only [idsOf]
      by_cases hx : k = x
      · subst hx
        rw [if_pos rfl, if_pos rfl, if_neg hk]
      · rw [if_neg hx, if_neg hx, ih]

theorem idsOf_fromDb (order : List Int) : ∀ (id : Nat) (m : List (Int × List Nat)) (x : Int),
    idsOf (layersFromDb order id m).2 x = idsOf m x ++ ((order.zipIdx id).filter (fun q => q.1 = x)).map (·.2) := by
  induction order with
  | nil => intro id m x; simp [layersFromDb]
  | cons l order ih =>
    intro id m x
    rw [layersFromDb]
    simp only
    rw [ih, idsOf_addId, List.zipIdx_cons, List.filter_cons]
    by_cases h : x = l
    · subst h; simp
    · rw [if_neg h, if_neg (by simpa using fun e => h e.symm)]

theorem stack_fromDb (order : List Int) : ∀ (id : Nat) (m : List (Int × List Nat)),
    (layersFromDb order id m).1 = order.map fun l => ⟨.inr l, true, 0, 0⟩ := by
  induction order with
  | nil => intro id m; rfl
  | cons l order ih => intro id m; rw [layersFromDb]; simp only; rw [ih]; rfl

theorem idsOf_fromMap (rows : List LayerRow) : ∀ (el : ℚ) (id : Nat) (m : List (Int × List Nat)) (x : Int),
    idsOf (layersFromMap rows el id m).2 x = idsOf m x ++ ((rows.zipIdx id).filter (fun q => q.1.layerId = x)).map (·.2) := by
  induction rows with
  | nil => intro el id m x; simp [layersFromMap]
  | cons l rows ih =>
    intro el id m x
    rw [layersFromMap]
    simp only
    rw [ih, idsOf_addId, List.zipIdx_cons, List.filter_cons]
    by_cases h : x = l.layerId
    · subst h; simp
    · rw [if_neg h, if_neg (by simpa using fun e => h e.symm)]

theorem stack_fromMap (rows : List LayerRow) : ∀ (el : ℚ) (id : Nat) (m : List (Int × List Nat)) (k : Nat),
    (layersFromMap rows el id m).1[k]? = rows[k]?.map fun r => ⟨.inl r.name, r.conducting, el - ((rows.take k).map LayerRow.thickness).sum, r.thickness⟩ := by
  induction rows with
  | nil => intro el id m k; simp [layersFromMap]
  | cons l rows ih =>
    intro el id m k
    rw [layersFromMap]
    cases k with
    | zero => simp
    | succ k =>
      simp only [List.getElem?_cons_succ]
      rw [ih]
      simp only [List.take_succ_cons, List.map_cons, List.sum_cons]
      congr 1
      funext r
      congr 1
      ring

theorem mem_zip_filter {A : Type} (l : List A) (p : A → Bool) (i : Nat) :
    i ∈ ((l.zipIdx 0).filter (fun q => p q.1)).map (·.2) ↔ ∃ a, l[i]? = some a ∧ p a := by
  simp only [List.mem_map, List.mem_filter]
  constructor
  · rintro ⟨⟨a, k⟩, ⟨h1, h2⟩, rfl⟩
    rw [List.mem_zipIdx_iff_getElem?] at h1
    exact ⟨a, h1, h2⟩
  · rintro ⟨a, h1, h2⟩
    refine ⟨(a, i), ⟨?_, h2⟩, rfl⟩
    rw [List.mem_zipIdx_iff_getElem?]
    exact h1

/-! ### C68: layers without a layer map -/

/-- **C68**, what holds: the layers made without a layer map are those of the elements of the file (of elements that say no
layer: −1), each once, and the objects of each are put on the layer made for it, in whatever order the unordered set
yields the layers. -/
theorem c68_layers_partial (l : Lib) (d : Db) (hd : ∀ x, x ∈ d.layers ↔ ∃ s ∈ l.structs, ∃ e ∈ s.elems, e.layer = x)
    (order : List Int) (hn : order.Nodup) (ho : ∀ x, x ∈ order ↔ x ∈ d.layers) :
    (∀ k : Stack, k ∈ (layersFromDb order 0 []).1 ↔ ∃ s ∈ l.structs, ∃ e ∈ s.elems, k = ⟨.inr e.layer, true, 0, 0⟩) ∧
    ((layersFromDb order 0 []).1.map Stack.name).Nodup ∧
    ∀ s ∈ l.structs, ∀ e ∈ s.elems, ∃ i, idsOf (layersFromDb order 0 []).2 e.layer = [i] ∧
      (layersFromDb order 0 []).1[i]? = some ⟨.inr e.layer, true, 0, 0⟩ := by
  rw [stack_fromDb]
  refine ⟨?_, ?_, ?_⟩
  · intro k
    simp only [List.mem_map, ho, hd]
    constructor
    · rintro ⟨x, ⟨s, hs, e, he, rfl⟩, rfl⟩; exact ⟨s, hs, e, he, rfl⟩
    · rintro ⟨s, hs, e, he, rfl⟩; exact ⟨_, ⟨s, hs, e, he, rfl⟩, rfl⟩
  · rw [List.map_map]
    exact hn.map (by intro a b h; simpa using h)
  · intro s hs e he
    have hx : e.layer ∈ order := (ho _).2 ((hd _).2 ⟨s, hs, e, he, rfl⟩)
    obtain ⟨i, hi, hie⟩ := List.getElem_of_mem hx
    refine ⟨i, ?_, ?_⟩
    · rw [idsOf_fromDb]
      simp only [idsOf, List.nil_append]
      have hmem : ∀ k, k ∈ ((order.zipIdx 0).filter (fun q => q.1 = e.layer)).map (·.2) ↔ k = i := by
        intro k
        rw [mem_zip_filter order (fun a => decide (a = e.layer))]
        constructor
        · rintro ⟨a, h1, h2⟩
          simp only [decide_eq_true_eq] at h2
          subst h2
          obtain ⟨hk, hke⟩ := List.getElem?_eq_some_iff.1 h1
          exact (List.Nodup.getElem_inj_iff hn).1 (hke.trans hie.symm)
        · rintro rfl
          exact ⟨_, List.getElem?_eq_some_iff.2 ⟨hi, hie⟩, by simp⟩
      have hnd : (((order.zipIdx 0).filter (fun q => q.1 = e.layer)).map (·.2)).Nodup := by
        have h0 : ((order.zipIdx 0).map (·.2)).Nodup := by
          have : (order.zipIdx 0).map (·.2) = List.range' 0 order.length := by simp [List.zipIdx_map_snd]
          rw [this]
          exact List.nodup_range'
        exact h0.sublist (List.filter_sublist.map _)
      exact List.perm_singleton.1 ((List.perm_ext_iff_of_nodup hnd (by simp)).2 (by simpa using hmem))
    · rw [List.getElem?_map, List.getElem?_eq_getElem hi, hie]
      rfl

/-- **C68 is false of the code for files with references**: every reference makes for a layer with number −1, which no
shape is on. -/
theorem c68_reference_refuted (l : Lib) (d : Db) (hd : ∀ x, x ∈ d.layers ↔ ∃ s ∈ l.structs, ∃ e ∈ s.elems, e.layer = x)
    (order : List Int) (ho : ∀ x, x ∈ order ↔ x ∈ d.layers) (s : Struct) (hs : s ∈ l.structs) (e : Elem) (he : e ∈ s.elems)
    (hl : ∀ a ∈ e.attrs, ∀ v, a ≠ .layer v) : ⟨.inr (-1), true, 0, 0⟩ ∈ (layersFromDb order 0 []).1 := by
  rw [stack_fromDb]
  have : e.layer = -1 := by
    unfold Elem.layer Elem.says
    rw [List.filterMap_eq_nil_iff.2]
    · rfl
    · intro a ha
      have := hl a ha
      cases a <;> first | rfl | exact absurd rfl (this _)
  exact List.mem_map_of_mem (f := fun l => (⟨.inr l, true, 0, 0⟩ : Stack)) ((ho _).2 ((hd _).2 ⟨s, hs, e, he, this⟩))

/-- the library of the example has such an element, and its layers are found by `c44_cells_partial` -/
example : ∃ s ∈ exLib.structs, ∃ e ∈ s.elems, e.kind = .sref ∧ e.layer = -1 := by
  refine ⟨_, by simp only [exLib]; exact List.mem_cons_of_mem _ (List.mem_cons_self ..), _, List.mem_cons_self .., rfl, by decide⟩

/-! ### C69: layers from a layer map -/

/-- **C69**, what holds: with a layer map every row becomes a layer with its name, kind and thickness, stacked downwards
from 0 without gaps, and a polygon is put on exactly the layers of the rows with its layer number, once on each. -/
theorem c69_rows_partial (rows : List LayerRow) (layer dataType : Int) (pts : List Point) :
    (∀ k : Nat, (layersFromMap rows 0 0 []).1[k]? = rows[k]?.map fun r =>
      ⟨.inl r.name, r.conducting, - ((rows.take k).map LayerRow.thickness).sum, r.thickness⟩) ∧
    (∀ o, o ∈ importObj (layersFromMap rows 0 0 []).2 (.polygon layer dataType pts) ↔
      ∃ k r, rows[k]? = some r ∧ r.layerId = layer ∧ o = .polygon k pts) ∧
    (importObj (layersFromMap rows 0 0 []).2 (.polygon layer dataType pts)).Nodup := by
  have hmem : ∀ k, k ∈ idsOf (layersFromMap rows 0 0 []).2 layer ↔ ∃ r, rows[k]? = some r ∧ r.layerId = layer := by
    intro k
    rw [idsOf_fromMap]
    simp only [idsOf, List.nil_append]
    rw [mem_zip_filter rows (fun r => decide (r.layerId = layer))]
    simp
  refine ⟨?_, ?_, ?_⟩
  · intro k
    rw [stack_fromMap]
    simp
  · intro o
    unfold importObj
    simp only [List.mem_map, hmem]
    constructor
    · rintro ⟨k, ⟨r, h1, h2⟩, rfl⟩; exact ⟨k, r, h1, h2, rfl⟩
    · rintro ⟨k, r, h1, h2, rfl⟩; exact ⟨k, ⟨r, h1, h2⟩, rfl⟩
  · unfold importObj
    simp only
    refine List.Nodup.map ?_ ?_
    · intro a b h; simpa using h
    · rw [idsOf_fromMap]
      simp only [idsOf, List.nil_append]
      have h0 : ((rows.zipIdx 0).map (·.2)).Nodup := by
        have : (rows.zipIdx 0).map (·.2) = List.range' 0 rows.length := by simp [List.zipIdx_map_snd]
        rw [this]
        exact List.nodup_range'
      exact h0.sublist (List.filter_sublist.map _)

/-- **C69 is false of the code for maps that tell data types apart**: a polygon is put on the layer of every row with its
layer number, whatever the data type of the row is. -/
theorem c69_datatype_refuted (rows : List LayerRow) (k : Nat) (r : LayerRow) (hk : rows[k]? = some r) (dataType : Int)
    (_hne : dataType ≠ r.dataType) (pts : List Point) :
    Prim.polygon k pts ∈ importObj (layersFromMap rows 0 0 []).2 (.polygon r.layerId dataType pts) :=
  ((c69_rows_partial rows r.layerId dataType pts).2.1 _).2 ⟨k, r, hk, rfl, rfl⟩

/-- example: two rows for one layer -/
example : let rows : List LayerRow := [⟨[77, 49], true, 5, 0, 1 / 2⟩, ⟨[86], false, 7, 0, 3⟩, ⟨[77, 50], true, 5, 1, 1 / 4⟩]
    (∃ r, rows[2]? = some r ∧ (0 : Int) ≠ r.dataType) ∧
    importObj (layersFromMap rows 0 0 []).2 (.polygon 5 0 [(0, 0)]) = [.polygon 0 [(0, 0)], .polygon 2 [(0, 0)]] := by
  refine ⟨⟨_, rfl, by decide⟩, by decide +kernel⟩

/-! ### C80: geometry of imported objects -/

/-- specification: what an object of the file is on a layer of the layout -/
def Obj.on (k : Nat) : Obj → Option Prim
  | .polygon _ _ pts => some (.polygon k pts)
  | .path _ _ pathType width pts => some (.path k pathType width pts)
  | .text _ _ _ str pos _ _ rot sc _ => some (.text k str sc rot pos)
  | .ref .. | .array .. => none

/-- specification: the layer an object is on in the file -/
def Obj.layerOf : Obj → Option Int
  | .polygon l .. | .path l .. | .text l .. => some l
  | .ref .. | .array .. => none

/-- **C80**, what holds: every polygon and path is on each layer of its layer number, with its points, width and kind
of ends, and nothing else is made of it. -/
theorem c80_shapes_partial (m : List (Int × List Nat)) (o : Obj) (l : Int) (ho : o.layerOf = some l)
    (ht : ∀ a b c d e f g h i j, o ≠ .text a b c d e f g h i j) : (importObj m o).map some = (idsOf m l).map fun k => o.on k := by
  cases o with
  | polygon a b c => simp only [Obj.layerOf, Option.some.injEq] at ho; subst ho; simp [importObj, Obj.on]
  | path a b c d e => simp only [Obj.layerOf, Option.some.injEq] at ho; subst ho; simp [importObj, Obj.on]
  | text => exact absurd rfl (ht _ _ _ _ _ _ _ _ _ _)
  | ref => simp [Obj.layerOf] at ho
  | array => simp [Obj.layerOf] at ho

/-- references make no shapes -/
theorem c80_references (m : List (Int × List Nat)) (o : Obj) (ho : o.layerOf = none) : importObj m o = [] := by
  cases o <;> simp_all [Obj.layerOf, importObj]

/-- **C80 is false of the code for texts**: every text is put at the origin, unscaled and not rotated; a text that is elsewhere in the file
is not where it belongs on any layer. -/
theorem c80_text_refuted (m : List (Int × List Nat)) (o : Obj) (l : Int) (dt tt : Int) (str : Name) (pos : Point) (pr w : Int) (rot sc : ℚ) (st : Int)
    (ho : o = .text l dt tt str pos pr w rot sc st) (hp : pos ≠ (0, 0) ∨ rot ≠ 0 ∨ sc ≠ 1) :
    (importObj m o = (idsOf m l).map fun k => .text k str 1 0 (0, 0)) ∧ ∀ k, ∀ q ∈ importObj m o, o.on k ≠ some q := by
  subst ho
  refine ⟨rfl, ?_⟩
  intro k q hq h
  simp only [importObj, createText, List.mem_map] at hq
  obtain ⟨i, _, rfl⟩ := hq
  simp only [Obj.on, Option.some.injEq, Prim.text.injEq] at h
  obtain ⟨_, _, h1, h2, h3⟩ := h
  rcases hp with h | h | h
  · exact h h3
  · exact h h2
  · exact h h1

/-- example: a path and a text on a layer with two ids -/
example : importObj [(3, [0, 4])] (.path 3 0 2 50 [(0, 0), (9, 0)]) = [.path 0 2 50 [(0, 0), (9, 0)], .path 4 2 50 [(0, 0), (9, 0)]] ∧
    importObj [(3, [0])] (.text 3 0 0 [65] (7, 8) 0 0 0 1 0) = [.text 0 [65] 1 0 (0, 0)] := by decide +kernel

/-! ### C70: orientation of references -/

/-- specification: the rotation of the plane by an angle in radians, as the image of the x axis -/
noncomputable def turned (radians : ℝ) : ℝ × ℝ := (Real.cos radians, Real.sin radians)

/-- **C70 is false of the code for rotated references**: the angle in the file is in degrees, and is stored as a rotation in
radians.  For every angle other than 0 the orientation is wrong. -/
theorem c70_rotation_refuted (cells : List Name) (cell : Name) (hc : cell ∈ cells) (pos : Point) (sc : ℚ) (st : Int) (degrees : ℚ)
    (h : degrees ≠ 0) : ∃ i, importRef cells (.ref cell pos degrees sc st) = [i] ∧
      turned (i.rotation : ℝ) ≠ turned ((degrees : ℝ) * Real.pi / 180) := by
  unfold importRef
  simp only
  rw [if_pos hc]
  refine ⟨_, rfl, ?_⟩
  simp only
  intro he
  unfold turned at he
  simp only [Prod.mk.injEq] at he
  have hang : ((degrees : ℝ) : Real.Angle) = (((degrees : ℝ) * Real.pi / 180 : ℝ) : Real.Angle) :=
    Real.Angle.cos_sin_inj he.1 he.2
  rw [Real.Angle.angle_eq_iff_two_pi_dvd_sub] at hang
  obtain ⟨k, hk⟩ := hang
  have hpi : Real.pi * (((2 * k + degrees / 180 : ℚ)) : ℝ) = (degrees : ℝ) := by
    push_cast
    linarith
  by_cases hz : (2 * k + degrees / 180 : ℚ) = 0
  · rw [hz] at hpi
    simp only [Rat.cast_zero, mul_zero] at hpi
    exact h (by exact_mod_cast hpi.symm)
  · apply irrational_pi
    refine ⟨degrees / (2 * k + degrees / 180), ?_⟩
    rw [Rat.cast_div, div_eq_iff (by exact_mod_cast hz)]
    exact hpi.symm

/-- **C70**, what holds: position, magnification and cell of every reference, and its orientation if it is neither rotated
nor mirrored.  Missing: rotated references, see `c70_rotation_refuted`; mirrored references (bit 15 of the transformation
flags), see `c70_mirror_refuted`. -/
theorem c70_reference_partial (cells : List Name) (cell : Name) (hc : cell ∈ cells) (pos : Point) (sc : ℚ) (st : Int) (degrees : ℚ) :
    ∃ i, importRef cells (.ref cell pos degrees sc st) = [i] ∧ i.cell = cell ∧ i.position = pos ∧ i.scale = sc ∧
      (degrees = 0 → turned (i.rotation : ℝ) = turned ((degrees : ℝ) * Real.pi / 180)) := by
  unfold importRef
  simp only
  rw [if_pos hc]
  refine ⟨_, rfl, rfl, rfl, rfl, ?_⟩
  rintro rfl
  simp

/-- **C70 is false of the code for mirrored references**: two references that differ only in the transformation flags, one
mirrored and one not, are imported as the same instance. -/
theorem c70_mirror_refuted (cells : List Name) (cell : Name) (pos : Point) (sc degrees : ℚ) (st st' : Int) :
    importRef cells (.ref cell pos degrees sc st) = importRef cells (.ref cell pos degrees sc st') := rfl

/-- **C70 is false of the code for references to unknown cells**: they are left out without a report. -/
theorem c70_unknown_refuted (cells : List Name) (cell : Name) (hc : cell ∉ cells) (pos : Point) (sc degrees : ℚ) (st : Int) :
    importRef cells (.ref cell pos degrees sc st) = [] := by
  unfold importRef
  simp only
  rw [if_neg hc]

example : ([65] : Name) ∈ ([[65]] : List Name) ∧ ((90 : ℚ) ≠ 0) := by decide +kernel

end Ecad.Gds
