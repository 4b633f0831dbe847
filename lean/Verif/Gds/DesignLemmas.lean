import Verif.Gds.DesignModel
import Verif.Gds.ImportProps
import Verif.Hier.Props
import Verif.Shape.Props
/-!
Lemmas about the database made of a GDSII file: its layers, its cells, what flattening makes of them.
-/
namespace Ecad.GdsD
open Hier (Layout noNet)
open LayerMap (BiMap forward noLayer componentLayer)

/-! ### layers -/

theorem appendAll_eq (ys : List Layer.Lyr) : ∀ l : List Layer.Lyr,
    (Layer.appendAll l ys).1 = l ++ (ys.zipIdx l.length).map fun y => { y.1 with id := (y.2 : Int) } := by
  induction ys with
  | nil => intro l; simp [Layer.appendAll]
  | cons y ys ih =>
    intro l
    rw [Layer.appendAll]
    simp only
    rw [ih]
    simp [Layer.append]

/-- the layers every cell gets -/
def layersIn (stack : List Gds.Stack) : List Layer.Lyr := (Layer.appendAll [] (stack.map lyrOf)).1

theorem mem_layersIn (stack : List Gds.Stack) (i : Nat) (h : i < stack.length) : ∃ y ∈ layersIn stack, y.id = (i : Int) := by
  unfold layersIn
  rw [appendAll_eq]
  refine ⟨{ lyrOf stack[i] with id := (i : Int) }, ?_, rfl⟩
  simp only [List.nil_append, List.length_nil, List.mem_map]
  refine ⟨(lyrOf stack[i], i), ?_, rfl⟩
  rw [List.mem_zipIdx_iff_getElem?]
  simp [h]

theorem ids_layersIn (stack : List Gds.Stack) : ∀ y ∈ layersIn stack, 0 ≤ y.id := by
  unfold layersIn
  rw [appendAll_eq]
  intro y hy
  simp only [List.nil_append, List.mem_map] at hy
  obtain ⟨q, _, rfl⟩ := hy
  simp

theorem diag_fold (l : List Layer.Lyr) : ∀ m : BiMap, LayerMap.Reach m → (∀ y ∈ l, 0 ≤ y.id) → (∀ e ∈ m, e.1 = e.2) →
    LayerMap.Reach (l.foldl (fun m y => LayerMap.setMapping m y.id y.id) m) ∧
    (∀ e ∈ m, e ∈ l.foldl (fun m y => LayerMap.setMapping m y.id y.id) m) ∧
    ∀ y ∈ l, (y.id, y.id) ∈ l.foldl (fun m y => LayerMap.setMapping m y.id y.id) m := by
  induction l with
  | nil => intro m hm _ _; exact ⟨hm, fun e h => h, by simp⟩
  | cons y l ih =>
    intro m hm h0 hd
    have hr : LayerMap.Reach (LayerMap.setMapping m y.id y.id) :=
      .set _ _ hm (.inl (h0 y (by simp))) (.inl (h0 y (by simp)))
    have hd' : ∀ e ∈ LayerMap.setMapping m y.id y.id, e.1 = e.2 := by
      intro e he
      rcases LayerMap.mem_of_mem_insert he with rfl | h
      · rfl
      · exact hd e h
    obtain ⟨a, b, c⟩ := ih _ hr (fun z hz => h0 z (by simp [hz])) hd'
    refine ⟨a, fun e he => b e (LayerMap.mem_insert_of_mem he), ?_⟩
    intro z hz
    rcases List.mem_cons.1 hz with rfl | hz
    · apply b
      unfold LayerMap.setMapping
      rcases LayerMap.conflict_or_free m z.id z.id with ⟨e, he, h⟩ | hf
      · rw [LayerMap.insert_of_conflict ⟨e, he, h⟩]
        have := hd e he
        have e1 : e = (z.id, z.id) := by
          rcases h with h | h
          · exact Prod.ext h (by simp [← this, h])
          · exact Prod.ext (by simp [this, h]) h
        exact e1 ▸ he
      · rw [LayerMap.insert_of_free hf]
        exact LayerMap.mem_insertSorted.2 (.inl rfl)
    · exact c z hz

theorem diag_layersIn (stack : List Gds.Stack) : LayerMap.Reach (Layer.defaultLayerMap (layersIn stack)) ∧
    ∀ i : Nat, i < stack.length → forward (Layer.defaultLayerMap (layersIn stack)) (i : Int) = (i : Int) := by
  obtain ⟨a, _, c⟩ := diag_fold (layersIn stack) LayerMap.new .new (ids_layersIn stack) (by decide)
  refine ⟨a, ?_⟩
  intro i hi
  obtain ⟨y, hy, e⟩ := mem_layersIn stack i hi
  have := c y hy
  rw [e] at this
  exact LayerMap.forward_of_mem a.good.1 this

/-! ### cells -/

/-- the cell without its references -/
def bare (stack : List Gds.Stack) (m : List (Int × List Nat)) (c : Gds.Cell) : Gds.Name × Layout Geo (Shp.Aff ℚ) :=
  (c.name, { layers := layersIn stack, prims := c.objects.flatMap (primsOf m) })

/-- the cell with its references -/
def full (rad : ℚ → ℚ × ℚ) (names : List Gds.Name) (stack : List Gds.Stack) (m : List (Int × List Nat)) (c : Gds.Cell) :
    Gds.Name × Layout Geo (Shp.Aff ℚ) :=
  (c.name, { layers := layersIn stack, prims := c.objects.flatMap (primsOf m),
             insts := (Gds.importRefs names c).map (instOf rad names) })

theorem makeCells_eq (stack : List Gds.Stack) (m : List (Int × List Nat)) (cs : List Gds.Cell) : ∀ ds : Cells,
    (cs.map Gds.Cell.name).Nodup → (∀ c ∈ cs, c.name ∉ ds.map Prod.fst) →
    makeCells stack m ds cs = .ok (ds ++ cs.map (bare stack m)) := by
  induction cs with
  | nil => intro ds _ _; simp [makeCells]
  | cons c cs ih =>
    intro ds hn hd
    rw [makeCells, if_neg (hd c (by simp))]
    rw [List.map_cons, List.nodup_cons] at hn
    rw [ih _ hn.2]
    · simp [bare, layersIn]
    · intro c' hc'
      simp only [List.map_append, List.map_cons, List.map_nil, List.mem_append, List.mem_singleton, not_or]
      refine ⟨hd c' (by simp [hc']), ?_⟩
      intro e
      exact hn.1 (e ▸ List.mem_map_of_mem hc')

theorem map_fst_bare (stack : List Gds.Stack) (m : List (Int × List Nat)) (cs : List Gds.Cell) :
    (cs.map (bare stack m)).map Prod.fst = cs.map Gds.Cell.name := by simp [Function.comp_def, bare]

theorem map_fst_full (rad : ℚ → ℚ × ℚ) (names : List Gds.Name) (stack : List Gds.Stack) (m : List (Int × List Nat)) (cs : List Gds.Cell) :
    (cs.map (full rad names stack m)).map Prod.fst = cs.map Gds.Cell.name := by simp [Function.comp_def, full]

theorem makeRefs_eq (rad : ℚ → ℚ × ℚ) (stack : List Gds.Stack) (m : List (Int × List Nat)) (names : List Gds.Name)
    (B : List Gds.Cell) : ∀ A : List Gds.Cell, (A ++ B).map Gds.Cell.name = names → names.Nodup →
    makeRefs rad (A.map (full rad names stack m) ++ B.map (bare stack m)) B = .ok ((A ++ B).map (full rad names stack m)) := by
  induction B with
  | nil => intro A _ _; simp [makeRefs]
  | cons c B ih =>
    intro A hnm hn
    have hfst : (A.map (full rad names stack m) ++ (c :: B).map (bare stack m)).map Prod.fst = names := by
      rw [List.map_append, map_fst_full, map_fst_bare, ← List.map_append, hnm]
    rw [makeRefs, hfst, if_pos (by rw [← hnm]; simp)]
    have hA : ∀ a ∈ A, a.name ≠ c.name := by
      rw [← hnm, List.map_append, List.nodup_append] at hn
      intro a ha
      exact hn.2.2 _ (List.mem_map_of_mem ha) _ (by simp)
    have hB : ∀ b ∈ B, b.name ≠ c.name := by
      rw [← hnm, List.map_append, List.nodup_append] at hn
      have := hn.2.1
      rw [List.map_cons, List.nodup_cons] at this
      intro b hb e
      exact this.1 (e ▸ List.mem_map_of_mem hb)
    have key : addInsts c.name ((Gds.importRefs names c).map (instOf rad names)) (A.map (full rad names stack m) ++ (c :: B).map (bare stack m)) =
        (A ++ [c]).map (full rad names stack m) ++ B.map (bare stack m) := by
      unfold addInsts
      rw [List.map_append, List.map_map, List.map_cons, List.map_cons, List.map_map, List.map_append, List.append_assoc]
      congr 1
      · apply List.map_congr_left
        intro a ha
        have : (full rad names stack m a).1 ≠ c.name := hA a ha
        simp only [Function.comp, if_neg this]
      · have e1 : (bare stack m c).1 = c.name := rfl
        rw [if_pos e1]
        have : List.map ((fun d : Gds.Name × Layout Geo (Shp.Aff ℚ) => if d.1 = c.name then (d.1, { d.2 with insts := d.2.insts ++ (Gds.importRefs names c).map (instOf rad names) }) else d) ∘ bare stack m) B =
            B.map (bare stack m) := by
          apply List.map_congr_left
          intro b hb
          have : (bare stack m b).1 ≠ c.name := hB b hb
          simp only [Function.comp, if_neg this]
        rw [this]
        simp [bare, full]
    rw [key, ih (A ++ [c]) (by rw [← hnm]; simp) hn]
    simp

theorem fill_eq (rad : ℚ → ℚ × ℚ) (order : List Int → List Int) (d : Gds.Db) (rows : Option (List Gds.LayerRow))
    (hn : (d.cells.map Gds.Cell.name).Nodup) :
    fill rad order d rows = .ok ⟨d.unit, d.precision, (layersOf order d rows).1,
      d.cells.map (full rad (d.cells.map Gds.Cell.name) (layersOf order d rows).1 (layersOf order d rows).2)⟩ := by
  unfold fill
  rw [makeCells_eq _ _ _ _ hn (by simp), Res.bind_ok, List.nil_append]
  have := makeRefs_eq rad (layersOf order d rows).1 (layersOf order d rows).2 (d.cells.map Gds.Cell.name) d.cells [] (by simp) hn
  rw [List.map_nil, List.nil_append, List.nil_append] at this
  rw [this, Res.bind_ok]

/-! ### flattening -/

theorem addAll_prims {G T : Type} (act : T → G → G) (fwd : Hier.Inst T → Int → Int) (sub : Nat → Hier.Exp G) (is : List (Hier.Inst T)) :
    ∀ (k : Nat) (e : Hier.Exp G), (Hier.Exp.addAll act fwd sub k e is).prims.map Prod.snd = e.prims.map Prod.snd ++
      is.flatMap fun i => ((sub i.defCell).prims.map Prod.snd).map (Hier.place act (fwd i) i.trans) := by
  induction is with
  | nil => intro k e; simp [Hier.Exp.addAll]
  | cons i is ih =>
    intro k e
    rw [Hier.Exp.addAll, ih]
    simp [Hier.Exp.append, Hier.Exp.under, Function.comp_def]

/-- the primitives of an expanded cell -/
def flat (db : Hier.Db Geo (Shp.Aff ℚ)) (n k : Nat) : List (Hier.Prim Geo) := (Hier.expand act db n k).prims.map Prod.snd

theorem flat_succ (db : Hier.Db Geo (Shp.Aff ℚ)) (n k : Nat) : flat db (n + 1) k = (db k).prims ++
    (db k).insts.flatMap fun i => (flat db n i.defCell).map (Hier.place act (Hier.layerFn (db k) i) i.trans) := by
  unfold flat
  rw [Hier.expand, addAll_prims]
  congr 1
  simp [Hier.Exp.own, Function.comp_def]

theorem netTotal_zero (db : Hier.Db Geo (Shp.Aff ℚ)) (h : ∀ c, (db c).nets.uid = 0) (n : Nat) : ∀ c, Hier.netTotal db n c = 0 := by
  induction n with
  | zero => intro c; rfl
  | succ n ih => intro c; simp [Hier.netTotal, h, ih]

/-- a primitive as the import makes it -/
def Plain (N : Nat) (p : Hier.Prim Geo) : Prop := p.net = noNet ∧ p.wire = none ∧ ∃ i : Nat, i < N ∧ p.layer = (i : Int)

/-- Flattening a design with plain primitives, neither nets nor components, and no layer maps. -/
theorem flatten_plain (db : Hier.Db Geo (Shp.Aff ℚ)) (stack : List Gds.Stack) (rank : Nat → Nat)
    (hac : ∀ c, ∀ i ∈ (db c).insts, rank i.defCell < rank c)
    (hnet : ∀ c, (db c).nets = {}) (hcomp : ∀ c, (db c).comps = []) (hpad : ∀ c, (db c).pads = [])
    (hpl : ∀ c, ∀ p ∈ (db c).prims, Plain stack.length p)
    (hlay : ∀ c, ∀ i ∈ (db c).insts, i.layerMap = none ∧ (db c).layers = layersIn stack)
    (comp : Shp.Aff ℚ → Shp.Aff ℚ → Shp.Aff ℚ) (sep : Char) (tasks : List Nat) (depth : Nat) (hdepth : ∀ c ∈ tasks, rank c < depth) :
    (∃ db', Hier.runTasks act comp sep depth db tasks = .ok db' ∧
      ∀ top ∈ tasks, (db' top).insts = [] ∧ (db' top).prims = flat db (rank top + 1) top) ∧
    ∀ n c, ∀ p ∈ flat db n c, Plain stack.length p := by
  obtain ⟨hr, hfw⟩ := diag_layersIn stack
  have hfn : ∀ c, ∀ i ∈ (db c).insts, Hier.layerFn (db c) i = forward (Layer.defaultLayerMap (layersIn stack)) := by
    intro c i hi
    unfold Hier.layerFn
    obtain ⟨a, b⟩ := hlay c i hi
    rw [a, b]
  have hflat : ∀ n c, ∀ p ∈ flat db n c, Plain stack.length p := by
    intro n
    induction n with
    | zero => intro c p hp; simp [flat, Hier.expand] at hp
    | succ n ih =>
      intro c p hp
      rw [flat_succ, List.mem_append, List.mem_flatMap] at hp
      rcases hp with hp | ⟨i, hi, hp⟩
      · exact hpl c p hp
      · obtain ⟨q, hq, rfl⟩ := List.mem_map.1 hp
        obtain ⟨a, b, j, hj, e⟩ := ih _ q hq
        refine ⟨a, by simp [Hier.place, b], j, hj, ?_⟩
        simp only [Hier.place]
        rw [hfn c i hi, e, hfw j hj]
  refine ⟨?_, hflat⟩
  obtain ⟨db', h1, h2⟩ := Hier.c18_flatten act comp sep db rank hac
    (by
      intro c
      refine ⟨⟨[], by rw [hnet]; rfl⟩, fun p hp => .inl (hpl c p hp).1, by simp [hpad], by simp [hcomp], ?_, ?_, ?_⟩
      all_goals
        intro p hp w hw
        rw [(hpl c p hp).2.1] at hw
        cases hw)
    (by intro c i hi; rw [hfn c i hi]; exact Hier.reach_keeps hr)
    (by intro c; rw [netTotal_zero db (by intro c; rw [hnet]) _ c]; omega) tasks depth hdepth
  refine ⟨db', h1, ?_⟩
  intro top ht
  obtain ⟨a, ν, κ, hs, _⟩ := h2 top ht
  refine ⟨a, ?_⟩
  rw [hs.prims]
  unfold flat
  apply List.map_congr_left
  intro x hx
  obtain ⟨e1, e2, _⟩ := hflat (rank top + 1) top x.2 (List.mem_map_of_mem hx)
  unfold Hier.rename
  rw [e1, e2, hs.noNet]
  cases hx2 : x.2
  simp_all

end Ecad.GdsD
