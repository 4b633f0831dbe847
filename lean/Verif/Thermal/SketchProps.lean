import Verif.Thermal.SketchModel
import Verif.Thermal.DumpProps
import Verif.Design.CacheProps
/-!
C149: the pictures and meshes of extractions.
-/
namespace Ecad.Sketch
open Ctm (Bytes digs)
open Profile (asc)
open Dump (inDir)
open Extract Cache2

/-! ## names -/

theorem asc_append (a b : String) : asc (a ++ b) = asc a ++ asc b := by simp [asc]

theorem sketch_inj {dir : Bytes} {i j : Nat} (h : sketchPath dir i = sketchPath dir j) : i = j := by
  unfold sketchPath inDir at h
  have h' := List.append_cancel_left h
  rw [List.cons.injEq] at h'
  have h'' := h'.2
  have e0 : asc "LayerCut.png" = asc "LayerCut" ++ asc ".png" := by decide +kernel
  by_cases hi : i = 0 <;> by_cases hj : j = 0
  · omega
  · rw [if_pos hi, if_neg hj, e0, List.append_assoc] at h''
    have := List.append_cancel_left h''
    have hl := congrArg List.length this
    rw [List.length_append] at hl
    have := List.length_pos_iff.2 (Ctm.digs_ne j)
    omega
  · rw [if_neg hi, if_pos hj, e0, List.append_assoc] at h''
    have := List.append_cancel_left h''
    have hl := congrArg List.length this
    rw [List.length_append] at hl
    have := List.length_pos_iff.2 (Ctm.digs_ne i)
    omega
  · rw [if_neg hi, if_neg hj, List.append_assoc, List.append_assoc] at h''
    exact Dump.digs_inj (List.append_cancel_right (List.append_cancel_left h''))

/-- the files of the mesh are no pictures of polygons -/
theorem mesh_ne {w : Wish} {f : Bytes × Part} (hf : f ∈ meshFiles w) (i : Nat) : f.1 ≠ sketchPath w.dir i := by
  have key : ∀ n, n.head? = some 109 → inDir w.dir n ≠ sketchPath w.dir i := by
    intro n hn h
    unfold sketchPath inDir at h
    have h' := List.append_cancel_left h
    rw [List.cons.injEq] at h'
    have := h'.2 ▸ hn
    split_ifs at this
    · revert this; decide +kernel
    · rw [show asc "LayerCut" = 76 :: asc "ayerCut" by decide +kernel] at this
      simp at this
  unfold meshFiles at hf
  split at hf
  · rw [List.mem_append, List.mem_singleton] at hf
    rcases hf with hf | rfl
    · unfold meshPaths at hf
      split at hf
      · rw [List.mem_singleton] at hf
        subst hf
        exact key _ (by decide +kernel)
      · obtain ⟨k, -, rfl⟩ := List.mem_map.1 hf
        refine key _ ?_
        rw [show asc "mesh" = 109 :: asc "esh" by decide +kernel]
        simp
    · exact key _ (by decide +kernel)
  · simp at hf

/-! ## writing -/

theorem find_write (d : Disk) (p q : Bytes) (a : Nat × Part) : UMap.find? (write d p a) q = if q = p then some a else UMap.find? d q := by
  unfold write
  rw [UMap.find?_cons, UMap.find?_erase]
  by_cases h : q = p
  · subst h; simp
  · have h' : p ≠ q := fun e => h e.symm
    simp [h, h']

theorem find_writes (k : Nat) (fs : List (Bytes × Part)) : ∀ (d : Disk) (q : Bytes), (∀ f ∈ fs, f.1 ≠ q) →
    UMap.find? (fs.foldl (fun d f => write d f.1 (k, f.2)) d) q = UMap.find? d q := by
  induction fs with
  | nil => intro d q _; rfl
  | cons f fs ih =>
    intro d q h
    rw [List.foldl_cons, ih _ q fun f hf => h f (by simp [hf]), find_write, if_neg fun e => h f (by simp) e.symm]

theorem find_writes_mem (k : Nat) (fs : List (Bytes × Part)) : ∀ (d : Disk) (f : Bytes × Part), f ∈ fs → (fs.map Prod.fst).Nodup →
    UMap.find? (fs.foldl (fun d f => write d f.1 (k, f.2)) d) f.1 = some (k, f.2) := by
  induction fs with
  | nil => intro d f h; simp at h
  | cons g fs ih =>
    intro d f hf hn
    rw [List.map_cons, List.nodup_cons] at hn
    rw [List.foldl_cons]
    rcases List.mem_cons.1 hf with rfl | hf
    · rw [find_writes k fs _ f.1 fun x hx e => hn.1 (by rw [← e]; exact List.mem_map.2 ⟨x, hx, rfl⟩), find_write, if_pos rfl]
    · exact ih _ f hf hn.2

/-- the names of the pictures that are taken are finitely many -/
theorem free_exists (d : Disk) (dir : Bytes) : ∃ n, UMap.find? d (sketchPath dir n) = none ∧ ∀ i < n, ∃ a, UMap.find? d (sketchPath dir i) = some a := by
  have hex : ∃ n, UMap.find? d (sketchPath dir n) = none := by
    by_contra hc
    push Not at hc
    have hmem : ∀ n, sketchPath dir n ∈ d.map Prod.fst := by
      intro n
      obtain ⟨a, ha⟩ := Option.ne_none_iff_exists'.1 (hc n)
      exact List.mem_map.2 ⟨_, UMap.find?_mem ha, rfl⟩
    have hinj : Function.Injective (sketchPath dir) := fun i j h => sketch_inj h
    have : ((List.range (d.length + 1)).map (sketchPath dir)).Nodup := List.nodup_range.map hinj
    have hle := (this.subperm (l₂ := d.map Prod.fst) fun p hp => by
      obtain ⟨n, -, rfl⟩ := List.mem_map.1 hp
      exact hmem n).length_le
    simp at hle
  classical
  refine ⟨Nat.find hex, Nat.find_spec hex, fun i hi => ?_⟩
  exact Option.ne_none_iff_exists'.1 (Nat.find_min hex hi)

theorem search_spec (d : Disk) (dir : Bytes) {n : Nat} (hn : UMap.find? d (sketchPath dir n) = none)
    (hb : ∀ i < n, ∃ a, UMap.find? d (sketchPath dir i) = some a) : ∀ fuel i, i < n → n - i ≤ fuel → search d dir fuel i = some (sketchPath dir n) := by
  intro fuel
  induction fuel with
  | zero => intro i h1 h2; omega
  | succ fuel ih =>
    intro i h1 h2
    unfold search
    by_cases he : i + 1 = n
    · rw [he, hn]
    · obtain ⟨a, ha⟩ := hb (i + 1) (by omega)
      rw [ha]
      exact ih (i + 1) (by omega) (by omega)

/-- **C149**: the picture of the polygons gets the first name that is free, `LayerCut.png` before `LayerCut1.png` and so on, whatever files there are;
the search ends. -/
theorem c149_least (d : Disk) (dir : Bytes) : ∃ n, (∀ fuel, n ≤ fuel → chosen d dir fuel = some (sketchPath dir n)) ∧
    UMap.find? d (sketchPath dir n) = none ∧ ∀ i < n, ∃ a, UMap.find? d (sketchPath dir i) = some a := by
  obtain ⟨n, h1, h2⟩ := free_exists d dir
  refine ⟨n, fun fuel hf => ?_, h1, h2⟩
  unfold chosen
  by_cases h0 : n = 0
  · subst h0
    rw [h1]
  · obtain ⟨a, ha⟩ := h2 0 (by omega)
    rw [ha]
    exact search_spec d dir h1 h2 fuel 0 (by omega) (by omega)

/-- a name no extraction chooses while it is taken -/
theorem chosen_free {d : Disk} {dir : Bytes} {fuel : Nat} {p : Bytes} (h : chosen d dir fuel = some p) : UMap.find? d p = none ∧ ∃ n, p = sketchPath dir n := by
  have hs : ∀ fuel i, search d dir fuel i = some p → UMap.find? d p = none ∧ ∃ n, p = sketchPath dir n := by
    intro fuel
    induction fuel with
    | zero => intro i h; simp [search] at h
    | succ fuel ih =>
      intro i h
      unfold search at h
      split at h
      · exact ih _ h
      · rename_i hn
        injection h with h
        rw [← h]
        exact ⟨hn, _, rfl⟩
  unfold chosen at h
  split at h
  · exact hs _ _ h
  · rename_i hn
    injection h with h
    rw [← h]
    exact ⟨hn, _, rfl⟩

theorem files_kept {fuel : Nat} {w : Wish} {k : Nat} {d d' : Disk} (h : files fuel w k d = some d') {p : Bytes} {a : Nat × Part}
    (hp : UMap.find? d p = some a) (hm : ∀ f ∈ meshFiles w, f.1 ≠ p) : UMap.find? d' p = some a := by
  unfold files at h
  split at h
  · obtain ⟨q, hq, rfl⟩ := Option.map_eq_some_iff.1 h
    rw [find_writes k _ _ p hm, find_write, if_neg]
    · exact hp
    · rintro rfl
      rw [(chosen_free hq).1] at hp
      simp at hp
  · injection h with h
    rw [← h, find_writes k _ _ p hm]
    exact hp

/-- **C149**: no series of extractions replaces a file that has not the name of a mesh, in particular no picture of polygons of an earlier one. -/
theorem c149_kept {fuel : Nat} {ws : List Wish} {k : Nat} {d d' : Disk} (h : series fuel ws k d = some d') {p : Bytes} {a : Nat × Part}
    (hp : UMap.find? d p = some a) (hm : ∀ w ∈ ws, ∀ f ∈ meshFiles w, f.1 ≠ p) : UMap.find? d' p = some a := by
  induction ws generalizing k d with
  | nil =>
    injection h with h
    rw [← h]
    exact hp
  | cons w ws ih =>
    obtain ⟨d1, h1, h2⟩ := Option.bind_eq_some_iff.1 h
    exact ih h2 (files_kept h1 hp (hm w (by simp))) fun w hw => hm w (by simp [hw])

/-- **C149**: extractions into one directory which had no picture leave the pictures of all of them, under the names with the numbers 0, 1, 2 … in
their order. -/
theorem c149_series {ws : List Wish} {dir : Bytes} (hd : dir ≠ []) (hw : ∀ w ∈ ws, w.dir = dir ∧ w.sketch = true) {d : Disk}
    (h0 : ∀ i, UMap.find? d (sketchPath dir i) = none) {fuel : Nat} (hf : ws.length ≤ fuel) :
    ∃ d', series fuel ws 0 d = some d' ∧ ∀ i, UMap.find? d' (sketchPath dir i) = if i < ws.length then some (i, .sketch) else none := by
  have gen : ∀ (ws : List Wish) (k : Nat) (d : Disk), (∀ w ∈ ws, w.dir = dir ∧ w.sketch = true) → k + ws.length ≤ fuel →
      (∀ i, UMap.find? d (sketchPath dir i) = if i < k then some (i, .sketch) else none) →
      ∃ d', series fuel ws k d = some d' ∧ ∀ i, UMap.find? d' (sketchPath dir i) = if i < k + ws.length then some (i, .sketch) else none := by
    intro ws
    induction ws with
    | nil => intro k d _ _ h; exact ⟨d, rfl, h⟩
    | cons w ws ih =>
      intro k d hw hf h
      obtain ⟨hwd, hws⟩ := hw w (by simp)
      rw [List.length_cons] at hf
      have hch : chosen d w.dir fuel = some (sketchPath dir k) := by
        obtain ⟨n, h1, h2, h3⟩ := c149_least d dir
        have hn : n = k := by
          rw [h n] at h2
          have hge : k ≤ n := by by_contra hc; simp [show n < k by omega] at h2
          by_contra hne
          obtain ⟨a, ha⟩ := h3 k (by omega)
          rw [h k] at ha
          simp at ha
        rw [hwd, h1 fuel (by omega), hn]
      have hfiles : files fuel w k d = some ((meshFiles w).foldl (fun d f => write d f.1 (k, f.2)) (write d (sketchPath dir k) (k, .sketch))) := by
        unfold files
        have hne : w.dir.isEmpty = false := by rw [hwd]; cases dir <;> simp_all
        simp only [hne, hws, Bool.not_false, Bool.and_self, if_true, hch, Option.map_some]
      obtain ⟨d', h1, h2⟩ := ih (k + 1) ((meshFiles w).foldl (fun d f => write d f.1 (k, f.2)) (write d (sketchPath dir k) (k, .sketch)))
        (fun w hw' => hw w (by simp [hw'])) (by omega) (fun i => by
          rw [find_writes k _ _ _ fun f hf' => by rw [← hwd]; exact mesh_ne hf' i, find_write, h i]
          by_cases hik : i = k
          · subst hik; simp
          · rw [if_neg fun e => hik (sketch_inj e)]
            by_cases hlt : i < k
            · rw [if_pos hlt, if_pos (by omega)]
            · rw [if_neg hlt, if_neg (by omega)])
      refine ⟨d', by unfold series; rw [hfiles]; exact h1, fun i => ?_⟩
      rw [h2 i, List.length_cons]
      congr 1
      rw [show k + 1 + ws.length = k + (ws.length + 1) by omega]
  obtain ⟨d', h1, h2⟩ := gen ws 0 d hw (by omega) (fun i => by rw [h0 i]; simp)
  refine ⟨d', h1, fun i => ?_⟩
  rw [h2 i, Nat.zero_add]

/-! ## meshes -/

theorem mesh_nodup (w : Wish) : ((meshFiles w).map Prod.fst).Nodup := by
  unfold meshFiles
  split
  · have hinj : Function.Injective (inDir w.dir) := fun a b h => by
      have := List.append_cancel_left h
      rw [List.cons.injEq] at this
      exact this.2
    unfold meshPaths
    split
    · rw [List.map_append, List.map_singleton, List.map_singleton, List.singleton_append, List.nodup_cons]
      refine ⟨fun h => ?_, by simp⟩
      have := hinj (List.mem_singleton.1 h)
      revert this
      decide +kernel
    · rename_i n _
      rw [List.map_append, List.map_map, List.map_singleton, List.nodup_append]
      refine ⟨List.nodup_range.map fun i j h => ?_, by simp, ?_⟩
      · have := hinj h
        have := Dump.digs_inj (List.append_cancel_left (List.append_cancel_right this))
        omega
      · rintro a ha b hb rfl
        obtain ⟨i, -, rfl⟩ := List.mem_map.1 ha
        have := hinj (List.mem_singleton.1 hb)
        have h1 := congrArg List.getLast? this
        rw [List.getLast?_append, show (asc ".png").getLast? = some 103 by decide +kernel, show (asc "mesh.vtk").getLast? = some 107 by decide +kernel] at h1
        simp at h1
  · simp

/-- what is under the name of a mesh after an extraction is that extraction's -/
theorem files_mesh {fuel : Nat} {w : Wish} {k : Nat} {d d' : Disk} (h : files fuel w k d = some d') {f : Bytes × Part} (hf : f ∈ meshFiles w) :
    UMap.find? d' f.1 = some (k, f.2) := by
  unfold files at h
  split at h
  · obtain ⟨q, -, rfl⟩ := Option.map_eq_some_iff.1 h
    exact find_writes_mem k _ _ f hf (mesh_nodup w)
  · injection h with h
    rw [← h]
    exact find_writes_mem k _ _ f hf (mesh_nodup w)

/-- **C149 is false of the code** for meshes: a second extraction into the directory replaces the mesh files of the first that have the same name … -/
theorem c149_mesh_refuted {fuel : Nat} {w w' : Wish} {k k' : Nat} {d d1 d2 : Disk} (h1 : files fuel w k d = some d1) (h2 : files fuel w' k' d1 = some d2)
    {f f' : Bytes × Part} (hf : f ∈ meshFiles w) (hf' : f' ∈ meshFiles w') (he : f.1 = f'.1) :
    UMap.find? d1 f.1 = some (k, f.2) ∧ UMap.find? d2 f.1 = some (k', f'.2) := by
  refine ⟨files_mesh h1 hf, ?_⟩
  rw [he]
  exact files_mesh h2 hf'

/-- … and leaves the others, so that after stackup models with `n` meshes and then `n' < n` the pictures of the first `n'` meshes are those of the
second model and the rest are those of the first. -/
theorem c149_mixed_refuted {fuel : Nat} {dir : Bytes} (hd : dir ≠ []) {s s' : Bool} {n n' k k' : Nat} {d d1 d2 : Disk}
    (h1 : files fuel ⟨dir, s, true, some n⟩ k d = some d1) (h2 : files fuel ⟨dir, s', true, some n'⟩ k' d1 = some d2) (i : Nat) (hi : i < n) :
    UMap.find? d2 (inDir dir (asc "mesh" ++ digs (i + 1) ++ asc ".png")) = some (if i < n' then k' else k, .mesh i) := by
  have hne : dir.isEmpty = false := by cases dir <;> simp_all
  have mem : ∀ (s : Bool) m, i < m → (inDir dir (asc "mesh" ++ digs (i + 1) ++ asc ".png"), Part.mesh i) ∈ meshFiles ⟨dir, s, true, some m⟩ := by
    intro s m hm
    simp only [meshFiles, meshPaths, hne, Bool.not_false, Bool.and_self, if_true, List.mem_append]
    exact .inl (List.mem_map.2 ⟨i, List.mem_range.2 hm, rfl⟩)
  by_cases hlt : i < n'
  · rw [if_pos hlt]
    exact files_mesh h2 (mem s' n' hlt)
  · rw [if_neg hlt]
    refine files_kept h2 (files_mesh h1 (mem s n hi)) fun f hf he => ?_
    have hinj : Function.Injective (inDir dir) := fun a b h => by
      have := List.append_cancel_left h
      rw [List.cons.injEq] at this
      exact this.2
    simp only [meshFiles, meshPaths, hne, Bool.not_false, Bool.and_self, if_true, List.mem_append, List.mem_singleton] at hf
    rcases hf with hf | rfl
    · obtain ⟨j, hj, rfl⟩ := List.mem_map.1 hf
      have := Dump.digs_inj (List.append_cancel_left (List.append_cancel_right (hinj he)))
      rw [List.mem_range] at hj
      omega
    · have h1 := congrArg List.getLast? (hinj he)
      rw [List.getLast?_append, show (asc ".png").getLast? = some 103 by decide +kernel, show (asc "mesh.vtk").getLast? = some 107 by decide +kernel] at h1
      simp at h1

/-! ## calls -/

variable {L F D C : Type} [DecidableEq F]

/-- **C149**: files are written exactly by the calls that make a model; a call which is answered with a model made before leaves all files as they are. -/
theorem c149_calls (G : Gens L F D C) (meshes : D → Nat) (fuel : Nat) (l : L) (st : St F D C) (d : Disk) (k : Nat) (b : ThermalS F) (m : MeshS F)
    (g : MergeS) (c : CutS F) :
    (extractFiles G meshes fuel l st d k b m g c).1 = (extractThermal G l st (.prism b m g c)).1 ∧
    (extractFiles G meshes fuel l st d k b m g c).2 =
      if b.forceRebuild = false ∧ ∃ o, UMap.find? st.models (Settings.prism b m g c).modelType = some o ∧ o.settings.eq (.prism b m g c) = true then some d
      else files fuel (wishOf b m c (meshes (extractCut G l st c).2.2)) k d := by
  unfold extractFiles
  dsimp only
  generalize UMap.find? st.models (Settings.prism b m g c).modelType = x
  cases x with
  | none => simp
  | some o => by_cases hb : b.forceRebuild <;> by_cases he : o.settings.eq (.prism b m g c) <;> simp [hb, he]

/-- **C149**: which files an extraction writes. Without a working directory none, and none that the settings do not ask for; the picture of the
polygons is written if `dumpSketchImg` asks for it, the prisms and the mesh (for stackup models each of the meshes) if `dumpMeshFile` does. -/
theorem c149_which {fuel : Nat} {b : ThermalS F} {m : MeshS F} {c : CutS F} {n k : Nat} {d d' : Disk} (h : files fuel (wishOf b m c n) k d = some d') :
    (asc b.workDir = [] → d' = d) ∧
    (c.dumpSketchImg = false → ∀ i, UMap.find? d' (sketchPath (asc b.workDir) i) = UMap.find? d (sketchPath (asc b.workDir) i)) ∧
    (m.dumpMeshFile = false → ∀ p, (∀ i, p ≠ sketchPath (asc b.workDir) i) → UMap.find? d' p = UMap.find? d p) ∧
    (asc b.workDir ≠ [] → c.dumpSketchImg = true → ∃ i, UMap.find? d (sketchPath (asc b.workDir) i) = none ∧
      UMap.find? d' (sketchPath (asc b.workDir) i) = some (k, .sketch)) ∧
    (asc b.workDir ≠ [] → m.dumpMeshFile = true → UMap.find? d' (inDir (asc b.workDir) (asc "mesh.vtk")) = some (k, .prisms) ∧
      (m.genMeshByLayer = false → UMap.find? d' (inDir (asc b.workDir) (asc "mesh.png")) = some (k, .mesh 0)) ∧
      (m.genMeshByLayer = true → ∀ i < n, UMap.find? d' (inDir (asc b.workDir) (asc "mesh" ++ digs (i + 1) ++ asc ".png")) = some (k, .mesh i))) := by
  have hnone : m.dumpMeshFile = false → meshFiles (wishOf b m c n) = [] := by
    intro h0
    simp [meshFiles, wishOf, h0]
  refine ⟨?_, ?_, ?_, ?_, ?_⟩
  · intro h0
    simp [files, meshFiles, wishOf, h0] at h
    exact h.symm
  · intro h0 i
    unfold files at h
    rw [if_neg (by simp [wishOf, h0])] at h
    injection h with h
    rw [← h]
    exact find_writes k _ _ _ fun f hf => mesh_ne hf i
  · intro h0 p hp
    unfold files at h
    rw [hnone h0] at h
    split at h
    · obtain ⟨q, hq, rfl⟩ := Option.map_eq_some_iff.1 h
      obtain ⟨i, rfl⟩ := (chosen_free hq).2
      show UMap.find? (write d _ _) p = _
      rw [find_write]
      exact if_neg (hp i)
    · injection h with h
      rw [← h]
      rfl
  · intro hd h0
    unfold files at h
    rw [if_pos (by simp [wishOf, h0, hd])] at h
    obtain ⟨q, hq, rfl⟩ := Option.map_eq_some_iff.1 h
    obtain ⟨h1, i, rfl⟩ := chosen_free hq
    refine ⟨i, h1, ?_⟩
    show UMap.find? (List.foldl _ _ _) (sketchPath (wishOf b m c n).dir i) = _
    rw [find_writes k _ _ _ fun f hf => mesh_ne hf i, find_write, if_pos rfl]
  · intro hd h0
    have hm : meshFiles (wishOf b m c n) = meshPaths (wishOf b m c n) ++ [(inDir (asc b.workDir) (asc "mesh.vtk"), .prisms)] := by
      unfold meshFiles
      rw [if_pos (by simp [wishOf, h0, hd])]
      rfl
    refine ⟨files_mesh h (f := (inDir (asc b.workDir) (asc "mesh.vtk"), .prisms)) (by rw [hm]; simp), fun hg => ?_, fun hg i hi => ?_⟩
    · refine files_mesh h (f := (inDir (asc b.workDir) (asc "mesh.png"), .mesh 0)) ?_
      rw [hm]
      simp [meshPaths, wishOf, hg]
    · refine files_mesh h (f := (inDir (asc b.workDir) (asc "mesh" ++ digs (i + 1) ++ asc ".png"), .mesh i)) ?_
      rw [hm, List.mem_append]
      left
      simp only [meshPaths, wishOf, hg, if_true]
      exact List.mem_map.2 ⟨i, List.mem_range.2 hi, rfl⟩

/-- **C149 is false of the code** for wishes: after an extraction without files, the same extraction with other wishes for files and another directory
writes none. -/
theorem c149_reused_refuted (G : Gens L F D C) (meshes : D → Nat) (fuel : Nat) (l l' : L) (d : Disk) (k : Nat) (b : ThermalS F) (m : MeshS F)
    (g : MergeS) (c : CutS F) (dir : String) (sketch mesh : Bool) (hb : b.forceRebuild = false) :
    (extractFiles G meshes fuel l' (after G [(l, .thermal (.prism b m g c))]) d k { b with workDir := dir } { m with dumpMeshFile := mesh } g
      { c with dumpSketchImg := sketch }).2 = some d := by
  rw [(c149_calls ..).2, if_pos]
  refine ⟨hb, ⟨.prism b m g c, G.prism l (.prism b m g c) (G.cut l c)⟩, ?_, ?_⟩
  · show UMap.find? (extractThermal G l ⟨none, []⟩ (.prism b m g c)).1.models _ = _
    have : (Settings.prism { b with workDir := dir } { m with dumpMeshFile := mesh } g { c with dumpSketchImg := sketch }).modelType =
        (Settings.prism b m g c).modelType := rfl
    rw [this]
    simp [extractThermal, UMap.find?_nil, rebuild, generate, extractCut, addModel, UMap.erase, UMap.find?_cons]
  · rw [settings_eq_iff]
    simp [Settings.Same]

/-! ## examples -/

/-- two extractions into a directory: two pictures, one mesh -/
example : (series 5 [⟨asc "w", true, true, none⟩, ⟨asc "w", true, true, none⟩] 0 []).map (fun d => [asc "w/LayerCut.png", asc "w/LayerCut1.png",
    asc "w/LayerCut2.png", asc "w/mesh.png"].map (UMap.find? d)) = some [some (0, .sketch), some (1, .sketch), none, some (1, .mesh 0)] := by decide +kernel

/-- stackup models with three and then two meshes -/
example : (series 5 [⟨asc "w", false, true, some 3⟩, ⟨asc "w", false, true, some 2⟩] 0 []).map (fun d => [asc "w/mesh1.png", asc "w/mesh2.png",
    asc "w/mesh3.png", asc "w/mesh.vtk"].map (UMap.find? d)) = some [some (1, .mesh 0), some (1, .mesh 1), some (0, .mesh 2), some (1, .prisms)] := by
  decide +kernel

/-- a picture of that name that is there already is not replaced, a gap is filled -/
example : (files 5 ⟨asc "w", true, false, none⟩ 7 [(asc "w/LayerCut.png", (0, .sketch)), (asc "w/LayerCut2.png", (1, .sketch))]).map
    (fun d => d.map Prod.fst) = some [asc "w/LayerCut1.png", asc "w/LayerCut.png", asc "w/LayerCut2.png"] := by decide +kernel

end Ecad.Sketch
