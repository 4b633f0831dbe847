import Verif.Util.MergerFilesModel
import Verif.Util.MergerProps
import Verif.Naming.Lemmas
/-!
C158: the files of the merger of polygons.
-/
namespace Ecad.PMerge

open Ecad.Shp Ecad.Naming

variable {K : Type} [Field K] [LinearOrder K]

/-! ### names -/

theorem intRepr_inj {a b : Int} (h : toString a = toString b) : a = b := by
  have key : ∀ m n : Nat, Nat.repr m ≠ "-" ++ Nat.repr n := by
    intro m n e
    have e := congrArg String.toList e
    rw [String.toList_append, Nat.toList_repr] at e
    have hm : '-' ∈ Nat.toDigits 10 m := by rw [e]; simp
    have := Nat.isDigit_of_mem_toDigits (by decide) (by decide) hm
    exact absurd this (by decide)
  match a, b, h with
  | .ofNat m, .ofNat n, h => exact congrArg _ (natRepr_inj h)
  | .ofNat m, .negSucc n, h => exact absurd h (key m (n + 1))
  | .negSucc m, .ofNat n, h => exact absurd h.symm (key n (m + 1))
  | .negSucc m, .negSucc n, h =>
    have := natRepr_inj (string_append_left_cancel (a := "-") h)
    omega

theorem string_append_right_cancel {a b c : String} (h : a ++ c = b ++ c) : a = b := by
  have := congrArg String.toList h
  simp only [String.toList_append, List.append_cancel_right_eq] at this
  exact String.toList_injective this

/-- C158: different layers have different files -/
theorem c158_names {name ext : String} {a b : Int} (h : fileOf name ext a = fileOf name ext b) : a = b :=
  intRepr_inj (string_append_right_cancel (string_append_left_cancel (string_append_left_cancel h)))

/-! ### the loops -/

theorem writeOne_find (can : String → Bool) (file : String) (os : Objs K) (d : Files K) (p : String) :
    UMap.find? (writeOne can file os d).1 p = if can file = true ∧ p = file then some (drawn os) else UMap.find? d p := by
  unfold writeOne
  by_cases hc : can file = true
  · rw [if_pos hc, UMap.find?_append, UMap.find?_erase]
    by_cases hp : p = file
    · subst hp
      simp [hc, UMap.find?]
    · have hp' : file ≠ p := fun h => hp h.symm
      simp only [hp, and_false, if_false]
      cases UMap.find? d p <;> simp [UMap.find?, hp']
  · rw [if_neg hc]
    simp [hc]

theorem pngLoop_find (can : String → Bool) (name : String) (ms : Mergers K) (hn : (ms.map Prod.fst).Nodup) : ∀ (d : Files K),
    (∀ m ∈ ms, UMap.find? (pngLoop can name ms d) (fileOf name ".png" m.1) = if can (fileOf name ".png" m.1) then some (drawn m.2) else UMap.find? d (fileOf name ".png" m.1)) ∧
    ∀ p, (∀ m ∈ ms, p ≠ fileOf name ".png" m.1) → UMap.find? (pngLoop can name ms d) p = UMap.find? d p := by
  induction ms with
  | nil => intro d; exact ⟨by simp, fun p _ => rfl⟩
  | cons m ms ih =>
    intro d
    rw [List.map_cons, List.nodup_cons] at hn
    obtain ⟨h1, h2⟩ := ih hn.2 (writeOne can (fileOf name ".png" m.1) m.2 d).1
    have hne : ∀ x ∈ ms, fileOf name ".png" x.1 ≠ fileOf name ".png" m.1 := by
      intro x hx e
      exact hn.1 (c158_names e ▸ List.mem_map.2 ⟨x, hx, rfl⟩)
    refine ⟨fun x hx => ?_, fun p hp => ?_⟩
    · rw [pngLoop]
      rcases List.mem_cons.1 hx with rfl | hx
      · rw [h2 _ fun y hy => (hne y hy).symm, writeOne_find]
        simp
      · rw [h1 x hx, writeOne_find]
        simp [hne x hx]
    · rw [pngLoop, h2 p fun x hx => hp x (List.mem_cons_of_mem _ hx), writeOne_find]
      simp [hp m (by simp)]

theorem vtkLoop_false (can : String → Bool) (name : String) (ms : Mergers K) (d : Files K) : vtkLoop can name ms false d = (d, false) := by
  induction ms with
  | nil => rfl
  | cons m ms ih =>
    rw [vtkLoop, if_neg (by simp)]
    exact ih

theorem vtkLoop_ok (can : String → Bool) (name : String) (ms : Mergers K) (hc : ∀ m ∈ ms, can (fileOf name ".vtk" m.1) = true) (hn : (ms.map Prod.fst).Nodup) : ∀ (d : Files K),
    (vtkLoop can name ms true d).2 = true ∧
    (∀ m ∈ ms, UMap.find? (vtkLoop can name ms true d).1 (fileOf name ".vtk" m.1) = some (drawn m.2)) ∧
    ∀ p, (∀ m ∈ ms, p ≠ fileOf name ".vtk" m.1) → UMap.find? (vtkLoop can name ms true d).1 p = UMap.find? d p := by
  induction ms with
  | nil => intro d; exact ⟨rfl, by simp, fun p _ => rfl⟩
  | cons m ms ih =>
    intro d
    rw [List.map_cons, List.nodup_cons] at hn
    have e : (writeOne can (fileOf name ".vtk" m.1) m.2 d).2 = true := by rw [writeOne, if_pos (hc m (by simp))]
    obtain ⟨h0, h1, h2⟩ := ih (fun x hx => hc x (List.mem_cons_of_mem _ hx)) hn.2 (writeOne can (fileOf name ".vtk" m.1) m.2 d).1
    have hne : ∀ x ∈ ms, fileOf name ".vtk" x.1 ≠ fileOf name ".vtk" m.1 := by
      intro x hx e
      exact hn.1 (c158_names e ▸ List.mem_map.2 ⟨x, hx, rfl⟩)
    have e2 : vtkLoop can name (m :: ms) true d = vtkLoop can name ms true (writeOne can (fileOf name ".vtk" m.1) m.2 d).1 := by
      rw [vtkLoop, if_pos rfl]
      dsimp only
      rw [e]
    rw [e2]
    refine ⟨h0, fun x hx => ?_, fun p hp => ?_⟩
    · rcases List.mem_cons.1 hx with rfl | hx
      · rw [h2 _ fun y hy => (hne y hy).symm, writeOne_find]
        simp [hc x (by simp)]
      · exact h1 x hx
    · rw [h2 p fun x hx => hp x (List.mem_cons_of_mem _ hx), writeOne_find]
      simp [hp m (by simp)]

/-! ### the claim -/

/-- **C158, VTK files.** If the directory and the files can be written, success is reported, each layer has a file that shows the outlines and holes of its polygons,
and no other file is touched. -/
theorem c158_vtk (can : String → Bool) (name : String) {ms : Mergers K} (hn : (ms.map Prod.fst).Nodup) (hc : ∀ m ∈ ms, can (fileOf name ".vtk" m.1) = true) (d : Files K) :
    (writeVtk can true name ms d).2 = true ∧
    (∀ m ∈ ms, UMap.find? (writeVtk can true name ms d).1 (fileOf name ".vtk" m.1) = some (m.2.flatMap fun o => o.2.outline :: o.2.holes)) ∧
    ∀ p, (∀ m ∈ ms, p ≠ fileOf name ".vtk" m.1) → UMap.find? (writeVtk can true name ms d).1 p = UMap.find? d p :=
  vtkLoop_ok can name ms hc hn d

/-- **C158, a VTK file that cannot be written.** Failure is reported; the layers before it have their files, it and those after it are not written. -/
theorem c158_vtk_fails (can : String → Bool) (name : String) {pre post : Mergers K} {m : Int × Objs K} (hn : (pre.map Prod.fst).Nodup)
    (hc : ∀ x ∈ pre, can (fileOf name ".vtk" x.1) = true) (hm : can (fileOf name ".vtk" m.1) = false) (d : Files K) :
    (writeVtk can true name (pre ++ m :: post) d).2 = false ∧
    (∀ x ∈ pre, UMap.find? (writeVtk can true name (pre ++ m :: post) d).1 (fileOf name ".vtk" x.1) = some (x.2.flatMap fun o => o.2.outline :: o.2.holes)) ∧
    ∀ p, (∀ x ∈ pre, p ≠ fileOf name ".vtk" x.1) → UMap.find? (writeVtk can true name (pre ++ m :: post) d).1 p = UMap.find? d p := by
  have key : ∀ (pre : Mergers K) (d : Files K), (∀ x ∈ pre, can (fileOf name ".vtk" x.1) = true) →
      vtkLoop can name (pre ++ m :: post) true d = ((vtkLoop can name pre true d).1, false) := by
    intro pre
    induction pre with
    | nil =>
      intro d _
      change vtkLoop can name (m :: post) true d = (d, false)
      rw [vtkLoop, if_pos rfl]
      simp only [writeOne, hm, Bool.false_eq_true, if_false]
      exact vtkLoop_false can name post d
    | cons x xs ih =>
      intro d h
      have e : (writeOne can (fileOf name ".vtk" x.1) x.2 d).2 = true := by rw [writeOne, if_pos (h x (by simp))]
      rw [List.cons_append, vtkLoop, if_pos rfl, vtkLoop, if_pos rfl]
      dsimp only
      rw [e]
      exact ih _ fun y hy => h y (List.mem_cons_of_mem _ hy)
  obtain ⟨-, h1, h2⟩ := vtkLoop_ok can name pre hc hn d
  unfold writeVtk
  rw [if_pos rfl, key pre d hc]
  exact ⟨rfl, h1, h2⟩

/-- **C158, pictures.** Each layer whose file can be written has one that shows the outlines and holes of its polygons, and no other file is touched.  Missing: failures are not reported
(`c158_png_refuted`). -/
theorem c158_png_partial (can : String → Bool) (name : String) {ms : Mergers K} (hn : (ms.map Prod.fst).Nodup) (d : Files K) :
    (∀ m ∈ ms, UMap.find? (writePng can true name ms d).1 (fileOf name ".png" m.1) =
      if can (fileOf name ".png" m.1) then some (m.2.flatMap fun o => o.2.outline :: o.2.holes) else UMap.find? d (fileOf name ".png" m.1)) ∧
    ∀ p, (∀ m ∈ ms, can (fileOf name ".png" m.1) = true → p ≠ fileOf name ".png" m.1) → UMap.find? (writePng can true name ms d).1 p = UMap.find? d p := by
  obtain ⟨h1, h2⟩ := pngLoop_find can name ms hn d
  refine ⟨h1, fun p hp => ?_⟩
  by_cases hx : ∃ m ∈ ms, p = fileOf name ".png" m.1
  · obtain ⟨m, hm, rfl⟩ := hx
    have := h1 m hm
    rw [if_neg fun hc => hp m hm hc rfl] at this
    exact this
  · push Not at hx
    exact h2 p hx

/-- **C158 fails for pictures**: if none of the files can be written, nothing is, and success is reported. -/
theorem c158_png_refuted (can : String → Bool) (name : String) {ms : Mergers K} (hc : ∀ m ∈ ms, can (fileOf name ".png" m.1) = false) (d : Files K) :
    writePng can true name ms d = (d, true) := by
  have key : ∀ ms : Mergers K, (∀ m ∈ ms, can (fileOf name ".png" m.1) = false) → pngLoop can name ms d = d := by
    intro ms
    induction ms with
    | nil => intro _; rfl
    | cons m ms ih =>
      intro h
      rw [pngLoop]
      simp only [writeOne, h m (by simp), Bool.false_eq_true, if_false]
      exact ih fun x hx => h x (List.mem_cons_of_mem _ hx)
  rw [writePng, if_pos rfl, key ms hc]

/-! ### the pictures of a merge -/

theorem fillOne_keys (L : Lib K) (set : Settings) (ms : Mergers K) (net layer : Int) (shape : Option (Shape K)) :
    (fillOne L set ms net layer shape).1.map Prod.fst = ms.map Prod.fst := by
  unfold fillOne
  cases shape with
  | none => rfl
  | some s =>
    dsimp only
    split
    · rfl
    · split
      · rfl
      · split
        · rfl
        · unfold addTo
          rw [List.map_map]
          refine List.map_congr_left fun m _ => ?_
          simp only [Function.comp_apply]
          split <;> rfl

theorem fillPrims_keys (L : Lib K) (set : Settings) (prims : List (Prim K)) : ∀ (i : Nat) (ms : Mergers K), (fillPrims L set i prims ms).1.map Prod.fst = ms.map Prod.fst := by
  induction prims with
  | nil => intro i ms; rfl
  | cons q qs ih =>
    intro i ms
    rw [fillPrims]
    cases q.geom with
    | none => exact ih (i + 1) ms
    | some sh =>
      dsimp only
      rw [ih, fillOne_keys]

theorem fillLayers_keys (R : Int → K × K) (L : Lib K) (set : Settings) (i : Inst K) : ∀ (n : Nat) (lyr : Int) (ms ms' : Mergers K), fillLayers R L set i n lyr ms = .ok ms' →
    ms'.map Prod.fst = ms.map Prod.fst := by
  intro n
  induction n with
  | zero =>
    intro lyr ms ms' h
    injection h with h
    rw [h]
  | succ n ih =>
    intro lyr ms ms' h
    rw [fillLayers] at h
    cases hs : i.inst.layerShape R lyr with
    | ok sh =>
      rw [hs] at h
      rw [ih _ _ _ h, fillOne_keys]
    | ub => rw [hs] at h; cases h
    | exn => rw [hs] at h; cases h

theorem fillInsts_keys (R : Int → K × K) (L : Lib K) (set : Settings) (insts : List (Inst K)) : ∀ (ms ms' : Mergers K), fillInsts R L set insts ms = .ok ms' →
    ms'.map Prod.fst = ms.map Prod.fst := by
  induction insts with
  | nil =>
    intro ms ms' h
    injection h with h
    rw [h]
  | cons i is ih =>
    intro ms ms' h
    rw [fillInsts] at h
    split at h
    · exact ih _ _ h
    · split at h
      · cases h
      · split at h
        · exact ih _ _ h
        · cases hf : fillLayers R L set i ((max i.inst.top i.inst.bot - min i.inst.top i.inst.bot).toNat + 1) (min i.inst.top i.inst.bot) ms with
          | ok m =>
            rw [hf] at h
            rw [ih _ _ h, fillLayers_keys R L set i _ _ _ _ hf]
          | ub => rw [hf] at h; cases h
          | exn => rw [hf] at h; cases h

theorem mergersFrom_nodup (set : Settings) (n : Nat) (layers : List Layer) : ∀ (i : Nat) (ms : Mergers K), (ms.map Prod.fst).Nodup → ((mergersFrom set n i layers ms).map Prod.fst).Nodup := by
  induction layers with
  | nil => intro i ms h; exact h
  | cons l ls ih =>
    intro i ms h
    rw [mergersFrom]
    split
    · exact ih _ _ h
    · split
      · exact ih _ _ h
      · apply ih
        by_cases ha : ms.any (·.1 == l.id) = true
        · rwa [if_pos ha]
        · rw [if_neg ha, List.map_append, List.nodup_append]
          refine ⟨h, by simp, ?_⟩
          intro x hx y hy
          simp only [List.map_cons, List.map_nil, List.mem_singleton] at hy
          subst hy
          rintro rfl
          apply ha
          obtain ⟨m, hm, e⟩ := List.mem_map.1 hx
          exact List.any_eq_true.2 ⟨m, hm, by simpa using e⟩

/-- **C158, pictures of a merge.** If the files can be written, there is one picture for each layer of the stackup, it shows polygons that cover just the points that the selected nets cover on
that layer with their shapes, and with their padstacks if these are included, and no other file is touched. -/
theorem c158_merge [IsStrictOrderedRing K] (inside : List (K × K) → K × K → Prop) (R : Int → K × K) (L : Lib K) (run : Objs K → Objs K)
    (hrun : RunOK inside run) (ord : Mergers K → Mergers K) (hord : ∀ l, (ord l).Perm l) (can : String → Bool) {name : String} (hname : name ≠ "")
    (layers : List Layer) (set : Settings) (prims : List (Prim K)) (insts : List (Inst K)) (hcan : ∀ y ∈ layers, can (fileOf name ".png" y.id) = true)
    (hi : ∀ i ∈ insts, Selected set i.net → i.hasDef = true ∧ ∀ l, ∃ r, i.inst.layerShape R l = .ok r) (d : Files K) :
    ∃ d', pictures R L run ord can true name layers set prims insts d = .ok d' ∧
      (∀ y ∈ layers, ∃ os : Objs K, UMap.find? d' (fileOf name ".png" y.id) = some (os.flatMap fun o => o.2.outline :: o.2.holes) ∧
        ∀ n p, (∃ o ∈ os, o.1 = n ∧ Covers inside o.2 p) ↔ Selected set n ∧ (Metal inside L prims y.id n p ∨ (set.padstacks = true ∧ Pads inside R L insts y.id n p))) ∧
      ∀ f, (∀ y ∈ layers, f ≠ fileOf name ".png" y.id) → UMap.find? d' f = UMap.find? d f := by
  obtain ⟨c1, c2⟩ := construct_ok (K := K) layers
  have hck : Keyed (construct layers : Mergers K) = fun k => ∃ l ∈ layers, l.id = k := funext fun k => propext (c1 k)
  obtain ⟨p1, p2, -⟩ := fillPrims_ok L set prims 0 (construct layers)
  have hnd0 : ((construct layers : Mergers K).map Prod.fst).Nodup := mergersFrom_nodup _ _ _ _ _ (by simp)
  have hk0 : Keyed (fillPrims L set 0 prims (construct layers)).1 = fun k => ∃ l ∈ layers, l.id = k :=
    funext fun k => propext ((p1 k).trans (c1 k))
  rw [hck] at p2
  have hstep : ∃ ms, (if set.padstacks then fillInsts R L set insts (fillPrims L set 0 prims (construct layers)).1
        else .ok (fillPrims L set 0 prims (construct layers)).1) = .ok ms ∧ (ms.map Prod.fst).Nodup ∧ (∀ k, Keyed ms k ↔ ∃ l ∈ layers, l.id = k) ∧
      (∀ k x, Has ms k x ↔ (∃ q ∈ prims, ∃ sh, q.geom = some sh ∧
          Adds L set (fun k => ∃ l ∈ layers, l.id = k) q.net q.layer sh k x) ∨
        (set.padstacks = true ∧ ∃ i ∈ insts, ∃ l sh, i.inst.layerShape R l = .ok sh ∧
          Adds L set (fun k => ∃ l ∈ layers, l.id = k) i.net l sh k x)) := by
    by_cases hp : set.padstacks = true
    · obtain ⟨ms, f1, f2, f3⟩ := fillInsts_ok R L set insts hi (fillPrims L set 0 prims (construct layers)).1
      refine ⟨ms, by rw [if_pos hp, f1], ?_, fun k => by rw [f2, hk0], fun k x => ?_⟩
      · rw [fillInsts_keys R L set insts _ _ f1, fillPrims_keys]
        exact hnd0
      · rw [hk0] at f3
        rw [f3, p2]
        simp [c2, hp]
    · refine ⟨_, by rw [if_neg hp], ?_, fun k => by rw [hk0], fun k x => ?_⟩
      · rw [fillPrims_keys]
        exact hnd0
      · rw [p2]
        simp [c2, hp]
  obtain ⟨ms, h1, h2, h3, h4⟩ := hstep
  have hpm := hord (ms.map fun m => (m.1, run m.2))
  have hnd : ((ord (ms.map fun m => (m.1, run m.2))).map Prod.fst).Nodup := by
    rw [(hpm.map Prod.fst).nodup_iff, List.map_map]
    exact h2
  obtain ⟨g1, g2⟩ := c158_png_partial can name hnd d
  refine ⟨(writePng can true name (ord (ms.map fun m => (m.1, run m.2))) d).1, ?_, fun y hy => ?_, fun f hf => ?_⟩
  · unfold pictures
    simp only [h1, Res.bind_ok, if_neg hname]
  · obtain ⟨m, hm, e⟩ := (h3 y.id).2 ⟨y, hy, rfl⟩
    refine ⟨run m.2, ?_, fun n p => ?_⟩
    · have := g1 (m.1, run m.2) (hpm.mem_iff.2 (List.mem_map.2 ⟨m, hm, rfl⟩))
      dsimp only at this
      rw [e, if_pos (hcan y hy)] at this
      exact this
    · rw [hrun.covers]
      have hhas : ∀ x, x ∈ m.2 ↔ Has ms y.id x := by
        intro x
        constructor
        · intro hx
          exact ⟨m, hm, e, hx⟩
        · rintro ⟨m', hm', e', hx⟩
          have : m' = m := List.inj_on_of_nodup_map h2 hm' hm (e'.trans e.symm)
          rwa [← this]
      constructor
      · rintro ⟨x, hx, hn, hc⟩
        rcases (h4 y.id x).1 ((hhas x).1 hx) with ⟨q, hq, sh, hg, s, rfl, hv, hk, hsel, e1, rfl⟩ | ⟨hp, i, hi', l', sh, hs, s, rfl, hv, hk, hsel, e1, rfl⟩
        · exact ⟨hn ▸ hsel, Or.inl ⟨q, hq, e1.symm, hn, s, hg, hv, hc⟩⟩
        · exact ⟨hn ▸ hsel, Or.inr ⟨hp, i, hi', hn, s, by rw [e1]; exact hs, hv, hc⟩⟩
      · rintro ⟨hsel, ⟨q, hq, e1, rfl, s, hg, hv, hc⟩ | ⟨hp, i, hi', rfl, s, hs, hv, hc⟩⟩
        · exact ⟨(q.net, s.pwh L), (hhas _).2 ((h4 _ _).2 (Or.inl ⟨q, hq, _, hg, s, rfl, hv, ⟨y, hy, e1.symm⟩, hsel, e1.symm, rfl⟩)), rfl, hc⟩
        · exact ⟨(i.net, s.pwh L), (hhas _).2 ((h4 _ _).2 (Or.inr ⟨hp, i, hi', y.id, _, hs, s, rfl, hv, ⟨y, hy, rfl⟩, hsel, rfl, rfl⟩)), rfl, hc⟩
  · refine g2 f fun m hm _ => ?_
    rw [hpm.mem_iff, List.mem_map] at hm
    obtain ⟨m0, hm0, rfl⟩ := hm
    obtain ⟨y, hy, e⟩ := (h3 m0.1).1 ⟨m0, hm0, rfl⟩
    have := hf y hy
    rwa [e] at this

/-! ### examples -/

/-- two layers, one of them with a polygon with a hole -/
def exMs : Mergers ℚ := [(0, [(1, ⟨[(0, 0), (4, 0), (4, 4)], [[(2, 1), (3, 1), (3, 2)]]⟩)]), (12, [(2, ⟨[(0, 0), (1, 0), (1, 1)], []⟩)])]

/-- the hypotheses of `c158_vtk`, and the files -/
example : (exMs.map Prod.fst).Nodup ∧ writeVtk (fun _ => true) true "out" exMs [("out_0.vtk", []), ("x", [])] =
    ([("x", []), ("out_0.vtk", [[(0, 0), (4, 0), (4, 4)], [(2, 1), (3, 1), (3, 2)]]), ("out_12.vtk", [[(0, 0), (1, 0), (1, 1)]])], true) := by decide +kernel

/-- the hypotheses of `c158_vtk_fails` and `c158_png_refuted`: the first file cannot be written -/
example : writeVtk (fun f => f != "out_0.vtk") true "out" exMs [] = ([], false) ∧ writePng (fun f => f != "out_0.png") true "out" exMs [] = ([("out_12.png", [[(0, 0), (1, 0), (1, 1)]])], true) ∧
    writePng (fun _ => false) true "out" exMs [] = ([], true) := ⟨by decide +kernel, by decide +kernel, by decide +kernel⟩

/-- the pictures of a merge with the layers and shapes of the examples of C98 -/
example : (match pictures exR exLib exRun id (fun _ => true) true "m" [⟨0, false⟩, ⟨1, false⟩] ⟨false, true, false, []⟩ exPrims [] [] with
    | .ok d => d.map fun f => (f.1, f.2.length)
    | _ => []) = [("m_0.png", 2), ("m_1.png", 1)] := by decide +kernel

end Ecad.PMerge
