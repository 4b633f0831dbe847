import Verif.Design.ExtractModel
import Mathlib.Data.List.Induction
/-!
C16: extraction and its cache.
-/
namespace Ecad.Extract

variable {F C L : Type} [DecidableEq F]

/-- Settings that agree in everything except dump flags, thread counts, directories and the rebuild
flag: what a user would call the same extraction. -/
def Settings.Same : Settings F → Settings F → Prop
  | .grid b _ _ _ f, .grid b' _ _ _ f' =>
    { b with forceRebuild := b'.forceRebuild, threads := b'.threads, workDir := b'.workDir } = b' ∧
    { f with threads := f'.threads, outFile := f'.outFile,
             polygonMergeSettings := f'.polygonMergeSettings } = f'
  | .prism b m g c, .prism b' m' g' c' =>
    { b with forceRebuild := b'.forceRebuild, threads := b'.threads, workDir := b'.workDir } = b' ∧
    { m with dumpMeshFile := m'.dumpMeshFile } = m' ∧
    { g with threads := g'.threads, outFile := g'.outFile, mtByLayer := g'.mtByLayer } = g' ∧
    { c with dumpSketchImg := c'.dumpSketchImg } = c'
  | _, _ => False

theorem thermalS_eq_iff (a b : ThermalS F) : a.eq b = true ↔
    { a with forceRebuild := b.forceRebuild, threads := b.threads, workDir := b.workDir } = b := by
  rcases a with ⟨⟩; rcases b with ⟨⟩
  simp [ThermalS.eq, and_assoc]

theorem meshS_eq_iff (a b : MeshS F) : a.eq b = true ↔
    { a with dumpMeshFile := b.dumpMeshFile } = b := by
  rcases a with ⟨⟩; rcases b with ⟨⟩
  simp [MeshS.eq, and_assoc]

theorem mergeS_eq_iff (a b : MergeS) : a.eq b = true ↔
    { a with threads := b.threads, outFile := b.outFile, mtByLayer := b.mtByLayer } = b := by
  rcases a with ⟨⟩; rcases b with ⟨⟩
  simp [MergeS.eq, and_assoc]

theorem cutS_eq_iff (a b : CutS F) : a.eq b = true ↔
    { a with dumpSketchImg := b.dumpSketchImg } = b := by
  rcases a with ⟨⟩; rcases b with ⟨⟩
  simp [CutS.eq, and_assoc]

theorem mergeS_eq_self (a : MergeS) : a.eq a = true := by simp [MergeS.eq]

/-- The comparison of settings: for prism models it is the intended one, for grid models the
selected nets and the polygon merge settings are ignored. -/
theorem settings_eq_iff (s t : Settings F) : s.eq t = true ↔
    match s, t with
    | .grid b _ _ _ f, .grid b' _ _ _ f' =>
      { b with forceRebuild := b'.forceRebuild, threads := b'.threads, workDir := b'.workDir } = b' ∧
      f.regionExt = f'.regionExt ∧ f.mergeGeomBeforeMapping = f'.mergeGeomBeforeMapping ∧
      f.grid = f'.grid
    | .prism b m g c, .prism b' m' g' c' => Settings.Same (.prism b m g c) (.prism b' m' g' c')
    | _, _ => False := by
  cases s <;> cases t
  · simp [Settings.eq, thermalS_eq_iff, FractionS.eq, mergeS_eq_self, and_assoc]
  · simp [Settings.eq]
  · simp [Settings.eq]
  · simp [Settings.eq, Settings.Same, thermalS_eq_iff, meshS_eq_iff, mergeS_eq_iff, cutS_eq_iff,
      and_assoc]

theorem find_addModel_some (c : Cache F C) (t t' : ModelType) (m : Model F C) :
    UMap.find? (addModel c t (some m)) t' = if t' = t then some m else UMap.find? c t' := by
  unfold addModel
  rw [UMap.find?_append, UMap.find?_erase, UMap.find?_cons, UMap.find?_nil]
  by_cases h : t' = t
  · subst h; simp
  · have h' : t ≠ t' := fun e => h e.symm
    simp [h, h']

/-- every cached model was made for the settings it stores, from some earlier layout -/
def Inv (gen : L → Settings F → Option C) (c : Cache F C) (h : List (L × Settings F)) : Prop :=
  ∀ t m, UMap.find? c t = some m →
    m.settings.modelType = t ∧ ∃ l, (l, m.settings) ∈ h ∧ gen l m.settings = some m.content

theorem extract_inv (gen : L → Settings F → Option C) (c : Cache F C) (h : List (L × Settings F))
    (hi : Inv gen c h) (l : L) (s : Settings F) :
    Inv gen (extract gen l c s).1 (h ++ [(l, s)]) := by
  have old : Inv gen c (h ++ [(l, s)]) := by
    intro t m hm
    obtain ⟨h1, l', h2, h3⟩ := hi t m hm
    exact ⟨h1, l', by simp [h2], h3⟩
  have add : Inv gen (addModel c s.modelType ((gen l s).map fun x => ⟨s, x⟩)) (h ++ [(l, s)]) := by
    cases hg : gen l s with
    | none => simpa [addModel] using old
    | some x =>
      intro t m hm
      rw [Option.map_some, find_addModel_some] at hm
      split at hm
      · rename_i ht
        simp only [Option.some.injEq] at hm
        subst hm
        exact ⟨ht.symm, l, by simp, hg⟩
      · exact old t m hm
  unfold extract
  split
  · split
    · exact old
    · exact add
  · exact add

theorem run_inv (gen : L → Settings F → Option C) (h : List (L × Settings F)) :
    Inv gen (run gen [] h) h := by
  have aux : ∀ (h : List (L × Settings F)) c h0, Inv gen c h0 → Inv gen (run gen c h) (h0 ++ h) := by
    intro h
    induction h with
    | nil => intro c h0 hi; simpa [run] using hi
    | cons e h ih =>
      intro c h0 hi
      have := ih _ _ (extract_inv gen c h0 hi e.1 e.2)
      simpa [run] using this
  have := aux h [] [] (by intro t m hm; simp [UMap.find?_nil] at hm)
  simpa using this

/-- **C16, what holds**: after any history, a call whose generation succeeds returns a model of the
kind asked for which either was generated in this call, or was generated in an earlier call with
settings the comparison does not tell apart from these; for prism models this means settings equal
except for thread counts, directories and dump flags.  With `forceRebuild` the model is the one
generated now (for prism models possibly of an older layer cut model, C148).  Missing: grid models whose selected nets differ, and failing generations (see the
refutations). -/
theorem c16_extract_partial (gen : L → Settings F → Option C) (h : List (L × Settings F)) (l : L)
    (s : Settings F) (x : C) (hx : gen l s = some x) :
    ∃ m, (extract gen l (run gen [] h) s).2 = some m ∧ m.settings.modelType = s.modelType ∧
      (m = ⟨s, x⟩ ∨
        (s.base.forceRebuild = false ∧ m.settings.eq s = true ∧
          ∃ l', (l', m.settings) ∈ h ∧ gen l' m.settings = some m.content)) ∧
      (∀ b ms g c, s = .prism b ms g c → m.settings.Same s) := by
  have hi := run_inv gen h
  generalize hc : run gen [] h = c at hi
  have same_self : ∀ b ms g c, s = Settings.prism b ms g c → (⟨s, x⟩ : Model F C).settings.Same s := by
    rintro b ms g c rfl
    simp [Settings.Same]
  have fresh : UMap.find? (addModel c s.modelType ((gen l s).map fun x => ⟨s, x⟩)) s.modelType
      = some ⟨s, x⟩ := by
    rw [hx, Option.map_some, find_addModel_some, if_pos rfl]
  unfold extract
  cases hm : UMap.find? c s.modelType with
  | none =>
    exact ⟨⟨s, x⟩, by simpa using fresh, rfl, Or.inl rfl, same_self⟩
  | some m =>
    by_cases hcond : (!s.base.forceRebuild && m.settings.eq s) = true
    · obtain ⟨h1, l', h2, h3⟩ := hi _ m hm
      have hcond' := hcond
      simp only [Bool.and_eq_true, Bool.not_eq_true'] at hcond
      refine ⟨m, by simp [hcond'], h1, Or.inr ⟨hcond.1, hcond.2, l', h2, h3⟩, ?_⟩
      rintro b ms g cc rfl
      have := (settings_eq_iff m.settings _).1 hcond.2
      cases hms : m.settings with
      | grid => rw [hms] at this; exact this.elim
      | prism => rw [hms] at this; exact this
    · exact ⟨⟨s, x⟩, by simpa [hcond] using fresh, rfl, Or.inl rfl, same_self⟩

/-- The three kinds of thermal models -/
inductive Kind | grid | prism | stackup
  deriving DecidableEq

/-- The kind settings ask for: prism models are meshed layer by layer or as a whole. -/
def kindOf : Settings F → Kind
  | .grid .. => .grid
  | .prism _ m _ _ => if m.genMeshByLayer then .stackup else .prism

omit [DecidableEq F] in
theorem modelType_iff (s t : Settings F) : s.modelType = t.modelType ↔ kindOf s = kindOf t := by
  cases s <;> cases t <;> simp only [Settings.modelType, kindOf] <;> split_ifs <;> simp

/-- **C16**, kinds do not disturb each other: a returned model is of the kind asked for, and an
extraction leaves the cached models of the other kinds, so that repeating an unforced call after
extractions of other kinds from changed layouts returns the same model. -/
theorem c16_kinds (gen : L → Settings F → Option C) (h : List (L × Settings F)) (l l' : L)
    (s : Settings F) (m : Model F C) (hm : (extract gen l (run gen [] h) s).2 = some m)
    (others : List (L × Settings F)) (ho : ∀ e ∈ others, kindOf e.2 ≠ kindOf s) :
    kindOf m.settings = kindOf s ∧
    (s.base.forceRebuild = false → m.settings.eq s = true →
      (extract gen l' (run gen (extract gen l (run gen [] h) s).1 others) s).2 = some m) := by
  have hi := extract_inv gen _ h (run_inv gen h) l s
  have hfind : UMap.find? (extract gen l (run gen [] h) s).1 s.modelType = some m := by
    revert hm
    unfold extract
    cases hc : UMap.find? (run gen [] h) s.modelType with
    | none => exact fun h => h
    | some m' =>
      simp only
      split
      · intro h; simp only at h ⊢; rw [hc]; exact h
      · exact fun h => h
  refine ⟨(modelType_iff _ _).1 (hi _ m hfind).1, ?_⟩
  intro hf heq
  have keep : ∀ (o : List (L × Settings F)) (c : Cache F C), (∀ e ∈ o, kindOf e.2 ≠ kindOf s) →
      UMap.find? c s.modelType = some m → UMap.find? (run gen c o) s.modelType = some m := by
    intro o
    induction o with
    | nil => intro c _ h; exact h
    | cons e o ih =>
      intro c ho hc
      refine ih _ (fun e he => ho e (by simp [he])) ?_
      have hne : s.modelType ≠ e.2.modelType := by
        rw [Ne, modelType_iff]; exact fun h => ho e (by simp) h.symm
      have hadd : ∀ x : Option (Model F C), UMap.find? (addModel c e.2.modelType x) s.modelType = some m := by
        intro x
        cases x with
        | none => exact hc
        | some x => rw [find_addModel_some, if_neg hne]; exact hc
      unfold extract
      cases UMap.find? c e.2.modelType with
      | none => exact hadd _
      | some m' =>
        simp only
        split
        · exact hc
        · exact hadd _
  have := keep others _ ho hfind
  generalize run gen (extract gen l (run gen [] h) s).1 others = c at this
  unfold extract
  rw [this]
  simp [hf, heq]

/-- some settings, for the witnesses -/
def sampleMerge : MergeS := ⟨1, "", true, true, true, false, []⟩
def sampleBase (force : Bool) : ThermalS Int := ⟨force, 1, "", (0, 0), (0, 0), [], [], 25⟩
def sampleGrid (nets : List Int) : Settings Int :=
  .grid (sampleBase false) false false false ⟨1, "", (0, 0, 0, 0), true, (10, 10), nets, sampleMerge⟩
def samplePrism (force : Bool) (iter : Nat) : Settings Int :=
  .prism (sampleBase force) ⟨20, 0, 100, 0, iter, false, false, false⟩ sampleMerge
    ⟨true, 6, 2, false, []⟩

/-- The hypothesis of `c16_extract_partial` is met, and the cache is used. -/
example : (extract (fun (l : Nat) (_ : Settings Int) => some l) 5
    (run (fun l _ => some l) [] [(3, samplePrism false 1)]) (samplePrism false 1)).2.map Model.content
    = some 3 := by decide

/-- The hypotheses of `c16_kinds` are met by extractions of all three kinds. -/
example :
    let stackup : Settings Int :=
      .prism (sampleBase false) ⟨20, 0, 100, 0, 1, false, true, false⟩ sampleMerge ⟨true, 6, 2, false, []⟩
    (∀ e ∈ [(4, samplePrism false 1), (5, sampleGrid [])], kindOf (e : Nat × _).2 ≠ kindOf stackup) ∧
    ((extract (fun (l : Nat) (_ : Settings Int) => some l) 3 [] stackup).2.map Model.settings = some stackup) ∧
    stackup.eq stackup = true := by decide

/-- **C16 is false of the code** for grid models: whatever the generation, asking for other nets
right after a successful extraction returns the model of the first nets. -/
theorem c16_nets_ignored_refuted (gen : L → Settings F → Option C) (l l' : L) (b : ThermalS F)
    (d1 d2 d3 : Bool) (f : FractionS F) (nets : List Int) (x : C) (hb : b.forceRebuild = false)
    (hx : gen l (.grid b d1 d2 d3 f) = some x) :
    (extract gen l' (run gen [] [(l, .grid b d1 d2 d3 f)])
      (.grid b d1 d2 d3 { f with selectNets := nets })).2 = some ⟨.grid b d1 d2 d3 f, x⟩ := by
  have h1 : UMap.find? (run gen [] [(l, Settings.grid b d1 d2 d3 f)]) ModelType.thermalGrid
      = some ⟨.grid b d1 d2 d3 f, x⟩ := by
    have e : (extract gen l ([] : Cache F C) (.grid b d1 d2 d3 f)).1 =
        addModel [] ModelType.thermalGrid (some ⟨.grid b d1 d2 d3 f, x⟩) := by
      simp [extract, UMap.find?_nil, Settings.modelType, hx]
    simp only [run]
    rw [e, find_addModel_some, if_pos rfl]
  have h2 : (Settings.grid b d1 d2 d3 f).eq (.grid b d1 d2 d3 { f with selectNets := nets }) = true := by
    rw [settings_eq_iff]; simp
  have h3 : (Settings.grid b d1 d2 d3 f).base = b := rfl
  unfold extract
  have h4 : (Settings.grid b d1 d2 d3 { f with selectNets := nets }).modelType
      = ModelType.thermalGrid := rfl
  rw [h4, h1]
  simp [h2, Settings.base, hb]

/-- two different net selections that generate different models, and the answer for the second is
the model of the first -/
example : (extract (fun (_ : Unit) s => some s) () (run (fun _ s => some s) [] [((), sampleGrid [1])])
    (sampleGrid [2])).2.map Model.content = some (sampleGrid [1]) ∧
    sampleGrid [1] ≠ sampleGrid [2] := by decide

/-- **C16 is false of the code** for failing generations: the model of earlier settings is returned
instead of nothing, even with `forceRebuild`. -/
theorem c16_failed_generation_refuted (gen : L → Settings F → Option C) (h : List (L × Settings F))
    (l : L) (s : Settings F) (m : Model F C) (hf : gen l s = none)
    (hm : UMap.find? (run gen [] h) s.modelType = some m) :
    (extract gen l (run gen [] h) s).2 = some m := by
  unfold extract
  rw [hm]
  simp only [hf, Option.map_none, addModel, hm]
  split <;> rfl

example :
    let gen : Nat → Settings Int → Option Nat := fun l _ => if l = 0 then none else some l
    (extract gen 0 (run gen [] [(7, samplePrism false 1)]) (samplePrism true 2)).2.map Model.settings
      = some (samplePrism false 1) ∧ samplePrism false 1 ≠ samplePrism true 2 := by decide

/-- The cache does not look at the layout: an unforced call repeated after any change of the layout
returns the old model. -/
theorem c16_stale_layout (gen : L → Settings F → Option C) (h : List (L × Settings F)) (l l' : L)
    (s : Settings F) (x : C) (hforce : s.base.forceRebuild = false)
    (hx : gen l s = some x) :
    (extract gen l' (extract gen l (run gen [] h) s).1 s).2 = (extract gen l (run gen [] h) s).2 := by
  generalize run gen [] h = c
  have hs : s.eq s = true := by
    rw [settings_eq_iff]
    cases s <;> simp [Settings.Same]
  have fresh : UMap.find? (addModel c s.modelType ((gen l s).map fun x => ⟨s, x⟩)) s.modelType
      = some ⟨s, x⟩ := by
    rw [hx, Option.map_some, find_addModel_some, if_pos rfl]
  cases hm : UMap.find? c s.modelType with
  | none =>
    have e : extract gen l c s = (addModel c s.modelType ((gen l s).map fun x => ⟨s, x⟩), some ⟨s, x⟩) := by
      unfold extract; rw [hm]; simp only [fresh]
    rw [e]
    unfold extract
    simp [fresh, hforce, hs]
  | some m =>
    by_cases hc : m.settings.eq s = true
    · have e : extract gen l c s = (c, some m) := by
        unfold extract; rw [hm]; simp [hforce, hc]
      rw [e]
      unfold extract; rw [hm]; simp [hforce, hc]
    · have e : extract gen l c s
          = (addModel c s.modelType ((gen l s).map fun x => ⟨s, x⟩), some ⟨s, x⟩) := by
        unfold extract; rw [hm]; simp [hforce, hc, fresh]
      rw [e]
      unfold extract
      simp [fresh, hforce, hs]

end Ecad.Extract
