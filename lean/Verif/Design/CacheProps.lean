import Verif.Design.CacheModel
import Verif.Design.ExtractProps
/-!
C148: of which layout the extracted models are.
-/
namespace Ecad.Cache2
open Extract

variable {L F D C : Type} [DecidableEq F]

/-! ## specification -/

/-- The model of a layout for given settings, without regard to any cache -/
def plain (G : Gens L F D C) (l : L) : Settings F → Option C
  | .grid b d1 d2 d3 f => G.grid l (.grid b d1 d2 d3 f)
  | .prism b m g c => some (G.prism l (.prism b m g c) (G.cut l c))

/-- Cut settings that differ at most in the wish for a picture -/
def SameCut (a b : CutS F) : Prop := { a with dumpSketchImg := b.dumpSketchImg } = b

/-- The cut settings a call asks for, if any -/
def asked : Call F → Option (CutS F)
  | .cut s => some s
  | .thermal (.prism _ _ _ c) => some c
  | .thermal (.grid ..) => none

theorem sameCut_iff (a b : CutS F) : a.eq b = true ↔ SameCut a b := cutS_eq_iff a b

/-! ## the cache of layer cut models -/

/-- the layer cut model kept was made in one of the calls, with the settings it stores -/
def CutInv (G : Gens L F D C) (st : St F D C) (h : List (L × Call F)) : Prop :=
  ∀ m, st.cutM = some m → ∃ e ∈ h, asked e.2 = some m.1 ∧ m.2 = G.cut e.1 m.1

theorem cutInv_mono {G : Gens L F D C} {st : St F D C} {h h' : List (L × Call F)} (hi : CutInv G st h) (hs : ∀ e ∈ h, e ∈ h') : CutInv G st h' := by
  intro m hm
  obtain ⟨e, he, h1⟩ := hi m hm
  exact ⟨e, hs e he, h1⟩

/-- what a call for the layer cut model returns and leaves -/
theorem extractCut_spec (G : Gens L F D C) (l : L) (st : St F D C) (s : CutS F) :
    (extractCut G l st s).1 = ⟨some (extractCut G l st s).2, st.models⟩ ∧
    ((st.cutM = some (extractCut G l st s).2 ∧ SameCut (extractCut G l st s).2.1 s) ∨
      ((∀ m, st.cutM = some m → ¬ SameCut m.1 s) ∧ (extractCut G l st s).2 = (s, G.cut l s))) := by
  obtain ⟨cm, ms⟩ := st
  cases cm with
  | none => simp [extractCut]
  | some m =>
    by_cases h : m.1.eq s = true
    · simp only [extractCut, h, if_true]
      exact ⟨trivial, .inl ⟨trivial, (sameCut_iff _ _).1 h⟩⟩
    · simp only [extractCut, h]
      refine ⟨rfl, .inr ⟨?_, rfl⟩⟩
      intro m' hm'
      injection hm' with hm'
      subst hm'
      rwa [← sameCut_iff]

theorem extractCut_inv {G : Gens L F D C} {st : St F D C} {h : List (L × Call F)} (hi : CutInv G st h) (l : L) (s : CutS F) (e : Call F)
    (he : asked e = some s) : CutInv G (extractCut G l st s).1 (h ++ [(l, e)]) := by
  obtain ⟨h1, h2⟩ := extractCut_spec G l st s
  intro m hm
  rw [h1] at hm
  injection hm with hm
  rcases h2 with ⟨h2, -⟩ | ⟨-, h2⟩
  · obtain ⟨e', he', h3⟩ := hi m (by rw [h2, hm])
    exact ⟨e', by simp [he'], h3⟩
  · rw [h2] at hm
    subst hm
    exact ⟨(l, e), by simp, he, rfl⟩

theorem step_inv {G : Gens L F D C} {st : St F D C} {h : List (L × Call F)} (hi : CutInv G st h) (e : L × Call F) :
    CutInv G (step G st e) (h ++ [e]) := by
  obtain ⟨l, e⟩ := e
  have old : CutInv G st (h ++ [(l, e)]) := cutInv_mono hi fun e he => by simp [he]
  cases e with
  | cut s => exact extractCut_inv hi l s _ rfl
  | thermal s =>
    have hre : CutInv G (rebuild G l st s).1 (h ++ [(l, .thermal s)]) := by
      cases s with
      | grid => exact old
      | prism b m g c => exact extractCut_inv hi l c (.thermal (.prism b m g c)) rfl
    show CutInv G (extractThermal G l st s).1 _
    unfold extractThermal
    split
    · split
      · exact old
      · exact hre
    · exact hre

theorem after_snoc (G : Gens L F D C) (h : List (L × Call F)) (e : L × Call F) : after G (h ++ [e]) = step G (after G h) e := by
  simp [after]

theorem after_inv (G : Gens L F D C) (h : List (L × Call F)) : CutInv G (after G h) h := by
  induction h using List.reverseRecOn with
  | nil => intro m hm; simp [after] at hm
  | append_singleton h e ih =>
    rw [after_snoc]
    exact step_inv ih e

theorem rebuild_spec (G : Gens L F D C) (l : L) (st : St F D C) (s : Settings F) {x : C} (hx : (generate G l st s).2 = some x) :
    (rebuild G l st s).2 = some ⟨s, x⟩ := by
  simp only [rebuild, hx, Option.map_some]
  rw [find_addModel_some, if_pos rfl]

theorem forced_spec (G : Gens L F D C) (l : L) (st : St F D C) (s : Settings F) (hf : s.base.forceRebuild = true) :
    extractThermal G l st s = rebuild G l st s := by
  unfold extractThermal
  split
  · simp [hf]
  · rfl

/-! ## which layout -/

/-- C148, forced grid models are those of the layout as it is (if they can be made). -/
theorem c148_grid (G : Gens L F D C) (h : List (L × Call F)) (l : L) (b : ThermalS F) (d1 d2 d3 : Bool) (f : FractionS F)
    (hf : b.forceRebuild = true) {x : C} (hx : plain G l (.grid b d1 d2 d3 f) = some x) :
    (extractThermal G l (after G h) (.grid b d1 d2 d3 f)).2 = some ⟨.grid b d1 d2 d3 f, x⟩ := by
  rw [forced_spec G l _ (.grid b d1 d2 d3 f) hf]
  exact rebuild_spec G l _ _ hx

/-- C148, forced prism models, exactly: they are made of the layout as it is and of a layer cut model that was made now or in an earlier call with
settings that differ at most in the wish for a picture, of the layout of that time; it is made now exactly if none of such settings is kept. -/
theorem c148_prism (G : Gens L F D C) (h : List (L × Call F)) (l : L) (b : ThermalS F) (m : MeshS F) (g : MergeS) (c : CutS F)
    (hf : b.forceRebuild = true) :
    ∃ d, (extractThermal G l (after G h) (.prism b m g c)).2 = some ⟨.prism b m g c, G.prism l (.prism b m g c) d⟩ ∧
      (((∀ k, (after G h).cutM = some k → ¬ SameCut k.1 c) ∧ d = G.cut l c) ∨
        ∃ e ∈ h, ∃ c', asked e.2 = some c' ∧ SameCut c' c ∧ d = G.cut e.1 c' ∧ (after G h).cutM = some (c', d)) := by
  rw [forced_spec G l _ (.prism b m g c) hf]
  refine ⟨(extractCut G l (after G h) c).2.2, rebuild_spec G l _ _ rfl, ?_⟩
  obtain ⟨h1, h2⟩ := extractCut_spec G l (after G h) c
  rcases h2 with ⟨h2, h3⟩ | ⟨h2, h3⟩
  · obtain ⟨e, he, h4, h5⟩ := after_inv G h _ h2
    exact .inr ⟨e, he, _, h4, h3, h5, h2⟩
  · exact .inl ⟨h2, by rw [h3]⟩

/-- C148: a layout that did not change since models were first extracted from it is what forced prism models describe (the picture apart). -/
theorem c148_unchanged_partial (G : Gens L F D C) (hG : ∀ l a b, SameCut a b → G.cut l a = G.cut l b) (h : List (L × Call F)) (l : L)
    (hl : ∀ e ∈ h, e.1 = l) (s : Settings F) (hf : s.base.forceRebuild = true) {x : C} (hx : plain G l s = some x) :
    (extractThermal G l (after G h) s).2 = some ⟨s, x⟩ := by
  cases s with
  | grid b d1 d2 d3 f => exact c148_grid G h l b d1 d2 d3 f hf hx
  | prism b m g c =>
    obtain ⟨d, h1, h2⟩ := c148_prism G h l b m g c hf
    rw [h1]
    have hd : d = G.cut l c := by
      rcases h2 with ⟨-, h2⟩ | ⟨e, he, c', -, h3, h4, -⟩
      · exact h2
      · rw [h4, hl e he]
        exact hG l c' c h3
    rw [hd]
    injection hx with hx
    rw [hx]

/-- C148: right after a layer cut model with other settings was asked for, whatever the layout was then, forced models are those of the layout. -/
theorem c148_other (G : Gens L F D C) (h : List (L × Call F)) (l l' : L) (b : ThermalS F) (m : MeshS F) (g : MergeS) (c o : CutS F)
    (hf : b.forceRebuild = true) (ho : ¬ SameCut o c) :
    (extractThermal G l (after G (h ++ [(l', .cut o)])) (.prism b m g c)).2.map Model.content = plain G l (.prism b m g c) := by
  obtain ⟨d, h1, h2⟩ := c148_prism G (h ++ [(l', .cut o)]) l b m g c hf
  have hk : ∀ k, (after G (h ++ [(l', .cut o)])).cutM = some k → ¬ SameCut k.1 c := by
    intro k hk
    rw [after_snoc] at hk
    change (extractCut G l' (after G h) o).1.cutM = some k at hk
    obtain ⟨h3, h4⟩ := extractCut_spec G l' (after G h) o
    rw [h3] at hk
    injection hk with hk
    rcases h4 with ⟨-, h4⟩ | ⟨-, h4⟩
    · rw [hk] at h4
      intro h5
      refine ho ?_
      unfold SameCut at h4 h5 ⊢
      rw [← h4, ← h5]
    · rw [hk] at h4
      rw [h4]
      exact ho
  rw [h1]
  rcases h2 with ⟨-, h2⟩ | ⟨e, -, c', -, h3, -, h4⟩
  · rw [h2]
    rfl
  · exact absurd h3 (hk _ h4)

/-- **C148 is false of the code**: a forced prism model (of either kind) is made of the layer cut model of the layout as it was when a prism model or
layer cut model with these cut settings was last made, whatever has changed since then; so it is the model of the layout if and only if the change
makes no difference. -/
theorem c148_forced_refuted (G : Gens L F D C) (h : List (L × Call F)) (l l' : L) (e : Call F) (b : ThermalS F) (m : MeshS F) (g : MergeS)
    (c c' : CutS F) (he : e = .cut c' ∨ ∃ b' m' g', e = .thermal (.prism b' m' g' c') ∧ b'.forceRebuild = true) (hc : SameCut c' c)
    (hk : ∀ k, (after G h).cutM = some k → ¬ SameCut k.1 c') (hf : b.forceRebuild = true) :
    (extractThermal G l' (after G (h ++ [(l, e)])) (.prism b m g c)).2.map Model.content = some (G.prism l' (.prism b m g c) (G.cut l c')) ∧
    ((extractThermal G l' (after G (h ++ [(l, e)])) (.prism b m g c)).2.map Model.content = plain G l' (.prism b m g c) ↔
      G.prism l' (.prism b m g c) (G.cut l c') = G.prism l' (.prism b m g c) (G.cut l' c)) := by
  have h0 : (extractCut G l (after G h) c').2 = (c', G.cut l c') := by
    rcases (extractCut_spec G l (after G h) c').2 with ⟨h1, h2⟩ | ⟨-, h1⟩
    · exact absurd h2 (hk _ h1)
    · exact h1
  have hkept : (after G (h ++ [(l, e)])).cutM = some (c', G.cut l c') := by
    rw [after_snoc]
    rcases he with rfl | ⟨b', m', g', rfl, hb'⟩
    · show (extractCut G l (after G h) c').1.cutM = _
      rw [(extractCut_spec G l (after G h) c').1, h0]
    · show (extractThermal G l (after G h) (.prism b' m' g' c')).1.cutM = _
      rw [forced_spec G l _ (.prism b' m' g' c') hb']
      show (extractCut G l (after G h) c').1.cutM = _
      rw [(extractCut_spec G l (after G h) c').1, h0]
  have hre : (rebuild G l' (after G (h ++ [(l, e)])) (.prism b m g c)).2.map Model.content = some (G.prism l' (.prism b m g c) (G.cut l c')) := by
    rw [rebuild_spec G l' _ (.prism b m g c) rfl]
    rcases (extractCut_spec G l' (after G (h ++ [(l, e)])) c).2 with ⟨h1, -⟩ | ⟨h1, -⟩
    · rw [hkept] at h1
      injection h1 with h1
      rw [← h1]
      rfl
    · exact absurd hc (h1 _ hkept)
  rw [forced_spec G l' _ (.prism b m g c) hf, hre]
  refine ⟨rfl, ?_⟩
  simp [plain]

/-- **C148 is false of the code** even for a layout of which no model of the kind was ever extracted: after a prism model of the layout was made, the
first stackup prism model (and the other way round) of the changed layout describes the layout as it was. -/
theorem c148_first_refuted (G : Gens L F D C) (l l' : L) (b b' : ThermalS F) (m m' : MeshS F) (g g' : MergeS) (c : CutS F)
    (hm : m.genMeshByLayer ≠ m'.genMeshByLayer) :
    (extractThermal G l' (after G [(l, .thermal (.prism b m g c))]) (.prism b' m' g' c)).2.map Model.content =
      some (G.prism l' (.prism b' m' g' c) (G.cut l c)) := by
  have hst : after G [(l, .thermal (.prism b m g c))] =
      ⟨some (c, G.cut l c), [((Settings.prism b m g c).modelType, ⟨.prism b m g c, G.prism l (.prism b m g c) (G.cut l c)⟩)]⟩ := by
    show (extractThermal G l ⟨none, []⟩ (.prism b m g c)).1 = _
    simp [extractThermal, UMap.find?_nil, rebuild, generate, extractCut, addModel, UMap.erase]
  rw [hst]
  have hne : (Settings.prism b m g c).modelType ≠ (Settings.prism b' m' g' c).modelType := by
    simp only [Settings.modelType]
    cases h1 : m.genMeshByLayer <;> cases h2 : m'.genMeshByLayer <;> simp_all
  have hnone : UMap.find? [((Settings.prism b m g c).modelType, (⟨.prism b m g c, G.prism l (.prism b m g c) (G.cut l c)⟩ : Model F C))]
      (Settings.prism b' m' g' c).modelType = none := by
    rw [UMap.find?_cons, if_neg hne, UMap.find?_nil]
  unfold extractThermal
  rw [hnone]
  simp only
  rw [rebuild_spec G l' _ (.prism b' m' g' c) rfl]
  have hs : c.eq c = true := by rw [sameCut_iff]; rfl
  simp [extractCut, hs]

/-! ## C16 of the two levels -/

/-- the generation as C16 sees it: of the layout and the layer cut model that is kept -/
def seen (G : Gens L F D C) (p : L × Option (CutS F × D)) (s : Settings F) : Option C :=
  (generate G p.1 ⟨p.2, []⟩ s).2

theorem generate_seen (G : Gens L F D C) (l : L) (st : St F D C) (s : Settings F) :
    (generate G l st s).2 = seen G (l, st.cutM) s ∧ (generate G l st s).1.models = st.models := by
  obtain ⟨cm, ms⟩ := st
  cases s with
  | grid => exact ⟨rfl, rfl⟩
  | prism b m g c =>
    cases cm with
    | none => exact ⟨rfl, rfl⟩
    | some k =>
      simp only [generate, seen, extractCut]
      constructor
      · split <;> rfl
      · split <;> rfl

/-- The cache of thermal models is that of C16, with the layout and the layer cut model kept for it in the place of the layout. -/
theorem c148_refines (G : Gens L F D C) (l : L) (st : St F D C) (s : Settings F) :
    (extractThermal G l st s).1.models = (extract (seen G) (l, st.cutM) st.models s).1 ∧
    (extractThermal G l st s).2 = (extract (seen G) (l, st.cutM) st.models s).2 := by
  have hre : (rebuild G l st s).1.models = addModel st.models s.modelType ((seen G (l, st.cutM) s).map fun x => ⟨s, x⟩) ∧
      (rebuild G l st s).2 = UMap.find? (addModel st.models s.modelType ((seen G (l, st.cutM) s).map fun x => ⟨s, x⟩)) s.modelType := by
    obtain ⟨h1, h2⟩ := generate_seen G l st s
    simp only [rebuild, h1, h2, and_self]
  unfold extractThermal extract
  cases UMap.find? st.models s.modelType with
  | none => exact hre
  | some m =>
    simp only
    by_cases hc : (!s.base.forceRebuild && m.settings.eq s) = true
    · rw [if_pos hc, if_pos hc]
      exact ⟨rfl, rfl⟩
    · rw [if_neg hc, if_neg hc]
      exact hre

/-- Calls for layer cut models do not touch the thermal models kept, and what comes of calls for grid models is the same with and without them. -/
theorem c148_cut_keeps (G : Gens L F D C) (h cs : List (L × Call F)) (hcs : ∀ e ∈ cs, ∃ o, e.2 = .cut o) (l : L) (b : ThermalS F) (d1 d2 d3 : Bool) (f : FractionS F) :
    (after G (h ++ cs)).models = (after G h).models ∧
    (extractThermal G l (after G (h ++ cs)) (.grid b d1 d2 d3 f)).2 = (extractThermal G l (after G h) (.grid b d1 d2 d3 f)).2 := by
  have hm : (after G (h ++ cs)).models = (after G h).models := by
    induction cs using List.reverseRecOn with
    | nil => simp
    | append_singleton cs e ih =>
      obtain ⟨o, ho⟩ := hcs e (by simp)
      obtain ⟨l', e⟩ := e
      dsimp only at ho
      subst ho
      rw [← List.append_assoc, after_snoc, ← ih fun e he => hcs e (by simp [he])]
      show (extractCut G l' (after G (h ++ cs)) o).1.models = _
      rw [(extractCut_spec G l' _ o).1]
  refine ⟨hm, ?_⟩
  rw [(c148_refines G l _ _).2, (c148_refines G l _ _).2, hm]
  rfl

/-! ## examples -/

/-- layouts are numbers, models say of which layout their two parts are -/
def exGens : Gens Nat Int Nat (Nat × Nat) := ⟨fun l _ => l, fun l _ => some (l, l), fun l _ d => (l, d)⟩

/-- a forced prism model of layout 2 after one of layout 1, the picture turned off: made of the layer cut model of layout 1 -/
example : (extractThermal exGens 2 (after exGens [(1, .thermal (samplePrism true 1))])
    (.prism (sampleBase true) ⟨20, 0, 100, 0, 3, false, false, false⟩ sampleMerge ⟨false, 6, 2, false, []⟩)).2.map Model.content = some (2, 1) := by decide

/-- asking for another precision in between helps -/
example : (extractThermal exGens 2 (after exGens [(1, .thermal (samplePrism true 1)), (1, .cut ⟨true, 7, 2, false, []⟩)])
    (samplePrism true 1)).2.map Model.content = some (2, 2) := by decide

/-- the hypotheses of `c148_forced_refuted` are met -/
example : SameCut (⟨true, 6, 2, false, []⟩ : CutS Int) ⟨false, 6, 2, false, []⟩ ∧
    (∀ k, (after exGens []).cutM = some k → ¬ SameCut k.1 (⟨true, 6, 2, false, []⟩ : CutS Int)) :=
  ⟨rfl, fun k hk => by simp [after] at hk⟩

/-- the hypotheses of `c148_unchanged_partial` are met -/
example : (∀ l a b, SameCut a b → exGens.cut l a = exGens.cut l b) ∧ plain exGens 4 (samplePrism true 1) = some (4, 4) :=
  ⟨fun _ _ _ _ => rfl, rfl⟩

end Ecad.Cache2
