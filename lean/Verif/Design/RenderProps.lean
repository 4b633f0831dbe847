import Verif.Design.BoundaryModel
import Verif.Design.BoundaryProps
/-!
C119: the picture of a layout shows its boundary and its components and primitives; layers and nets that are selected
are the ones left out.
-/
namespace Ecad.Bdy
open Ecad.Shp

variable {K : Type} [Field K] [LinearOrder K]

/-! ### specification -/

/-- the lines of a shape: its outline and its holes -/
def LineOf (L : Lib K) (s : Shape K) (o : List (K × K)) : Prop := o = (s.pwh L).outline ∨ o ∈ (s.pwh L).holes

/-- the lines of a primitive: those of its shape, or the straight line of a bond wire -/
def PrimLine (L : Lib K) (p : Prim K) (o : List (K × K)) : Prop :=
  (∃ s, p.kind = .geom (some s) ∧ LineOf L s o) ∨ ∃ a b, p.kind = .wire a b ∧ o = [a, b]

/-- nothing selected is everything selected -/
def Selected (sel : List Int) (x : Int) : Prop := sel = [] ∨ x ∈ sel

/-- the layers and nets the code keeps: all of them if nothing is selected, otherwise those that are not selected -/
def Kept (sel : List Int) (x : Int) : Prop := sel = [] ∨ x ∉ sel

/-- every geometry that is kept has a shape -/
def Whole (selN selL : List Int) (l : Layout K) : Prop :=
  ∀ p ∈ l.prims, Kept selN p.net → Kept selL p.layer → p.kind ≠ .geom none

/-! ### proofs -/

theorem passed_iff (sel : List Int) (x : Int) : passed sel x = false ↔ Kept sel x := by
  unfold passed Kept
  cases sel with
  | nil => simp
  | cons a l => simp

theorem passed_true (sel : List Int) (x : Int) : passed sel x = true ↔ ¬ Kept sel x := by
  rw [← passed_iff]; simp

theorem mem_parts (L : Lib K) (s : Shape K) (o : List (K × K)) : o ∈ parts L s ↔ LineOf L s o := by simp [parts, LineOf]

theorem mem_compOut (L : Lib K) (selL : List Int) (c : Comp K) (o : List (K × K)) :
    o ∈ compOut L selL c ↔ Kept selL c.layer ∧ ∃ s, c.bond = some s ∧ LineOf L s o := by
  unfold compOut
  cases c.bond with
  | none => simp
  | some s =>
    by_cases h : passed selL c.layer = true
    · simp [h, (passed_true _ _).1 h]
    · have h' : passed selL c.layer = false := by simpa using h
      simp [h', (passed_iff _ _).1 h', mem_parts]

theorem primOut_kept (L : Lib K) (selN selL : List Int) (p : Prim K) (hn : Kept selN p.net) (hl : Kept selL p.layer) :
    (p.kind = .geom none ∧ primOut L selN selL p = .ub) ∨
    (p.kind ≠ .geom none ∧ ∃ a, primOut L selN selL p = .ok a ∧ ∀ o, o ∈ a ↔ PrimLine L p o) := by
  have h1 := (passed_iff _ _).2 hn
  have h2 := (passed_iff _ _).2 hl
  unfold primOut PrimLine
  simp only [h1, h2, Bool.false_eq_true, if_false]
  cases hk : p.kind with
  | wire a b =>
    right
    refine ⟨by simp, _, rfl, fun o => ?_⟩
    constructor
    · intro h; exact Or.inr ⟨a, b, rfl, List.mem_singleton.1 h⟩
    · rintro (⟨s, h, _⟩ | ⟨a', b', h, e⟩)
      · simp at h
      · obtain ⟨rfl, rfl⟩ := (Kind.wire.injEq ..).mp h
        simp [e]
  | text => right; exact ⟨by simp, _, rfl, by simp⟩
  | geom s =>
    cases s with
    | none => left; exact ⟨rfl, rfl⟩
    | some s => right; exact ⟨by simp, _, rfl, by simp [mem_parts]⟩

theorem primOut_left (L : Lib K) (selN selL : List Int) (p : Prim K) (h : ¬ (Kept selN p.net ∧ Kept selL p.layer)) :
    primOut L selN selL p = .ok [] := by
  unfold primOut
  by_cases h1 : passed selN p.net = true
  · simp [h1]
  · have h1' : passed selN p.net = false := by simpa using h1
    have h2 : passed selL p.layer = true := by
      rw [passed_true]
      exact fun hk => h ⟨(passed_iff _ _).1 h1', hk⟩
    simp [h1', h2]

theorem mem_primOuts (L : Lib K) (selN selL : List Int) (ps : List (Prim K))
    (hw : ∀ p ∈ ps, Kept selN p.net → Kept selL p.layer → p.kind ≠ .geom none) :
    ∃ a, primOuts L selN selL ps = .ok a ∧
      ∀ o, o ∈ a ↔ ∃ p ∈ ps, Kept selN p.net ∧ Kept selL p.layer ∧ PrimLine L p o := by
  induction ps with
  | nil => exact ⟨[], rfl, by simp⟩
  | cons p ps ih =>
    obtain ⟨b, hb, hb'⟩ := ih fun p hp => hw p (List.mem_cons_of_mem _ hp)
    by_cases hk : Kept selN p.net ∧ Kept selL p.layer
    · rcases primOut_kept L selN selL p hk.1 hk.2 with ⟨h, _⟩ | ⟨_, a, ha, ha'⟩
      · exact absurd h (hw p List.mem_cons_self hk.1 hk.2)
      · refine ⟨a ++ b, by simp [primOuts, ha, hb], fun o => ?_⟩
        simp only [List.mem_append, ha', hb', List.exists_mem_cons_iff, hk.1, hk.2, true_and]
    · refine ⟨b, by simp [primOuts, primOut_left L selN selL p hk, hb], fun o => ?_⟩
      rw [hb']
      simp only [List.exists_mem_cons_iff]
      constructor
      · exact Or.inr
      · rintro (⟨h1, h2, _⟩ | h)
        · exact absurd ⟨h1, h2⟩ hk
        · exact h

/-- what the picture shows, exactly: the boundary, the lines of the components on kept layers, and the lines of the
primitives with kept nets on kept layers -/
theorem c119_exact (L : Lib K) (selN selL : List Int) (bd : Shape K) (l : Layout K) (hw : Whole selN selL l) :
    ∃ a, outs L selN selL bd l = .ok a ∧ ∀ o, o ∈ a ↔
      o = bd.contour L ∨ (∃ c ∈ l.comps, Kept selL c.layer ∧ ∃ s, c.bond = some s ∧ LineOf L s o) ∨
        ∃ p ∈ l.prims, Kept selN p.net ∧ Kept selL p.layer ∧ PrimLine L p o := by
  obtain ⟨a, ha, ha'⟩ := mem_primOuts L selN selL l.prims hw
  refine ⟨_, by unfold outs; rw [ha]; rfl, fun o => ?_⟩
  simp only [List.cons_append, List.mem_cons, List.mem_append, List.mem_flatMap, mem_compOut, ha']

/-- C119 for pictures of everything: with nothing selected the picture shows the boundary, and all components and
primitives, and nothing else -/
theorem c119_all_partial (L : Lib K) (bd : Shape K) (l : Layout K) (hw : ∀ p ∈ l.prims, p.kind ≠ .geom none) :
    ∃ a, outs L [] [] bd l = .ok a ∧ ∀ o, o ∈ a ↔
      o = bd.contour L ∨ (∃ c ∈ l.comps, Selected [] c.layer ∧ ∃ s, c.bond = some s ∧ LineOf L s o) ∨
        ∃ p ∈ l.prims, Selected [] p.net ∧ Selected [] p.layer ∧ PrimLine L p o := by
  obtain ⟨a, h1, h2⟩ := c119_exact L [] [] bd l fun p hp _ _ => hw p hp
  refine ⟨a, h1, fun o => ?_⟩
  rw [h2]
  simp [Kept, Selected]

/-- Full statement of C119, false for every selection of nets: a primitive of a selected net is not drawn, one of a
net that is not selected is. -/
theorem c119_nets_refuted (L : Lib K) (selN : List Int) (hs : selN ≠ []) (bd : Shape K) (p : Prim K) (hg : p.kind ≠ .geom none) :
    (Selected selN p.net → outs L selN [] bd ⟨[p.layer], [p], [], [], [], none⟩ = .ok [bd.contour L]) ∧
    (¬ Selected selN p.net → ∃ a, outs L selN [] bd ⟨[p.layer], [p], [], [], [], none⟩ = .ok a ∧ ∀ o, PrimLine L p o → o ∈ a) := by
  constructor
  · rintro (h | h)
    · exact absurd h hs
    · have : primOut L selN [] p = .ok [] := primOut_left L selN [] p fun hk => by
        rcases hk.1 with e | e
        · exact hs e
        · exact e h
      simp [outs, primOuts, this]
  · intro h
    obtain ⟨a, h1, h2⟩ := c119_exact L selN [] bd ⟨[p.layer], [p], [], [], [], none⟩ fun q hq _ _ => by
      rw [List.mem_singleton.1 hq]; exact hg
    refine ⟨a, h1, fun o ho => (h2 o).2 (Or.inr (Or.inr ⟨p, by simp, Or.inr fun hm => h (Or.inr hm), Or.inl rfl, ho⟩))⟩

/-- the same for selections of layers, and for components too -/
theorem c119_layers_refuted (L : Lib K) (selL : List Int) (hs : selL ≠ []) (bd : Shape K) (c : Comp K) (p : Prim K)
    (hg : p.kind ≠ .geom none) :
    (Selected selL c.layer → Selected selL p.layer →
      outs L [] selL bd ⟨[p.layer], [p], [], [c], [], none⟩ = .ok [bd.contour L]) ∧
    (¬ Selected selL c.layer → ¬ Selected selL p.layer → ∃ a, outs L [] selL bd ⟨[p.layer], [p], [], [c], [], none⟩ = .ok a ∧
      (∀ o, PrimLine L p o → o ∈ a) ∧ ∀ s, c.bond = some s → ∀ o, LineOf L s o → o ∈ a) := by
  constructor
  · rintro (h | h) (h' | h')
    · exact absurd h hs
    · exact absurd h hs
    · exact absurd h' hs
    · have h1 : primOut L [] selL p = .ok [] := primOut_left L [] selL p fun hk => by
        rcases hk.2 with e | e
        · exact hs e
        · exact e h'
      have h2 : passed selL c.layer = true := (passed_true _ _).2 fun hk => by
        rcases hk with e | e
        · exact hs e
        · exact e h
      have h3 : compOut L selL c = [] := by
        unfold compOut
        cases c.bond <;> simp [h2]
      simp [outs, primOuts, h1, h3]
  · intro hc h
    obtain ⟨a, h1, h2⟩ := c119_exact L [] selL bd ⟨[p.layer], [p], [], [c], [], none⟩ fun q hq _ _ => by
      rw [List.mem_singleton.1 hq]; exact hg
    exact ⟨a, h1, fun o ho => (h2 o).2 (Or.inr (Or.inr ⟨p, by simp, Or.inl rfl, Or.inr fun hm => h (Or.inr hm), ho⟩)),
      fun s hb o ho => (h2 o).2 (Or.inr (Or.inl ⟨c, by simp, Or.inr fun hm => hc (Or.inr hm), s, hb, ho⟩))⟩

/-- a geometry without a shape that is kept is read through a null pointer -/
theorem c119_null_refuted (L : Lib K) (selN selL : List Int) (bd : Shape K) (l : Layout K) (hn : ¬ Whole selN selL l) :
    outs L selN selL bd l = .ub := by
  have h : ∀ ps : List (Prim K), (∃ p ∈ ps, Kept selN p.net ∧ Kept selL p.layer ∧ p.kind = .geom none) →
      primOuts L selN selL ps = .ub := by
    intro ps
    induction ps with
    | nil => simp
    | cons p ps ih =>
      intro hp
      by_cases hk : Kept selN p.net ∧ Kept selL p.layer
      · rcases primOut_kept L selN selL p hk.1 hk.2 with ⟨_, h⟩ | ⟨hne, a, ha, _⟩
        · simp [primOuts, h]
        · obtain ⟨q, hq, h1, h2, h3⟩ := hp
          rcases List.mem_cons.1 hq with rfl | hq
          · exact absurd h3 hne
          · simp [primOuts, ha, ih ⟨q, hq, h1, h2, h3⟩]
      · obtain ⟨q, hq, h1, h2, h3⟩ := hp
        rcases List.mem_cons.1 hq with rfl | hq
        · exact absurd ⟨h1, h2⟩ hk
        · simp [primOuts, primOut_left L selN selL p hk, ih ⟨q, hq, h1, h2, h3⟩]
  unfold outs
  rw [h]
  · rfl
  · by_contra hc
    refine hn fun p hp h1 h2 h3 => hc ⟨p, hp, h1, h2, h3⟩

/-- instances and padstack instances are not in the picture -/
theorem c119_insts_refuted (L : Lib K) (selN selL : List Int) (bd : Shape K) (l : Layout K) (is : List (Inst K)) (ps : List (List (K × K))) :
    outs L selN selL bd { l with insts := is, pads := ps } = outs L selN selL bd l := rfl

/-! ### examples -/

/-- a layout with a component on layer 1, a shape with a hole on net 5 and a bond wire on net 6 -/
def exR : Layout ℚ :=
  ⟨[1, 2], [⟨5, 2, .geom (some (.holes [(0, 0), (9, 0), (9, 9)] [[(5, 1), (6, 1), (6, 2)]]))⟩, ⟨6, 3, .wire (1, 1) (7, 7)⟩, ⟨5, 2, .text⟩],
   [], [⟨1, some (.rect ⟨(0, 0), (2, 2)⟩)⟩, ⟨1, none⟩], [], none⟩

example : outs exLib [] [] (.rect ⟨(0, 0), (9, 9)⟩) exR =
    .ok [[(0, 0), (9, 0), (9, 9), (0, 9)], [(0, 0), (2, 0), (2, 2), (0, 2)], [(0, 0), (9, 0), (9, 9)], [(5, 1), (6, 1), (6, 2)],
      [(1, 1), (7, 7)]] := by decide +kernel

example : outs exLib [5] [1] (.rect ⟨(0, 0), (9, 9)⟩) exR = .ok [[(0, 0), (9, 0), (9, 9), (0, 9)], [(1, 1), (7, 7)]] := by
  decide +kernel

example : Whole [5] [1] exR := by
  intro p hp _ _
  simp only [exR, List.mem_cons, List.not_mem_nil, or_false] at hp
  rcases hp with rfl | rfl | rfl <;> simp

example : ¬ Whole [] [] (⟨[1], [⟨0, 1, .geom none⟩], [], [], [], none⟩ : Layout ℚ) :=
  fun h => h ⟨0, 1, .geom none⟩ (by simp) (Or.inl rfl) (Or.inl rfl) rfl

end Ecad.Bdy
