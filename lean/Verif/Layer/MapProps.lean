import Verif.Layer.MapLemmas
/-!
C07: layer maps are reversible.  C08: remapping composes.
-/
namespace Ecad
namespace LayerMap

/-- The layer maps a program can build out of the API: a new map, `SetMapping` between layer ids,
and rewriting either side through another such map.  Layer ids are stack positions or one of the
two special values. -/
inductive Reach : BiMap → Prop
  | new : Reach new
  | set {m} (a b : Int) : Reach m → (0 ≤ a ∨ a = noLayer ∨ a = componentLayer) →
      (0 ≤ b ∨ b = noLayer ∨ b = componentLayer) → Reach (setMapping m a b)
  | left {m f} : Reach m → Reach f → Reach (mappingLeft m f)
  | right {m f} : Reach m → Reach f → Reach (mappingRight m f)

theorem Reach.good {m : BiMap} (h : Reach m) : Good m := by
  induction h with
  | new => exact good_new
  | set a b _ ha hb ih => exact good_insert ih ha hb
  | left _ _ h1 h2 => exact good_mappingLeft h1 h2
  | right _ _ h1 h2 => exact good_mappingRight h1 h2

/-- **C07.** Every layer map is a one-to-one correspondence between layers, fixes the two special
layers, and `SetMapping a b` gives `a ↦ b` when both sides are free and changes nothing otherwise. -/
theorem c07_reversible {m : BiMap} (h : Reach m) :
    (∀ a b, a ≠ noLayer → b ≠ noLayer → (forward m a = b ↔ backward m b = a)) ∧
    forward m noLayer = noLayer ∧ backward m noLayer = noLayer ∧
    forward m componentLayer = componentLayer ∧ backward m componentLayer = componentLayer ∧
    (∀ a b, a ≠ noLayer → b ≠ noLayer → forward m a = noLayer → backward m b = noLayer →
      ∀ x, forward (setMapping m a b) x = (if x = a then b else forward m x)) ∧
    (∀ a b, (a = noLayer ∨ b = noLayer ∨ forward m a ≠ noLayer ∨ backward m b ≠ noLayer) →
      ∀ x, forward (setMapping m a b) x = forward m x ∧
        backward (setMapping m a b) x = backward m x) := by
  have hg := h.good
  have hi := hg.inv
  refine ⟨?_, good_forward_no hg, good_backward_no hg, good_forward_comp hg,
    good_backward_comp hg, ?_, ?_⟩
  · intro a b ha hb
    rw [forward_eq_iff hi hb, backward_eq_iff hi ha]
  · intro a b ha hb hfa hbb x
    have hfree : ∀ e ∈ m, e.1 ≠ a ∧ e.2 ≠ b := by
      rintro ⟨e1, e2⟩ he
      constructor
      · rintro rfl
        have h1 := forward_of_mem hi he
        simp only at hfa h1
        rw [hfa] at h1
        rcases good_mem hg he with h2 | h2 | h2
        · exact ha (congrArg Prod.fst h2)
        · have h3 := congrArg Prod.snd h2
          simp only at h3; rw [h3] at h1; exact absurd h1 (by decide)
        · rw [← h1] at h2; exact absurd (show (0:Int) ≤ noLayer from h2.2) (by decide)
      · rintro rfl
        have h1 := backward_of_mem hi he
        simp only at hbb h1
        rw [hbb] at h1
        rcases good_mem hg he with h2 | h2 | h2
        · exact hb (congrArg Prod.snd h2)
        · have h3 := congrArg Prod.fst h2
          simp only at h3; rw [h3] at h1; exact absurd h1 (by decide)
        · rw [← h1] at h2; exact absurd (show (0:Int) ≤ noLayer from h2.1) (by decide)
    have hi' := inv_insert hi a b
    have hmem : ∀ y, y ∈ setMapping m a b ↔ y = (a, b) ∨ y ∈ m := by
      intro y; unfold setMapping; rw [insert_of_free hfree]; exact mem_insertSorted
    by_cases hx : x = a
    · subst hx
      rw [if_pos rfl]
      exact forward_of_mem hi' ((hmem _).2 (Or.inl rfl))
    · rw [if_neg hx]
      by_cases hy : forward m x = noLayer
      · rw [hy]
        by_contra hne
        have := mem_of_forward rfl hne
        rcases (hmem _).1 this with h1 | h1
        · exact hx (congrArg Prod.fst h1)
        · exact hne (by have := forward_of_mem hi h1; rw [← this, hy])
      · exact forward_of_mem hi' ((hmem _).2 (Or.inr (mem_of_forward rfl hy)))
  · intro a b hab x
    have hc : ∃ e ∈ m, e.1 = a ∨ e.2 = b := by
      obtain ⟨rest, hm, _⟩ := hg.head
      rcases hab with h1 | h1 | h1 | h1
      · exact ⟨(noLayer, noLayer), by simp [hm], Or.inl h1.symm⟩
      · exact ⟨(noLayer, noLayer), by simp [hm], Or.inr h1.symm⟩
      · exact ⟨_, mem_of_forward rfl h1, Or.inl rfl⟩
      · exact ⟨_, mem_of_backward rfl h1, Or.inr rfl⟩
    unfold setMapping
    rw [insert_of_conflict hc]
    exact ⟨rfl, rfl⟩

/-- A reachable map with ordinary entries on which a second `SetMapping` is refused. -/
example : Reach (setMapping (setMapping (setMapping new 0 3) 1 5) 0 7) ∧
    forward (setMapping (setMapping (setMapping new 0 3) 1 5) 0 7) 0 = 3 ∧
    backward (setMapping (setMapping (setMapping new 0 3) 1 5) 0 7) 5 = 1 :=
  ⟨.set _ _ (.set _ _ (.set _ _ .new (by decide) (by decide)) (by decide) (by decide))
    (by decide) (by decide), by decide, by decide⟩

/-- **C08.** Rewriting the from-side of `m` through `f` gives the composition: `c ↦ b` afterwards
exactly when `f` maps some `a` to `c` and `m` mapped `a` to `b`.  Likewise for the to-side. -/
theorem c08_composition {m f : BiMap} (hm : Reach m) (hf : Reach f) :
    (∀ c b, c ≠ noLayer → b ≠ noLayer →
      (forward (mappingLeft m f) c = b ↔ ∃ a, forward f a = c ∧ forward m a = b)) ∧
    (∀ a c, a ≠ noLayer → c ≠ noLayer →
      (forward (mappingRight m f) a = c ↔ forward f (forward m a) = c)) := by
  have hgm := hm.good
  have hgf := hf.good
  have him := hgm.inv
  have hif := hgf.inv
  have key : ∀ {x y c}, forward f x = c → forward f y = c → c ≠ noLayer → x = y := by
    intro x y c hx hy hc
    exact inj_right hif (mem_of_forward hx hc) (mem_of_forward hy hc)
  constructor
  · intro c b hc hb
    rw [forward_eq_iff (Reach.left hm hf).good.inv hb, mappingLeft_eq]
    constructor
    · intro h
      rcases mem_of_mem_insAll m h with h1 | ⟨e, he, h1⟩
      · simp at h1
      · simp only [Prod.mk.injEq] at h1
        refine ⟨e.1, h1.1.symm, ?_⟩
        rw [h1.2]; exact forward_of_mem him he
    · rintro ⟨a, ha, hb'⟩
      have hab := mem_of_forward hb' hb
      have := mem_insAll_of_unique (g := fun e => (forward f e.1, e.2)) m (acc := [])
        (e := (a, b)) hab (by simp) (by
          rintro ⟨x, y⟩ hx
          simp only
          by_cases hxa : x = a
          · subst hxa
            right; rw [inj_left him hx hab]
          · left
            constructor
            · intro h; exact hxa (key (h.trans ha) ha hc)
            · intro h; subst h; exact hxa (inj_right him hx hab))
      simpa [ha] using this
  · intro a c ha hc
    rw [forward_eq_iff (Reach.right hm hf).good.inv hc, mappingRight_eq]
    constructor
    · intro h
      rcases mem_of_mem_insAll m h with h1 | ⟨e, he, h1⟩
      · simp at h1
      · simp only [Prod.mk.injEq] at h1
        have := forward_of_mem him (a := e.1) (b := e.2) he
        rw [h1.1, this]; exact h1.2.symm
    · intro h
      have hne : forward m a ≠ noLayer := by
        intro h1; rw [h1, good_forward_no hgf] at h; exact hc h.symm
      have hab := mem_of_forward (m := m) (a := a) rfl hne
      have := mem_insAll_of_unique (g := fun e => (e.1, forward f e.2)) m (acc := [])
        (e := (a, forward m a)) hab (by simp) (by
          rintro ⟨x, y⟩ hx
          simp only
          by_cases hxa : x = a
          · subst hxa
            right; rw [inj_left him hx hab]
          · left
            refine ⟨hxa, ?_⟩
            intro h2
            have : y = forward m a := key (h2.trans h) h hc
            subst this
            exact hxa (inj_right him hx hab))
      simpa [h] using this

/-- Two maps with a partial overlap: `1` is not renamed by the second map and drops out. -/
example : let m := setMapping (setMapping new 0 3) 1 5
    let f := setMapping (setMapping new 0 2) 4 6
    Reach m ∧ Reach f ∧ forward (mappingLeft m f) 2 = 3 ∧ forward (mappingLeft m f) 1 = noLayer :=
  ⟨.set _ _ (.set _ _ .new (by decide) (by decide)) (by decide) (by decide),
   .set _ _ (.set _ _ .new (by decide) (by decide)) (by decide) (by decide), by decide, by decide⟩

end LayerMap
end Ecad
