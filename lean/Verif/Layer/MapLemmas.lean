import Verif.Layer.MapModel
/-! Lemmas on `ELayerMap`. -/
namespace Ecad
namespace LayerMap

theorem mem_insertSorted {x e : Int × Int} {m : BiMap} :
    x ∈ insertSorted e m ↔ x = e ∨ x ∈ m := by
  induction m with
  | nil => simp [insertSorted]
  | cons y ys ih =>
    simp only [insertSorted]
    split
    · simp
    · simp only [List.mem_cons, ih]; tauto

theorem insertSorted_perm (e : Int × Int) (m : BiMap) : (insertSorted e m).Perm (e :: m) := by
  induction m with
  | nil => simp [insertSorted]
  | cons y ys ih =>
    simp only [insertSorted]
    split
    · exact List.Perm.refl _
    · exact (List.Perm.cons y ih).trans (List.Perm.swap e y ys)

/-- what a bimap maintains -/
structure Inv (m : BiMap) : Prop where
  left : (m.map Prod.fst).Nodup
  right : (m.map Prod.snd).Nodup
  sorted : m.Pairwise (fun x y => x.1 < y.1)

theorem inv_nil : Inv [] := ⟨by simp, by simp, by simp⟩

theorem insertSorted_sorted {e : Int × Int} {m : BiMap} (h : m.Pairwise (fun x y => x.1 < y.1))
    (hn : ∀ x ∈ m, x.1 ≠ e.1) : (insertSorted e m).Pairwise (fun x y => x.1 < y.1) := by
  induction m with
  | nil => simp [insertSorted]
  | cons y ys ih =>
    rw [List.pairwise_cons] at h
    simp only [insertSorted]
    split
    · rename_i hle
      have hlt : e.1 < y.1 := lt_of_le_of_ne hle (fun he => hn y (by simp) he.symm)
      refine List.Pairwise.cons ?_ (List.Pairwise.cons h.1 h.2)
      intro z hz
      rcases List.mem_cons.1 hz with rfl | hz
      · exact hlt
      · exact lt_trans hlt (h.1 z hz)
    · rename_i hle
      refine List.Pairwise.cons ?_ (ih h.2 (fun x hx => hn x (by simp [hx])))
      intro z hz
      rcases mem_insertSorted.1 hz with rfl | hz
      · omega
      · exact h.1 z hz

theorem any_iff {m : BiMap} {a b : Int} :
    (m.any (fun e => e.1 = a || e.2 = b)) = true ↔ ∃ e ∈ m, e.1 = a ∨ e.2 = b := by
  simp [List.any_eq_true]

theorem insert_of_conflict {m : BiMap} {a b : Int} (h : ∃ e ∈ m, e.1 = a ∨ e.2 = b) :
    insert m a b = m := by
  unfold insert
  rw [if_pos (any_iff.2 h)]

theorem insert_of_free {m : BiMap} {a b : Int} (h : ∀ e ∈ m, e.1 ≠ a ∧ e.2 ≠ b) :
    insert m a b = insertSorted (a, b) m := by
  unfold insert
  rw [if_neg]
  rw [any_iff]
  rintro ⟨e, he, h1 | h1⟩
  · exact (h e he).1 h1
  · exact (h e he).2 h1

theorem conflict_or_free (m : BiMap) (a b : Int) :
    (∃ e ∈ m, e.1 = a ∨ e.2 = b) ∨ (∀ e ∈ m, e.1 ≠ a ∧ e.2 ≠ b) := by
  by_cases h : ∃ e ∈ m, e.1 = a ∨ e.2 = b
  · exact Or.inl h
  · right
    intro e he
    exact ⟨fun h1 => h ⟨e, he, Or.inl h1⟩, fun h1 => h ⟨e, he, Or.inr h1⟩⟩

theorem mem_insert_of_mem {m : BiMap} {a b : Int} {x : Int × Int} (h : x ∈ m) :
    x ∈ insert m a b := by
  rcases conflict_or_free m a b with hc | hf
  · rwa [insert_of_conflict hc]
  · rw [insert_of_free hf, mem_insertSorted]; exact Or.inr h

theorem mem_of_mem_insert {m : BiMap} {a b : Int} {x : Int × Int} (h : x ∈ insert m a b) :
    x = (a, b) ∨ x ∈ m := by
  rcases conflict_or_free m a b with hc | hf
  · rw [insert_of_conflict hc] at h; exact Or.inr h
  · rwa [insert_of_free hf, mem_insertSorted] at h

theorem inv_insert {m : BiMap} (h : Inv m) (a b : Int) : Inv (insert m a b) := by
  rcases conflict_or_free m a b with hc | hf
  · rwa [insert_of_conflict hc]
  · rw [insert_of_free hf]
    have hp := insertSorted_perm (a, b) m
    refine ⟨?_, ?_, ?_⟩
    · rw [(hp.map Prod.fst).nodup_iff]
      simp only [List.map_cons, List.nodup_cons]
      refine ⟨?_, h.left⟩
      simp only [List.mem_map, not_exists, not_and]
      exact fun e he => (hf e he).1
    · rw [(hp.map Prod.snd).nodup_iff]
      simp only [List.map_cons, List.nodup_cons]
      refine ⟨?_, h.right⟩
      simp only [List.mem_map, not_exists, not_and]
      exact fun e he => (hf e he).2
    · exact insertSorted_sorted h.sorted (fun x hx => (hf x hx).1)

theorem inj_left {m : BiMap} (h : Inv m) {a b c : Int} (h1 : (a, b) ∈ m) (h2 : (a, c) ∈ m) :
    b = c := by
  have := List.inj_on_of_nodup_map h.left h1 h2 rfl
  simpa using congrArg Prod.snd this

theorem inj_right {m : BiMap} (h : Inv m) {a b c : Int} (h1 : (a, c) ∈ m) (h2 : (b, c) ∈ m) :
    a = b := by
  have := List.inj_on_of_nodup_map h.right h1 h2 rfl
  simpa using congrArg Prod.fst this

theorem forward_of_mem {m : BiMap} (h : Inv m) {a b : Int} (hm : (a, b) ∈ m) :
    forward m a = b := by
  unfold forward
  cases hf : m.find? (fun e => e.1 = a) with
  | none =>
    rw [List.find?_eq_none] at hf
    exact absurd (by simp) (hf _ hm)
  | some e =>
    have h1 := List.mem_of_find?_eq_some hf
    have h2 := List.find?_some hf
    simp only [decide_eq_true_eq] at h2
    obtain ⟨e1, e2⟩ := e
    simp only at h2; subst h2
    exact inj_left h h1 hm

theorem backward_of_mem {m : BiMap} (h : Inv m) {a b : Int} (hm : (a, b) ∈ m) :
    backward m b = a := by
  unfold backward
  cases hf : m.find? (fun e => e.2 = b) with
  | none =>
    rw [List.find?_eq_none] at hf
    exact absurd (by simp) (hf _ hm)
  | some e =>
    have h1 := List.mem_of_find?_eq_some hf
    have h2 := List.find?_some hf
    simp only [decide_eq_true_eq] at h2
    obtain ⟨e1, e2⟩ := e
    simp only at h2; subst h2
    exact inj_right h h1 hm

theorem mem_of_forward {m : BiMap} {a b : Int} (h : forward m a = b) (hb : b ≠ noLayer) :
    (a, b) ∈ m := by
  unfold forward at h
  cases hf : m.find? (fun e => e.1 = a) with
  | none => rw [hf] at h; exact absurd h.symm hb
  | some e =>
    rw [hf] at h
    have h1 := List.mem_of_find?_eq_some hf
    have h2 := List.find?_some hf
    simp only [decide_eq_true_eq] at h2
    obtain ⟨e1, e2⟩ := e
    simp only at h2 h; subst h2; subst h
    exact h1

theorem mem_of_backward {m : BiMap} {a b : Int} (h : backward m b = a) (ha : a ≠ noLayer) :
    (a, b) ∈ m := by
  unfold backward at h
  cases hf : m.find? (fun e => e.2 = b) with
  | none => rw [hf] at h; exact absurd h.symm ha
  | some e =>
    rw [hf] at h
    have h1 := List.mem_of_find?_eq_some hf
    have h2 := List.find?_some hf
    simp only [decide_eq_true_eq] at h2
    obtain ⟨e1, e2⟩ := e
    simp only at h2 h; subst h2; subst h
    exact h1

theorem forward_eq_iff {m : BiMap} (h : Inv m) {a b : Int} (hb : b ≠ noLayer) :
    forward m a = b ↔ (a, b) ∈ m :=
  ⟨fun h1 => mem_of_forward h1 hb, fun h1 => forward_of_mem h h1⟩

theorem backward_eq_iff {m : BiMap} (h : Inv m) {a b : Int} (ha : a ≠ noLayer) :
    backward m b = a ↔ (a, b) ∈ m :=
  ⟨fun h1 => mem_of_backward h1 ha, fun h1 => backward_of_mem h h1⟩

/-! ### folds of insertions -/

/-- inserting the images of a list of entries -/
def insAll (g : Int × Int → Int × Int) (l : List (Int × Int)) (acc : BiMap) : BiMap :=
  l.foldl (fun acc e => insert acc (g e).1 (g e).2) acc

theorem insAll_inv {g : Int × Int → Int × Int} (l : List (Int × Int)) {acc : BiMap} (h : Inv acc) :
    Inv (insAll g l acc) := by
  induction l generalizing acc with
  | nil => exact h
  | cons e es ih => exact ih (inv_insert h _ _)

theorem mem_insAll_of_mem {g : Int × Int → Int × Int} (l : List (Int × Int)) {acc : BiMap} {x}
    (h : x ∈ acc) : x ∈ insAll g l acc := by
  induction l generalizing acc with
  | nil => exact h
  | cons e es ih => exact ih (mem_insert_of_mem h)

theorem mem_of_mem_insAll {g : Int × Int → Int × Int} (l : List (Int × Int)) {acc : BiMap} {x}
    (h : x ∈ insAll g l acc) : x ∈ acc ∨ ∃ e ∈ l, x = g e := by
  induction l generalizing acc with
  | nil => exact Or.inl h
  | cons e es ih =>
    rcases ih h with h1 | ⟨e', h1, h2⟩
    · rcases mem_of_mem_insert h1 with h3 | h3
      · exact Or.inr ⟨e, by simp, h3⟩
      · exact Or.inl h3
    · exact Or.inr ⟨e', by simp [h1], h2⟩

/-- an entry whose image conflicts with no other image is kept -/
theorem mem_insAll_of_unique {g : Int × Int → Int × Int} (l : List (Int × Int)) {acc : BiMap}
    {e : Int × Int} (he : e ∈ l)
    (hacc : ∀ x ∈ acc, (x.1 ≠ (g e).1 ∧ x.2 ≠ (g e).2) ∨ x = g e)
    (hl : ∀ x ∈ l, ((g x).1 ≠ (g e).1 ∧ (g x).2 ≠ (g e).2) ∨ g x = g e) :
    g e ∈ insAll g l acc := by
  induction l generalizing acc with
  | nil => simp at he
  | cons y ys ih =>
    by_cases hin : g e ∈ acc
    · exact mem_insAll_of_mem (y :: ys) hin
    have hfree : ∀ x ∈ acc, x.1 ≠ (g e).1 ∧ x.2 ≠ (g e).2 := by
      intro x hx
      rcases hacc x hx with h | h
      · exact h
      · exact absurd (h ▸ hx) hin
    by_cases hy : g y = g e
    · have : g e ∈ insert acc (g y).1 (g y).2 := by
        rw [hy, insert_of_free hfree, mem_insertSorted]
        exact Or.inl rfl
      exact mem_insAll_of_mem ys this
    · rcases List.mem_cons.1 he with rfl | he
      · exact absurd rfl hy
      · refine ih he ?_ (fun x hx => hl x (by simp [hx]))
        intro x hx
        rcases mem_of_mem_insert hx with h | h
        · have := hl y (by simp)
          rcases this with h3 | h3
          · left; rw [h]; exact h3
          · exact absurd h3 hy
        · exact Or.inl (hfree x h)

theorem mappingLeft_eq (m f : BiMap) :
    mappingLeft m f = insAll (fun e => (forward f e.1, e.2)) m [] := rfl

theorem mappingRight_eq (m f : BiMap) :
    mappingRight m f = insAll (fun e => (e.1, forward f e.2)) m [] := rfl

theorem inv_new : Inv new := by
  unfold new setMapping
  exact inv_insert (inv_insert inv_nil _ _) _ _

/-! ### reachable maps keep the two default entries first -/

def ValidId (i : Int) : Prop := 0 ≤ i ∨ i = noLayer ∨ i = componentLayer

/-- the two special layers are mapped to themselves, all other entries are ordinary ids -/
structure Good (m : BiMap) : Prop where
  inv : Inv m
  head : ∃ rest, m = (componentLayer, componentLayer) :: (noLayer, noLayer) :: rest ∧
    ∀ e ∈ rest, 0 ≤ e.1 ∧ 0 ≤ e.2

theorem good_new : Good new := ⟨inv_new, [], by decide, by simp⟩

theorem good_insert {m : BiMap} (h : Good m) {a b : Int} (ha : ValidId a) (hb : ValidId b) :
    Good (insert m a b) := by
  refine ⟨inv_insert h.inv a b, ?_⟩
  obtain ⟨rest, hm, hr⟩ := h.head
  rcases conflict_or_free m a b with hc | hf
  · rw [insert_of_conflict hc]; exact ⟨rest, hm, hr⟩
  · have h1 := hf (componentLayer, componentLayer) (by simp [hm])
    have h2 := hf (noLayer, noLayer) (by simp [hm])
    have ha' : 0 ≤ a := by
      rcases ha with h | h | h
      · exact h
      · exact absurd h.symm h2.1
      · exact absurd h.symm h1.1
    have hb' : 0 ≤ b := by
      rcases hb with h | h | h
      · exact h
      · exact absurd h.symm h2.2
      · exact absurd h.symm h1.2
    rw [insert_of_free hf, hm]
    refine ⟨insertSorted (a, b) rest, ?_, ?_⟩
    · simp only [insertSorted]
      rw [if_neg (by simp only [componentLayer]; omega), if_neg (by simp only [noLayer]; omega)]
    · intro e he
      rcases mem_insertSorted.1 he with rfl | he
      · exact ⟨ha', hb'⟩
      · exact hr e he

theorem good_insAll {g : Int × Int → Int × Int} (l : List (Int × Int)) {acc : BiMap} (h : Good acc)
    (hg : ∀ e ∈ l, ValidId (g e).1 ∧ ValidId (g e).2) : Good (insAll g l acc) := by
  induction l generalizing acc with
  | nil => exact h
  | cons e es ih =>
    exact ih (good_insert h (hg e (by simp)).1 (hg e (by simp)).2) (fun x hx => hg x (by simp [hx]))

theorem good_mem {m : BiMap} (h : Good m) {e : Int × Int} (he : e ∈ m) :
    e = (noLayer, noLayer) ∨ e = (componentLayer, componentLayer) ∨ (0 ≤ e.1 ∧ 0 ≤ e.2) := by
  obtain ⟨rest, hm, hr⟩ := h.head
  rw [hm] at he
  rcases List.mem_cons.1 he with h1 | h1
  · exact Or.inr (Or.inl h1)
  · rcases List.mem_cons.1 h1 with h1 | h1
    · exact Or.inl h1
    · exact Or.inr (Or.inr (hr e h1))

theorem good_forward_valid {m : BiMap} (h : Good m) (a : Int) : ValidId (forward m a) := by
  by_cases hb : forward m a = noLayer
  · exact Or.inr (Or.inl hb)
  · rcases good_mem h (mem_of_forward rfl hb) with h1 | h1 | h1
    · exact Or.inr (Or.inl (congrArg Prod.snd h1))
    · exact Or.inr (Or.inr (congrArg Prod.snd h1))
    · exact Or.inl h1.2

theorem good_forward_no {m : BiMap} (h : Good m) : forward m noLayer = noLayer := by
  obtain ⟨rest, hm, _⟩ := h.head
  exact forward_of_mem h.inv (by simp [hm])

theorem good_backward_no {m : BiMap} (h : Good m) : backward m noLayer = noLayer := by
  obtain ⟨rest, hm, _⟩ := h.head
  exact backward_of_mem h.inv (by simp [hm])

theorem good_forward_comp {m : BiMap} (h : Good m) : forward m componentLayer = componentLayer := by
  obtain ⟨rest, hm, _⟩ := h.head
  exact forward_of_mem h.inv (by simp [hm])

theorem good_backward_comp {m : BiMap} (h : Good m) :
    backward m componentLayer = componentLayer := by
  obtain ⟨rest, hm, _⟩ := h.head
  exact backward_of_mem h.inv (by simp [hm])

theorem good_start : Good (insert (insert [] componentLayer componentLayer) noLayer noLayer) :=
  ⟨inv_insert (inv_insert inv_nil _ _) _ _, [], by decide, by simp⟩

theorem good_mappingLeft {m f : BiMap} (hm : Good m) (hf : Good f) : Good (mappingLeft m f) := by
  rw [mappingLeft_eq]
  obtain ⟨rest, he, hr⟩ := hm.head
  rw [he]
  show Good (insAll _ rest (insert (insert [] (forward f componentLayer) componentLayer)
    (forward f noLayer) noLayer))
  rw [good_forward_no hf, good_forward_comp hf]
  refine good_insAll rest good_start ?_
  intro e he
  exact ⟨good_forward_valid hf _, Or.inl (hr e he).2⟩

theorem good_mappingRight {m f : BiMap} (hm : Good m) (hf : Good f) : Good (mappingRight m f) := by
  rw [mappingRight_eq]
  obtain ⟨rest, he, hr⟩ := hm.head
  rw [he]
  show Good (insAll _ rest (insert (insert [] componentLayer (forward f componentLayer))
    noLayer (forward f noLayer)))
  rw [good_forward_no hf, good_forward_comp hf]
  refine good_insAll rest good_start ?_
  intro e he
  exact ⟨Or.inl (hr e he).1, good_forward_valid hf _⟩

end LayerMap
end Ecad
