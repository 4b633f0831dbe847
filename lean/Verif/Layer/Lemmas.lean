import Verif.Layer.Model
import Verif.Layer.MapProps
import Verif.Naming.Lemmas
/-! Lemmas on the layer stack. -/
namespace Ecad
namespace Layer
open LayerMap

/-- the effect of the insertion loop without the choice of names -/
inductive Rel : Lyr → List Lyr → List Lyr → Prop
  | nil (c) : Rel c [] [c]
  | ins {c n rest out} (s) : c.type = .conducting → n.type = .conducting → Rel n rest out →
      Rel c (n :: rest) (c :: newDielectric s :: out)
  | skip {c n rest out} : ¬ (c.type = .conducting ∧ n.type = .conducting) → Rel n rest out →
      Rel c (n :: rest) (c :: out)

theorem Rel.cons {c : Lyr} {rest out : List Lyr} (h : Rel c rest out) : ∃ t, out = c :: t := by
  cases h with
  | nil => exact ⟨_, rfl⟩
  | ins => exact ⟨_, rfl⟩
  | skip => exact ⟨_, rfl⟩

/-- the name of a layer without id occurs only once -/
def Uniq (l : List Lyr) : Prop :=
  l.Pairwise (fun x y => (x.id = noLayer ∨ y.id = noLayer) → x.name ≠ y.name)

theorem insertLoop_rel (pre : List Lyr) (c : Lyr) (rest : List Lyr) :
    ∃ out, insertLoop pre c rest = pre ++ out ∧ Rel c rest out := by
  induction rest generalizing pre c with
  | nil => exact ⟨[c], rfl, .nil c⟩
  | cons n rest ih =>
    simp only [insertLoop]
    split
    · rename_i h
      obtain ⟨out, h1, h2⟩ := ih (pre ++ [c, newDielectric (Naming.nextName
        ((pre ++ c :: n :: rest).map Lyr.name) "Dielectric")]) n
      exact ⟨_, by rw [h1, List.append_assoc]; rfl, .ins _ h.1 h.2 h2⟩
    · rename_i h
      obtain ⟨out, h1, h2⟩ := ih (pre ++ [c]) n
      exact ⟨_, by rw [h1, List.append_assoc]; rfl, .skip h h2⟩

theorem insertLoop_uniq (pre : List Lyr) (c : Lyr) (rest : List Lyr)
    (h : Uniq (pre ++ c :: rest)) : Uniq (insertLoop pre c rest) := by
  induction rest generalizing pre c with
  | nil => exact h
  | cons n rest ih =>
    simp only [insertLoop]
    split
    · apply ih
      have hn := Naming.nextName_not_mem ((pre ++ c :: n :: rest).map Lyr.name) "Dielectric"
      generalize Naming.nextName ((pre ++ c :: n :: rest).map Lyr.name) "Dielectric" = s at hn ⊢
      have hp : (pre ++ [c, newDielectric s] ++ n :: rest).Perm
          (newDielectric s :: (pre ++ c :: n :: rest)) := by
        simp only [List.append_assoc, List.cons_append, List.nil_append]
        have := (List.perm_middle (a := newDielectric s) (l₁ := pre ++ [c]) (l₂ := n :: rest))
        simpa using this
      have hsym : ∀ {x y : Lyr}, ((x.id = noLayer ∨ y.id = noLayer) → x.name ≠ y.name) →
          ((y.id = noLayer ∨ x.id = noLayer) → y.name ≠ x.name) := by
        intro x y h1 h2 h3
        exact h1 h2.symm h3.symm
      unfold Uniq at h ⊢
      rw [hp.pairwise_iff hsym, List.pairwise_cons]
      refine ⟨?_, h⟩
      intro y hy _ he
      exact hn (List.mem_map.2 ⟨y, hy, he.symm⟩)
    · apply ih
      simpa using h

theorem uniq_of_ids {l : List Lyr} (h : ∀ y ∈ l, y.id ≠ noLayer) : Uniq l := by
  unfold Uniq
  induction l with
  | nil => simp
  | cons y ys ih =>
    refine List.Pairwise.cons ?_ (ih (fun z hz => h z (by simp [hz])))
    intro z hz hc
    rcases hc with h1 | h1
    · exact absurd h1 (h y (by simp))
    · exact absurd h1 (h z (by simp [hz]))

/-- positions of the old layers in the new list -/
theorem Rel.positions {c : Lyr} {rest out : List Lyr} (h : Rel c rest out) :
    ∃ φ : Nat → Nat, φ 0 = 0 ∧
      (∀ i j, i < j → j < (c :: rest).length → φ i < φ j) ∧
      (∀ i y, (c :: rest)[i]? = some y → out[φ i]? = some y) ∧
      (∀ j z, out[j]? = some z → (∃ i, i < (c :: rest).length ∧ φ i = j) ∨
        (∃ s, z = newDielectric s) ∧ ∃ i x y, (c :: rest)[i]? = some x ∧ (c :: rest)[i + 1]? = some y ∧
          x.type = .conducting ∧ y.type = .conducting ∧ φ i + 1 = j ∧ φ (i + 1) = j + 1) ∧
      (∀ j y z, out[j]? = some y → out[j + 1]? = some z →
        ¬ (y.type = .conducting ∧ z.type = .conducting)) := by
  induction h with
  | nil c =>
    refine ⟨fun i => i, rfl, ?_, ?_, ?_, ?_⟩
    · intro i j h _; exact h
    · intro i y h; exact h
    · intro j z h
      left
      refine ⟨j, ?_, rfl⟩
      exact (List.getElem?_eq_some_iff.1 h).1
    · intro j y z h1 h2
      have := (List.getElem?_eq_some_iff.1 h2).1
      simp at this
  | @ins c n rest out s hc hn hr ih =>
    obtain ⟨φ, h0, hm, hk, hb, ha⟩ := ih
    obtain ⟨t, ht⟩ := hr.cons
    refine ⟨fun i => match i with | 0 => 0 | i + 1 => φ i + 2, rfl, ?_, ?_, ?_, ?_⟩
    · intro i j hij hj
      cases j with
      | zero => omega
      | succ j =>
        cases i with
        | zero => simp
        | succ i =>
          simp only [List.length_cons] at hj ⊢
          have := hm i j (by omega) (by simp only [List.length_cons]; omega)
          omega
    · intro i y h
      cases i with
      | zero => simpa using h
      | succ i => simpa using hk i y (by simpa using h)
    · intro j z h
      match j, h with
      | 0, h => left; exact ⟨0, by simp, rfl⟩
      | 1, h =>
        right
        simp only [List.getElem?_cons_succ, List.getElem?_cons_zero, Option.some.injEq] at h
        refine ⟨⟨s, h.symm⟩, 0, c, n, rfl, rfl, hc, hn, rfl, ?_⟩
        simp [h0]
      | j + 2, h =>
        simp only [List.getElem?_cons_succ] at h
        rcases hb j z h with ⟨i, h1, h2⟩ | ⟨h1, i, x, y, h2, h3, h4, h5, h6, h7⟩
        · left
          refine ⟨i + 1, by simp only [List.length_cons] at h1 ⊢; omega, by simp [h2]⟩
        · right
          refine ⟨h1, i + 1, x, y, by simpa using h2, by simpa using h3, h4, h5, ?_, ?_⟩
          · simp only; omega
          · simp only; omega
    · intro j y z h1 h2
      match j, h1, h2 with
      | 0, h1, h2 =>
        simp only [List.getElem?_cons_succ, List.getElem?_cons_zero, Option.some.injEq] at h2
        rw [← h2]; simp [newDielectric]
      | 1, h1, h2 =>
        simp only [List.getElem?_cons_succ, List.getElem?_cons_zero, Option.some.injEq] at h1
        rw [← h1]; simp [newDielectric]
      | j + 2, h1, h2 =>
        exact ha j y z (by simpa using h1) (by simpa using h2)
  | @skip c n rest out hcn hr ih =>
    obtain ⟨φ, h0, hm, hk, hb, ha⟩ := ih
    obtain ⟨t, ht⟩ := hr.cons
    refine ⟨fun i => match i with | 0 => 0 | i + 1 => φ i + 1, rfl, ?_, ?_, ?_, ?_⟩
    · intro i j hij hj
      cases j with
      | zero => omega
      | succ j =>
        cases i with
        | zero => simp
        | succ i =>
          simp only [List.length_cons] at hj ⊢
          have := hm i j (by omega) (by simp only [List.length_cons]; omega)
          omega
    · intro i y h
      cases i with
      | zero => simpa using h
      | succ i => simpa using hk i y (by simpa using h)
    · intro j z h
      match j, h with
      | 0, h => left; exact ⟨0, by simp, rfl⟩
      | j + 1, h =>
        simp only [List.getElem?_cons_succ] at h
        rcases hb j z h with ⟨i, h1, h2⟩ | ⟨h1, i, x, y, h2, h3, h4, h5, h6, h7⟩
        · left
          refine ⟨i + 1, by simp only [List.length_cons] at h1 ⊢; omega, by simp [h2]⟩
        · right
          refine ⟨h1, i + 1, x, y, by simpa using h2, by simpa using h3, h4, h5, ?_, ?_⟩
          · simp only; omega
          · simp only; omega
    · intro j y z h1 h2
      match j, h1, h2 with
      | 0, h1, h2 =>
        simp only [List.getElem?_cons_succ, List.getElem?_cons_zero, Option.some.injEq] at h1 h2
        rw [ht] at h2
        simp only [List.getElem?_cons_zero, Option.some.injEq] at h2
        rw [← h1, ← h2]; exact hcn
      | j + 1, h1, h2 =>
        exact ha j y z (by simpa using h1) (by simpa using h2)

/-! ### MakeLayerIdOrdered -/

theorem makeOrdered_fst (i : Nat) (m : BiMap) (l : List Lyr) :
    (makeOrdered i m l).1 = l.mapIdx (fun k y => { y with id := ((i + k : Nat) : Int) }) := by
  induction l generalizing i m with
  | nil => rfl
  | cons y ys ih =>
    simp only [makeOrdered, List.mapIdx_cons, ih]
    simp only [Nat.add_zero, List.cons.injEq, true_and]
    congr 1
    funext k y
    congr 2
    omega

/-- the pairs inserted in the layer map -/
def pairs (i : Nat) : List Lyr → List (Int × Int)
  | [] => []
  | y :: ys => if y.id ≠ noLayer then (y.id, (i : Int)) :: pairs (i + 1) ys else pairs (i + 1) ys

theorem makeOrdered_snd (i : Nat) (m : BiMap) (l : List Lyr) :
    (makeOrdered i m l).2 = insAll id (pairs i l) m := by
  induction l generalizing i m with
  | nil => rfl
  | cons y ys ih =>
    simp only [makeOrdered, pairs, ih]
    split
    · rfl
    · rfl

theorem mem_pairs {i : Nat} {l : List Lyr} {e : Int × Int} :
    e ∈ pairs i l ↔ ∃ k y, l[k]? = some y ∧ y.id ≠ noLayer ∧ e = (y.id, ((i + k : Nat) : Int)) := by
  induction l generalizing i with
  | nil => simp [pairs]
  | cons y ys ih =>
    have key : (∃ k z, (y :: ys)[k]? = some z ∧ z.id ≠ noLayer ∧ e = (z.id, ((i + k : Nat) : Int))) ↔
        (y.id ≠ noLayer ∧ e = (y.id, (i : Int))) ∨
        ∃ k z, ys[k]? = some z ∧ z.id ≠ noLayer ∧ e = (z.id, ((i + 1 + k : Nat) : Int)) := by
      constructor
      · rintro ⟨k, z, h1, h2, h3⟩
        cases k with
        | zero =>
          simp only [List.getElem?_cons_zero, Option.some.injEq] at h1
          subst h1; exact Or.inl ⟨h2, h3⟩
        | succ k =>
          right
          exact ⟨k, z, by simpa using h1, h2, by rw [h3]; congr 2; omega⟩
      · rintro (⟨h1, h2⟩ | ⟨k, z, h1, h2, h3⟩)
        · exact ⟨0, y, rfl, h1, h2⟩
        · exact ⟨k + 1, z, by simpa using h1, h2, by rw [h3]; congr 2; omega⟩
    rw [key]
    simp only [pairs]
    split
    · rename_i hy
      simp only [List.mem_cons, ih]
      constructor
      · rintro (h | h)
        · exact Or.inl ⟨hy, h⟩
        · exact Or.inr h
      · rintro (h | h)
        · exact Or.inl h.2
        · exact Or.inr h
    · rename_i hy
      rw [ih]
      constructor
      · exact Or.inr
      · rintro (h | h)
        · exact absurd h.1 hy
        · exact h

/-- forward lookup in the map of `MakeLayerIdOrdered`, when the ids present are ordinary ids and
pairwise different -/
theorem forward_makeOrdered {l : List Lyr}
    (hid : ∀ y ∈ l, y.id = noLayer ∨ 0 ≤ y.id)
    (hinj : ∀ (i j : Nat) (x y : Lyr), l[i]? = some x → l[j]? = some y → x.id ≠ noLayer → x.id = y.id → i = j)
    {k : Nat} {y : Lyr} (hk : l[k]? = some y) (hy : y.id ≠ noLayer) :
    forward (makeOrdered 0 LayerMap.new l).2 y.id = k := by
  rw [makeOrdered_snd]
  apply forward_of_mem (insAll_inv _ inv_new)
  have hmem : (y.id, (k : Int)) ∈ pairs 0 l := mem_pairs.2 ⟨k, y, hk, hy, by simp⟩
  have hy0 : 0 ≤ y.id := by
    rcases hid y (List.mem_of_getElem? hk) with h | h
    · exact absurd h hy
    · exact h
  have := mem_insAll_of_unique (g := id) (pairs 0 l) (acc := LayerMap.new) (e := (y.id, (k : Int))) hmem ?_ ?_
  · exact this
  · intro x hx
    left
    have hx' : x = (componentLayer, componentLayer) ∨ x = (noLayer, noLayer) := by
      have : LayerMap.new = [(componentLayer, componentLayer), (noLayer, noLayer)] := by decide
      rw [this] at hx; simpa using hx
    rcases hx' with rfl | rfl
    · simp only [componentLayer, id]; omega
    · simp only [noLayer, id]; omega
  · intro x hx
    obtain ⟨k', z, h1, h2, h3⟩ := mem_pairs.1 hx
    simp only [Nat.zero_add] at h3
    subst h3
    by_cases hkk : k' = k
    · subst hkk
      rw [h1] at hk
      simp only [Option.some.injEq] at hk
      subst hk
      exact Or.inr rfl
    · left
      simp only [id]
      refine ⟨?_, ?_⟩
      · intro he; exact hkk (hinj k' k z y h1 hk h2 he)
      · intro he; exact hkk (by exact_mod_cast he)

theorem good_makeOrdered {l : List Lyr} (hid : ∀ y ∈ l, y.id = noLayer ∨ 0 ≤ y.id) :
    Good (makeOrdered 0 LayerMap.new l).2 := by
  rw [makeOrdered_snd]
  apply good_insAll _ good_new
  intro e he
  obtain ⟨k, y, h1, h2, h3⟩ := mem_pairs.1 he
  subst h3
  refine ⟨?_, Or.inl (by simp)⟩
  rcases hid y (List.mem_of_getElem? h1) with h | h
  · exact absurd h h2
  · exact Or.inl h

theorem reach_insAll (l : List (Int × Int)) {m : BiMap} (h : Reach m) (hl : ∀ e ∈ l, 0 ≤ e.1 ∧ 0 ≤ e.2) :
    Reach (insAll id l m) := by
  induction l generalizing m with
  | nil => exact h
  | cons e es ih =>
    exact ih (.set _ _ h (Or.inl (hl e (by simp)).1) (Or.inl (hl e (by simp)).2))
      (fun x hx => hl x (by simp [hx]))

theorem reach_makeOrdered {l : List Lyr} (hid : ∀ y ∈ l, y.id = noLayer ∨ 0 ≤ y.id) :
    Reach (makeOrdered 0 LayerMap.new l).2 := by
  rw [makeOrdered_snd]
  apply reach_insAll _ Reach.new
  intro e he
  obtain ⟨k, y, h1, h2, h3⟩ := mem_pairs.1 he
  subst h3
  refine ⟨?_, by simp⟩
  rcases hid y (List.mem_of_getElem? h1) with h | h
  · exact absurd h h2
  · exact h

end Layer
end Ecad
