import Verif.Thermal.StackMeshModel
import Verif.Geom.CutProps
/-!
C116: meshes of the layers of stackup prism models.
-/
namespace Ecad.StackMesh
open Ecad.Geom

variable {P : Type}

/-! ### specification -/

/-- the layers up to `k` at which a new list of polygons begins -/
def heads (ptr : Nat → Option Nat) (k : Nat) : List Nat :=
  (List.range (k + 1)).filter fun j => j = 0 ∨ ptr j ≠ ptr (j - 1)

/-- the polygons of a layer -/
def layerPolys (content : Nat → List P) (ptr : Nat → Option Nat) (k : Nat) : List P := ((ptr k).map content).getD []

/-! ### the loop -/

theorem heads_zero (ptr : Nat → Option Nat) : heads ptr 0 = [0] := by
  simp [heads]

theorem heads_succ (ptr : Nat → Option Nat) (k : Nat) :
    heads ptr (k + 1) = if ptr (k + 1) ≠ ptr k then heads ptr k ++ [k + 1] else heads ptr k := by
  unfold heads
  rw [List.range_succ, List.filter_append]
  split_ifs with h
  · simp [h]
  · simp only [ne_eq, not_not] at h
    simp [h]

theorem heads_ne (ptr : Nat → Option Nat) (k : Nat) : heads ptr k ≠ [] := by
  intro h
  have : 0 ∈ heads ptr k := by simp [heads]
  rw [h] at this
  cases this

theorem heads_mono (ptr : Nat → Option Nat) {j k : Nat} (h : j ≤ k) : (heads ptr j).length ≤ (heads ptr k).length := by
  induction k with
  | zero => have : j = 0 := by omega
            rw [this]
  | succ k ih =>
    by_cases e : j = k + 1
    · rw [e]
    · refine le_trans (ih (by omega)) ?_
      rw [heads_succ]
      split_ifs <;> simp

/-- what a mesh is made of, by the loop -/
def madeOf (imprint : Bool) (content : Nat → List P) (ptr : Nat → Option Nat) (k : Nat) : List P :=
  if imprint then (heads ptr k).reverse.flatMap (layerPolys content ptr) else layerPolys content ptr k

theorem madeOf_same {imprint : Bool} {content : Nat → List P} {ptr : Nat → Option Nat} {k : Nat} (h : ptr (k + 1) = ptr k) :
    madeOf imprint content ptr (k + 1) = madeOf imprint content ptr k := by
  have h1 : heads ptr (k + 1) = heads ptr k := by rw [heads_succ, if_neg (by simp [h])]
  have h2 : layerPolys content ptr (k + 1) = layerPolys content ptr k := by unfold layerPolys; rw [h]
  unfold madeOf
  rw [h1, h2]

theorem madeOf_new {imprint : Bool} {content : Nat → List P} {ptr : Nat → Option Nat} {k : Nat} (h : ptr (k + 1) ≠ ptr k) :
    madeOf imprint content ptr (k + 1) = layerPolys content ptr (k + 1) ++ if imprint then madeOf imprint content ptr k else [] := by
  unfold madeOf
  rw [heads_succ, if_pos h]
  cases imprint <;> simp

/-- the state after the layers up to `i` -/
structure Upto (imprint : Bool) (content : Nat → List P) (ptr : Nat → Option Nat) (i : Nat) (s : Meshes P) : Prop where
  len : s.ofLayer.length = i + 1
  num : s.polys.length = (heads ptr i).length
  index : ∀ k, k ≤ i → s.ofLayer[k]? = some ((heads ptr k).length - 1)
  polys : ∀ k, k ≤ i → s.polys[(heads ptr k).length - 1]? = some (madeOf imprint content ptr k)

theorem addLayer_upto {imprint : Bool} {content : Nat → List P} {ptr : Nat → Option Nat} {i a b : Nat} {s : Meshes P}
    (h : Upto imprint content ptr i s) (ha : ptr (i + 1) = some a) (hb : ptr i = some b) :
    ∃ s', addLayer imprint content (ptr (i + 1)) (ptr i) s = .ok s' ∧ Upto imprint content ptr (i + 1) s' := by
  have hne : 0 < (heads ptr i).length := List.length_pos_iff.2 (heads_ne ptr i)
  have hlast : s.polys.getLastD [] = madeOf imprint content ptr i := by
    have := h.polys i le_rfl
    rw [← h.num] at this
    rw [List.getLastD_eq_getLast?, List.getLast?_eq_getElem?, this]
    rfl
  unfold addLayer
  simp only [ha, hb]
  refine ⟨_, rfl, ?_⟩
  by_cases hab : a = b
  · subst hab
    simp only [ne_eq, not_true, if_false]
    have hs : ptr (i + 1) = ptr i := by rw [ha, hb]
    have hh : heads ptr (i + 1) = heads ptr i := by rw [heads_succ, if_neg (by simp [hs])]
    refine ⟨by simp [h.len], by rw [hh]; exact h.num, ?_, ?_⟩
    · intro k hk
      by_cases e : k = i + 1
      · subst e
        show (s.ofLayer ++ [s.polys.length - 1])[i + 1]? = _
        rw [List.getElem?_append_right (by rw [h.len]), h.len, hh, h.num]
        simp
      · show (s.ofLayer ++ [s.polys.length - 1])[k]? = _
        rw [List.getElem?_append_left (by rw [h.len]; omega)]
        exact h.index k (by omega)
    · intro k hk
      by_cases e : k = i + 1
      · subst e
        rw [hh, madeOf_same hs]
        exact h.polys i le_rfl
      · exact h.polys k (by omega)
  · have hs : ptr (i + 1) ≠ ptr i := by rw [ha, hb]; simpa using hab
    have hh : heads ptr (i + 1) = heads ptr i ++ [i + 1] := by rw [heads_succ, if_pos hs]
    have hm : layerPolys content ptr (i + 1) = content a := by unfold layerPolys; rw [ha]; rfl
    simp only [ne_eq, hab, not_false_eq_true, if_true, hlast]
    refine ⟨by simp [h.len], by simp [hh, h.num], ?_, ?_⟩
    · intro k hk
      by_cases e : k = i + 1
      · subst e
        simp [h.len, hh, h.num]
      · show (s.ofLayer ++ _)[k]? = _
        rw [List.getElem?_append_left (by rw [h.len]; omega)]
        exact h.index k (by omega)
    · intro k hk
      by_cases e : k = i + 1
      · subst e
        show (s.polys ++ _)[_]? = _
        rw [hh, List.length_append, List.length_singleton, Nat.add_sub_cancel, ← h.num, List.getElem?_append_right le_rfl, Nat.sub_self,
          madeOf_new hs, hm]
        rfl
      · show (s.polys ++ _)[_]? = _
        have := heads_mono ptr (show k ≤ i by omega)
        rw [List.getElem?_append_left (by rw [h.num]; omega)]
        exact h.polys k (by omega)

theorem addLayers_upto {imprint : Bool} {content : Nat → List P} {ptr : Nat → Option Nat} : ∀ (n i : Nat) (s : Meshes P),
    Upto imprint content ptr i s → (∀ k, k ≤ i + n → ptr k ≠ none) →
    ∃ s', addLayers imprint content ptr (i + 1) n s = .ok s' ∧ Upto imprint content ptr (i + n) s' := by
  intro n
  induction n with
  | zero => intro i s h _; exact ⟨s, rfl, h⟩
  | succ n ih =>
    intro i s h hp
    obtain ⟨a, ha⟩ := Option.ne_none_iff_exists'.1 (hp (i + 1) (by omega))
    obtain ⟨b, hb⟩ := Option.ne_none_iff_exists'.1 (hp i (by omega))
    obtain ⟨s1, h1, h2⟩ := addLayer_upto h ha hb
    obtain ⟨s2, h3, h4⟩ := ih (i + 1) s1 h2 (fun k hk => hp k (by omega))
    refine ⟨s2, ?_, by rw [show i + (n + 1) = i + 1 + n by omega]; exact h4⟩
    unfold addLayers
    rw [Nat.add_sub_cancel, h1, Res.bind_ok]
    exact h3

theorem addLayers_exn {imprint : Bool} {content : Nat → List P} {ptr : Nat → Option Nat} : ∀ (n i : Nat) (s : Meshes P),
    (∃ k, i ≤ k ∧ k < i + n ∧ ptr k = none) → addLayers imprint content ptr i n s = .exn := by
  intro n
  induction n with
  | zero => rintro i s ⟨k, h1, h2, _⟩; omega
  | succ n ih =>
    rintro i s ⟨k, h1, h2, h3⟩
    unfold addLayers
    cases hc : ptr i with
    | none => rfl
    | some a =>
      cases hpr : ptr (i - 1) with
      | none => rfl
      | some b =>
        unfold addLayer
        rw [Res.bind_ok]
        apply ih
        refine ⟨k, ?_, by omega, h3⟩
        rcases Nat.eq_or_lt_of_le h1 with e | e
        · subst e; rw [hc] at h3; cases h3
        · omega

theorem meshes_upto {imprint : Bool} {content : Nat → List P} {ptr : Nat → Option Nat} {total : Nat} (ht : 0 < total)
    (hp : ∀ k, k < total → ptr k ≠ none) : ∃ s, meshes imprint content ptr total = .ok s ∧ Upto imprint content ptr (total - 1) s := by
  obtain ⟨a, ha⟩ := Option.ne_none_iff_exists'.1 (hp 0 ht)
  have h0 : Upto imprint content ptr 0 ⟨[content a], [0]⟩ := by
    have hl : layerPolys content ptr 0 = content a := by unfold layerPolys; rw [ha]; rfl
    refine ⟨rfl, by simp [heads_zero], ?_, ?_⟩
    · intro k hk
      have : k = 0 := by omega
      subst this
      simp [heads_zero]
    · intro k hk
      have : k = 0 := by omega
      subst this
      simp [heads_zero, madeOf, hl]
  obtain ⟨s, h1, h2⟩ := addLayers_upto (total - 1) 0 _ h0 (fun k hk => hp k (by omega))
  refine ⟨s, ?_, by simpa using h2⟩
  unfold meshes
  rw [ha]
  exact h1

theorem meshes_ok {imprint : Bool} {content : Nat → List P} {ptr : Nat → Option Nat} {total : Nat} {s : Meshes P} (ht : 0 < total)
    (h : meshes imprint content ptr total = .ok s) : (∀ k, k < total → ptr k ≠ none) ∧ Upto imprint content ptr (total - 1) s := by
  have hp : ∀ k, k < total → ptr k ≠ none := by
    intro k hk hn
    unfold meshes at h
    cases h0 : ptr 0 with
    | none => rw [h0] at h; cases h
    | some a =>
      rw [h0] at h
      simp only at h
      have hk0 : 1 ≤ k := by
        rcases Nat.eq_zero_or_pos k with e | e
        · subst e; rw [h0] at hn; cases hn
        · exact e
      rw [addLayers_exn (total - 1) 1 _ ⟨k, hk0, by omega, hn⟩] at h
      cases h
  refine ⟨hp, ?_⟩
  obtain ⟨s', h1, h2⟩ := meshes_upto (imprint := imprint) (content := content) ht hp
  rw [h1] at h
  cases h
  exact h2

/-! ### theorems -/

/-- **C116, success.** Meshes are made exactly if every layer, and the first one, has a list of polygons; otherwise the code throws. -/
theorem c116_total (imprint : Bool) (content : Nat → List P) (ptr : Nat → Option Nat) (total : Nat) :
    ((∃ s, meshes imprint content ptr total = .ok s) ↔ ptr 0 ≠ none ∧ ∀ k, k < total → ptr k ≠ none) ∧
    ((ptr 0 = none ∨ ∃ k, k < total ∧ ptr k = none) → meshes imprint content ptr total = .exn) := by
  constructor
  · constructor
    · rintro ⟨s, h⟩
      have h0 : ptr 0 ≠ none := by
        intro h0
        unfold meshes at h
        rw [h0] at h
        cases h
      refine ⟨h0, ?_⟩
      intro k hk
      exact (meshes_ok (by omega) h).1 k hk
    · rintro ⟨h0, hp⟩
      rcases Nat.eq_zero_or_pos total with e | e
      · subst e
        obtain ⟨a, ha⟩ := Option.ne_none_iff_exists'.1 h0
        exact ⟨_, by unfold meshes; rw [ha]; rfl⟩
      · obtain ⟨s, h, _⟩ := meshes_upto (imprint := imprint) (content := content) e hp
        exact ⟨s, h⟩
  · intro h
    unfold meshes
    cases h0 : ptr 0 with
    | none => rfl
    | some a =>
      simp only
      rcases h with h | ⟨k, hk, hn⟩
      · rw [h0] at h; cases h
      · apply addLayers_exn
        refine ⟨k, ?_, by omega, hn⟩
        rcases Nat.eq_zero_or_pos k with e | e
        · subst e; rw [h0] at hn; cases hn
        · exact e

theorem forLayer_eq {imprint : Bool} {content : Nat → List P} {ptr : Nat → Option Nat} {i : Nat} {s : Meshes P} (h : Upto imprint content ptr i s)
    {k : Nat} (hk : k ≤ i) : s.forLayer k = some (madeOf imprint content ptr k) := by
  unfold Meshes.forLayer
  rw [h.index k hk]
  exact h.polys k hk

/-- **C116, own polygons.** Without imprints the mesh of every layer is made of exactly its polygons. -/
theorem c116_plain {content : Nat → List P} {ptr : Nat → Option Nat} {total : Nat} {s : Meshes P} (h : meshes false content ptr total = .ok s)
    {k a : Nat} (hk : k < total) (ha : ptr k = some a) : s.forLayer k = some (content a) := by
  rw [forLayer_eq (meshes_ok (by omega) h).2 (show k ≤ total - 1 by omega)]
  unfold madeOf layerPolys
  rw [ha]
  rfl

/-- **C116, numbers.** There is a mesh for every layer at which the list changes; a layer has the same mesh as the one above exactly if it has the same list; numbers
of meshes never fall from a layer to the next below and leave none out. -/
theorem c116_share {imprint : Bool} {content : Nat → List P} {ptr : Nat → Option Nat} {total : Nat} (ht : 0 < total) {s : Meshes P}
    (h : meshes imprint content ptr total = .ok s) :
    s.ofLayer.length = total ∧ s.ofLayer[0]? = some 0 ∧ s.polys.length = (heads ptr (total - 1)).length ∧
    (∀ k, k + 1 < total → ∃ t, s.ofLayer[k]? = some t ∧ s.ofLayer[k + 1]? = some (if ptr (k + 1) = ptr k then t else t + 1)) ∧
    s.ofLayer[total - 1]? = some (s.polys.length - 1) := by
  obtain ⟨hp, hu⟩ := meshes_ok ht h
  refine ⟨by rw [hu.len]; omega, by rw [hu.index 0 (by omega), heads_zero]; rfl, hu.num, ?_, ?_⟩
  · intro k hk
    refine ⟨_, hu.index k (by omega), ?_⟩
    rw [hu.index (k + 1) (by omega), heads_succ]
    have := List.length_pos_iff.2 (heads_ne ptr k)
    by_cases h1 : ptr (k + 1) = ptr k
    · rw [if_neg (by simp [h1]), if_pos h1]
    · rw [if_pos h1, if_neg h1, List.length_append, List.length_singleton]
      congr 1; omega
  · rw [hu.index _ le_rfl, hu.num]

/-- the lists of layers up to `k` are those of the heads -/
theorem head_below (ptr : Nat → Option Nat) (k j : Nat) (hj : j ≤ k) : ∃ i ∈ heads ptr k, i ≤ j ∧ ptr i = ptr j := by
  induction j with
  | zero => exact ⟨0, by simp [heads], le_rfl, rfl⟩
  | succ j ih =>
    by_cases e : ptr (j + 1) = ptr j
    · obtain ⟨i, h1, h2, h3⟩ := ih (by omega)
      exact ⟨i, h1, by omega, by rw [h3, e]⟩
    · refine ⟨j + 1, ?_, le_rfl, rfl⟩
      unfold heads
      rw [List.mem_filter, List.mem_range]
      exact ⟨by omega, by simp [e]⟩

/-- **C116, imprints.** With imprints of the upper layer the mesh of a layer is made of its polygons and those of all layers above, each list once. -/
theorem c116_imprint {content : Nat → List P} {ptr : Nat → Option Nat} {total : Nat} {s : Meshes P} (h : meshes true content ptr total = .ok s)
    {k : Nat} (hk : k < total) :
    s.forLayer k = some ((heads ptr k).reverse.flatMap (layerPolys content ptr)) ∧
    (∀ x, (∃ ps, s.forLayer k = some ps ∧ x ∈ ps) ↔ ∃ j a, j ≤ k ∧ ptr j = some a ∧ x ∈ content a) := by
  have e := forLayer_eq (meshes_ok (by omega) h).2 (show k ≤ total - 1 by omega)
  have e' : s.forLayer k = some ((heads ptr k).reverse.flatMap (layerPolys content ptr)) := e
  refine ⟨e', ?_⟩
  intro x
  rw [e']
  constructor
  · rintro ⟨ps, h1, h2⟩
    cases h1
    rw [List.mem_flatMap] at h2
    obtain ⟨j, hj, hx⟩ := h2
    rw [List.mem_reverse] at hj
    unfold heads at hj
    rw [List.mem_filter, List.mem_range] at hj
    unfold layerPolys at hx
    cases hpj : ptr j with
    | none => rw [hpj] at hx; cases hx
    | some a =>
      rw [hpj] at hx
      exact ⟨j, a, by omega, hpj, hx⟩
  · rintro ⟨j, a, hj, ha, hx⟩
    refine ⟨_, rfl, ?_⟩
    obtain ⟨i, h1, _, h3⟩ := head_below ptr k j hj
    rw [List.mem_flatMap]
    refine ⟨i, List.mem_reverse.2 h1, ?_⟩
    unfold layerPolys
    rw [h3, ha]
    exact hx

/-- **C116 fails** for "the upper layer": a polygon two layers above that is neither in the layer nor in the next one is imprinted as well. -/
theorem c116_upper_refuted {content : Nat → List P} {ptr : Nat → Option Nat} {total : Nat} {s : Meshes P} (h : meshes true content ptr total = .ok s)
    {j k a : Nat} (hk : k < total) (hj : j + 1 < k) (ha : ptr j = some a) {x : P} (hx : x ∈ content a)
    (h1 : x ∉ layerPolys content ptr k) (h2 : x ∉ layerPolys content ptr (k - 1)) :
    ∃ ps, s.forLayer k = some ps ∧ x ∈ ps ∧ ¬ ps ⊆ layerPolys content ptr k ++ layerPolys content ptr (k - 1) := by
  obtain ⟨ps, e, hm⟩ := ((c116_imprint h hk).2 x).2 ⟨j, a, by omega, ha, hx⟩
  refine ⟨ps, e, hm, ?_⟩
  intro hsub
  rcases List.mem_append.1 (hsub hm) with h | h
  · exact h1 h
  · exact h2 h

/-! ### the lists of cut models -/

theorem ptrEntry_some {order : List Int} {old : Lut} {prev : Option Nat} (hprev : ∀ j, prev = some j → old j ≠ none) {h : Int} {j : Nat}
    (hj : ptrEntry order old prev h = some j) : old j ≠ none := by
  unfold ptrEntry at hj
  cases hi : order.idxOf? h with
  | none => rw [hi] at hj; exact hprev j hj
  | some i =>
    rw [hi] at hj
    simp only [Option.map_eq_some_iff] at hj
    obtain ⟨l, hl, rfl⟩ := hj
    rw [hl]; simp

theorem remapPtr_remap (order : List Int) (old : Lut) : ∀ (hs : List Int) (prev : Option Nat), (∀ j, prev = some j → old j ≠ none) →
    remap order old (prev.bind old) hs = (remapPtr order old prev hs).bind fun js => .ok (js.map fun j => (old j).getD []) := by
  intro hs
  induction hs with
  | nil => intro prev _; rfl
  | cons h hs ih =>
    intro prev hprev
    unfold remap remapPtr
    have he : remapEntry order old (prev.bind old) h = (ptrEntry order old prev h).bind old := by
      unfold remapEntry ptrEntry
      cases hi : order.idxOf? h with
      | none => rfl
      | some j =>
        simp only
        cases ho : old j with
        | none => rfl
        | some l => simp [ho]
    rw [he]
    cases hp : ptrEntry order old prev h with
    | none => rfl
    | some j =>
      obtain ⟨l, hl⟩ := Option.ne_none_iff_exists'.1 (ptrEntry_some hprev hp)
      simp only [Option.bind_some, hl]
      have ih' := ih (some j) (by rintro _ ⟨⟩; rw [hl]; simp)
      simp only [Option.bind_some, hl] at ih'
      rw [ih']
      cases remapPtr order old (some j) hs with
      | ok js => simp [hl]
      | ub => rfl
      | exn => rfl

theorem remapPtr_some {order : List Int} {old : Lut} : ∀ (hs : List Int) (prev : Option Nat) (js : List Nat), (∀ j, prev = some j → old j ≠ none) →
    remapPtr order old prev hs = .ok js → js.length = hs.length ∧ ∀ j ∈ js, old j ≠ none := by
  intro hs
  induction hs with
  | nil =>
    intro prev js _ h
    cases h
    simp
  | cons x hs ih =>
    intro prev js hprev h
    unfold remapPtr at h
    cases hp : ptrEntry order old prev x with
    | none => rw [hp] at h; cases h
    | some j =>
      rw [hp] at h
      simp only at h
      have hj := ptrEntry_some hprev hp
      cases hr : remapPtr order old (some j) hs with
      | ub => rw [hr] at h; cases h
      | exn => rw [hr] at h; cases h
      | ok js' =>
        rw [hr] at h
        cases h
        obtain ⟨h1, h2⟩ := ih (some j) js' (by rintro _ ⟨⟩; exact hj) hr
        refine ⟨by simp [h1], ?_⟩
        intro i hi
        rcases List.mem_cons.1 hi with rfl | hi
        · exact hj
        · exact h2 i hi

/-- the table of lists read through the pointers -/
def PCut.toCut (c : PCut) : Cut := ⟨c.order, fun k => (c.ptr k).bind c.heap⟩

/-- With pointers the layer cut model is the same as without. -/
theorem build_ptr (ratio : ℚ) (fuel : Nat) (ps : List Poly) :
    build ratio fuel ps = (buildPtr ratio fuel ps).map fun r => r.bind fun c => .ok c.toCut := by
  unfold build buildPtr
  simp only
  cases hf : fillLut (layerOrder ps) 0 ps (fun _ => none) with
  | ub => rfl
  | exn => rfl
  | ok m =>
    simp only
    split_ifs with hr
    · cases ho : layerOrder ps with
      | nil => rfl
      | cons a rest =>
        simp only
        rw [← ho]
        cases hl : sliceAll ratio fuel (pairs (layerOrder ps)) with
        | none => rfl
        | some l =>
          simp only [Option.map_some]
          cases hlast : l.getLast? with
          | none => rfl
          | some r =>
            simp only
            have e := remapPtr_remap (layerOrder ps) m (l.map Range.high) none (by rintro _ ⟨⟩)
            rw [Option.bind_none] at e
            rw [e]
            cases hj : remapPtr (layerOrder ps) m none (l.map Range.high) with
            | ub => rfl
            | exn => rfl
            | ok js =>
              simp only [Res.bind_ok, PCut.toCut, Option.some.injEq, Res.ok.injEq, Cut.mk.injEq, true_and]
              funext k
              rw [List.getElem?_map]
              cases hk : js[k]? with
              | none => rfl
              | some j =>
                obtain ⟨x, hx⟩ := Option.ne_none_iff_exists'.1 ((remapPtr_some _ _ _ (by rintro _ ⟨⟩) hj).2 j (List.mem_of_getElem? hk))
                simp [hx]
    · simp only [Option.map_some, Res.bind_ok, PCut.toCut, Option.some.injEq, Res.ok.injEq, Cut.mk.injEq, true_and]
      funext k
      cases hk : m k with
      | none => rfl
      | some l => simp [hk]

theorem remapPtr_mono {order : List Int} {old : Lut} (hso : order.Pairwise (· > ·)) : ∀ (hs : List Int) (prev : Option Nat) (js : List Nat),
    hs.Pairwise (· > ·) → (∀ j, prev = some j → ∃ x, order[j]? = some x ∧ ∀ h ∈ hs, h < x) →
    remapPtr order old prev hs = .ok js → js.Pairwise (· ≤ ·) ∧ ∀ j0, prev = some j0 → ∀ j ∈ js, j0 ≤ j := by
  intro hs
  induction hs with
  | nil =>
    intro prev js _ _ h
    cases h
    simp
  | cons x hs ih =>
    intro prev js hd hprev h
    unfold remapPtr at h
    cases hp : ptrEntry order old prev x with
    | none => rw [hp] at h; cases h
    | some j =>
      rw [hp] at h
      simp only at h
      rw [List.pairwise_cons] at hd
      have hj : ∃ y, order[j]? = some y ∧ x ≤ y ∧ (∀ h ∈ hs, h < y) ∧ ∀ j0, prev = some j0 → j0 ≤ j := by
        unfold ptrEntry at hp
        cases hi : order.idxOf? x with
        | none =>
          rw [hi] at hp
          obtain ⟨y, h1, h2⟩ := hprev j hp
          refine ⟨y, h1, (h2 x (by simp)).le, fun h hh => h2 h (by simp [hh]), ?_⟩
          intro j0 hj0
          rw [hj0] at hp
          cases hp
          exact le_rfl
        | some i =>
          rw [hi] at hp
          simp only [Option.map_eq_some_iff] at hp
          obtain ⟨_, _, rfl⟩ := hp
          rw [idxOf_get hso] at hi
          refine ⟨x, hi, le_rfl, fun h hh => hd.1 h hh, ?_⟩
          intro j0 hj0
          obtain ⟨y, h1, h2⟩ := hprev j0 hj0
          have hxy := h2 x (by simp)
          by_contra hlt
          push Not at hlt
          obtain ⟨hi1, hi2⟩ := List.getElem?_eq_some_iff.1 hi
          obtain ⟨hj1, hj2⟩ := List.getElem?_eq_some_iff.1 h1
          have := List.pairwise_iff_getElem.1 hso i j0 hi1 hj1 hlt
          rw [hi2, hj2] at this
          omega
      obtain ⟨y, y1, y2, y3, y4⟩ := hj
      cases hr : remapPtr order old (some j) hs with
      | ub => rw [hr] at h; cases h
      | exn => rw [hr] at h; cases h
      | ok js' =>
        rw [hr] at h
        cases h
        obtain ⟨h1, h2⟩ := ih (some j) js' hd.2 (by rintro _ ⟨⟩; exact ⟨y, y1, y3⟩) hr
        refine ⟨List.pairwise_cons.2 ⟨h2 j rfl, h1⟩, ?_⟩
        intro j0 hj0 i hi
        rcases List.mem_cons.1 hi with rfl | hi
        · exact y4 j0 hj0
        · exact le_trans (y4 j0 hj0) (h2 j rfl i hi)

/-- pointers of a cut model never fall downwards -/
theorem ptr_mono {ratio : ℚ} {fuel : Nat} {ps : List Poly} {c : PCut} (h : buildPtr ratio fuel ps = some (.ok c)) {i k a b : Nat} (hik : i ≤ k)
    (ha : c.ptr i = some a) (hb : c.ptr k = some b) : a ≤ b := by
  have hb' : build ratio fuel ps = some (.ok c.toCut) := by rw [build_ptr, h]; rfl
  have hord : c.order.Pairwise (· > ·) := (build_byHeight hb').1.1
  unfold buildPtr at h
  simp only at h
  cases hf : fillLut (layerOrder ps) 0 ps (fun _ => none) with
  | ub => rw [hf] at h; simp at h
  | exn => rw [hf] at h; simp at h
  | ok m =>
    rw [hf] at h
    simp only at h
    by_cases hr : ratio > 1
    · rw [if_pos hr] at h
      cases ho : layerOrder ps with
      | nil => rw [ho] at h; simp at h
      | cons x rest =>
        rw [ho] at h
        simp only at h
        rw [← ho] at h
        rw [Option.map_eq_some_iff] at h
        obtain ⟨l, hl, h⟩ := h
        cases hlast : l.getLast? with
        | none => rw [hlast] at h; simp at h
        | some r =>
          rw [hlast] at h
          simp only at h
          cases hj : remapPtr (layerOrder ps) m none (l.map Range.high) with
          | ub => rw [hj] at h; cases h
          | exn => rw [hj] at h; cases h
          | ok js =>
            rw [hj] at h
            cases h
            simp only at hord ha hb
            rw [List.pairwise_append] at hord
            have hm := (remapPtr_mono (order_sorted ps) _ none js hord.1 (by rintro _ ⟨⟩) hj).1
            obtain ⟨hi1, hi2⟩ := List.getElem?_eq_some_iff.1 ha
            obtain ⟨hk1, hk2⟩ := List.getElem?_eq_some_iff.1 hb
            rcases Nat.eq_or_lt_of_le hik with e | e
            · subst e; rw [← hi2, ← hk2]
            · have := List.pairwise_iff_getElem.1 hm i k hi1 hk1 e
              rw [hi2, hk2] at this
              exact this
    · rw [if_neg hr] at h
      cases h
      simp only [Option.map_eq_some_iff] at ha hb
      obtain ⟨_, _, rfl⟩ := ha
      obtain ⟨_, _, rfl⟩ := hb
      exact hik

theorem heads_between {ptr : Nat → Option Nat} {i : Nat} : ∀ n, (∀ j, i ≤ j → j < i + n → ptr (j + 1) = ptr j) → heads ptr (i + n) = heads ptr i := by
  intro n
  induction n with
  | zero => intro _; rfl
  | succ n ih =>
    intro h
    rw [← Nat.add_assoc, heads_succ, if_neg (by simp [h (i + n) (by omega) (by omega)])]
    exact ih fun j h1 h2 => h j h1 (by omega)

theorem heads_change {ptr : Nat → Option Nat} {i j k : Nat} (h1 : i ≤ j) (h2 : j < k) (h : ptr (j + 1) ≠ ptr j) :
    (heads ptr i).length < (heads ptr k).length := by
  have a := heads_mono ptr h1
  have b := heads_mono ptr (show j + 1 ≤ k by omega)
  rw [heads_succ, if_pos h, List.length_append, List.length_singleton] at b
  omega

/-- **C116, cut models.** In the model of a layout, two layers have the same mesh exactly if they are slices of the same layer before slicing - by the pointers, which are the
numbers of these layers; then they have the same polygons. -/
theorem c116_slices {ratio : ℚ} {fuel : Nat} {ps : List Poly} {c : PCut} (hc : buildPtr ratio fuel ps = some (.ok c)) {imprint : Bool}
    {polygons : Nat → P} {s : Meshes P} (h : stackMeshes imprint polygons c = .ok s) {i k : Nat} (hi : i < c.order.length - 1) (hk : k < c.order.length - 1) :
    (s.ofLayer[i]? = s.ofLayer[k]? ↔ c.ptr i = c.ptr k) ∧ (s.ofLayer[i]? = s.ofLayer[k]? → c.toCut.lut i = c.toCut.lut k) := by
  obtain ⟨hp, hu⟩ := meshes_ok (by omega) h
  have key : ∀ i k, i ≤ k → k < c.order.length - 1 → (s.ofLayer[i]? = s.ofLayer[k]? ↔ c.ptr i = c.ptr k) := by
    intro i k hik hk
    rw [hu.index i (by omega), hu.index k (by omega)]
    have p1 := List.length_pos_iff.2 (heads_ne c.ptr i)
    have p2 := List.length_pos_iff.2 (heads_ne c.ptr k)
    constructor
    · intro e
      simp only [Option.some.injEq] at e
      have hall : ∀ j, i ≤ j → j < k → c.ptr (j + 1) = c.ptr j := by
        intro j h1 h2
        by_contra hne
        have := heads_change h1 h2 hne
        omega
      clear e hk p1 p2
      induction k with
      | zero => rw [show i = 0 by omega]
      | succ k ih =>
        rcases Nat.eq_or_lt_of_le hik with e | e
        · rw [e]
        · rw [hall k (by omega) (by omega)]
          exact ih (by omega) fun j h1 h2 => hall j h1 (by omega)
    · intro e
      have hall : ∀ j, i ≤ j → j < i + (k - i) → c.ptr (j + 1) = c.ptr j := by
        intro j h1 h2
        obtain ⟨a, ha⟩ := Option.ne_none_iff_exists'.1 (hp i (by omega))
        obtain ⟨b, hb⟩ := Option.ne_none_iff_exists'.1 (hp j (by omega))
        obtain ⟨d, hd⟩ := Option.ne_none_iff_exists'.1 (hp (j + 1) (by omega))
        have hka : c.ptr k = some a := by rw [← e, ha]
        have m1 := ptr_mono hc h1 ha hb
        have m2 := ptr_mono hc (Nat.le_succ j) hb hd
        have m3 := ptr_mono hc (show j + 1 ≤ k by omega) hd hka
        rw [hb, hd]
        congr 1; omega
      have := heads_between (k - i) hall
      rw [show i + (k - i) = k by omega] at this
      rw [this]
  have main : s.ofLayer[i]? = s.ofLayer[k]? ↔ c.ptr i = c.ptr k := by
    rcases Nat.le_total i k with e | e
    · exact key i k e hk
    · rw [eq_comm, key k i e hi, eq_comm]
  refine ⟨main, fun e => ?_⟩
  unfold PCut.toCut
  simp only
  rw [main.1 e]

/-- **C116, cut models.** A mesh is made of all the polygons that the cut model has for the layer, in order; if layers are imprinted, of those of the layer and of
all layers above. -/
theorem c116_content {polygons : Nat → P} {c : PCut} {s : Meshes P} {k : Nat} (hk : k < c.order.length - 1) :
    (stackMeshes false polygons c = .ok s → ∀ l, c.toCut.lut k = some l → s.forLayer k = some (l.map polygons)) ∧
    (stackMeshes true polygons c = .ok s → ∀ j l i, j ≤ k → c.toCut.lut j = some l → i ∈ l →
      ∃ ps, s.forLayer k = some ps ∧ polygons i ∈ ps) := by
  have key : ∀ j l, c.toCut.lut j = some l → ∃ a, c.ptr j = some a ∧ contentOf polygons c a = l.map polygons := by
    intro j l hl
    have hl' : (c.ptr j).bind c.heap = some l := hl
    cases hp : c.ptr j with
    | none => rw [hp] at hl'; cases hl'
    | some a =>
      rw [hp] at hl'
      have ha : c.heap a = some l := hl'
      exact ⟨a, rfl, by unfold contentOf; rw [ha]; rfl⟩
  constructor
  · intro h l hl
    obtain ⟨a, ha, hc⟩ := key k l hl
    rw [c116_plain h hk ha, hc]
  · intro h j l i hj hl hi
    obtain ⟨a, ha, hc⟩ := key j l hl
    exact ((c116_imprint h hk).2 (polygons i)).2 ⟨j, a, hj, ha, hc ▸ List.mem_map_of_mem hi⟩

/-- **C116 fails** for "layers with the same polygons share a mesh": without slicing every layer has a mesh of its own, whatever its polygons. -/
theorem c116_same_refuted {ratio : ℚ} (hr : ratio ≤ 1) {fuel : Nat} {ps : List Poly} {c : PCut} (hc : buildPtr ratio fuel ps = some (.ok c)) {imprint : Bool}
    {polygons : Nat → P} {s : Meshes P} (h : stackMeshes imprint polygons c = .ok s) (ht : 1 < c.order.length) :
    s.ofLayer = List.range (c.order.length - 1) ∧ s.polys.length = c.order.length - 1 := by
  obtain ⟨hp, hu⟩ := meshes_ok (by omega) h
  have hptr : ∀ k, k < c.order.length - 1 → c.ptr k = some k := by
    intro k hk
    have := hp k hk
    unfold buildPtr at hc
    simp only at hc
    cases hf : fillLut (layerOrder ps) 0 ps (fun _ => none) with
    | ub => rw [hf] at hc; simp at hc
    | exn => rw [hf] at hc; simp at hc
    | ok m =>
      rw [hf] at hc
      simp only at hc
      rw [if_neg (not_lt.2 hr)] at hc
      cases hc
      simp only at this ⊢
      cases hm : m k with
      | none => rw [hm] at this; simp at this
      | some l => rfl
  have hh : ∀ k, k < c.order.length - 1 → (heads c.ptr k).length = k + 1 := by
    intro k
    induction k with
    | zero => intro _; rw [heads_zero]; rfl
    | succ k ih =>
      intro hk
      rw [heads_succ, if_pos (by rw [hptr _ hk, hptr k (by omega)]; simp), List.length_append, ih (by omega)]
      rfl
  constructor
  · apply List.ext_getElem?
    intro k
    by_cases hk : k < c.order.length - 1
    · rw [hu.index k (by omega), hh k hk, List.getElem?_range hk]
      rfl
    · rw [List.getElem?_eq_none (by rw [hu.len]; omega), List.getElem?_eq_none (by simp; omega)]
  · rw [hu.num, hh _ (by omega)]
    omega

/-! ### examples -/

/-- a board, and a thick block upon it -/
def exPolys : List Poly := [⟨⟨0, -1⟩, true, none⟩, ⟨⟨8, 0⟩, true, none⟩]

/-- the heights 8, 0, -1: after slicing the block is in four layers with one list -/
example : (buildPtr 2 10 exPolys).map (fun r => r.bind fun c => .ok (c.order, (List.range (c.order.length - 1)).map c.ptr)) =
    some (.ok ([8, 4, 2, 0, -1], [some 0, some 0, some 0, some 1])) := by decide +kernel

example : (buildPtr 2 10 exPolys).map (fun r => r.bind fun c => (stackMeshes true (fun i => i) c).bind fun s => .ok (s.ofLayer, s.polys)) =
    some (.ok ([0, 0, 0, 1], [[1], [0, 1]])) := by decide +kernel

/-- a part of which only the middle has loss power: three layers with the same polygon, three meshes -/
example : (buildPtr 1 10 [⟨⟨8, 0⟩, true, some ⟨5, 3⟩⟩]).map (fun r => r.bind fun c => (stackMeshes false (fun i => i) c).bind fun s => .ok (s.ofLayer, s.polys)) =
    some (.ok ([0, 1, 2], [[0], [0], [0]])) := by decide +kernel

/-- polygon 7 of the uppermost of three layers is imprinted in the lowest -/
example : ∃ s ps, meshes true (fun a => [7 + a]) some 3 = .ok s ∧ s.forLayer 2 = some ps ∧ 7 ∈ ps ∧
    ¬ ps ⊆ layerPolys (fun a => [7 + a]) some 2 ++ layerPolys (fun a => [7 + a]) some (2 - 1) := by
  obtain ⟨s, hs⟩ := (c116_total true (fun a => [7 + a]) some 3).1.2 ⟨by simp, by simp⟩
  obtain ⟨ps, h1, h2, h3⟩ := c116_upper_refuted hs (j := 0) (k := 2) (a := 0) (by omega) (by omega) rfl (x := 7) (by simp) (by decide) (by decide)
  exact ⟨s, ps, hs, h1, h2, h3⟩

end Ecad.StackMesh
