import Verif.Util.UtilProps
import Mathlib.Data.List.Perm.Subperm
/-!
C21: in which orders of the positions to be removed the merged polygons are written back right, exactly.
-/
namespace Ecad.Util

/-! ## specification -/

/-- What stands last when turn `k` begins, by its first position among `N` objects: the object that has always been there, or, if an earlier turn
was for this position, what stood last at that turn. -/
inductive Last (order : List Nat) (N : Nat) : Nat → Nat → Prop
  | own (k : Nat) : (∀ j < k, order[j]? ≠ some (N - 1 - k)) → Last order N k (N - 1 - k)
  | put (k j p : Nat) : j < k → order[j]? = some (N - 1 - k) → Last order N j p → Last order N k p

/-- Every turn for a position that has been cut off already throws an object away that was to be removed. -/
def Harmless (order : List Nat) (N : Nat) : Prop :=
  ∀ k i, order[k]? = some i → N ≤ i + k → ∃ p ∈ order, Last order N k p

/-! ## turns -/

theorem last_unique {order : List Nat} (hnd : order.Nodup) {N k p : Nat} (h : Last order N k p) : ∀ {p'}, Last order N k p' → p = p' := by
  induction h with
  | own k hk =>
    intro p' h'
    cases h' with
    | own _ _ => rfl
    | put _ j _ h1 h2 _ => exact absurd h2 (hk j h1)
  | put k j p h1 h2 _ ih =>
    intro p' h'
    cases h' with
    | own _ hk => exact absurd h2 (hk j h1)
    | put _ j' _ h1' h2' h3' =>
      have hj := (List.getElem?_eq_some_iff.1 h2).1
      have : j = j' := by
        rw [← h2'] at h2
        exact (List.getElem?_inj hj hnd).1 h2
      subst this
      exact ih h3'

/-- what stands where when turn `k` begins -/
def At (order : List Nat) (N k q p : Nat) : Prop :=
  ((∀ j < k, order[j]? ≠ some q) ∧ p = q) ∨ ∃ j < k, order[j]? = some q ∧ Last order N j p

/-- the object thrown away in turn `j` for position `i` -/
def Thrown (order : List Nat) (N j d : Nat) : Prop :=
  ∃ i, order[j]? = some i ∧ ((i + j < N ∧ d = i) ∨ (N ≤ i + j ∧ Last order N j d))

theorem popInto_concat {P : Type} (l : List P) (x : P) (i : Nat) : popInto (l ++ [x]) i = if i < l.length then l.set i x else l := by
  simp [popInto]

theorem turns {order : List Nat} (hnd : order.Nodup) {N : Nat} (hN : order.length ≤ N) : ∀ k ≤ order.length,
    ((order.take k).foldl popInto (List.range N)).length = N - k ∧
    (∀ q p, ((order.take k).foldl popInto (List.range N))[q]? = some p → At order N k q p) ∧
    ∃ ds : List Nat, ds.length = k ∧ (List.range N).Perm (ds ++ (order.take k).foldl popInto (List.range N)) ∧
      ∀ d ∈ ds, ∃ j < k, Thrown order N j d := by
  intro k
  induction k with
  | zero =>
    intro _
    refine ⟨by simp, fun q p h => ?_, [], rfl, by simp, by simp⟩
    simp only [List.take_zero, List.foldl_nil] at h
    obtain ⟨h1, h2⟩ := List.getElem?_eq_some_iff.1 h
    rw [List.getElem_range] at h2
    exact .inl ⟨fun j hj => absurd hj (Nat.not_lt_zero j), h2.symm⟩
  | succ k ih =>
    intro hk
    obtain ⟨hl, hat, ds, hd1, hd2, hd3⟩ := ih (by omega)
    obtain ⟨i, hi⟩ : ∃ i, order[k]? = some i := ⟨_, List.getElem?_eq_getElem (by omega)⟩
    have hstep : (order.take (k + 1)).foldl popInto (List.range N) = popInto ((order.take k).foldl popInto (List.range N)) i := by
      rw [List.take_add_one, hi, Option.toList_some, List.foldl_append]
      rfl
    rw [hstep]
    generalize (order.take k).foldl popInto (List.range N) = s at hl hat hd2
    have hne : s ≠ [] := by
      rintro rfl
      simp at hl
      omega
    obtain ⟨l0, x, rfl⟩ : ∃ l0 x, s = l0 ++ [x] := ⟨s.dropLast, s.getLast hne, (List.dropLast_concat_getLast hne).symm⟩
    rw [List.length_append, List.length_singleton] at hl
    have hx : Last order N k x := by
      have h := hat l0.length x (by simp)
      have e : l0.length = N - 1 - k := by omega
      rw [e] at h
      rcases h with ⟨h1, h2⟩ | ⟨j, h1, h2, h3⟩
      · subst h2
        exact .own k h1
      · exact .put k j x h1 h2 h3
    have hfree : ∀ j < k, order[j]? ≠ some i := by
      intro j hj h
      rw [← h] at hi
      have := (List.getElem?_inj (show k < order.length by omega) hnd).1 hi
      omega
    rw [popInto_concat]
    refine ⟨by split <;> (try rw [List.length_set]) <;> omega, fun q p h => ?_, ?_⟩
    · have hq : q < l0.length := by
        have := (List.getElem?_eq_some_iff.1 h).1
        split at this <;> simpa using this
      by_cases hqi : i = q
      · subst hqi
        rw [if_pos hq, List.getElem?_set_self hq] at h
        injection h with h
        subst h
        exact .inr ⟨k, by omega, hi, hx⟩
      · have h' : (l0 ++ [x])[q]? = some p := by
          rw [List.getElem?_append_left hq]
          split at h
          · rwa [List.getElem?_set_ne hqi] at h
          · exact h
        rcases hat q p h' with ⟨h1, h2⟩ | ⟨j, h1, h2, h3⟩
        · refine .inl ⟨fun j hj => ?_, h2⟩
          by_cases hjk : j = k
          · subst hjk
            rw [hi]
            simpa using hqi
          · exact h1 j (by omega)
        · exact .inr ⟨j, by omega, h2, h3⟩
    · by_cases hlt : i < l0.length
      · have hown : l0[i] = i := by
          rcases hat i l0[i] (by rw [List.getElem?_append_left hlt, List.getElem?_eq_getElem hlt]) with ⟨_, h2⟩ | ⟨j, h1, h2, _⟩
          · exact h2
          · exact absurd h2 (hfree j h1)
        refine ⟨ds ++ [i], by simp [hd1], ?_, fun d hd => ?_⟩
        · rw [if_pos hlt]
          refine hd2.trans ?_
          rw [List.append_assoc]
          refine List.Perm.append_left ds ?_
          have e1 : l0 = l0.take i ++ l0[i] :: l0.drop (i + 1) := by rw [List.getElem_cons_drop, List.take_append_drop]
          have e2 : l0.set i x = l0.take i ++ x :: l0.drop (i + 1) := List.set_eq_take_append_cons_drop.trans (if_pos hlt)
          rw [e2]
          conv_lhs => rw [e1, hown]
          have : (l0.take i ++ i :: l0.drop (i + 1) ++ [x]).Perm (x :: (l0.take i ++ i :: l0.drop (i + 1))) := List.perm_append_singleton _ _
          refine this.trans ?_
          refine (List.Perm.cons x List.perm_middle).trans ?_
          refine (List.Perm.swap _ _ _).trans (List.Perm.cons i ?_)
          exact List.perm_middle.symm
        · rw [List.mem_append, List.mem_singleton] at hd
          rcases hd with hd | rfl
          · obtain ⟨j, hj, h⟩ := hd3 d hd
            exact ⟨j, by omega, h⟩
          · exact ⟨k, by omega, d, hi, .inl ⟨by omega, rfl⟩⟩
      · rw [if_neg hlt]
        refine ⟨ds ++ [x], by simp [hd1], ?_, fun d hd => ?_⟩
        · refine hd2.trans ?_
          rw [List.append_assoc]
          exact List.Perm.append_left ds (List.perm_append_singleton _ _)
        · rw [List.mem_append, List.mem_singleton] at hd
          rcases hd with hd | rfl
          · obtain ⟨j, hj, h⟩ := hd3 d hd
            exact ⟨j, by omega, h⟩
          · refine ⟨k, by omega, i, hi, ?_⟩
            by_cases he : i + k < N
            · have hie : i = l0.length := by omega
              refine .inl ⟨he, ?_⟩
              rcases hat i d (by rw [hie]; simp) with ⟨_, h2⟩ | ⟨j, h1, h2, _⟩
              · exact h2
              · exact absurd h2 (hfree j h1)
            · exact .inr ⟨by omega, hx⟩

/-- there is something last at every turn -/
theorem last_exists (order : List Nat) (N : Nat) (k : Nat) : ∃ p, Last order N k p := by
  induction k using Nat.strong_induction_on with
  | _ k ih =>
    by_cases h : ∃ j < k, order[j]? = some (N - 1 - k)
    · obtain ⟨j, hj, h⟩ := h
      obtain ⟨p, hp⟩ := ih j hj
      exact ⟨p, .put k j p hj h hp⟩
    · push Not at h
      exact ⟨_, .own k h⟩

theorem range_split {order : List Nat} (hnd : order.Nodup) {N : Nat} (hin : ∀ i ∈ order, i < N) :
    (List.range N).Perm (order ++ (List.range N).filter fun i => i ∉ order) := by
  rw [List.perm_ext_iff_of_nodup List.nodup_range]
  · intro a
    simp only [List.mem_range, List.mem_append, List.mem_filter, decide_eq_true_eq]
    constructor
    · intro h
      by_cases ha : a ∈ order
      · exact .inl ha
      · exact .inr ⟨h, ha⟩
    · rintro (h | h)
      · exact hin a h
      · exact h.1
  · rw [List.nodup_append]
    refine ⟨hnd, List.nodup_range.filter _, fun a ha b hb => ?_⟩
    simp only [List.mem_filter, decide_eq_true_eq] at hb
    rintro rfl
    exact hb.2 ha

theorem positions_exact {order : List Nat} (hnd : order.Nodup) {N : Nat} (hin : ∀ i ∈ order, i < N) :
    (order.foldl popInto (List.range N)).Perm ((List.range N).filter fun i => i ∉ order) ↔ Harmless order N := by
  have hN : order.length ≤ N := by
    have := (hnd.subperm (l₂ := List.range N) fun i hi => List.mem_range.2 (hin i hi)).length_le
    simpa using this
  obtain ⟨_, _, ds, h1, h2, h3⟩ := turns hnd hN order.length le_rfl
  rw [List.take_length] at h2
  have hsplit := range_split hnd hin
  have hdn : ds.Nodup := (List.nodup_append.1 (h2.nodup_iff.1 List.nodup_range)).1
  constructor
  · intro hp k i hk hlate
    have hperm : ds.Perm order := by
      have : (ds ++ order.foldl popInto (List.range N)).Perm (order ++ order.foldl popInto (List.range N)) :=
        h2.symm.trans (hsplit.trans (List.Perm.append_left order hp.symm))
      exact (List.perm_append_right_iff _).1 this
    -- every turn has thrown an object of its own away: the objects are as many as the turns
    obtain ⟨p, hp'⟩ := last_exists order N k
    refine ⟨p, ?_, hp'⟩
    by_contra hcon
    have huniq : ∀ j d d', Thrown order N j d → Thrown order N j d' → d = d' := by
      rintro j d d' ⟨i, a1, a2⟩ ⟨i', b1, b2⟩
      rw [a1] at b1
      injection b1 with b1
      subst b1
      rcases a2 with ⟨a2, a3⟩ | ⟨a2, a3⟩ <;> rcases b2 with ⟨b2, b3⟩ | ⟨b2, b3⟩
      · rw [a3, b3]
      · omega
      · omega
      · exact last_unique hnd a3 b3
    choose! f hf1 hf2 using h3
    have hlt : ∀ d ∈ ds, f d ∈ (List.range order.length).erase k := by
      intro d hd
      rw [List.nodup_range.mem_erase_iff, List.mem_range]
      refine ⟨fun he => hcon ?_, hf1 d hd⟩
      have : d = p := huniq k d p (by rw [← he]; exact hf2 d hd) ⟨i, hk, .inr ⟨hlate, hp'⟩⟩
      rw [← this]
      exact hperm.mem_iff.1 hd
    have hinj : (ds.map f).Nodup := by
      refine List.Nodup.map_on (fun d hd d' hd' he => ?_) hdn
      exact huniq (f d) d d' (hf2 d hd) (by rw [he]; exact hf2 d' hd')
    have hle := (hinj.subperm (l₂ := (List.range order.length).erase k) fun j hj => by
      obtain ⟨d, hd, rfl⟩ := List.mem_map.1 hj
      exact hlt d hd).length_le
    have hklt := (List.getElem?_eq_some_iff.1 hk).1
    rw [List.length_map, h1, List.length_erase_of_mem (List.mem_range.2 hklt), List.length_range] at hle
    omega
  · intro hh
    have hsub : ∀ d ∈ ds, d ∈ order := by
      intro d hd
      obtain ⟨j, hj, i, hi, h⟩ := h3 d hd
      rcases h with ⟨_, rfl⟩ | ⟨hlate, hlast⟩
      · exact List.mem_of_getElem? hi
      · obtain ⟨p, hp, hl⟩ := hh j i hi hlate
        rw [last_unique hnd hlast hl]
        exact hp
    have hperm : ds.Perm order := (hdn.subperm hsub).perm_of_length_le (by omega)
    have : (order ++ order.foldl popInto (List.range N)).Perm (order ++ (List.range N).filter fun i => i ∉ order) :=
      (List.Perm.append_right _ hperm.symm).trans (h2.symm.trans hsplit)
    exact (List.perm_append_left_iff order).1 this

/-! ## objects -/

section
variable {P : Type}

theorem popInto_map {Q : Type} (f : P → Q) (l : List P) (i : Nat) : popInto (l.map f) i = (popInto l i).map f := by
  rcases List.eq_nil_or_concat l with rfl | ⟨l0, x, rfl⟩
  · rfl
  · rw [List.concat_eq_append, List.map_append, List.map_singleton, popInto_concat, popInto_concat, List.length_map]
    split
    · rw [List.map_set]
    · rfl

theorem fold_map {Q : Type} (f : P → Q) (order : List Nat) : ∀ l : List P, order.foldl popInto (l.map f) = (order.foldl popInto l).map f := by
  induction order with
  | nil => intro l; rfl
  | cons i is ih =>
    intro l
    rw [List.foldl_cons, List.foldl_cons, popInto_map, ih]

theorem keep_filter (r : List Nat) (f : Nat → P) : ∀ n k, keep r k ((List.range' k n).map f) = ((List.range' k n).filter fun i => i ∉ r).map f := by
  intro n
  induction n with
  | zero => intro k; rfl
  | succ n ih =>
    intro k
    rw [List.range'_succ, List.map_cons, keep, List.filter_cons, ih]
    by_cases h : k ∈ r
    · rw [if_pos h, if_neg (by simpa using h)]
    · rw [if_neg h, if_pos (by simpa using h), List.map_cons]

theorem popInto_mem {l : List P} {i : Nat} {y : P} (h : y ∈ popInto l i) : y ∈ l := by
  rcases List.eq_nil_or_concat l with rfl | ⟨l0, x, rfl⟩
  · simp [popInto] at h
  · rw [List.concat_eq_append, popInto_concat] at h
    rw [List.concat_eq_append, List.mem_append, List.mem_singleton]
    split at h
    · rcases List.mem_or_eq_of_mem_set h with h | h
      · exact .inl h
      · exact .inr h
    · exact .inl h

theorem fold_mem (order : List Nat) : ∀ {l : List P} {y : P}, y ∈ order.foldl popInto l → y ∈ l := by
  induction order with
  | nil => intro l y h; exact h
  | cons i is ih =>
    intro l y h
    exact popInto_mem (ih h)

/-- C21, exactly: for primitives that are different objects and every order of the positions to be removed, the layout consists of the other
primitives and the merged polygons if and only if every turn for a position that has been cut off throws an object away that was to be removed. -/
theorem c21_exact (prims merged : List P) (hobj : (prims ++ merged).Nodup) (order : List Nat) (hnd : order.Nodup) (hin : ∀ i ∈ order, i < prims.length) :
    (fillBack prims merged order).Perm (keep order 0 prims ++ merged) ↔ Harmless order (prims.length + merged.length) := by
  have hin' : ∀ i ∈ order, i < prims.length + merged.length := fun i hi => by have := hin i hi; omega
  rw [← positions_exact hnd hin']
  have ek : keep order 0 prims ++ merged = keep order 0 (prims ++ merged) := by
    rw [keep_append, keep_all order merged (0 + prims.length) (by simpa using hin)]
  rw [ek, ← List.length_append]
  unfold fillBack
  generalize prims ++ merged = l at hobj
  rcases l.eq_nil_or_concat with rfl | ⟨l0, z, he⟩
  · have e : ∀ o : List Nat, o.foldl popInto ([] : List P) = [] := by
      intro o
      induction o with
      | nil => rfl
      | cons i is ih => rw [List.foldl_cons]; exact ih
    have e' : ∀ o : List Nat, o.foldl popInto ([] : List Nat) = [] := by
      intro o
      induction o with
      | nil => rfl
      | cons i is ih => rw [List.foldl_cons]; exact ih
    simp [e, e', keep]
  · let f : Nat → P := fun i => (l[i]?).getD z
    have hf : ∀ i, (h : i < l.length) → f i = l[i] := fun i h => by simp [f, List.getElem?_eq_getElem h]
    have hl : l = (List.range l.length).map f := by
      apply List.ext_getElem (by simp)
      intro i h1 h2
      rw [List.getElem_map, List.getElem_range, hf i h1]
    have hinj : ∀ i < l.length, ∀ j < l.length, f i = f j → i = j := by
      intro i hi j hj h
      rw [hf i hi, hf j hj] at h
      exact (List.Nodup.getElem_inj_iff hobj).1 h
    have e1 : order.foldl popInto l = (order.foldl popInto (List.range l.length)).map f := by
      rw [← fold_map, ← hl]
    have e2 : keep order 0 l = ((List.range l.length).filter fun i => i ∉ order).map f := by
      have := keep_filter order f l.length 0
      rw [← List.range_eq_range', ← hl] at this
      exact this
    rw [e1, e2]
    have hb1 : ∀ a ∈ order.foldl popInto (List.range l.length), a < l.length := fun a ha => List.mem_range.1 (fold_mem order ha)
    have hb2 : ∀ a ∈ (List.range l.length).filter (fun i => i ∉ order), a < l.length := fun a ha => List.mem_range.1 (List.mem_filter.1 ha).1
    constructor
    · intro h
      classical
      have hback : ∀ m : List Nat, (∀ a ∈ m, a < l.length) → (m.map f).map (fun x => l.idxOf x) = m := by
        intro m hm
        rw [List.map_map]
        conv_rhs => rw [← List.map_id m]
        refine List.map_congr_left fun a ha => ?_
        have := hf a (hm a ha)
        simp only [Function.comp_apply, this, id]
        exact hobj.idxOf_getElem a (hm a ha)
      have := h.map fun x => l.idxOf x
      rwa [hback _ hb1, hback _ hb2] at this
    · intro h
      exact h.map f

/-- C21 does not hold of ascending orders: of three polygons merged into one, with a primitive `k` before the last of them that was to stay, that
primitive is lost and the last of the three is still there beside the merged one. -/
theorem c21_ascending_refuted (l : List P) (a b k c m : P) :
    fillBack (l ++ [a, b, k, c]) [m] [l.length, l.length + 1, l.length + 3] = l ++ [m, c] ∧
    keep [l.length, l.length + 1, l.length + 3] 0 (l ++ [a, b, k, c]) ++ [m] = l ++ [k, m] := by
  constructor
  · have h1 : popInto (l ++ [a, b, k, c, m]) l.length = l ++ [m, b, k, c] := by
      have : l ++ [a, b, k, c, m] = (l ++ [a, b, k, c]) ++ [m] := by simp
      rw [this, popInto_concat, if_pos (by simp)]
      simp
    have h2 : popInto (l ++ [m, b, k, c]) (l.length + 1) = l ++ [m, c, k] := by
      have : l ++ [m, b, k, c] = (l ++ [m, b, k]) ++ [c] := by simp
      rw [this, popInto_concat, if_pos (by simp)]
      simp [List.set_append]
    have h3 : popInto (l ++ [m, c, k]) (l.length + 3) = l ++ [m, c] := by
      have : l ++ [m, c, k] = (l ++ [m, c]) ++ [k] := by simp
      rw [this, popInto_concat, if_neg (by simp)]
    show [l.length, l.length + 1, l.length + 3].foldl popInto (l ++ [a, b, k, c] ++ [m]) = _
    have e : l ++ [a, b, k, c] ++ [m] = l ++ [a, b, k, c, m] := by simp
    rw [e, List.foldl_cons, h1, List.foldl_cons, h2, List.foldl_cons, h3, List.foldl_nil]
  · rw [keep_append]
    have e : keep [l.length, l.length + 1, l.length + 3] 0 l = l := by
      have : ∀ (l : List P) (k n : Nat), k + l.length ≤ n → keep [n, n + 1, n + 3] k l = l := by
        intro l
        induction l with
        | nil => intro k n _; rfl
        | cons x xs ih =>
          intro k n h
          rw [List.length_cons] at h
          rw [keep, if_neg (by simp; omega), ih (k + 1) n (by omega)]
      exact this l 0 l.length (by omega)
    rw [e]
    have h2 : l.length + 1 + 1 ≠ l.length := by omega
    simp [keep, h2]

end

/-! ## examples -/

/-- a late turn that does no harm: position 4 is cut off at its turn; last then stands what was at position 4, put at position 3 the turn before -/
example : Harmless [0, 3, 4] 6 := by
  intro k i hk hle
  obtain ⟨rfl, rfl⟩ : k = 2 ∧ i = 4 := by
    rcases k with _ | _ | _ | k
    · simp at hk; omega
    · simp at hk; omega
    · simp at hk; omega
    · simp at hk
  refine ⟨4, by decide, .put 2 1 4 (by decide) (by decide) ?_⟩
  exact .own (N := 6) 1 (by decide)

example : (fillBack ['a', 'b', 'c', 'd', 'e'] ['m'] [0, 3, 4]).Perm ['b', 'c', 'm'] := by decide +kernel

example : fillBack ['a', 'b', 'k', 'c'] ['m'] [0, 1, 3] = ['m', 'c'] := by decide +kernel
example : fillBack ['a', 'b', 'k', 'c'] ['m'] [3, 1, 0] = ['k', 'm'] := by decide +kernel

end Ecad.Util
