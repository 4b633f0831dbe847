import Verif.Thermal.GridBuildProps
import Mathlib.Tactic.Linarith
import Mathlib.Tactic.FieldSimp
import Mathlib.Algebra.BigOperators.Group.List.Basic
/-!
C55: power tables of tiles and block power.
-/
namespace Ecad.GridT
open Ecad.Thermal

variable {K : Type} [Field K] [LinearOrder K] [IsStrictOrderedRing K]

/-- What is taken from the interpolation library (boost::math::interpolators::pchip, not part of the repository):
it throws for less than four points; otherwise, for increasing abscissas, it is exact at the points and stays
within the range of the ordinates. -/
structure Pchip (ip : List (K × K) → K → Res K) : Prop where
  few : ∀ pts key, pts.length < 4 → ip pts key = .exn
  between : ∀ pts key, 4 ≤ pts.length → pts.Pairwise (fun a b => a.1 < b.1) → (∃ a ∈ pts, a.1 ≤ key) → (∃ b ∈ pts, key ≤ b.1) →
    ∃ v, ip pts key = .ok v ∧ (∃ p ∈ pts, p.2 ≤ v) ∧ ∃ q ∈ pts, v ≤ q.2
  knot : ∀ pts k v, 4 ≤ pts.length → pts.Pairwise (fun a b => a.1 < b.1) → (k, v) ∈ pts → ip pts k = .ok v

/-- a table filled with samples, one after the other -/
def filled (size : Size2) (l : List (K × GridData K)) : Table K :=
  l.foldl (fun t s => (addSample t s.1 s.2).1) ⟨size, []⟩

/-- The samples a table should hold: of the given ones of the right size, the first for each key. -/
def sampleAt (size : Size2) (l : List (K × GridData K)) (key : K) : Option (GridData K) :=
  (l.find? fun s => s.1 = key ∧ s.2.width = size.x ∧ s.2.height = size.y).map Prod.snd

/-! ### the map of samples -/

def Sorted (l : List (K × GridData K)) : Prop := l.Pairwise fun a b => a.1 < b.1

omit [Field K] [IsStrictOrderedRing K] in
theorem mem_insert {key : K} {d : GridData K} {l : List (K × GridData K)} {p : K × GridData K}
    (h : p ∈ insertSample key d l) : p = (key, d) ∨ p ∈ l := by
  induction l with
  | nil => simp [insertSample] at h; exact .inl h
  | cons a l ih =>
    obtain ⟨k, e⟩ := a
    rw [insertSample] at h
    split_ifs at h
    · simpa using h
    · rcases List.mem_cons.1 h with h | h
      · exact .inr (by simp [h])
      · rcases ih h with h | h
        · exact .inl h
        · exact .inr (by simp [h])
    · exact .inr h

omit [Field K] [IsStrictOrderedRing K] in
theorem sorted_insert {key : K} {d : GridData K} {l : List (K × GridData K)} (h : Sorted l) :
    Sorted (insertSample key d l) := by
  induction l with
  | nil => simp [insertSample, Sorted]
  | cons a l ih =>
    obtain ⟨k, e⟩ := a
    unfold Sorted at h ⊢
    rw [insertSample]
    rw [List.pairwise_cons] at h
    split_ifs with h1 h2
    · rw [List.pairwise_cons]
      refine ⟨?_, List.pairwise_cons.2 h⟩
      intro b hb
      rcases List.mem_cons.1 hb with rfl | hb
      · exact h1
      · exact lt_trans h1 (h.1 b hb)
    · rw [List.pairwise_cons]
      refine ⟨?_, ih h.2⟩
      intro b hb
      rcases mem_insert hb with rfl | hb
      · exact h2
      · exact h.1 b hb
    · exact List.pairwise_cons.2 h

omit [Field K] [IsStrictOrderedRing K] in
/-- what is in the map after an insertion -/
theorem mem_insert_iff {key : K} {d : GridData K} {l : List (K × GridData K)} (h : Sorted l) (p : K × GridData K) :
    p ∈ insertSample key d l ↔ p ∈ l ∨ (p = (key, d) ∧ ∀ e, (key, e) ∉ l) := by
  induction l with
  | nil => simp [insertSample]
  | cons a l ih =>
    obtain ⟨k, e⟩ := a
    unfold Sorted at h
    rw [List.pairwise_cons] at h
    have ih := ih h.2
    rw [insertSample]
    split_ifs with h1 h2
    · have : ∀ e', (key, e') ∉ (k, e) :: l := by
        intro e' hm
        rcases List.mem_cons.1 hm with hm | hm
        · injection hm with h3 _; exact absurd h1 (by rw [h3]; exact lt_irrefl _)
        · exact absurd (lt_trans h1 (h.1 _ hm)) (lt_irrefl _)
      rw [List.mem_cons]; tauto
    · rw [List.mem_cons, ih, List.mem_cons]
      have : (∀ e', (key, e') ∉ (k, e) :: l) ↔ ∀ e', (key, e') ∉ l := by
        constructor
        · intro hh e' hm; exact hh e' (List.mem_cons_of_mem _ hm)
        · intro hh e' hm
          rcases List.mem_cons.1 hm with hm | hm
          · injection hm with h3 _; exact absurd h2 (by rw [h3]; exact lt_irrefl _)
          · exact hh e' hm
      rw [this]; tauto
    · have hk : key = k := le_antisymm (not_lt.1 h2) (not_lt.1 h1)
      subst hk
      have : ¬ ∀ e', (key, e') ∉ (key, e) :: l := by
        intro hh; exact hh e (by simp)
      tauto

omit [Field K] [IsStrictOrderedRing K] in
theorem filled_inv (size : Size2) (l : List (K × GridData K)) :
    (filled size l).size = size ∧ Sorted (filled size l).samples ∧
    ∀ key d, (key, d) ∈ (filled size l).samples ↔ sampleAt size l key = some d := by
  induction l using List.reverseRecOn with
  | nil => simp [filled, Sorted, sampleAt]
  | append_singleton l s ih =>
    obtain ⟨i1, i2, i3⟩ := ih
    obtain ⟨k, e⟩ := s
    have hf : filled size (l ++ [(k, e)]) = (addSample (filled size l) k e).1 := by
      simp [filled, List.foldl_append]
    rw [hf]
    unfold addSample
    rw [i1]
    by_cases hw : e.width ≠ size.x ∨ e.height ≠ size.y
    · rw [if_pos hw]
      refine ⟨i1, i2, fun key d => ?_⟩
      rw [i3]
      unfold sampleAt
      rw [List.find?_append]
      have : List.find? (fun s => decide (s.1 = key ∧ s.2.width = size.x ∧ s.2.height = size.y)) [(k, e)] = none := by
        rw [List.find?_singleton, if_neg]
        simp only [decide_eq_true_eq]
        tauto
      rw [this, Option.or_none]
    · rw [if_neg hw]
      refine ⟨rfl, sorted_insert i2, fun key d => ?_⟩
      simp only
      rw [mem_insert_iff i2, i3]
      push Not at hw
      have hnone : (∀ e', (k, e') ∉ (filled size l).samples) ↔ sampleAt size l k = none := by
        rw [Option.eq_none_iff_forall_ne_some]
        exact forall_congr' fun e' => not_congr (i3 k e')
      rw [hnone]
      by_cases hk : key = k
      · subst hk
        unfold sampleAt
        rw [List.find?_append, List.find?_singleton, if_pos (by simpa using hw)]
        cases hfd : List.find? (fun s => decide (s.1 = key ∧ s.2.width = size.x ∧ s.2.height = size.y)) l with
        | none =>
          simp only [Option.map_none, Option.none_or, Option.map_some, reduceCtorEq, false_or, Prod.mk.injEq, true_and, and_true, Option.some.injEq]
          exact eq_comm
        | some a => simp
      · have : (key, d) ≠ (k, e) := fun h => hk (by injection h)
        unfold sampleAt
        rw [List.find?_append, List.find?_singleton, if_neg]
        · simp only [Option.or_none]; tauto
        · simp only [decide_eq_true_eq]
          rintro ⟨h, _⟩; exact hk h.symm

/-! ### the property -/

omit [Field K] [IsStrictOrderedRing K] in
theorem sorted_unique {l : List (K × GridData K)} (h : Sorted l) {k : K} {d e : GridData K} (h1 : (k, d) ∈ l) (h2 : (k, e) ∈ l) :
    d = e := by
  induction l with
  | nil => simp at h1
  | cons a l ih =>
    unfold Sorted at h
    rw [List.pairwise_cons] at h
    rcases List.mem_cons.1 h1 with h1 | h1 <;> rcases List.mem_cons.1 h2 with h2 | h2
    · rw [← h2] at h1; injection h1
    · have := h.1 _ h2; rw [← h1] at this; exact absurd this (lt_irrefl _)
    · have := h.1 _ h1; rw [← h2] at this; exact absurd this (lt_irrefl _)
    · exact ih h.2 h1 h2

omit [Field K] [IsStrictOrderedRing K] in
theorem sorted_ends {s : K × GridData K} {rest : List (K × GridData K)} (hr : rest ≠ []) (h : Sorted (s :: rest))
    {p : K × GridData K} (hp : p ∈ s :: rest) :
    (p = s ∨ s.1 < p.1) ∧ (p = rest.getLast hr ∨ p.1 < (rest.getLast hr).1) := by
  unfold Sorted at h
  rw [List.pairwise_cons] at h
  constructor
  · rcases List.mem_cons.1 hp with rfl | hp
    · exact .inl rfl
    · exact .inr (h.1 p hp)
  · rcases List.mem_cons.1 hp with rfl | hp
    · exact .inr (h.1 _ (List.getLast_mem hr))
    · have hd := List.dropLast_append_getLast hr
      rw [← hd] at hp
      rcases List.mem_append.1 hp with hp | hp
      · right
        have h2 := h.2
        rw [← hd, List.pairwise_append] at h2
        exact h2.2.2 p hp _ (by simp)
      · left; simpa using hp

/-- **C55, partial: tables.** In a table filled with any samples, of which not exactly two or three are kept,
querying a tile of the table at any temperature gives a value between two samples of the tile, and at a sampled
temperature the sample; a tile outside, or an empty table, is reported as failure. Missing: two or three
samples (`c55_few_refuted`) and samples given twice for a temperature (`c55_twice_refuted`). -/
theorem c55_table_partial {ip : List (K × K) → K → Res K} (hip : Pchip ip) (size : Size2) (l : List (K × GridData K))
    (key : K) (x y : Nat) :
    ((size.x ≤ x ∨ size.y ≤ y) → query ip (filled size l) key x y = .ok none) ∧
    ((∀ k, sampleAt size l k = none) → query ip (filled size l) key x y = .ok none) ∧
    (x < size.x → y < size.y → (filled size l).samples.length ≠ 0 → (filled size l).samples.length ≠ 2 →
      (filled size l).samples.length ≠ 3 →
      ∃ v, query ip (filled size l) key x y = .ok (some v) ∧
        (∃ k d, sampleAt size l k = some d ∧ d.val x y ≤ v) ∧ (∃ k d, sampleAt size l k = some d ∧ v ≤ d.val x y) ∧
        ∀ d, sampleAt size l key = some d → v = d.val x y) := by
  obtain ⟨i1, i2, i3⟩ := filled_inv size l
  refine ⟨?_, ?_, ?_⟩
  · intro h; unfold query; rw [i1, if_pos h]
  · intro h
    have : (filled size l).samples = [] := by
      rw [List.eq_nil_iff_forall_not_mem]
      rintro ⟨k, d⟩ hm
      rw [i3, h] at hm; simp at hm
    unfold query; rw [this]; simp
  · intro hx hy h0 h2 h3
    unfold query
    rw [i1, if_neg (by omega)]
    generalize hS : (filled size l).samples = S at *
    match S, hS with
    | [], _ => simp at h0
    | [s], _ =>
      obtain ⟨ks, ds⟩ := s
      have hm := (i3 ks ds).1 (by simp)
      refine ⟨_, rfl, ⟨ks, ds, hm, le_refl _⟩, ⟨ks, ds, hm, le_refl _⟩, ?_⟩
      intro d hd
      have := (i3 key d).2 hd
      simp at this
      rw [this.2]
    | s :: s' :: rest, _ =>
      have hends := fun p hp => sorted_ends (rest := s' :: rest) (by simp) i2 (p := p) hp
      have hlast : (s' :: rest).getLast (by simp) ∈ s :: s' :: rest := List.mem_cons_of_mem _ (List.getLast_mem _)
      simp only
      split_ifs with hk1 hk2
      · have hm := (i3 s.1 s.2).1 (by simp)
        refine ⟨_, rfl, ⟨_, _, hm, le_refl _⟩, ⟨_, _, hm, le_refl _⟩, ?_⟩
        intro d hd
        have hmd := (i3 key d).2 hd
        rcases (hends _ hmd).1 with h | h
        · rw [← h]
        · exact absurd h (not_lt.2 hk1)
      · have hm := (i3 _ _).1 hlast
        refine ⟨_, rfl, ⟨_, _, hm, le_refl _⟩, ⟨_, _, hm, le_refl _⟩, ?_⟩
        intro d hd
        have hmd := (i3 key d).2 hd
        rcases (hends _ hmd).2 with h | h
        · rw [← h]
        · exact absurd h (not_lt.2 hk2)
      · have hlen : 4 ≤ ((s :: s' :: rest).map fun p => (p.1, p.2.val x y)).length := by
          simp only [List.length_map, List.length_cons] at h2 h3 ⊢; omega
        have hsort : ((s :: s' :: rest).map fun p => (p.1, p.2.val x y)).Pairwise (fun a b => a.1 < b.1) := by
          rw [List.pairwise_map]; exact i2
        obtain ⟨v, hv, ⟨p, hp, hpv⟩, ⟨q, hq, hqv⟩⟩ := hip.between _ key hlen hsort
          ⟨_, List.mem_map_of_mem (List.mem_cons_self), (not_le.1 hk1).le⟩
          ⟨_, List.mem_map_of_mem hlast, (not_le.1 hk2).le⟩
        rw [List.mem_map] at hp hq
        obtain ⟨⟨kp, dp⟩, hp, rfl⟩ := hp
        obtain ⟨⟨kq, dq⟩, hq, rfl⟩ := hq
        refine ⟨v, by rw [hv]; rfl, ⟨kp, dp, (i3 _ _).1 hp, hpv⟩, ⟨kq, dq, (i3 _ _).1 hq, hqv⟩, ?_⟩
        intro d hd
        have hmd := (i3 key d).2 hd
        have := hip.knot _ key (d.val x y) hlen hsort (List.mem_map.2 ⟨(key, d), hmd, rfl⟩)
        rw [hv] at this
        injection this

/-- **C55 is false for two or three samples**: at every temperature strictly between the first and the last one
an exception leaves the query, and the next query of the same table follows a null pointer. -/
theorem c55_few_refuted {ip : List (K × K) → K → Res K} (hip : Pchip ip) (t : Table K) {s s' : K × GridData K}
    {rest : List (K × GridData K)} (ht : t.samples = s :: s' :: rest) (hr : rest.length ≤ 1) {key : K} {x y : Nat}
    (hx : x < t.size.x) (hy : y < t.size.y) (h1 : s.1 < key) (h2 : key < ((s' :: rest).getLast (by simp)).1) :
    query ip t key x y = .exn ∧ queryC ip t .absent key x y = (.exn, .null) ∧
    (queryC ip t (queryC ip t .absent key x y).2 key x y).1 = .ub := by
  have hip := hip.few (t.samples.map fun p => (p.1, p.2.val x y)) key (by rw [ht]; simp; omega)
  have e : queryC ip t .absent key x y = (.exn, .null) := by
    unfold queryC
    rw [if_neg (by omega), hip, ht]
    simp only
    rw [if_neg (not_le.2 h1), if_neg (not_le.2 h2)]
  refine ⟨?_, e, ?_⟩
  · unfold query
    rw [if_neg (by omega), hip, ht]
    simp only
    rw [if_neg (not_le.2 h1), if_neg (not_le.2 h2)]
    rfl
  · rw [e]
    unfold queryC
    rw [if_neg (by omega), ht]
    simp only
    rw [if_neg (not_le.2 h1), if_neg (not_le.2 h2)]

omit [Field K] [IsStrictOrderedRing K] in
/-- **C55 is false for a sample given again**: `AddSample` reports success, but the table is unchanged. -/
theorem c55_twice_refuted (t : Table K) (hs : Sorted t.samples) {key : K} {d e : GridData K} (hk : (key, d) ∈ t.samples)
    (hw : e.width = t.size.x) (hh : e.height = t.size.y) : (addSample t key e) = (t, true) := by
  have : ∀ l : List (K × GridData K), Sorted l → (key, d) ∈ l → insertSample key e l = l := by
    intro l
    induction l with
    | nil => simp
    | cons a l ih =>
      intro hs hm
      obtain ⟨k, f⟩ := a
      unfold Sorted at hs
      rw [List.pairwise_cons] at hs
      rw [insertSample]
      rcases List.mem_cons.1 hm with hm | hm
      · injection hm with h1 _
        subst h1
        rw [if_neg (lt_irrefl _), if_neg (lt_irrefl _)]
      · have := hs.1 _ hm
        rw [if_neg (not_lt.2 this.le), if_pos this, ih hs.2 hm]
  unfold addSample
  rw [if_neg (by simp [hw, hh]), this _ hs hk]

/-- **C55, blocks.** The power of a block is given for exactly its tiles, evenly, and adds up to the total. -/
theorem c55_block (ll ur : Size2) (total : K) (hx : ll.x ≤ ur.x) (hy : ll.y ≤ ur.y) :
    (∀ x y, blockQuery ll ur total x y ≠ none ↔ (ll.x ≤ x ∧ x ≤ ur.x) ∧ ll.y ≤ y ∧ y ≤ ur.y) ∧
    (∀ x y x' y' v v', blockQuery ll ur total x y = some v → blockQuery ll ur total x' y' = some v' → v = v') ∧
    ((List.range' ll.x (ur.x + 1 - ll.x)).map fun x =>
      ((List.range' ll.y (ur.y + 1 - ll.y)).map fun y => (blockQuery ll ur total x y).getD 0).sum).sum = total := by
  refine ⟨?_, ?_, ?_⟩
  · intro x y
    unfold blockQuery
    split_ifs with h
    · simp; omega
    · simp; omega
  · intro x y x' y' v v' h h'
    unfold blockQuery at h h'
    split_ifs at h h'
    injection h with h; injection h' with h'
    rw [← h, ← h']
  · have inner : ∀ x ∈ List.range' ll.x (ur.x + 1 - ll.x),
        ((List.range' ll.y (ur.y + 1 - ll.y)).map fun y => (blockQuery ll ur total x y).getD 0).sum =
        ((ur.y + 1 - ll.y : Nat) : K) * (total / (blockSize ll ur : K)) := by
      intro x hxm
      rw [List.mem_range'_1] at hxm
      rw [List.map_congr_left (g := fun _ => total / (blockSize ll ur : K))]
      · rw [List.map_const', List.length_range', List.sum_replicate, nsmul_eq_mul]
      · intro y hym
        rw [List.mem_range'_1] at hym
        unfold blockQuery
        rw [if_pos (by omega)]
        rfl
    rw [List.map_congr_left inner, List.map_const', List.length_range', List.sum_replicate, nsmul_eq_mul]
    have e : (blockSize ll ur : K) = ((ur.y + 1 - ll.y : Nat) : K) * ((ur.x + 1 - ll.x : Nat) : K) := by
      rw [← Nat.cast_mul]
      congr 1
      unfold blockSize
      congr 1 <;> omega
    have p1 : ((ur.y + 1 - ll.y : Nat) : K) ≠ 0 := Nat.cast_ne_zero.2 (by omega)
    have p2 : ((ur.x + 1 - ll.x : Nat) : K) ≠ 0 := Nat.cast_ne_zero.2 (by omega)
    rw [e]
    field_simp

/-! ### examples -/

/-- linear interpolation between neighbours -/
def linear : List (K × K) → K → K
  | [], _ => 0
  | [p], _ => p.2
  | p :: q :: l, key =>
    if key ≤ p.1 then p.2
    else if key ≤ q.1 then p.2 + (q.2 - p.2) * ((key - p.1) / (q.1 - p.1))
    else linear (q :: l) key

theorem linear_knot (pts : List (K × K)) (hs : pts.Pairwise (fun a b => a.1 < b.1)) {k v : K} (h : (k, v) ∈ pts) :
    linear pts k = v := by
  induction pts with
  | nil => simp at h
  | cons p l ih =>
    rw [List.pairwise_cons] at hs
    cases l with
    | nil => simp at h; rw [linear, ← h]
    | cons q l =>
      rw [linear]
      rcases List.mem_cons.1 h with h | h
      · rw [← h]; simp
      · have hlt := hs.1 _ h
        rw [if_neg (not_le.2 hlt)]
        split_ifs with h2
        · have : (k, v) = q := by
            rcases List.mem_cons.1 h with h | h
            · exact h
            · exact absurd ((List.pairwise_cons.1 hs.2).1 _ h) (not_lt.2 h2)
          rw [← this]
          simp only
          rw [div_self (sub_ne_zero.2 hlt.ne')]
          ring
        · exact ih hs.2 h

theorem linear_between (pts : List (K × K)) (hs : pts.Pairwise (fun a b => a.1 < b.1)) (h : pts ≠ []) (key : K) :
    (∃ p ∈ pts, p.2 ≤ linear pts key) ∧ ∃ q ∈ pts, linear pts key ≤ q.2 := by
  induction pts with
  | nil => exact absurd rfl h
  | cons p l ih =>
    cases l with
    | nil => exact ⟨⟨p, by simp, by simp [linear]⟩, p, by simp, by simp [linear]⟩
    | cons q l =>
      rw [List.pairwise_cons] at hs
      rw [linear]
      split_ifs with h1 h2
      · exact ⟨⟨p, by simp, le_refl _⟩, p, by simp, le_refl _⟩
      · have hpq := hs.1 q (by simp)
        have hd : 0 < q.1 - p.1 := by linarith
        have t0 : 0 ≤ (key - p.1) / (q.1 - p.1) := div_nonneg (by linarith [not_le.1 h1]) hd.le
        have t1 : (key - p.1) / (q.1 - p.1) ≤ 1 := by rw [div_le_one hd]; linarith
        rcases le_total p.2 q.2 with h3 | h3
        · refine ⟨⟨p, by simp, ?_⟩, q, by simp, ?_⟩ <;> nlinarith
        · refine ⟨⟨q, by simp, ?_⟩, p, by simp, ?_⟩ <;> nlinarith
      · obtain ⟨⟨a, ha, ha2⟩, b, hb, hb2⟩ := ih hs.2 (by simp)
        exact ⟨⟨a, by simp [List.mem_cons.1 ha], ha2⟩, b, by simp [List.mem_cons.1 hb], hb2⟩

/-- the contract of the interpolator can be met -/
theorem pchip_linear : Pchip (K := K) fun pts key => if pts.length < 4 then .exn else .ok (linear pts key) := by
  refine ⟨fun pts key h => by simp [h], ?_, ?_⟩
  · intro pts key h4 hs _ _
    have hne : pts ≠ [] := by rintro rfl; simp at h4
    obtain ⟨h1, h2⟩ := linear_between pts hs hne key
    exact ⟨_, by rw [if_neg (by omega)], h1, h2⟩
  · intro pts k v h4 hs hm
    rw [if_neg (by omega), linear_knot pts hs hm]

/-- hypotheses of the table theorem: four samples kept of six -/
example : (filled (K := ℚ) ⟨1, 2⟩ [(25, ⟨1, 2, fun _ _ => 1⟩), (75, ⟨1, 2, fun _ _ => 4⟩), (50, ⟨1, 2, fun _ _ => 2⟩),
    (25, ⟨1, 2, fun _ _ => 9⟩), (30, ⟨2, 2, fun _ _ => 9⟩), (60, ⟨1, 2, fun _ _ => 3⟩)]).samples.map
      (fun p => (p.1, p.2.val 0 1)) = [(25, 1), (50, 2), (60, 3), (75, 4)] := by decide +kernel

/-- hypotheses of the refutation: two samples -/
example : (filled (K := ℚ) ⟨1, 2⟩ [(25, ⟨1, 2, fun _ _ => 1⟩), (75, ⟨1, 2, fun _ _ => 4⟩)]).samples.length = 2 ∧
    (25 : ℚ) < 50 ∧ (50 : ℚ) < 75 := by refine ⟨by decide +kernel, by norm_num, by norm_num⟩

example : (blockQuery ⟨1, 1⟩ ⟨2, 3⟩ (12 : ℚ) 2 2) = some 2 ∧ blockQuery ⟨1, 1⟩ ⟨2, 3⟩ (12 : ℚ) 0 2 = none := by decide +kernel

end Ecad.GridT
