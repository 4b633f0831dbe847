import Verif.Thermal.ReduceModel
import Verif.Thermal.TableProps
/-!
C35: halving the resolution.
-/
namespace Ecad.Reduce
open Ecad.GridT

variable {K : Type} [Field K] [LinearOrder K] [IsStrictOrderedRing K]

/-! ### specification -/

/-- the values a cell of the reduced map stands for: those of the up to four cells (2i..2i+1, 2j..2j+1) -/
def group (d : GridData K) (i j : Nat) : List K :=
  ((allCells ⟨d.width, d.height⟩).filter fun c => decide (2 * i ≤ c.1 ∧ c.1 ≤ 2 * i + 1 ∧ 2 * j ≤ c.2 ∧ c.2 ≤ 2 * j + 1)).map
    fun c => d.val c.1 c.2

/-- the sum over a map -/
def total (d : GridData K) : K := ((allCells ⟨d.width, d.height⟩).map fun c => d.val c.1 c.2).sum

/-- cell of the reduced map -/
def InReduced (d : GridData K) (i j : Nat) : Prop := 2 * i < d.width ∧ 2 * j < d.height

/-! ### lemmas -/

omit [LinearOrder K] [IsStrictOrderedRing K] in
theorem gather_fold (g : K → K → K) (v : Nat × Nat → K) (l : List (Nat × Nat)) : ∀ (r : Nat → Nat → K) (i j : Nat),
    (l.foldl (fun r c => set2 r (halfFloor ⟨c.1, c.2⟩).x (halfFloor ⟨c.1, c.2⟩).y
      (g (r (halfFloor ⟨c.1, c.2⟩).x (halfFloor ⟨c.1, c.2⟩).y) (v c))) r) i j =
    ((l.filter fun c => decide (2 * i ≤ c.1 ∧ c.1 ≤ 2 * i + 1 ∧ 2 * j ≤ c.2 ∧ c.2 ≤ 2 * j + 1)).map v).foldl g (r i j) := by
  induction l with
  | nil => intro r i j; rfl
  | cons c l ih =>
    intro r i j
    rw [List.foldl_cons, ih, List.filter_cons]
    unfold set2 halfFloor
    by_cases h : 2 * i ≤ c.1 ∧ c.1 ≤ 2 * i + 1 ∧ 2 * j ≤ c.2 ∧ c.2 ≤ 2 * j + 1
    · have h1 : i = c.1 / 2 ∧ j = c.2 / 2 := by omega
      rw [if_pos (decide_eq_true h), List.map_cons, List.foldl_cons]
      simp only
      rw [if_pos h1, ← h1.1, ← h1.2]
    · have h1 : ¬ (i = c.1 / 2 ∧ j = c.2 / 2) := by omega
      simp only
      rw [if_neg h1, if_neg (by simpa using h)]

omit [LinearOrder K] [IsStrictOrderedRing K] in
theorem gather_eq (g : K → K → K) (d : GridData K) (i j : Nat) : gather g d i j = (group d i j).foldl g 0 :=
  gather_fold g (fun c => d.val c.1 c.2) _ _ i j

omit [LinearOrder K] [IsStrictOrderedRing K] in
theorem gather_sum (d : GridData K) (i j : Nat) : gather (· + ·) d i j = (group d i j).sum := by
  rw [gather_eq, List.sum_eq_foldl]

omit [LinearOrder K] [IsStrictOrderedRing K] in
/-- summing group by group -/
theorem sum_groups {A B : Type} [DecidableEq B] (f : A → B) (v : A → K) (ks : List B) (hk : ks.Nodup) (l : List A)
    (h : ∀ a ∈ l, f a ∈ ks) :
    (ks.map fun k => ((l.filter fun a => decide (f a = k)).map v).sum).sum = (l.map v).sum := by
  induction l with
  | nil => simp
  | cons a l ih =>
    have ih := ih fun b hb => h b (by simp [hb])
    have ha := h a (by simp)
    rw [List.map_cons, List.sum_cons, ← ih]
    clear ih h
    have : ∀ ks : List B, ks.Nodup →
        (ks.map fun k => (((a :: l).filter fun a => decide (f a = k)).map v).sum).sum =
        (if f a ∈ ks then v a else 0) + (ks.map fun k => ((l.filter fun a => decide (f a = k)).map v).sum).sum := by
      intro ks hk
      induction ks with
      | nil => simp
      | cons k ks ih =>
        rw [List.nodup_cons] at hk
        rw [List.map_cons, List.sum_cons, ih hk.2, List.map_cons, List.sum_cons, List.filter_cons]
        by_cases hfk : f a = k
        · subst hfk
          rw [if_pos (by simp), List.map_cons, List.sum_cons, if_neg hk.1, if_pos (by simp)]
          ring
        · rw [if_neg (by simpa using hfk)]
          have : (f a ∈ k :: ks) ↔ f a ∈ ks := by simp [hfk]
          by_cases hm : f a ∈ ks
          · rw [if_pos hm, if_pos (this.2 hm)]; ring
          · rw [if_neg hm, if_neg (by rw [this]; exact hm)]; ring
    rw [this ks hk, if_pos ha]

omit [LinearOrder K] [IsStrictOrderedRing K] in
theorem group_eq (d : GridData K) (i j : Nat) : group d i j =
    ((allCells ⟨d.width, d.height⟩).filter fun c => decide ((c.1 / 2, c.2 / 2) = (i, j))).map fun c => d.val c.1 c.2 := by
  unfold group
  congr 1
  apply List.filter_congr
  intro c _
  rw [decide_eq_decide, Prod.mk.injEq]
  omega

omit [LinearOrder K] [IsStrictOrderedRing K] in
theorem sum_reduced (d : GridData K) :
    ((allCells (halfCeil ⟨d.width, d.height⟩)).map fun c => (group d c.1 c.2).sum).sum = total d := by
  unfold total
  have := sum_groups (fun c : Nat × Nat => (c.1 / 2, c.2 / 2)) (fun c : Nat × Nat => d.val c.1 c.2)
    (allCells (halfCeil ⟨d.width, d.height⟩)) (nodup_allCells _) (allCells ⟨d.width, d.height⟩) (by
      intro c hc
      rw [mem_allCells] at hc ⊢
      unfold halfCeil
      simp only at hc ⊢
      omega)
  rw [← this]
  congr 1
  apply List.map_congr_left
  intro c _
  rw [group_eq]

omit [LinearOrder K] [IsStrictOrderedRing K] in
theorem group_ne_nil (d : GridData K) (i j : Nat) (h : InReduced d i j) : group d i j ≠ [] := by
  apply List.ne_nil_of_mem (a := d.val (2 * i) (2 * j))
  unfold group
  rw [List.mem_map]
  refine ⟨(2 * i, 2 * j), ?_, rfl⟩
  rw [List.mem_filter, mem_allCells]
  exact ⟨h, by simp⟩

omit [LinearOrder K] [IsStrictOrderedRing K] in
theorem counts_eq (d : GridData K) (i j : Nat) (h : InReduced d i j) :
    counts d (Layout.num (halfCeil ⟨d.width, d.height⟩) i j .byColumn) = (group d i j).length := by
  unfold counts group
  rw [List.length_map]
  congr 1
  apply List.filter_congr
  intro c hc
  rw [mem_allCells] at hc
  simp only at hc
  rw [decide_eq_decide]
  unfold Layout.num halfCeil halfFloor
  simp only
  unfold InReduced at h
  have h1 : c.2 / 2 < (d.height + 1) / 2 := by omega
  have h2 : j < (d.height + 1) / 2 := by omega
  constructor
  · intro he
    have hx : c.1 / 2 = i := by
      have : (c.1 / 2 * ((d.height + 1) / 2) + c.2 / 2) / ((d.height + 1) / 2) =
          (i * ((d.height + 1) / 2) + j) / ((d.height + 1) / 2) := by rw [he]
      rw [Nat.mul_comm, Nat.mul_add_div (by omega), Nat.div_eq_of_lt h1, Nat.mul_comm i, Nat.mul_add_div (by omega),
        Nat.div_eq_of_lt h2] at this
      simpa using this
    subst hx
    have : c.2 / 2 = j := by omega
    omega
  · intro he
    have hx : c.1 / 2 = i := by omega
    have hy : c.2 / 2 = j := by omega
    rw [hx, hy]

theorem exists_le_mean (l : List K) (h : l ≠ []) : (∃ a ∈ l, a ≤ l.sum / l.length) ∧ ∃ b ∈ l, l.sum / l.length ≤ b := by
  have hpos : (0 : K) < l.length := by
    have : 0 < l.length := List.length_pos_iff.2 h
    exact_mod_cast this
  have aux : ∀ (c : K) (l : List K), l ≠ [] → (∀ a ∈ l, c < a) → c * l.length < l.sum := by
    intro c l
    induction l with
    | nil => intro h; exact absurd rfl h
    | cons a l ih =>
      intro _ hl
      have ha := hl a (by simp)
      by_cases hn : l = []
      · subst hn; simpa using ha
      · have := ih hn fun b hb => hl b (by simp [hb])
        rw [List.sum_cons, List.length_cons]
        push_cast
        linarith
  have aux2 : ∀ (c : K) (l : List K), l ≠ [] → (∀ a ∈ l, a < c) → l.sum < c * l.length := by
    intro c l
    induction l with
    | nil => intro h; exact absurd rfl h
    | cons a l ih =>
      intro _ hl
      have ha := hl a (by simp)
      by_cases hn : l = []
      · subst hn; simpa using ha
      · have := ih hn fun b hb => hl b (by simp [hb])
        rw [List.sum_cons, List.length_cons]
        push_cast
        linarith
  constructor
  · by_contra hc
    push Not at hc
    have := aux _ l h hc
    rw [div_mul_cancel₀ _ (ne_of_gt hpos)] at this
    exact lt_irrefl _ this
  · by_contra hc
    push Not at hc
    have := aux2 _ l h hc
    rw [div_mul_cancel₀ _ (ne_of_gt hpos)] at this
    exact lt_irrefl _ this

omit [Field K] [IsStrictOrderedRing K] in
theorem foldl_max (l : List K) (r : K) : r ≤ l.foldl max r ∧ (∀ v ∈ l, v ≤ l.foldl max r) ∧
    (l.foldl max r = r ∨ l.foldl max r ∈ l) := by
  induction l generalizing r with
  | nil => simp
  | cons a l ih =>
    obtain ⟨h1, h2, h3⟩ := ih (max r a)
    rw [List.foldl_cons]
    refine ⟨le_trans (le_max_left _ _) h1, ?_, ?_⟩
    · intro v hv
      rcases List.mem_cons.1 hv with rfl | hv
      · exact le_trans (le_max_right _ _) h1
      · exact h2 v hv
    · rcases h3 with h3 | h3
      · rw [h3]
        rcases le_total r a with h | h
        · right; rw [max_eq_right h]; simp
        · left; exact max_eq_left h
      · right; simp [h3]

omit [Field K] [IsStrictOrderedRing K] in
theorem foldl_min (l : List K) (r : K) : l.foldl min r ≤ r ∧ (∀ v ∈ l, l.foldl min r ≤ v) ∧
    (l.foldl min r = r ∨ l.foldl min r ∈ l) := by
  induction l generalizing r with
  | nil => simp
  | cons a l ih =>
    obtain ⟨h1, h2, h3⟩ := ih (min r a)
    rw [List.foldl_cons]
    refine ⟨le_trans h1 (min_le_left _ _), ?_, ?_⟩
    · intro v hv
      rcases List.mem_cons.1 hv with rfl | hv
      · exact le_trans h1 (min_le_right _ _)
      · exact h2 v hv
    · rcases h3 with h3 | h3
      · rw [h3]
        rcases le_total r a with h | h
        · left; exact min_eq_left h
        · right; rw [min_eq_right h]; simp
      · right; simp [h3]

/-! ### C35 -/

omit [IsStrictOrderedRing K] in
/-- **C35**, powers: for every map of every size, odd ones included, the reduced map has half the size, rounded
up, each of its values is the sum of the values it replaces, and the total is unchanged. -/
theorem c35_power (lay : Layout) (d : GridData K) :
    (reduceData lay .accumulation d).width = (d.width + 1) / 2 ∧ (reduceData lay .accumulation d).height = (d.height + 1) / 2 ∧
    (∀ i j, (reduceData lay .accumulation d).val i j = (group d i j).sum) ∧
    total (reduceData lay .accumulation d) = total d := by
  refine ⟨rfl, rfl, gather_sum d, ?_⟩
  rw [← sum_reduced d]
  unfold total reduceData
  simp only
  congr 1
  apply List.map_congr_left
  intro c _
  exact gather_sum d c.1 c.2

/-- **C35**, averages: if the library numbers cells column by column, each value of the reduced map is the mean
of the values it replaces, so not below the least and not above the greatest of them. -/
theorem c35_average_partial (d : GridData K) (i j : Nat) (h : InReduced d i j) :
    (reduceData .byColumn .average d).val i j = (group d i j).sum / (group d i j).length ∧
    (∃ a ∈ group d i j, a ≤ (reduceData .byColumn .average d).val i j) ∧
    ∃ b ∈ group d i j, (reduceData .byColumn .average d).val i j ≤ b := by
  have : (reduceData .byColumn .average d).val i j = (group d i j).sum / (group d i j).length := by
    unfold reduceData
    simp only
    rw [gather_sum, counts_eq d i j h]
  rw [this]
  exact ⟨rfl, exists_le_mean _ (group_ne_nil d i j h)⟩

/-- The numbering matters: with cells numbered row by row, the average of a map of ones of 3 by 4 cells has the
value two. -/
theorem c35_numbering_refuted :
    (reduceData .byRow .average (⟨3, 4, fun _ _ => 1⟩ : GridData ℚ)).val 0 1 = 2 ∧
    InReduced (⟨3, 4, fun _ _ => 1⟩ : GridData ℚ) 0 1 := by
  refine ⟨by decide +kernel, by unfold InReduced; decide⟩

/-- **C35**, greatest and least values, partial: the reduced value is the greatest (least) of those replaced if
one of them is not negative (not positive).  Missing: the other maps, see `c35_extremes_refuted`. -/
theorem c35_extremes_partial (lay : Layout) (d : GridData K) (i j : Nat) :
    ((∃ v ∈ group d i j, 0 ≤ v) → (reduceData lay .maximum d).val i j ∈ group d i j ∧
      ∀ v ∈ group d i j, v ≤ (reduceData lay .maximum d).val i j) ∧
    ((∃ v ∈ group d i j, v ≤ 0) → (reduceData lay .minimum d).val i j ∈ group d i j ∧
      ∀ v ∈ group d i j, (reduceData lay .minimum d).val i j ≤ v) := by
  have e1 : (reduceData lay .maximum d).val i j = (group d i j).foldl max 0 := gather_eq _ d i j
  have e2 : (reduceData lay .minimum d).val i j = (group d i j).foldl min 0 := gather_eq _ d i j
  rw [e1, e2]
  refine ⟨?_, ?_⟩
  · rintro ⟨v, hv, h0⟩
    obtain ⟨h1, h2, h3⟩ := foldl_max (group d i j) 0
    refine ⟨?_, h2⟩
    rcases h3 with h3 | h3
    · have := h2 v hv
      rw [h3] at this ⊢
      rw [le_antisymm h0 this]; exact hv
    · exact h3
  · rintro ⟨v, hv, h0⟩
    obtain ⟨h1, h2, h3⟩ := foldl_min (group d i j) 0
    refine ⟨?_, h2⟩
    rcases h3 with h3 | h3
    · have := h2 v hv
      rw [h3] at this ⊢
      rw [le_antisymm this h0]; exact hv
    · exact h3

/-- **C35 is false of the code for greatest and least values**: whenever all values replaced are negative the
"maximum" is zero, above all of them; whenever all are positive the "minimum" is zero, below all of them. -/
theorem c35_extremes_refuted (lay : Layout) (d : GridData K) (i j : Nat) :
    ((∀ v ∈ group d i j, v < 0) → ∀ v ∈ group d i j, v < (reduceData lay .maximum d).val i j) ∧
    ((∀ v ∈ group d i j, 0 < v) → ∀ v ∈ group d i j, (reduceData lay .minimum d).val i j < v) := by
  have e1 : (reduceData lay .maximum d).val i j = (group d i j).foldl max 0 := gather_eq _ d i j
  have e2 : (reduceData lay .minimum d).val i j = (group d i j).foldl min 0 := gather_eq _ d i j
  rw [e1, e2]
  exact ⟨fun h v hv => lt_of_lt_of_le (h v hv) (foldl_max (group d i j) 0).1,
    fun h v hv => lt_of_le_of_lt (foldl_min (group d i j) 0).1 (h v hv)⟩

/-! tables -/

omit [Field K] [IsStrictOrderedRing K] in
theorem insert_last (key : K) (d : GridData K) (l : List (K × GridData K)) (h : ∀ p ∈ l, p.1 < key) :
    insertSample key d l = l ++ [(key, d)] := by
  induction l with
  | nil => rfl
  | cons a l ih =>
    obtain ⟨k, e⟩ := a
    have hk : k < key := h (k, e) (by simp)
    rw [insertSample, if_neg (not_lt.2 (le_of_lt hk)), if_pos hk, ih fun p hp => h p (by simp [hp])]
    rfl

omit [IsStrictOrderedRing K] in
theorem table_fold (lay : Layout) (m : Method) (size : Size2) (l : List (K × GridData K)) :
    ∀ (acc : List (K × GridData K)), (acc ++ l).Pairwise (fun a b => a.1 < b.1) →
    (∀ s ∈ l, s.2.width = size.x ∧ s.2.height = size.y) →
    l.foldl (fun r s => (addSample r s.1 (reduceData lay m s.2)).1) ⟨halfCeil size, acc⟩ =
      ⟨halfCeil size, acc ++ l.map fun s => (s.1, reduceData lay m s.2)⟩ := by
  induction l with
  | nil => intro acc _ _; simp
  | cons s l ih =>
    intro acc hs hd
    obtain ⟨h1, h2⟩ := hd s (by simp)
    have hlt : ∀ p ∈ acc, p.1 < s.1 := by
      intro p hp
      rw [List.pairwise_append] at hs
      exact hs.2.2 p hp s (by simp)
    have hadd : (addSample (⟨halfCeil size, acc⟩ : Table K) s.1 (reduceData lay m s.2)).1 =
        ⟨halfCeil size, acc ++ [(s.1, reduceData lay m s.2)]⟩ := by
      unfold addSample
      rw [if_neg]
      · simp only
        rw [insert_last _ _ _ hlt]
      · unfold reduceData halfCeil
        simp only
        rw [h1, h2]
        simp
    rw [List.foldl_cons, hadd, ih]
    · simp
    · rw [List.pairwise_append] at hs ⊢
      obtain ⟨p1, p2, p3⟩ := hs
      rw [List.pairwise_cons] at p2
      refine ⟨?_, p2.2, ?_⟩
      · rw [List.pairwise_append]
        refine ⟨p1, by simp, ?_⟩
        intro a ha b hb
        simp at hb; subst hb
        exact hlt a ha
      · intro a ha b hb
        rcases List.mem_append.1 ha with ha | ha
        · exact p3 a ha b (by simp [hb])
        · simp at ha; subst ha
          exact p2.1 b hb
    · intro t ht; exact hd t (by simp [ht])

omit [IsStrictOrderedRing K] in
theorem filled_sizes (size : Size2) (l : List (K × GridData K)) :
    ∀ s ∈ (filled size l).samples, s.2.width = size.x ∧ s.2.height = size.y := by
  intro s hs
  have := ((filled_inv size l).2.2 s.1 s.2).1 hs
  unfold sampleAt at this
  rw [Option.map_eq_some_iff] at this
  obtain ⟨t, ht, he⟩ := this
  have := List.find?_some ht
  simp only [decide_eq_true_eq] at this
  rw [← he]
  exact this.2

omit [IsStrictOrderedRing K] in
/-- **C35**, tables: for every table filled with samples the reduced one has half the size, rounded up, the same
keys, and for each key the reduced map; with accumulation the total for each key is unchanged. -/
theorem c35_table (lay : Layout) (m : Method) (size : Size2) (l : List (K × GridData K)) :
    (reduceTable lay m (filled size l)).size = halfCeil size ∧
    (reduceTable lay m (filled size l)).samples = (filled size l).samples.map (fun s => (s.1, reduceData lay m s.2)) ∧
    (reduceTable lay .accumulation (filled size l)).samples.map (fun s => (s.1, total s.2)) =
      (filled size l).samples.map fun s => (s.1, total s.2) := by
  have h1 := (filled_inv size l).1
  have h2 := (filled_inv size l).2.1
  have key : ∀ m, reduceTable lay m (filled size l) =
      ⟨halfCeil size, (filled size l).samples.map fun s => (s.1, reduceData lay m s.2)⟩ := by
    intro m
    unfold reduceTable
    rw [h1, table_fold lay m size _ [] (by rw [List.nil_append]; exact h2) (filled_sizes size l)]
    simp
  refine ⟨by rw [key], by rw [key], ?_⟩
  rw [key]
  simp only [List.map_map]
  apply List.map_congr_left
  intro s _
  show (s.1, total (reduceData lay .accumulation s.2)) = _
  rw [(c35_power lay s.2).2.2.2]

/-! chip models -/

/-- the data behind a pointer -/
def Ptr.data (p : Ptr K) : Option (GridData K) := p.map Prod.snd

omit [IsStrictOrderedRing K] in
theorem densities_spec (lay : Layout) (ds : List (String × Ptr K)) :
    ∀ (map : List (Option Nat × Ptr K)) (fresh : Nat), UMap.find? map none = some none →
    (∀ (a : Nat) (d : GridData K) (q : Ptr K) (name : String), (name, some (a, d)) ∈ ds → UMap.find? map (some a) = some q →
      Ptr.data q = some (reduceData lay .average d)) →
    (∀ (a : Nat) (d d' : GridData K) (n n' : String), (n, some (a, d)) ∈ ds → (n', some (a, d')) ∈ ds → d = d') →
    (reduceDensities lay map fresh ds).map (fun p => (p.1, Ptr.data p.2)) =
      ds.map fun p => (p.1, (Ptr.data p.2).map (reduceData lay .average)) := by
  induction ds with
  | nil => intro map fresh _ _ _; rfl
  | cons p ds ih =>
    intro map fresh h0 hm hc
    obtain ⟨name, p⟩ := p
    have hm' : ∀ (a : Nat) (d : GridData K) (q : Ptr K) (name : String), (name, some (a, d)) ∈ ds →
        UMap.find? map (some a) = some q → Ptr.data q = some (reduceData lay .average d) :=
      fun a d q n hmem => hm a d q n (by simp [hmem])
    have hc' : ∀ (a : Nat) (d d' : GridData K) (n n' : String), (n, some (a, d)) ∈ ds → (n', some (a, d')) ∈ ds → d = d' :=
      fun a d d' n n' h1 h2 => hc a d d' n n' (by simp [h1]) (by simp [h2])
    cases p with
    | none =>
      have h0' : UMap.find? map (Option.map Prod.fst (none : Ptr K)) = some none := h0
      unfold reduceDensities
      simp only [h0', List.map_cons]
      rw [ih map fresh h0 hm' hc']
      rfl
    | some ad =>
      obtain ⟨a, d⟩ := ad
      unfold reduceDensities
      cases hf : UMap.find? map (some a) with
      | some q =>
        simp only [Option.map_some, hf, List.map_cons]
        rw [ih map fresh h0 hm' hc', hm a d q name (by simp) hf]
        rfl
      | none =>
        simp only [Option.map_some, hf, List.map_cons]
        rw [ih _ (fresh + 1) ?_ ?_ hc']
        · rfl
        · rw [UMap.find?_emplace', if_neg (by simp)]
          exact h0
        · intro a' d' q n hmem hq
          rw [UMap.find?_emplace'] at hq
          by_cases ha : (some a' : Option Nat) = some a ∧ UMap.find? map (some a) = none
          · rw [if_pos ha] at hq
            injection hq with hq
            injection ha.1 with ha1
            subst hq ha1
            rw [hc a' d' d n name (by simp [hmem]) (by simp)]
            rfl
          · rw [if_neg ha] at hq
            exact hm' a' d' q n hmem hq

omit [IsStrictOrderedRing K] in
/-- **C35**, chip models: reduction is refused exactly if there is a single row or column of tiles; else the tiles
are halved rounding up and the resolution doubled, so that the tiles still cover the chip; for each key the
power table keeps its total; each density is averaged, a missing one stays missing.  (Pointers to the same
address hold the same data.) -/
theorem c35_chip (lay : Layout) (fresh : Nat) (c : Chip K) (size : Size2) (l : List (K × GridData K))
    (hp : c.powers = some (filled size l))
    (hc : ∀ (a : Nat) (d d' : GridData K) (n n' : String), (n, some (a, d)) ∈ c.densities →
      (n', some (a, d')) ∈ c.densities → d = d') :
    (reduceChip lay fresh c = none ↔ c.tiles.x ≤ 1 ∨ c.tiles.y ≤ 1) ∧
    ∀ c', reduceChip lay fresh c = some c' →
      c'.tiles = ⟨(c.tiles.x + 1) / 2, (c.tiles.y + 1) / 2⟩ ∧ c'.resolution = 2 * c.resolution ∧
      (∃ t, c'.powers = some t ∧ t.samples.map (fun s => (s.1, total s.2)) =
        (filled size l).samples.map fun s => (s.1, total s.2)) ∧
      c'.densities.map (fun p => (p.1, Ptr.data p.2)) =
        c.densities.map fun p => (p.1, (Ptr.data p.2).map (reduceData lay .average)) := by
  unfold reduceChip
  by_cases h : c.tiles.x ≤ 1 ∨ c.tiles.y ≤ 1
  · rw [if_pos h]; simp [h]
  · rw [if_neg h]
    refine ⟨by simp [h], ?_⟩
    intro c' he
    injection he with he
    subst he
    refine ⟨rfl, mul_comm _ _, ⟨_, by rw [hp]; rfl, (c35_table lay .accumulation size l).2.2⟩, ?_⟩
    apply densities_spec
    · simp [UMap.find?_cons]
    · intro a d q n _ hq
      rw [UMap.find?_cons, if_neg (by simp), UMap.find?_nil] at hq
      simp at hq
    · exact hc

omit [IsStrictOrderedRing K] in
/-- Repeated reduction succeeds exactly if each direction has more than `2 ^ (n - 1)` tiles. -/
theorem c35_order (lay : Layout) (fresh : Nat) (n : Nat) (c : Chip K) :
    (∃ c', reduceChipBy lay fresh n c = some c') ↔ n = 0 ∨ (2 ^ (n - 1) < c.tiles.x ∧ 2 ^ (n - 1) < c.tiles.y) := by
  induction n generalizing c with
  | zero => simp [reduceChipBy]
  | succ n ih =>
    rw [reduceChipBy]
    unfold reduceChip
    by_cases h : c.tiles.x ≤ 1 ∨ c.tiles.y ≤ 1
    · rw [if_pos h]
      simp only [reduceCtorEq, exists_false, Nat.add_eq_zero_iff, one_ne_zero, and_false, false_or, false_iff,
        Nat.add_sub_cancel]
      have : 1 ≤ 2 ^ n := Nat.one_le_two_pow
      omega
    · rw [if_neg h]
      simp only
      rw [ih]
      simp only [halfCeil, Nat.add_sub_cancel, Nat.add_eq_zero_iff, one_ne_zero, and_false, false_or]
      cases n with
      | zero => simp; omega
      | succ n =>
        simp only [Nat.add_sub_cancel, Nat.add_eq_zero_iff, one_ne_zero, and_false, false_or]
        rw [pow_succ]
        omega

/-! grid models -/

/-- the block powers among power models -/
def blockTotal (ps : List (Power K)) : K := (ps.map fun p => match p with
  | .block _ _ t => t
  | .grid _ => 0).sum

omit [IsStrictOrderedRing K] in
theorem reducePowers_spec (lay : Layout) (cap : Nat) (todo : List (Power K)) : ∀ ps : List (Power K),
    reducePowers lay cap todo ps =
      if todo = [] ∨ ps.length + todo.length ≤ cap then .ok (ps ++ todo.map (reducePower lay)) else .ub := by
  induction todo with
  | nil => intro ps; simp [reducePowers]
  | cons p todo ih =>
    intro ps
    rw [reducePowers]
    by_cases h : ps.length < cap
    · rw [if_pos h, ih]
      by_cases h2 : ps.length + (todo.length + 1) ≤ cap
      · rw [if_pos (.inr (by simp; omega)), if_pos (.inr (by simpa using h2))]
        simp
      · rw [if_neg (by
          rintro (rfl | h3)
          · simp at h2; omega
          · simp at h3; omega), if_neg (by simpa using h2)]
    · rw [if_neg h, if_neg (by simp; omega)]

omit [IsStrictOrderedRing K] in
/-- **C35 is false of the code for grid models**: reducing a layer that has power models is undefined behaviour
or, with room in the vector, leaves the old models beside the reduced ones, so that block power is doubled. -/
theorem c35_grid_refuted (lay : Layout) (cap : Nat) (ps : List (Power K)) (hne : ps ≠ []) :
    reducePowers lay cap ps ps = .ub ∨
    ∃ ps', reducePowers lay cap ps ps = .ok ps' ∧ ps'.length = 2 * ps.length ∧ blockTotal ps' = 2 * blockTotal ps := by
  rw [reducePowers_spec]
  by_cases h : ps = [] ∨ ps.length + ps.length ≤ cap
  · rw [if_pos h]
    refine .inr ⟨_, rfl, by simp; omega, ?_⟩
    have : blockTotal (ps.map (reducePower lay)) = blockTotal ps := by
      unfold blockTotal
      rw [List.map_map]
      congr 1
      apply List.map_congr_left
      intro p _
      cases p <;> rfl
    unfold blockTotal at this ⊢
    rw [List.map_append, List.sum_append, this]
    ring
  · rw [if_neg h]; exact .inl rfl

/-- A block power reaching the last column of an even number of columns reaches outside the reduced grid. -/
theorem c35_block_refuted (size ll ur : Size2) (total : K) (lay : Layout) (hev : size.x % 2 = 0) (hur : ur.x + 1 = size.x) :
    ∃ ll' ur', reducePower lay (.block ll ur total) = .block ll' ur' total ∧ ¬ ur'.x < (halfCeil size).x := by
  refine ⟨_, _, rfl, ?_⟩
  unfold halfCeil
  simp only
  omega

omit [IsStrictOrderedRing K] in
/-- **C35** for grid models, partial: a model none of whose layers has a power model is reduced layer by layer,
its metal fractions being averaged.  Missing: layers with power models, see `c35_grid_refuted`. -/
theorem c35_grid_partial (lay : Layout) (size : Size2) (resX resY : K) (layers : List (RLayer K))
    (h : ∀ l ∈ layers, l.powers = []) :
    reduceGrid lay size resX resY layers = .ok (if size.x ≤ 1 ∨ size.y ≤ 1 then none else
      some (⟨(size.x + 1) / 2, (size.y + 1) / 2⟩, resX * 2, resY * 2,
        layers.map fun l => ⟨[], l.cap, l.fraction.map (reduceData lay .average)⟩)) := by
  have : reduceLayers lay layers = .ok (layers.map fun l => ⟨[], l.cap, l.fraction.map (reduceData lay .average)⟩) := by
    induction layers with
    | nil => rfl
    | cons l ls ih =>
      rw [reduceLayers, h l (by simp), reducePowers, Res.bind_ok, ih fun l hl => h l (by simp [hl])]
      rfl
  unfold reduceGrid
  split
  · rfl
  · rw [this]; rfl

/-- example: a map of three by three cells -/
example :
    let d : GridData ℚ := ⟨3, 3, fun x y => 3 * (x : ℚ) + y - 4⟩
    (allCells ⟨2, 2⟩).map (fun c => (reduceData .byColumn .accumulation d).val c.1 c.2) = [-8, -1, 5, 4] ∧
    (allCells ⟨2, 2⟩).map (fun c => (reduceData .byColumn .average d).val c.1 c.2) = [-2, -1/2, 5/2, 4] ∧
    (allCells ⟨2, 2⟩).map (fun c => (reduceData .byColumn .maximum d).val c.1 c.2) = [0, 1, 3, 4] ∧
    InReduced d 1 1 ∧ group d 0 1 = [-2, 1] := by
  refine ⟨by decide +kernel, by decide +kernel, by decide +kernel, by unfold InReduced; decide, by decide +kernel⟩

/-- example: negative values only -/
example : (∀ v ∈ group (⟨1, 2, fun _ _ => -3⟩ : GridData ℚ) 0 0, v < 0) ∧
    (reduceData .byColumn .maximum (⟨1, 2, fun _ _ => -3⟩ : GridData ℚ)).val 0 0 = 0 := by
  decide +kernel

/-- example: a chip with a table of one sample and two densities at the same address -/
example :
    let d : GridData ℚ := ⟨2, 3, fun _ _ => 1⟩
    let c : Chip ℚ := ⟨⟨2, 3⟩, 5, some (filled ⟨2, 3⟩ [(25, d)]), [("m1", some (7, d)), ("m2", some (7, d)), ("m3", none)]⟩
    ((reduceChip .byColumn 100 c).map fun c' => (c'.tiles, c'.resolution, c'.densities.map fun p => p.2.map Prod.fst)) =
      some (⟨1, 2⟩, 10, [some 100, some 100, none]) ∧
    ∀ (a : Nat) (d d' : GridData ℚ) (n n' : String), (n, some (a, d)) ∈ c.densities → (n', some (a, d')) ∈ c.densities → d = d' := by
  refine ⟨by decide +kernel, ?_⟩
  intro a d d' n n' h h'
  simp at h h'
  rcases h with ⟨_, _, rfl⟩ | ⟨_, _, rfl⟩ <;> rcases h' with ⟨_, _, rfl⟩ | ⟨_, _, rfl⟩ <;> rfl

end Ecad.Reduce
