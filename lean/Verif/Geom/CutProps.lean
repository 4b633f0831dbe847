import Verif.Geom.SliceProps
/-!
C26, C53, C54.
-/
namespace Ecad.Geom

/-! ### the layer order -/

theorem mem_insertDesc (h x : Int) (l : List Int) : x ∈ insertDesc h l ↔ x = h ∨ x ∈ l := by
  induction l with
  | nil => simp [insertDesc]
  | cons y l ih =>
    simp only [insertDesc]
    split
    · simp
    · split
      · rename_i h1 h2
        subst h2
        simp
      · simp only [List.mem_cons, ih]
        tauto

theorem sorted_insertDesc (h : Int) (l : List Int) (hs : l.Pairwise (· > ·)) :
    (insertDesc h l).Pairwise (· > ·) := by
  induction l with
  | nil => simp [insertDesc]
  | cons y l ih =>
    rw [List.pairwise_cons] at hs
    simp only [insertDesc]
    split
    · rename_i h1
      rw [List.pairwise_cons]
      refine ⟨?_, List.pairwise_cons.2 hs⟩
      intro a ha
      rcases List.mem_cons.1 ha with rfl | ha
      · exact h1
      · have := hs.1 a ha; omega
    · split
      · exact List.pairwise_cons.2 hs
      · rw [List.pairwise_cons]
        refine ⟨?_, ih hs.2⟩
        intro a ha
        rcases (mem_insertDesc h a l).1 ha with rfl | ha
        · omega
        · exact hs.1 a ha

theorem foldl_insertDesc (hs : List Int) : ∀ l : List Int, l.Pairwise (· > ·) →
    (hs.foldl (fun l h => insertDesc h l) l).Pairwise (· > ·) ∧
    ∀ x, x ∈ hs.foldl (fun l h => insertDesc h l) l ↔ x ∈ hs ∨ x ∈ l := by
  induction hs with
  | nil => intro l h; exact ⟨h, by simp⟩
  | cons h hs ih =>
    intro l hl
    obtain ⟨h1, h2⟩ := ih _ (sorted_insertDesc h l hl)
    refine ⟨h1, ?_⟩
    intro x
    rw [List.foldl_cons, h2, mem_insertDesc, List.mem_cons]
    tauto

theorem order_sorted (ps : List Poly) : (layerOrder ps).Pairwise (· > ·) :=
  (foldl_insertDesc _ [] List.Pairwise.nil).1

theorem mem_order (ps : List Poly) (x : Int) : x ∈ layerOrder ps ↔ ∃ p ∈ ps, x ∈ polyHeights p := by
  unfold layerOrder
  rw [(foldl_insertDesc _ [] List.Pairwise.nil).2]
  simp

/-- position of a member of a descending list -/
theorem idxOf_get {l : List Int} {h : Int} {k : Nat} (hs : l.Pairwise (· > ·)) :
    l.idxOf? h = some k ↔ l[k]? = some h := by
  rw [List.idxOf?, List.findIdx?_eq_some_iff_getElem]
  constructor
  · rintro ⟨hk, he, -⟩
    rw [List.getElem?_eq_getElem hk]
    simpa using he
  · intro hk
    obtain ⟨hlt, he⟩ := List.getElem?_eq_some_iff.1 hk
    refine ⟨hlt, by simpa using he, ?_⟩
    intro j hj
    have := List.pairwise_iff_getElem.1 hs j k (by omega) hlt hj
    simp
    omega

theorem idxOf_none {l : List Int} {h : Int} : l.idxOf? h = none ↔ h ∉ l := by
  rw [List.idxOf?, List.findIdx?_eq_none_iff]
  constructor
  · intro hh hm
    have := hh h hm
    simp at this
  · intro hh x hx
    simp
    rintro rfl
    exact hh hx

theorem desc_lt_iff {l : List Int} (hs : l.Pairwise (· > ·)) {i j : Nat} {a b : Int}
    (ha : l[i]? = some a) (hb : l[j]? = some b) : a < b ↔ j < i := by
  obtain ⟨hi, rfl⟩ := List.getElem?_eq_some_iff.1 ha
  obtain ⟨hj, rfl⟩ := List.getElem?_eq_some_iff.1 hb
  rcases Nat.lt_trichotomy i j with h | h | h
  · have := List.pairwise_iff_getElem.1 hs i j hi hj h
    constructor <;> intro <;> omega
  · subst h; simp
  · have := List.pairwise_iff_getElem.1 hs j i hj hi h
    constructor <;> intro <;> omega

theorem desc_le_iff {l : List Int} (hs : l.Pairwise (· > ·)) {i j : Nat} {a b : Int}
    (ha : l[i]? = some a) (hb : l[j]? = some b) : a ≤ b ↔ j ≤ i := by
  have := desc_lt_iff hs hb ha
  omega

/-! ### the polygon table -/

theorem addLayers_spec (i : Nat) (n : Nat) : ∀ (s : Nat) (m : Lut) (k : Nat),
    addLayers i s n m k = if s ≤ k ∧ k < s + n then some ((m k).getD [] ++ [i]) else m k := by
  induction n with
  | zero => intro s m k; rw [if_neg (by omega)]; rfl
  | succ n ih =>
    intro s m k
    rw [addLayers, ih]
    unfold addTo
    by_cases hk : k = s
    · subst hk
      rw [if_neg (by omega), if_pos rfl, if_pos (by omega)]
    · rw [if_neg hk]
      by_cases h : s + 1 ≤ k ∧ k < s + 1 + n
      · rw [if_pos h, if_pos (by omega)]
      · rw [if_neg h, if_neg (by omega)]

/-- the polygons with index from `i0` covering height `h` downwards -/
def coverList (h : Int) : Nat → List Poly → List Nat
  | _, [] => []
  | i, p :: ps =>
    if p.range.isValid = true ∧ h ≤ p.range.high ∧ p.range.low < h then i :: coverList h (i + 1) ps
    else coverList h (i + 1) ps

theorem mem_coverList (h : Int) (ps : List Poly) : ∀ (i0 i : Nat), i ∈ coverList h i0 ps ↔
    ∃ p, i0 ≤ i ∧ ps[i - i0]? = some p ∧ p.range.isValid = true ∧ h ≤ p.range.high ∧ p.range.low < h := by
  induction ps with
  | nil => intro i0 i; simp [coverList]
  | cons p ps ih =>
    intro i0 i
    have hstep : (i ∈ coverList h (i0 + 1) ps) ↔ ∃ q, i0 < i ∧ (p :: ps)[i - i0]? = some q ∧
        q.range.isValid = true ∧ h ≤ q.range.high ∧ q.range.low < h := by
      rw [ih]
      constructor
      · rintro ⟨q, h1, h2, h3⟩
        refine ⟨q, by omega, ?_, h3⟩
        have : i - i0 = (i - (i0 + 1)) + 1 := by omega
        rw [this]; simpa using h2
      · rintro ⟨q, h1, h2, h3⟩
        refine ⟨q, by omega, ?_, h3⟩
        have : i - i0 = (i - (i0 + 1)) + 1 := by omega
        rw [this] at h2; simpa using h2
    simp only [coverList]
    split
    · rename_i hc
      rw [List.mem_cons, hstep]
      constructor
      · rintro (rfl | ⟨q, h1, h2⟩)
        · exact ⟨p, le_refl _, by simp, hc⟩
        · exact ⟨q, by omega, h2⟩
      · rintro ⟨q, h1, h2, h3⟩
        by_cases hi : i = i0
        · exact Or.inl hi
        · exact Or.inr ⟨q, by omega, h2, h3⟩
    · rename_i hc
      rw [hstep]
      constructor
      · rintro ⟨q, h1, h2⟩; exact ⟨q, by omega, h2⟩
      · rintro ⟨q, h1, h2, h3⟩
        refine ⟨q, ?_, h2, h3⟩
        rcases Nat.lt_or_ge i0 i with h | h
        · exact h
        · exfalso
          have : i - i0 = 0 := by omega
          rw [this] at h2
          simp at h2
          subst h2
          exact hc h3

theorem coverList_sorted (h : Int) (ps : List Poly) : ∀ i0, (coverList h i0 ps).Pairwise (· < ·) := by
  induction ps with
  | nil => intro i0; simp [coverList]
  | cons p ps ih =>
    intro i0
    simp only [coverList]
    split
    · rw [List.pairwise_cons]
      refine ⟨?_, ih _⟩
      intro a ha
      obtain ⟨-, h1, -⟩ := (mem_coverList h ps (i0 + 1) a).1 ha
      omega
    · exact ih _

theorem fillLut_spec {order : List Int} (hs : order.Pairwise (· > ·)) (ps : List Poly) :
    ∀ (i0 : Nat) (m m' : Lut), fillLut order i0 ps m = .ok m' →
      (∀ (k : Nat) (h : Int), order[k]? = some h → k + 1 < order.length →
        (m' k).getD [] = (m k).getD [] ++ coverList h i0 ps ∧
        (m' k = none ↔ m k = none ∧ coverList h i0 ps = [])) ∧
      ∀ k, order.length ≤ k + 1 → m' k = m k := by
  induction ps with
  | nil =>
    intro i0 m m' h
    simp [fillLut] at h
    subst h
    exact ⟨fun k h _ _ => by simp [coverList], fun k _ => rfl⟩
  | cons p ps ih =>
    intro i0 m m' h
    simp only [fillLut] at h
    by_cases hv : p.range.isValid = true
    · rw [if_pos hv] at h
      cases hh : order.idxOf? p.range.high with
      | none => rw [hh] at h; simp at h
      | some s =>
        cases hl : order.idxOf? p.range.low with
        | none => rw [hh, hl] at h; simp at h
        | some e =>
          rw [hh, hl] at h
          simp only at h
          rw [idxOf_get hs] at hh hl
          obtain ⟨h1, h2⟩ := ih _ _ _ h
          have hse : s < e := by
            rw [← desc_lt_iff hs hl hh]
            unfold Range.isValid at hv
            rw [decide_eq_true_iff] at hv
            exact hv
          have hel := (List.getElem?_eq_some_iff.1 hl).1
          refine ⟨?_, ?_⟩
          · intro k g hk hk1
            obtain ⟨q1, q2⟩ := h1 k g hk hk1
            rw [addLayers_spec] at q1 q2
            have hcov : (s ≤ k ∧ k < s + (min (order.length - 1) e - s)) ↔
                (g ≤ p.range.high ∧ p.range.low < g) := by
              rw [desc_le_iff hs hk hh, desc_lt_iff hs hl hk]
              omega
            by_cases hc : g ≤ p.range.high ∧ p.range.low < g
            · rw [if_pos (hcov.2 hc)] at q1 q2
              simp only [coverList, hv, hc, true_and, and_self, if_true]
              refine ⟨by rw [q1]; simp, ?_⟩
              rw [q2]; simp
            · rw [if_neg (fun c => hc (hcov.1 c))] at q1 q2
              simp only [coverList, hc, and_false, if_false]
              exact ⟨q1, q2⟩
          · intro k hk
            rw [h2 k hk, addLayers_spec, if_neg (by omega)]
    · rw [if_neg hv] at h
      obtain ⟨h1, h2⟩ := ih _ _ _ h
      refine ⟨?_, h2⟩
      intro k g hk hk1
      simp only [coverList, hv, false_and, if_false]
      exact h1 k g hk hk1

theorem fillLut_ok {order : List Int} (ps : List Poly)
    (hall : ∀ p ∈ ps, p.range.isValid = true → p.range.high ∈ order ∧ p.range.low ∈ order) :
    ∀ (i0 : Nat) (m : Lut), ∃ m', fillLut order i0 ps m = .ok m' := by
  induction ps with
  | nil => intro i0 m; exact ⟨m, rfl⟩
  | cons p ps ih =>
    intro i0 m
    simp only [fillLut]
    by_cases hv : p.range.isValid = true
    · rw [if_pos hv]
      obtain ⟨h1, h2⟩ := hall p (by simp) hv
      cases hh : order.idxOf? p.range.high with
      | none => exact absurd h1 (idxOf_none.1 hh)
      | some s =>
        cases hl : order.idxOf? p.range.low with
        | none => exact absurd h2 (idxOf_none.1 hl)
        | some e => exact ih (fun p hp => hall p (by simp [hp])) _ _
    · rw [if_neg hv]
      exact ih (fun p hp => hall p (by simp [hp])) _ _

theorem fillLut_mem {order : List Int} (ps : List Poly) : ∀ (i0 : Nat) (m m' : Lut),
    fillLut order i0 ps m = .ok m' →
    ∀ p ∈ ps, p.range.isValid = true → p.range.high ∈ order ∧ p.range.low ∈ order := by
  induction ps with
  | nil => intro i0 m m' _ p hp; simp at hp
  | cons q ps ih =>
    intro i0 m m' h p hp hv
    simp only [fillLut] at h
    by_cases hq : q.range.isValid = true
    · rw [if_pos hq] at h
      cases hh : order.idxOf? q.range.high with
      | none => rw [hh] at h; simp at h
      | some s =>
        cases hl : order.idxOf? q.range.low with
        | none => rw [hh, hl] at h; simp at h
        | some e =>
          rw [hh, hl] at h
          rcases List.mem_cons.1 hp with rfl | hp
          · constructor
            · by_contra hc; rw [idxOf_none.2 hc] at hh; simp at hh
            · by_contra hc; rw [idxOf_none.2 hc] at hl; simp at hl
          · exact ih _ _ _ h p hp hv
    · rw [if_neg hq] at h
      rcases List.mem_cons.1 hp with rfl | hp
      · exact absurd hv hq
      · exact ih _ _ _ h p hp hv

/-! ### after slicing -/

theorem pairs_stack (l : List Int) : ∀ (t b : Int), l.head? = some t → l.getLast? = some b →
    l.Pairwise (· > ·) → Stack (pairs l) t b ∧ (pairs l).map Range.high = l.dropLast ∧
      ∀ x ∈ pairs l, 0 < x.thick := by
  induction l with
  | nil => intro t b h; simp at h
  | cons a l ih =>
    intro t b ht hb hs
    cases l with
    | nil =>
      simp at ht hb
      subst ht; subst hb
      simp [pairs, Stack]
    | cons c l =>
      simp at ht
      subst ht
      rw [List.pairwise_cons] at hs
      obtain ⟨h1, h2, h3⟩ := ih c b rfl (by rw [List.getLast?_cons_cons] at hb; exact hb) hs.2
      simp only [pairs, Stack, true_and]
      refine ⟨h1, by simp [h2], ?_⟩
      intro x hx
      rcases List.mem_cons.1 hx with rfl | hx
      · have := hs.1 c (by simp)
        simp only [Range.thick]
        omega
      · exact h3 x hx

theorem stack_desc {l : List Range} : ∀ {t b : Int}, Stack l t b → (∀ x ∈ l, 0 < x.thick) →
    (l.map Range.high ++ [b]).Pairwise (· > ·) ∧ (∀ x ∈ l.map Range.high, x ≤ t ∧ b < x) ∧ b ≤ t := by
  induction l with
  | nil => intro t b h _; simp [Stack] at h; simp [h]
  | cons r l ih =>
    intro t b ⟨h1, h2⟩ hp
    obtain ⟨i1, i2, i3⟩ := ih h2 (fun x hx => hp x (by simp [hx]))
    have hr := hp r (by simp)
    unfold Range.thick at hr
    refine ⟨?_, ?_, by omega⟩
    · rw [List.map_cons, List.cons_append, List.pairwise_cons]
      refine ⟨?_, i1⟩
      intro a ha
      rcases List.mem_append.1 ha with ha | ha
      · have := i2 a ha; omega
      · simp at ha; omega
    · intro x hx
      rw [List.map_cons, List.mem_cons] at hx
      rcases hx with rfl | hx
      · omega
      · have := i2 x hx; omega

/-- `g` is the least old height not below `h` -/
def Floor (oldOrder : List Int) (h g : Int) : Prop := g ∈ oldOrder ∧ h ≤ g ∧ ∀ x ∈ oldOrder, h ≤ x → g ≤ x

theorem remap_spec {oldOrder : List Int} {old : Lut} (hso : oldOrder.Pairwise (· > ·)) (bot : Int)
    (hs : List Int) : ∀ (prev : Option (List Nat)) (ls : List (List Nat)),
    remap oldOrder old prev hs = .ok ls → hs.Pairwise (· > ·) → (∀ x ∈ hs, bot < x) →
    (prev = none ∧ (∀ g ∈ oldOrder, g ∈ hs ∨ g ≤ bot) ∨
      ∃ l hp j g, prev = some l ∧ old j = some l ∧ oldOrder[j]? = some g ∧ Floor oldOrder hp g ∧
        (∀ x ∈ hs, x < hp) ∧ ∀ g ∈ oldOrder, hp ≤ g ∨ g ∈ hs ∨ g ≤ bot) →
    ls.length = hs.length ∧
    ∀ (k : Nat) (h : Int), hs[k]? = some h → ∃ l j g, ls[k]? = some l ∧ old j = some l ∧
      oldOrder[j]? = some g ∧ Floor oldOrder h g := by
  induction hs with
  | nil =>
    intro prev ls h _ _ _
    simp [remap] at h
    subst h
    exact ⟨rfl, by intro k h hk; simp at hk⟩
  | cons h hs ih =>
    intro prev ls hr hsd hbot hinv
    rw [List.pairwise_cons] at hsd
    simp only [remap] at hr
    -- the entry found for `h`
    have hentry : ∀ l, remapEntry oldOrder old prev h = some l → ∃ j g, old j = some l ∧ oldOrder[j]? = some g ∧ Floor oldOrder h g := by
      intro l hl
      unfold remapEntry at hl
      cases hidx : oldOrder.idxOf? h with
      | some j =>
        rw [hidx] at hl
        rw [idxOf_get hso] at hidx
        exact ⟨j, h, hl, hidx, List.mem_of_getElem? hidx, le_refl _, fun x _ hx => hx⟩
      | none =>
        rw [hidx] at hl
        simp only at hl
        rw [idxOf_none] at hidx
        rcases hinv with ⟨h1, -⟩ | ⟨l', hp, j, g, h1, h2, h3, h4, h5, h6⟩
        · rw [h1] at hl; simp at hl
        · rw [h1] at hl
          injection hl with hl
          subst hl
          refine ⟨j, g, h2, h3, h4.1, ?_, ?_⟩
          · have := h5 h (by simp); have := h4.2.1; omega
          · intro x hx hxh
            rcases h6 x hx with h7 | h7 | h7
            · exact h4.2.2 x hx h7
            · rcases List.mem_cons.1 h7 with rfl | h7
              · exact absurd hx hidx
              · have := hsd.1 x h7; omega
            · have := hbot h (by simp); omega
    cases he : remapEntry oldOrder old prev h with
    | none => rw [he] at hr; simp at hr
    | some l =>
      rw [he] at hr
      simp only at hr
      obtain ⟨j, g, e1, e2, e3⟩ := hentry l he
      cases hrest : remap oldOrder old (some l) hs with
      | ub => rw [hrest] at hr; simp at hr
      | exn => rw [hrest] at hr; simp at hr
      | ok ls' =>
        rw [hrest] at hr
        simp at hr
        subst hr
        obtain ⟨i1, i2⟩ := ih (some l) ls' hrest hsd.2 (fun x hx => hbot x (by simp [hx]))
          (Or.inr ⟨l, h, j, g, rfl, e1, e2, e3, hsd.1, by
            intro x hx
            rcases hinv with ⟨-, h1⟩ | ⟨l', hp, j', g', -, -, -, -, h5, h6⟩
            · rcases h1 x hx with h7 | h7
              · rcases List.mem_cons.1 h7 with rfl | h7
                · exact Or.inl (le_refl _)
                · exact Or.inr (Or.inl h7)
              · exact Or.inr (Or.inr h7)
            · rcases h6 x hx with h7 | h7 | h7
              · have := h5 h (by simp)
                exact Or.inl (by omega)
              · rcases List.mem_cons.1 h7 with rfl | h7
                · exact Or.inl (le_refl _)
                · exact Or.inr (Or.inl h7)
              · exact Or.inr (Or.inr h7)⟩)
        refine ⟨by simp [i1], ?_⟩
        intro k x hk
        cases k with
        | zero =>
          simp at hk
          subst hk
          exact ⟨l, j, g, rfl, e1, e2, e3⟩
        | succ k => exact i2 k x (by simpa using hk)

/-! ### C26 -/

/-- what a finished table has to be, by heights -/
def ByHeight (ps : List Poly) (c : Cut) : Prop :=
  c.order.Pairwise (· > ·) ∧
  (∀ p ∈ ps, p.range.isValid = true → p.range.high ∈ c.order ∧ p.range.low ∈ c.order) ∧
  (∀ (k : Nat) (h : Int), c.order[k]? = some h → k + 1 < c.order.length →
    (c.lut k).getD [] = coverList h 0 ps) ∧
  ∀ k, c.order.length ≤ k + 1 → c.lut k = none

theorem build_byHeight {ratio : ℚ} {fuel : Nat} {ps : List Poly} {c : Cut}
    (h : build ratio fuel ps = some (.ok c)) : ByHeight ps c ∧ (layerOrder ps).Sublist c.order := by
  have hso := order_sorted ps
  simp only [build] at h
  cases hf : fillLut (layerOrder ps) 0 ps (fun _ => none) with
  | ub => rw [hf] at h; simp at h
  | exn => rw [hf] at h; simp at h
  | ok m =>
    rw [hf] at h
    simp only at h
    obtain ⟨f1, f2⟩ := fillLut_spec hso ps 0 _ m hf
    have hmem := fillLut_mem ps 0 _ m hf
    by_cases hr : ratio > 1
    · rw [if_pos hr] at h
      cases ho : layerOrder ps with
      | nil => rw [ho] at h; simp at h
      | cons a rest =>
        rw [ho] at h
        simp only at h
        rw [← ho] at h
        obtain ⟨b, hb⟩ : ∃ b, (layerOrder ps).getLast? = some b :=
          ⟨_, List.getLast?_eq_some_getLast (by rw [ho]; simp)⟩
        obtain ⟨s1, s2, s3⟩ := pairs_stack (layerOrder ps) a b (by rw [ho]; rfl) hb hso
        rw [Option.map_eq_some_iff] at h
        obtain ⟨l, hl, h⟩ := h
        cases hlast : l.getLast? with
        | none => rw [hlast] at h; simp at h
        | some r =>
          rw [hlast] at h
          simp only at h
          have hba : b < a := by
            by_contra hcon
            have hle : b ≤ a := (stack_desc s1 s3).2.2
            have hnil : pairs (layerOrder ps) = [] := by
              cases hp : pairs (layerOrder ps) with
              | nil => rfl
              | cons x xs =>
                exfalso
                rw [hp] at s1 s3
                have h1 := s3 x (by simp)
                have h2 := (stack_desc s1.2 (fun y hy => s3 y (by simp [hy]))).2.2
                have h3 := s1.1
                unfold Range.thick at h1
                omega
            rw [hnil] at hl
            cases fuel with
            | zero => simp [sliceAll] at hl
            | succ n => simp [sliceAll, slicePass] at hl; subst hl; simp at hlast
          obtain ⟨t1, t2, t3, t4⟩ := c27_slice_partial (by linarith) fuel _ l a b s1 hba
            (fun x hx => (s3 x hx).le) hl
          have hrb : r.low = b := by
            obtain ⟨l0, rfl⟩ : ∃ l0, l = l0 ++ [r] :=
              ⟨l.dropLast, (List.dropLast_append_getLast? r hlast).symm⟩
            rw [stack_append] at t1
            obtain ⟨m, -, -, h2⟩ := t1
            exact h2
          obtain ⟨d1, d2, -⟩ := stack_desc t1 t3
          cases hre : remap (layerOrder ps) m none (l.map Range.high) with
          | ub => rw [hre] at h; simp at h
          | exn => rw [hre] at h; simp at h
          | ok ls =>
            rw [hre] at h
            simp at h
            subst h
            have hsub : (layerOrder ps).Sublist (l.map Range.high ++ [r.low]) := by
              have e : layerOrder ps = (layerOrder ps).dropLast ++ [b] :=
                (List.dropLast_append_getLast? b hb).symm
              rw [e, ← s2, hrb]
              exact List.Sublist.append t2 (List.Sublist.refl _)
            obtain ⟨r1, r2⟩ := remap_spec hso b (l.map Range.high) none ls hre
              (List.pairwise_append.1 d1).1 (fun x hx => (d2 x hx).2)
              (Or.inl ⟨rfl, by
                intro g hg
                have := hsub.subset hg
                rw [hrb] at this
                rcases List.mem_append.1 this with h | h
                · exact Or.inl h
                · simp at h; right; omega⟩)
            rw [← ho]
            refine ⟨⟨?_, ?_, ?_, ?_⟩, hsub⟩
            · simp only; rw [hrb]; exact d1
            · intro p hp hv
              exact ⟨hsub.subset (hmem p hp hv).1, hsub.subset (hmem p hp hv).2⟩
            · intro k x hk hk1
              simp only [List.length_append, List.length_map, List.length_singleton] at hk1
              simp only at hk
              rw [List.getElem?_append_left (by rw [List.length_map]; omega)] at hk
              obtain ⟨l', j, g, e1, e2, e3, e4⟩ := r2 k x hk
              have hj1 : j + 1 < (layerOrder ps).length := by
                by_contra hcon
                have := f2 j (by omega)
                rw [this] at e2
                simp at e2
              obtain ⟨q1, -⟩ := f1 j g e3 hj1
              simp only [e1, Option.getD_some]
              rw [e2] at q1
              simp only [Option.getD_some, Option.getD_none, List.nil_append] at q1
              rw [q1]
              -- the same polygons cover `x` and `g`
              have : ∀ (qs : List Poly), (∀ p ∈ qs, p ∈ ps) → ∀ i0, coverList g i0 qs = coverList x i0 qs := by
                intro qs
                induction qs with
                | nil => intro _ i0; rfl
                | cons p qs ih =>
                  intro hq i0
                  simp only [coverList]
                  have hiff : (p.range.isValid = true ∧ g ≤ p.range.high ∧ p.range.low < g) ↔
                      (p.range.isValid = true ∧ x ≤ p.range.high ∧ p.range.low < x) := by
                    constructor
                    · rintro ⟨hv, h1, h2⟩
                      refine ⟨hv, by have := e4.2.1; omega, ?_⟩
                      by_contra hcon
                      have := e4.2.2 _ (hmem p (hq p (by simp)) hv).2 (by omega)
                      omega
                    · rintro ⟨hv, h1, h2⟩
                      exact ⟨hv, e4.2.2 _ (hmem p (hq p (by simp)) hv).1 h1, by have := e4.2.1; omega⟩
                  simp only [hiff, ih (fun p hp => hq p (by simp [hp]))]
              exact this ps (fun p hp => hp) 0
            · intro k hk
              simp only [List.length_append, List.length_map, List.length_singleton] at hk ⊢
              rw [List.getElem?_eq_none]
              rw [r1, List.length_map]
              omega
    · rw [if_neg hr] at h
      simp at h
      subst h
      refine ⟨⟨hso, hmem, ?_, ?_⟩, List.Sublist.refl _⟩
      · intro k x hk hk1
        simpa using (f1 k x hk hk1).1
      · intro k hk
        exact f2 k hk

/-- **C26.** Whenever the tables have been built, with or without slicing: the heights are strictly
descending; the layers of a valid polygon are exactly those from the one beginning at its upper
to the one ending at its lower height, at least one; invalid polygons (imprint boxes) are in no
layer; and a layer lists each of its polygons once, in ascending order. -/
theorem c26_cover {ratio : ℚ} {fuel : Nat} {ps : List Poly} {c : Cut}
    (h : build ratio fuel ps = some (.ok c)) :
    c.order.Pairwise (· > ·) ∧
    (∀ (i : Nat) (p : Poly), ps[i]? = some p → p.range.low < p.range.high →
      ∃ s e, s < e ∧ c.order[s]? = some p.range.high ∧ c.order[e]? = some p.range.low ∧
        ∀ k, (∃ l, c.lut k = some l ∧ i ∈ l) ↔ s ≤ k ∧ k < e) ∧
    (∀ (k : Nat) (l : List Nat), c.lut k = some l → l.Pairwise (· < ·) ∧
      ∀ i ∈ l, ∃ p, ps[i]? = some p ∧ p.range.low < p.range.high) := by
  obtain ⟨⟨h1, h2, h3, h4⟩, -⟩ := build_byHeight h
  have hval : ∀ p : Poly, p.range.isValid = true ↔ p.range.low < p.range.high := by
    intro p; unfold Range.isValid; rw [decide_eq_true_iff]
  refine ⟨h1, ?_, ?_⟩
  · intro i p hp hv
    obtain ⟨m1, m2⟩ := h2 p (List.mem_of_getElem? hp) ((hval p).2 hv)
    obtain ⟨s, hs⟩ := List.getElem?_of_mem m1
    obtain ⟨e, he⟩ := List.getElem?_of_mem m2
    have hse : s < e := by rw [← desc_lt_iff h1 he hs]; exact hv
    refine ⟨s, e, hse, hs, he, ?_⟩
    have hel := (List.getElem?_eq_some_iff.1 he).1
    intro k
    by_cases hk : k + 1 < c.order.length
    · obtain ⟨x, hx⟩ : ∃ x, c.order[k]? = some x :=
        ⟨_, List.getElem?_eq_getElem (show k < c.order.length by omega)⟩
      have hl := h3 k x hx hk
      have : (∃ l, c.lut k = some l ∧ i ∈ l) ↔ i ∈ coverList x 0 ps := by
        rw [← hl]
        cases c.lut k with
        | none => simp
        | some l => simp
      rw [this, mem_coverList, ← desc_le_iff h1 hx hs, ← desc_lt_iff h1 he hx]
      constructor
      · rintro ⟨q, -, hq, -, hq2, hq3⟩
        rw [Nat.sub_zero, hp] at hq
        injection hq with hq
        subst hq
        exact ⟨hq2, hq3⟩
      · rintro ⟨hq2, hq3⟩
        exact ⟨p, by omega, by simpa using hp, (hval p).2 hv, hq2, hq3⟩
    · rw [h4 k (by omega)]
      constructor
      · rintro ⟨l, hl, -⟩; simp at hl
      · rintro ⟨_, _⟩; omega
  · intro k l hl
    have hk : k + 1 < c.order.length := by
      by_contra hcon
      rw [h4 k (by omega)] at hl
      simp at hl
    obtain ⟨x, hx⟩ : ∃ x, c.order[k]? = some x :=
      ⟨_, List.getElem?_eq_getElem (show k < c.order.length by omega)⟩
    have hl' := h3 k x hx hk
    rw [hl] at hl'
    simp only [Option.getD_some] at hl'
    subst hl'
    refine ⟨coverList_sorted _ _ _, ?_⟩
    intro i hi
    obtain ⟨p, -, hp, hv, -⟩ := (mem_coverList x ps 0 i).1 hi
    exact ⟨p, by simpa using hp, (hval p).1 hv⟩

/-- The stack is cut at the bounds of every power block of a valid polygon with material; without
slicing it is cut at bounds of polygons and power blocks only. -/
theorem c26_power {ratio : ℚ} {fuel : Nat} {ps : List Poly} {c : Cut}
    (h : build ratio fuel ps = some (.ok c)) :
    (∀ p ∈ ps, p.range.low < p.range.high → p.mat = true → ∀ r, p.power = some r →
      r.high ∈ c.order ∧ r.low ∈ c.order) ∧
    (ratio ≤ 1 → ∀ x ∈ c.order, ∃ p ∈ ps, p.mat = true ∧ p.range.low < p.range.high ∧
      (x = p.range.high ∨ x = p.range.low ∨ ∃ r, p.power = some r ∧ (x = r.high ∨ x = r.low))) := by
  have hval : ∀ p : Poly, p.range.isValid = true ↔ p.range.low < p.range.high := by
    intro p; unfold Range.isValid; rw [decide_eq_true_iff]
  constructor
  · obtain ⟨-, hsub⟩ := build_byHeight h
    intro p hp hv hm r hr
    have hh : r.high ∈ polyHeights p ∧ r.low ∈ polyHeights p := by
      unfold polyHeights
      rw [hm, (hval p).2 hv, hr]
      simp
    exact ⟨hsub.subset ((mem_order ps _).2 ⟨p, hp, hh.1⟩), hsub.subset ((mem_order ps _).2 ⟨p, hp, hh.2⟩)⟩
  · intro hr x hx
    have ho : c.order = layerOrder ps := by
      simp only [build] at h
      cases hf : fillLut (layerOrder ps) 0 ps (fun _ => none) with
      | ub => rw [hf] at h; simp at h
      | exn => rw [hf] at h; simp at h
      | ok m =>
        rw [hf] at h
        simp only at h
        rw [if_neg (not_lt.2 hr)] at h
        simp at h
        rw [← h]
    rw [ho] at hx
    obtain ⟨p, hp, hx⟩ := (mem_order ps _).1 hx
    unfold polyHeights at hx
    split at hx
    · rename_i hc
      rw [Bool.and_eq_true] at hc
      refine ⟨p, hp, hc.1, (hval p).1 hc.2, ?_⟩
      split at hx
      · rename_i r hr
        simp only [List.mem_cons, List.not_mem_nil, or_false] at hx
        rcases hx with h | h | h | h
        · exact Or.inl h
        · exact Or.inr (Or.inl h)
        · exact Or.inr (Or.inr ⟨r, hr, Or.inl h⟩)
        · exact Or.inr (Or.inr ⟨r, hr, Or.inr h⟩)
      · simp only [List.mem_cons, List.not_mem_nil, or_false] at hx
        rcases hx with h | h
        · exact Or.inl h
        · exact Or.inr (Or.inl h)
    · simp at hx

/-- The tables are built for every list of polygons when no slicing is asked for, provided each
valid polygon has a material. -/
theorem c26_total {ratio : ℚ} (hr : ratio ≤ 1) (fuel : Nat) (ps : List Poly)
    (hmat : ∀ p ∈ ps, p.range.low < p.range.high → p.mat = true) :
    ∃ c, build ratio fuel ps = some (.ok c) := by
  have : ∀ p ∈ ps, p.range.isValid = true → p.range.high ∈ layerOrder ps ∧ p.range.low ∈ layerOrder ps := by
    intro p hp hv
    have hm := hmat p hp (by unfold Range.isValid at hv; rw [decide_eq_true_iff] at hv; exact hv)
    have hh : p.range.high ∈ polyHeights p ∧ p.range.low ∈ polyHeights p := by
      unfold polyHeights
      rw [hm, hv]
      cases p.power <;> simp
    exact ⟨(mem_order ps _).2 ⟨p, hp, hh.1⟩, (mem_order ps _).2 ⟨p, hp, hh.2⟩⟩
  obtain ⟨m, hm⟩ := fillLut_ok ps this 0 (fun _ => none)
  refine ⟨⟨layerOrder ps, m⟩, ?_⟩
  simp only [build, hm]
  rw [if_neg (by linarith)]

/-- A valid polygon without material at a height where nothing else ends makes the build throw. -/
theorem c26_no_material {ratio : ℚ} {fuel : Nat} {ps : List Poly} {p : Poly} (hp : p ∈ ps)
    (hv : p.range.low < p.range.high) (hmat : p.mat = false)
    (hno : ∀ q ∈ ps, p.range.high ∉ polyHeights q) (c : Cut) : build ratio fuel ps ≠ some (.ok c) := by
  intro h
  simp only [build] at h
  cases hf : fillLut (layerOrder ps) 0 ps (fun _ => none) with
  | ub => rw [hf] at h; simp at h
  | exn => rw [hf] at h; simp at h
  | ok m =>
    have := (fillLut_mem ps 0 _ m hf p hp (by unfold Range.isValid; rw [decide_eq_true_iff]; exact hv)).1
    obtain ⟨q, hq, hq'⟩ := (mem_order ps _).1 this
    exact hno q hq hq'

/-- With slicing, a gap (two neighbouring heights with no polygon between them) makes the build throw
or run for ever: it never returns a table. -/
theorem c26_gap_refuted {ratio : ℚ} (hr : 1 < ratio) (fuel : Nat) (ps : List Poly) (k : Nat) (x : Int)
    (hx : (layerOrder ps)[k]? = some x) (hk : k + 1 < (layerOrder ps).length)
    (hgap : ∀ p ∈ ps, ¬ (p.range.low < x ∧ x ≤ p.range.high)) (c : Cut) :
    build ratio fuel ps ≠ some (.ok c) := by
  intro h
  obtain ⟨⟨h1, h2, h3, h4⟩, hsub⟩ := build_byHeight h
  have hmem : x ∈ c.order := hsub.subset (List.mem_of_getElem? hx)
  obtain ⟨j, hj⟩ := List.getElem?_of_mem hmem
  -- `x` is not the last height
  obtain ⟨y, hy⟩ : ∃ y, (layerOrder ps)[k + 1]? = some y := ⟨_, List.getElem?_eq_getElem hk⟩
  have hyx : y < x := (desc_lt_iff (order_sorted ps) hy hx).2 (by omega)
  obtain ⟨i, hi⟩ := List.getElem?_of_mem (hsub.subset (List.mem_of_getElem? hy))
  have hij : j < i := (desc_lt_iff h1 hi hj).1 hyx
  have hil := (List.getElem?_eq_some_iff.1 hi).1
  have hcov := h3 j x hj (by omega)
  have hnil : coverList x 0 ps = [] := by
    cases hc : coverList x 0 ps with
    | nil => rfl
    | cons a as =>
      exfalso
      obtain ⟨p, -, hp, -, h5, h6⟩ := (mem_coverList x ps 0 a).1 (by rw [hc]; simp)
      exact hgap p (List.mem_of_getElem? hp) ⟨h6, h5⟩
  -- but the slicing branch never stores an empty list
  simp only [build] at h
  cases hf : fillLut (layerOrder ps) 0 ps (fun _ => none) with
  | ub => rw [hf] at h; simp at h
  | exn => rw [hf] at h; simp at h
  | ok m =>
    rw [hf] at h
    simp only [if_pos hr] at h
    cases ho : layerOrder ps with
    | nil => rw [ho] at hx; simp at hx
    | cons a rest =>
      rw [ho] at h
      simp only at h
      rw [← ho] at h
      rw [Option.map_eq_some_iff] at h
      obtain ⟨l, hl, h⟩ := h
      cases hlast : l.getLast? with
      | none => rw [hlast] at h; simp at h
      | some r =>
        rw [hlast] at h
        simp only at h
        cases hre : remap (layerOrder ps) m none (l.map Range.high) with
        | ub => rw [hre] at h; simp at h
        | exn => rw [hre] at h; simp at h
        | ok ls =>
          rw [hre] at h
          simp at h
          subst h
          obtain ⟨f1, -⟩ := fillLut_spec (order_sorted ps) ps 0 _ m hf
          have hmk : m k = none := (f1 k x hx hk).2.2 ⟨rfl, hnil⟩
          -- remap meets `x` and throws
          have hthrow : ∀ (hs : List Int) (prev : Option (List Nat)), x ∈ hs →
              ∀ ls, remap (layerOrder ps) m prev hs ≠ .ok ls := by
            intro hs
            induction hs with
            | nil => intro _ h; simp at h
            | cons g hs ih =>
              intro prev hg ls hls
              simp only [remap] at hls
              cases he : remapEntry (layerOrder ps) m prev g with
              | none => rw [he] at hls; simp at hls
              | some l' =>
                rw [he] at hls
                simp only at hls
                by_cases hgx : g = x
                · subst hgx
                  unfold remapEntry at he
                  rw [(idxOf_get (order_sorted ps)).2 hx] at he
                  simp only at he
                  rw [hmk] at he
                  simp at he
                · have hm' : x ∈ hs := by
                    rcases List.mem_cons.1 hg with h | h
                    · exact absurd h.symm hgx
                    · exact h
                  cases hrest : remap (layerOrder ps) m (some l') hs with
                  | ub => rw [hrest] at hls; simp at hls
                  | exn => rw [hrest] at hls; simp at hls
                  | ok ls' => exact ih (some l') hm' ls' hrest
          refine hthrow (l.map Range.high) none ?_ ls hre
          simp only at hj
          have hjl : j < (l.map Range.high).length := by
            simp only [List.length_append, List.length_singleton] at hil
            omega
          rw [List.getElem?_append_left hjl] at hj
          exact List.mem_of_getElem? hj

/-- The two queries agree with the table: the layer found for a height begins there, and elevation
and thickness of a layer are those of its bounds. -/
theorem c26_queries {ratio : ℚ} {fuel : Nat} {ps : List Poly} {c : Cut}
    (h : build ratio fuel ps = some (.ok c)) (scale : ℚ) :
    (∀ x k, c.layerByHeight x = some k ↔ c.order[k]? = some x) ∧
    ∀ (k : Nat) (a b : Int), c.order[k]? = some a → c.order[k + 1]? = some b →
      c.heightThickness scale k = some (a / scale, (a - b) / scale) := by
  obtain ⟨h1, -⟩ := c26_cover h
  refine ⟨fun x k => idxOf_get h1, ?_⟩
  intro k a b ha hb
  simp only [Cut.heightThickness, ha, hb]
  rw [sub_div]

/-- example: a board, a component on it with a power block, an imprint box -/
def exPolys : List Poly :=
  [⟨⟨20, 0⟩, true, none⟩, ⟨⟨26, 20⟩, true, some ⟨25, 24⟩⟩, ⟨⟨-5, 5⟩, false, none⟩, ⟨⟨20, 14⟩, true, none⟩]

example : layerOrder exPolys = [26, 25, 24, 20, 14, 0] := by decide
example : ∀ p ∈ exPolys, p.range.low < p.range.high → p.mat = true := by decide

/-! ### C53 -/

theorem search_aux (area : Nat → ℚ) (l : List Nat) : ∀ best : Option Nat,
    match l.foldl (better area) best with
    | none => best = none ∧ l = []
    | some r => (best = some r ∨ r ∈ l) ∧ (∀ b, best = some b → area r ≤ area b) ∧
        ∀ i ∈ l, area r ≤ area i := by
  induction l with
  | nil =>
    intro best
    cases best with
    | none => simp
    | some b => simp
  | cons x l ih =>
    intro best
    rw [List.foldl_cons]
    cases best with
    | none =>
      rw [show better area none x = some x from rfl]
      have := ih (some x)
      simp only at this ⊢
      cases hf : l.foldl (better area) (some x) with
      | none => rw [hf] at this; simp at this
      | some r =>
        rw [hf] at this
        simp only at this ⊢
        obtain ⟨h1, h2, h3⟩ := this
        refine ⟨Or.inr ?_, by simp, ?_⟩
        · rcases h1 with h1 | h1
          · injection h1 with h1; simp [h1]
          · simp [h1]
        · intro i hi
          rcases List.mem_cons.1 hi with rfl | hi
          · exact h2 _ rfl
          · exact h3 i hi
    | some b =>
      rw [show better area (some b) x = if area x < area b then some x else some b from rfl]
      by_cases hlt : area x < area b
      · rw [if_pos hlt]
        have := ih (some x)
        cases hf : l.foldl (better area) (some x) with
        | none => rw [hf] at this; simp at this
        | some r =>
          rw [hf] at this
          simp only at this ⊢
          obtain ⟨h1, h2, h3⟩ := this
          have hrx := h2 x rfl
          refine ⟨Or.inr ?_, ?_, ?_⟩
          · rcases h1 with h1 | h1
            · injection h1 with h1; simp [h1]
            · simp [h1]
          · intro b' hb'; injection hb' with hb'; subst hb'; linarith
          · intro i hi
            rcases List.mem_cons.1 hi with rfl | hi
            · exact hrx
            · exact h3 i hi
      · rw [if_neg hlt]
        have := ih (some b)
        cases hf : l.foldl (better area) (some b) with
        | none => rw [hf] at this; simp at this
        | some r =>
          rw [hf] at this
          simp only at this ⊢
          obtain ⟨h1, h2, h3⟩ := this
          have hrb := h2 b rfl
          refine ⟨?_, ?_, ?_⟩
          · rcases h1 with h1 | h1
            · exact Or.inl h1
            · exact Or.inr (by simp [h1])
          · intro b' hb'; injection hb' with hb'; subst hb'; exact hrb
          · intro i hi
            rcases List.mem_cons.1 hi with rfl | hi
            · push Not at hlt; linarith
            · exact h3 i hi

/-- **C53.** Let `layer` be the polygons of a layer and `results` those of them whose bounding box
meets the point, in whatever order; a polygon containing the point has such a box.  The search
returns a polygon of the layer containing the point of least area, and nothing exactly if none
contains it. -/
theorem c53_search (contains inBox : Nat → Bool) (area : Nat → ℚ) (layer results : List Nat)
    (hbox : ∀ i ∈ layer, contains i = true → inBox i = true)
    (hres : ∀ i, i ∈ results ↔ i ∈ layer ∧ inBox i = true) :
    (∀ r, searchPolygon contains area results = some r →
      r ∈ layer ∧ contains r = true ∧ ∀ i ∈ layer, contains i = true → area r ≤ area i) ∧
    (searchPolygon contains area results = none ↔ ∀ i ∈ layer, contains i = false) := by
  have key := search_aux area (results.filter contains) none
  have hmem : ∀ i, i ∈ results.filter contains ↔ i ∈ layer ∧ contains i = true := by
    intro i
    rw [List.mem_filter, hres]
    constructor
    · rintro ⟨⟨h1, _⟩, h2⟩; exact ⟨h1, h2⟩
    · rintro ⟨h1, h2⟩; exact ⟨⟨h1, hbox i h1 h2⟩, h2⟩
  unfold searchPolygon
  refine ⟨?_, ?_⟩
  · intro r hr
    rw [hr] at key
    simp only at key
    obtain ⟨h1, -, h3⟩ := key
    rcases h1 with h1 | h1
    · simp at h1
    · have := (hmem r).1 h1
      exact ⟨this.1, this.2, fun i hi hc => h3 i ((hmem i).2 ⟨hi, hc⟩)⟩
  · constructor
    · intro hn i hi
      rw [hn] at key
      simp only at key
      cases hc : contains i with
      | false => rfl
      | true =>
        have := (hmem i).2 ⟨hi, hc⟩
        rw [key.2] at this
        simp at this
    · intro hall
      have : results.filter contains = [] := by
        rw [List.filter_eq_nil_iff]
        intro i hi
        rw [hall i ((hres i).1 hi).1]
        simp
      rw [this]
      rfl

example : searchPolygon (fun i => i ≠ 2) (fun i => if i = 4 then 3 else 10 + i) [1, 2, 4, 5] = some 4 := by
  decide +kernel

/-! ### C54 -/

/-- **C54.** For every valid thickness, position and relative thickness between zero and one the range
of the power block lies inside the range of its polygon. -/
theorem c54_power_range (scale elev thick pos pt : ℚ) (hs : 0 < scale) (ht : 0 ≤ thick)
    (hp0 : 0 ≤ pos) (hp1 : pos ≤ 1) (h0 : 0 ≤ pt) :
    (layerRange scale elev thick).low ≤ (powerRange scale elev thick pos pt).low ∧
    (powerRange scale elev thick pos pt).low ≤ (powerRange scale elev thick pos pt).high ∧
    (powerRange scale elev thick pos pt).high ≤ (layerRange scale elev thick).high := by
  have hm1 : min (thick * pt) (thick - elev + (elev - thick * pos)) ≤ thick - thick * pos := by
    refine (min_le_right _ _).trans (by linarith)
  have hm2 : 0 ≤ min (thick * pt) (thick - elev + (elev - thick * pos)) := by
    apply le_min
    · positivity
    · nlinarith
  have hm3 : 0 ≤ thick * pos := by positivity
  simp only [powerRange, layerRange]
  refine ⟨round_mono ?_, round_mono ?_, round_mono ?_⟩
  · apply mul_le_mul_of_nonneg_right _ hs.le
    linarith
  · apply mul_le_mul_of_nonneg_right _ hs.le
    linarith
  · apply mul_le_mul_of_nonneg_right _ hs.le
    linarith

/-- The range of the power block may be empty although that of the polygon is not: a polygon of two
height units with the default position and thickness. -/
theorem c54_collapse : (layerRange 1 2 2).isValid = true ∧
    (powerRange 1 2 2 (1 / 10) (1 / 10)).isValid = false := by decide +kernel

example : (0 : ℚ) < 1000 ∧ (0 : ℚ) ≤ 1 / 10 ∧ layerRange 1000 5 2 = ⟨5000, 3000⟩ ∧
    powerRange 1000 5 2 (1 / 10) (1 / 10) = ⟨4800, 4600⟩ := by decide +kernel

end Ecad.Geom
