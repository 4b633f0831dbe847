import Verif.Design.BoundaryModel
import Verif.Shape.Props
/-!
C118: the boundary of a layout is the least box around its geometry, instances included, when it is read for the
first time; it stays what it was afterwards.
-/
namespace Ecad.Bdy
open Ecad.Shp

variable {K : Type} [Field K] [LinearOrder K] [IsStrictOrderedRing K]

/-! ### specification -/

/-- a point of the outline of some geometry of a layout or of a layout instantiated in it, to any depth -/
inductive Covers (L : Lib K) (W : List (Layout K)) : Nat → K × K → Prop
  | own {i : Nat} {l : Layout K} {p : Prim K} {s : Shape K} {q : K × K} (hi : W[i]? = some l) (hp : p ∈ l.prims)
      (hl : p.layer ∈ l.layers) (hk : p.kind = .geom (some s)) (hq : q ∈ s.contour L) : Covers L W i q
  | inst {i j : Nat} {l : Layout K} {c : Inst K} {q : K × K} (hi : W[i]? = some l) (hc : c ∈ l.insts)
      (hd : c.defn = some j) (hq : Covers L W j q) : Covers L W i (c.m.act q)

/-- `b` lies in `c` -/
def Box.Le (b c : Box K) : Prop := c.lo.1 ≤ b.lo.1 ∧ c.lo.2 ≤ b.lo.2 ∧ b.hi.1 ≤ c.hi.1 ∧ b.hi.2 ≤ c.hi.2

/-- `b` is the least box around the points with `A` -/
def Least (b : Box K) (A : K × K → Prop) : Prop := (∀ p, A p → InBox b p) ∧ ∀ c, (∀ p, A p → InBox c p) → Box.Le b c

/-- the same layouts, but for what they remember as their boundary -/
def Same (W W' : List (Layout K)) : Prop := W'.map (fun l => { l with boundary := none }) = W.map fun l => { l with boundary := none }

/-- instances go from layouts of higher to layouts of lower rank, and there are no null pointers -/
def Ranked (W : List (Layout K)) (rank : Nat → Nat) : Prop :=
  ∀ (i : Nat) (l : Layout K), W[i]? = some l → ∀ c ∈ l.insts, ∃ j, c.defn = some j ∧ j < W.length ∧ rank j < rank i

/-- all shapes on layers of the layouts are valid -/
def ValidW (W : List (Layout K)) : Prop :=
  ∀ l ∈ W, ∀ p ∈ l.prims, p.layer ∈ l.layers → ∀ s, p.kind = .geom (some s) → s.isValid = true

/-- every layout has some geometry -/
def Filled (L : Lib K) (W : List (Layout K)) : Prop := ∀ i < W.length, ∃ q, Covers L W i q

/-- everything lies along the axes: no circles, instances turned by quarter turns only -/
def AxialW (L : Lib K) (W : List (Layout K)) : Prop :=
  ∀ l ∈ W, (∀ p ∈ l.prims, p.layer ∈ l.layers → ∀ s, p.kind = .geom (some s) → s.Plain ∧ s.contour L ≠ []) ∧
    ∀ c ∈ l.insts, c.m.Axial ∧ c.m.det ≠ 0

/-- `s` is the rectangle of a box around the geometry of a layout, of the least one if everything lies along the
axes -/
def Good (L : Lib K) (W : List (Layout K)) (i : Nat) (s : Shape K) : Prop :=
  ∃ b : Box K, s = .polygon b.corners ∧ (∀ p, Covers L W i p → InBox b p) ∧ (AxialW L W → Least b (Covers L W i))

/-- what is remembered is right -/
def Sound (L : Lib K) (W : List (Layout K)) : Prop :=
  ∀ (i : Nat) (l : Layout K) (s : Shape K), W[i]? = some l → l.boundary = some s → Good L W i s

/-! ### boxes -/

/-- the empty box lies in every box -/
def In : Option (Box K) → Box K → Prop
  | none, _ => True
  | some b, c => Box.Le b c

/-- the empty box contains nothing -/
def Has : Option (Box K) → K × K → Prop
  | none, _ => False
  | some b, p => InBox b p

omit [IsStrictOrderedRing K] in
theorem in_join (a b : Option (Box K)) (c : Box K) : In (joinB a b) c ↔ In a c ∧ In b c := by
  cases a <;> cases b <;> simp [joinB, In, Box.Le]
  constructor
  · rintro ⟨⟨a1, a2⟩, ⟨a3, a4⟩, ⟨a5, a6⟩, a7, a8⟩; exact ⟨⟨a1, a3, a5, a7⟩, a2, a4, a6, a8⟩
  · rintro ⟨⟨a1, a3, a5, a7⟩, a2, a4, a6, a8⟩; exact ⟨⟨a1, a2⟩, ⟨a3, a4⟩, ⟨a5, a6⟩, a7, a8⟩

omit [IsStrictOrderedRing K] in
theorem has_left (a b : Option (Box K)) (p : K × K) (h : Has a p) : Has (joinB a b) p := by
  cases a with
  | none => exact absurd h (by simp [Has])
  | some a =>
    cases b with
    | none => exact h
    | some b =>
      obtain ⟨h1, h2, h3, h4⟩ := h
      exact ⟨(min_le_left _ _).trans h1, h2.trans (le_max_left _ _), (min_le_left _ _).trans h3, h4.trans (le_max_left _ _)⟩

omit [IsStrictOrderedRing K] in
theorem has_right (a b : Option (Box K)) (p : K × K) (h : Has b p) : Has (joinB a b) p := by
  cases b with
  | none => exact absurd h (by simp [Has])
  | some b =>
    cases a with
    | none => exact h
    | some a =>
      obtain ⟨h1, h2, h3, h4⟩ := h
      exact ⟨(min_le_right _ _).trans h1, h2.trans (le_max_right _ _), (min_le_right _ _).trans h3, h4.trans (le_max_right _ _)⟩

omit [IsStrictOrderedRing K] in
theorem le_has {a b : Box K} (h : Box.Le a b) {p : K × K} (hp : InBox a p) : InBox b p :=
  ⟨h.1.trans hp.1, hp.2.1.trans h.2.2.1, h.2.1.trans hp.2.2.1, hp.2.2.2.trans h.2.2.2⟩

omit [IsStrictOrderedRing K] in
theorem fold_in (m : List (Int × Option (Box K))) (b : Option (Box K)) (c : Box K) :
    In (m.foldl (fun b e => joinB b e.2) b) c ↔ In b c ∧ ∀ e ∈ m, In e.2 c := by
  induction m generalizing b with
  | nil => simp
  | cons e m ih => simp [ih, in_join, and_assoc]

omit [IsStrictOrderedRing K] in
theorem grow_keys (m : List (Int × Option (Box K))) (k : Int) (b : Box K) : UMap.keys (grow m k b) = UMap.keys m := by
  simp only [UMap.keys, grow, List.map_map]
  apply List.map_congr_left
  intro e _
  simp only [Function.comp_apply]
  split <;> rfl

omit [IsStrictOrderedRing K] in
theorem grow_in (m : List (Int × Option (Box K))) (k : Int) (b c : Box K) :
    (∀ e ∈ grow m k b, In e.2 c) ↔ (∀ e ∈ m, In e.2 c) ∧ (k ∈ UMap.keys m → Box.Le b c) := by
  induction m with
  | nil => simp [grow, UMap.keys]
  | cons e m ih =>
    have hg : grow (e :: m) k b = (if e.1 = k then (e.1, joinB e.2 (some b)) else e) :: grow m k b := rfl
    rw [hg, List.forall_mem_cons, ih, List.forall_mem_cons]
    by_cases he : e.1 = k
    · rw [if_pos he]
      simp only [in_join, UMap.keys, List.map_cons, List.mem_cons]
      constructor
      · rintro ⟨⟨h1, h2⟩, h3, h4⟩; exact ⟨⟨h1, h3⟩, fun _ => h2⟩
      · rintro ⟨⟨h1, h2⟩, h3⟩; exact ⟨⟨h1, h3 (Or.inl he.symm)⟩, h2, fun _ => h3 (Or.inl he.symm)⟩
    · rw [if_neg he]
      simp only [UMap.keys, List.map_cons, List.mem_cons, Ne.symm he, false_or]
      tauto

omit [IsStrictOrderedRing K] in
theorem addPrim_keys (L : Lib K) (m : List (Int × Option (Box K))) (p : Prim K) : UMap.keys (addPrim L m p) = UMap.keys m := by
  unfold addPrim
  split
  · rfl
  · split
    · exact grow_keys _ _ _
    · rfl

omit [IsStrictOrderedRing K] in
theorem addPrim_in (L : Lib K) (m : List (Int × Option (Box K))) (p : Prim K) (c : Box K) :
    (∀ e ∈ addPrim L m p, In e.2 c) ↔
      (∀ e ∈ m, In e.2 c) ∧ (p.layer ∈ UMap.keys m → ∀ s, p.kind = .geom (some s) → Box.Le (s.bbox L) c) := by
  unfold addPrim
  by_cases hc : UMap.count m p.layer = true
  · have hk := (UMap.count_iff_mem_keys m p.layer).1 hc
    simp only [hc, Bool.not_true, Bool.false_eq_true, if_false, hk, true_imp_iff]
    split
    · rename_i s hs
      rw [grow_in]
      simp only [hk, true_imp_iff, hs, Kind.geom.injEq, Option.some.injEq, forall_eq']
    · rename_i hn
      constructor
      · exact fun h => ⟨h, fun s hs => absurd hs (hn s)⟩
      · exact fun h => h.1
  · have hf : UMap.count m p.layer = false := by simpa using hc
    have hk : p.layer ∉ UMap.keys m := (UMap.count_eq_false_iff m p.layer).1 hf
    simp [hf, hk]

omit [IsStrictOrderedRing K] in
theorem prims_in (L : Lib K) (ps : List (Prim K)) (m : List (Int × Option (Box K))) (c : Box K) :
    (∀ e ∈ ps.foldl (addPrim L) m, In e.2 c) ↔ (∀ e ∈ m, In e.2 c) ∧
      ∀ p ∈ ps, p.layer ∈ UMap.keys m → ∀ s, p.kind = .geom (some s) → Box.Le (s.bbox L) c := by
  induction ps generalizing m with
  | nil => simp
  | cons p ps ih =>
    rw [List.foldl_cons, ih, addPrim_in, addPrim_keys, List.forall_mem_cons, and_assoc]

omit [IsStrictOrderedRing K] in
theorem bounds0_spec (ids : List Int) :
    (∀ k, k ∈ UMap.keys (bounds0 (K := K) ids) ↔ k ∈ ids) ∧ ∀ e ∈ bounds0 (K := K) ids, e.2 = none := by
  have h : ∀ (ids : List Int) (m : List (Int × Option (Box K))), (∀ e ∈ m, e.2 = none) →
      (∀ k, k ∈ UMap.keys (ids.foldl (fun m k => (UMap.emplace m k none).1) m) ↔ k ∈ UMap.keys m ∨ k ∈ ids) ∧
      ∀ e ∈ ids.foldl (fun m k => (UMap.emplace m k (none : Option (Box K))).1) m, e.2 = none := by
    intro ids
    induction ids with
    | nil => intro m hm; simpa using hm
    | cons i ids ih =>
      intro m hm
      have he : ∀ e ∈ (UMap.emplace m i (none : Option (Box K))).1, e.2 = none := by
        intro e he
        unfold UMap.emplace at he
        split at he
        · exact hm e he
        · rcases List.mem_append.1 he with he | he
          · exact hm e he
          · rw [List.mem_singleton.1 he]
      obtain ⟨h1, h2⟩ := ih _ he
      refine ⟨fun k => ?_, h2⟩
      rw [List.foldl_cons, h1 k]
      have hk : k ∈ UMap.keys (UMap.emplace m i (none : Option (Box K))).1 ↔ k ∈ UMap.keys m ∨ k = i := by
        unfold UMap.emplace
        split
        · rename_i hc
          have := (UMap.count_iff_mem_keys m i).1 hc
          constructor
          · exact Or.inl
          · rintro (h | rfl); exacts [h, this]
        · simp [UMap.keys]
      rw [hk, List.mem_cons]
      tauto
  obtain ⟨h1, h2⟩ := h ids [] (by simp)
  exact ⟨fun k => by simpa [UMap.keys, bounds0] using h1 k, h2⟩

omit [IsStrictOrderedRing K] in
/-- the box of a layout's own geometry lies in a box exactly when the boxes of all its shapes do -/
theorem own_in (L : Lib K) (l : Layout K) (c : Box K) :
    In (ownBox L l) c ↔ ∀ p ∈ l.prims, p.layer ∈ l.layers → ∀ s, p.kind = .geom (some s) → Box.Le (s.bbox L) c := by
  obtain ⟨h1, h2⟩ := bounds0_spec (K := K) l.layers
  unfold ownBox
  rw [fold_in, prims_in]
  simp only [h1, In, true_and]
  constructor
  · exact fun h => h.2
  · exact fun h => ⟨fun e he => by rw [h2 e he]; trivial, h⟩

/-- no box lies in every box -/
theorem some_box (b : Box K) : ∃ c : Box K, ¬ Box.Le b c :=
  ⟨⟨(b.lo.1 + 1, b.lo.2), b.hi⟩, fun h => absurd h.1 (by simp)⟩

/-- the box of a layout's own geometry contains the boxes of its shapes -/
theorem own_has (L : Lib K) (l : Layout K) (p : Prim K) (hp : p ∈ l.prims) (hl : p.layer ∈ l.layers) (s : Shape K)
    (hs : p.kind = .geom (some s)) (q : K × K) (hq : InBox (s.bbox L) q) : Has (ownBox L l) q := by
  cases ho : ownBox L l with
  | none =>
    obtain ⟨c, hc⟩ := some_box (s.bbox L)
    exact absurd ((own_in L l c).1 (by rw [ho]; trivial) p hp hl s hs) hc
  | some b =>
    have : In (ownBox L l) b := by rw [ho]; exact ⟨le_rfl, le_rfl, le_rfl, le_rfl⟩
    exact le_has ((own_in L l b).1 this p hp hl s hs) hq

/-! ### layouts that differ in what they remember -/

omit [IsStrictOrderedRing K] in
theorem same_refl (W : List (Layout K)) : Same W W := rfl

omit [IsStrictOrderedRing K] in
theorem Same.trans {W W' W'' : List (Layout K)} (h : Same W W') (h' : Same W' W'') : Same W W'' := Eq.trans h' h

omit [IsStrictOrderedRing K] in
theorem Same.symm {W W' : List (Layout K)} (h : Same W W') : Same W' W := Eq.symm h

omit [IsStrictOrderedRing K] in
theorem Same.get {W W' : List (Layout K)} (h : Same W W') {i : Nat} {l : Layout K} (hi : W[i]? = some l) :
    ∃ l', W'[i]? = some l' ∧ l'.layers = l.layers ∧ l'.prims = l.prims ∧ l'.insts = l.insts ∧ l'.comps = l.comps ∧ l'.pads = l.pads := by
  have h1 : (W'.map fun l => { l with boundary := none })[i]? = (W.map fun l => { l with boundary := none })[i]? := by rw [h]
  rw [List.getElem?_map, List.getElem?_map, hi] at h1
  cases hl : W'[i]? with
  | none => rw [hl] at h1; simp at h1
  | some l' =>
    rw [hl] at h1
    simp only [Option.map_some, Option.some.injEq, Layout.mk.injEq] at h1
    exact ⟨l', rfl, h1.1, h1.2.1, h1.2.2.1, h1.2.2.2.1, h1.2.2.2.2.1⟩

omit [IsStrictOrderedRing K] in
theorem Same.length {W W' : List (Layout K)} (h : Same W W') : W'.length = W.length := by
  have := congrArg List.length h
  simpa using this

omit [IsStrictOrderedRing K] in
theorem Same.covers {L : Lib K} {W W' : List (Layout K)} (h : Same W W') {i : Nat} {q : K × K} (hc : Covers L W i q) :
    Covers L W' i q := by
  induction hc with
  | own hi hp hl hk hq =>
    obtain ⟨l', hi', e1, e2, _⟩ := h.get hi
    exact .own hi' (e2 ▸ hp) (e1 ▸ hl) hk hq
  | inst hi hc hd _ ih =>
    obtain ⟨l', hi', _, _, e3, _⟩ := h.get hi
    exact .inst hi' (e3 ▸ hc) hd ih

omit [IsStrictOrderedRing K] in
theorem Same.covers_iff {L : Lib K} {W W' : List (Layout K)} (h : Same W W') (i : Nat) (q : K × K) :
    Covers L W' i q ↔ Covers L W i q := ⟨h.symm.covers, h.covers⟩

omit [IsStrictOrderedRing K] in
theorem Same.axial {L : Lib K} {W W' : List (Layout K)} (h : Same W W') (ha : AxialW L W) : AxialW L W' := by
  intro l' hl'
  obtain ⟨i, hi⟩ := List.mem_iff_getElem?.1 hl'
  obtain ⟨l, hl, e1, e2, e3, _⟩ := h.symm.get hi
  have := ha l (List.mem_of_getElem? hl)
  rw [e1, e2, e3] at this
  exact this

omit [IsStrictOrderedRing K] in
theorem Same.good {L : Lib K} {W W' : List (Layout K)} (h : Same W W') {i : Nat} {s : Shape K} (hg : Good L W i s) :
    Good L W' i s := by
  obtain ⟨b, e, h1, h2⟩ := hg
  refine ⟨b, e, fun p hp => h1 p (h.symm.covers hp), fun ha => ?_⟩
  have := h2 (h.symm.axial ha)
  exact ⟨fun p hp => this.1 p (h.symm.covers hp), fun c hc => this.2 c fun p hp => hc p (h.covers hp)⟩

omit [IsStrictOrderedRing K] in
theorem Same.ranked {W W' : List (Layout K)} (h : Same W W') {rank : Nat → Nat} (hr : Ranked W rank) : Ranked W' rank := by
  intro i l hi c hc
  obtain ⟨l', hi', _, _, e3, _⟩ := h.symm.get hi
  obtain ⟨j, h1, h2, h3⟩ := hr i l' hi' c (e3 ▸ hc)
  exact ⟨j, h1, by rw [h.length]; exact h2, h3⟩

omit [IsStrictOrderedRing K] in
theorem setB_same (W : List (Layout K)) (i : Nat) (s : Option (Shape K)) : Same W (setB W i s) := by
  unfold Same setB
  apply List.ext_getElem?
  intro k
  rw [List.getElem?_map, List.getElem?_map, List.getElem?_modify]
  by_cases h : i = k
  · subst h
    cases hk : W[i]? <;> simp
  · cases hk : W[k]? <;> simp [h]

/-! ### the instances -/

omit [IsStrictOrderedRing K] in
theorem bbox_moved (L : Lib K) (m : Aff K) (b : Box K) :
    ((Shape.polygon b.corners).transform m).bbox L = extent (b.corners.map m.act) := rfl

theorem instLoop_spec (L : Lib K) (W : List (Layout K)) (rank : Nat → Nat) (r : Nat)
    (get : List (Layout K) → Nat → Option (Res (List (Layout K) × Shape K)))
    (hget : ∀ W', Same W W' → Sound L W' → ∀ j < W.length, rank j < r →
      ∃ W'' s, get W' j = some (.ok (W'', s)) ∧ Same W W'' ∧ Sound L W'' ∧ Good L W j s)
    (hfill : Filled L W)
    (cs : List (Inst K)) (hcs : ∀ c ∈ cs, ∃ j, c.defn = some j ∧ j < W.length ∧ rank j < r)
    (hax : AxialW L W → ∀ c ∈ cs, c.m.Axial ∧ c.m.det ≠ 0) :
    ∀ (W' : List (Layout K)) (b : Option (Box K)), Same W W' → Sound L W' →
      ∃ W'' b', instLoop L get cs W' b = some (.ok (W'', b')) ∧ Same W W'' ∧ Sound L W'' ∧
        (∀ p, Has b p → Has b' p) ∧
        (∀ c ∈ cs, ∀ j, c.defn = some j → ∀ q, Covers L W j q → Has b' (c.m.act q)) ∧
        (AxialW L W → ∀ x, In b x → (∀ c ∈ cs, ∀ j, c.defn = some j → ∀ q, Covers L W j q → InBox x (c.m.act q)) → In b' x) := by
  induction cs with
  | nil => exact fun W' b h1 h2 => ⟨W', b, rfl, h1, h2, fun _ h => h, by simp, fun _ _ h _ => h⟩
  | cons c cs ih =>
    intro W' b h1 h2
    obtain ⟨j, hj, hjl, hjr⟩ := hcs c List.mem_cons_self
    obtain ⟨W1, s, hg, g1, g2, bb, rfl, g3, g4⟩ := hget W' h1 h2 j hjl hjr
    obtain ⟨W2, b', e, k1, k2, k3, k4, k5⟩ := ih (fun c hc => hcs c (List.mem_cons_of_mem _ hc))
      (fun ha c hc => hax ha c (List.mem_cons_of_mem _ hc)) W1
      (joinB b (some (extent (bb.corners.map c.m.act)))) g1 g2
    refine ⟨W2, b', ?_, k1, k2, fun p hp => k3 p (has_left _ _ _ hp), ?_, ?_⟩
    · simp only [instLoop, hj, hg, bbox_moved]
      exact e
    · intro c' hc' j' hj' q hq
      rcases List.mem_cons.1 hc' with rfl | hc'
      · rw [hj] at hj'
        obtain rfl := Option.some.inj hj'
        exact k3 _ (has_right _ _ _ (box_image _ _ _ (g3 q hq)))
      · exact k4 c' hc' j' hj' q hq
    · intro ha x hx hall
      refine k5 ha x ?_ fun c' hc' => hall c' (List.mem_cons_of_mem _ hc')
      rw [in_join]
      refine ⟨hx, ?_⟩
      obtain ⟨hm, hd⟩ := hax ha c List.mem_cons_self
      have hb : bb.lo.1 ≤ bb.hi.1 ∧ bb.lo.2 ≤ bb.hi.2 := by
        obtain ⟨q, hq⟩ := hfill j hjl
        have := g3 q hq
        exact ⟨this.1.trans this.2.1, this.2.2.1.trans this.2.2.2⟩
      exact tight_axial_pred c.m hm hd bb hb (Covers L W j) (g4 ha).2 x
        fun q hq => hall c List.mem_cons_self j hj q hq

theorem getB_spec (L : Lib K) (hL : L.InscribedOK) (far : List (K × K)) (rank : Nat → Nat) (W : List (Layout K))
    (hr : Ranked W rank) (hv : ValidW W) (hf : Filled L W) :
    ∀ (n : Nat) (W' : List (Layout K)) (i : Nat), rank i < n → i < W.length → Same W W' → Sound L W' →
      ∃ W'' s, getB L far n W' i = some (.ok (W'', s)) ∧ Same W W'' ∧ Sound L W'' ∧ Good L W i s := by
  intro n
  induction n with
  | zero => intro W' i h; omega
  | succ n ih =>
    intro W' i hn hi hs hso
    have hi' : i < W'.length := by rw [hs.length]; exact hi
    obtain ⟨l, hl⟩ : ∃ l, W'[i]? = some l := ⟨_, List.getElem?_eq_getElem hi'⟩
    unfold getB
    rw [hl]
    dsimp only
    cases hb : l.boundary with
    | some s => exact ⟨W', s, rfl, hs, hso, hs.symm.good (hso i l s hl hb)⟩
    | none =>
      obtain ⟨l0, hl0, e1, e2, e3, _⟩ := hs.symm.get hl
      obtain ⟨W2, b', e, k1, k2, k3, k4, k5⟩ := instLoop_spec L W rank (rank i) (getB L far n)
        (fun W1 h1 h2 j hj hjr => ih W1 j (by omega) hj h1 h2) hf l.insts
        (fun c hc => hr i l0 hl0 c (e3 ▸ hc))
        (fun ha c hc => (ha l0 (List.mem_of_getElem? hl0)).2 c (e3 ▸ hc)) W' (ownBox L l) hs hso
      simp only [e, finish]
      have hcov : ∀ p, Covers L W i p → Has b' p := by
        intro p hp
        cases hp with
        | @own _ l1 pr s q hi1 hp1 hl1 hk1 hq1 =>
          rw [hl0] at hi1
          obtain rfl := Option.some.inj hi1
          refine k3 p (own_has L l pr (e2 ▸ hp1) (e1 ▸ hl1) s hk1 p ?_)
          exact c83_contains L hL s (hv l0 (List.mem_of_getElem? hl0) pr hp1 hl1 s hk1) p hq1
        | @inst _ j l1 c q hi1 hc1 hd1 hq1 =>
          rw [hl0] at hi1
          obtain rfl := Option.some.inj hi1
          exact k4 c (e3 ▸ hc1) j hd1 q hq1
      have hgood : Good L W i (.polygon (toPoly far b')) := by
        cases b' with
        | none => obtain ⟨q, hq⟩ := hf i hi; exact absurd (hcov q hq) (by simp [Has])
        | some bb =>
          refine ⟨bb, rfl, hcov, fun ha => ⟨hcov, fun c hc => ?_⟩⟩
          refine k5 ha c ?_ ?_
          · rw [own_in]
            intro pr hp hly s hk
            have h0 := (ha l0 (List.mem_of_getElem? hl0)).1 pr (e2 ▸ hp) (e1 ▸ hly) s hk
            have hv0 := hv l0 (List.mem_of_getElem? hl0) pr (e2 ▸ hp) (e1 ▸ hly) s hk
            exact c83_least_partial L hL s h0.1 hv0 h0.2 c
              fun q hq => hc q (.own hl0 (e2 ▸ hp) (e1 ▸ hly) hk hq)
          · intro c' hc' j hj q hq
            exact hc _ (.inst hl0 (e3 ▸ hc') hj hq)
      refine ⟨_, _, rfl, k1.trans (setB_same _ _ _), ?_, hgood⟩
      intro k l2 s hk hs2
      have hsame := k1.trans (setB_same W2 i (some (.polygon (toPoly far b'))))
      simp only [setB, List.getElem?_modify] at hk
      by_cases hik : i = k
      · subst hik
        cases h2 : W2[i]? with
        | none => rw [h2] at hk; simp at hk
        | some l3 =>
          rw [h2] at hk
          simp only [if_true, Option.map_eq_map, Option.map_some, Option.some.injEq] at hk
          subst hk
          simp only [Option.some.injEq] at hs2
          subst hs2
          exact hsame.good hgood
      · simp only [hik, if_false] at hk
        have hk' : W2[k]? = some l2 := by simpa using hk
        exact (setB_same W2 i _).good (k2 k l2 s hk' hs2)

/-! ### C118 -/

/-- C118, for the boundary as it is read from layouts that remember only right boundaries (for example none): the
reading ends, what comes out is a rectangle around all geometry of the layout and of its instances, to any depth; it
is the least one if everything lies along the axes; and what is remembered afterwards is right again, of the same
layouts.  Supposed: instances do not go in circles, shapes are valid and every layout has some geometry. -/
theorem c118_first_partial (L : Lib K) (hL : L.InscribedOK) (far : List (K × K)) (rank : Nat → Nat) (W : List (Layout K))
    (hr : Ranked W rank) (hv : ValidW W) (hf : Filled L W) (hs : Sound L W) (i : Nat) (hi : i < W.length) (n : Nat) (hn : rank i < n) :
    ∃ W' b, getB L far n W i = some (.ok (W', .polygon b.corners)) ∧ (∀ p, Covers L W i p → InBox b p) ∧
      (AxialW L W → Least b (Covers L W i)) ∧ Same W W' ∧ Sound L W' := by
  obtain ⟨W', s, e, h1, h2, b, rfl, h3, h4⟩ := getB_spec L hL far rank W hr hv hf n W i hn hi (same_refl W) hs
  exact ⟨W', b, e, h3, h4, h1, h2⟩

omit [IsStrictOrderedRing K] in
/-- layouts that remember nothing remember only what is right -/
theorem c118_fresh (L : Lib K) (W : List (Layout K)) (h : ∀ l ∈ W, l.boundary = none) : Sound L W := by
  intro i l s hi hs
  rw [h l (List.mem_of_getElem? hi)] at hs
  exact absurd hs (by simp)

omit [IsStrictOrderedRing K] in
/-- a boundary that was set is what is read, and setting a null pointer makes the next reading calculate -/
theorem c118_set (L : Lib K) (far : List (K × K)) (W : List (Layout K)) (i : Nat) (hi : i < W.length) (s : Shape K) (n : Nat) :
    getB L far (n + 1) (setB W i (some s)) i = some (.ok (setB W i (some s), s)) ∧
    (setB W i none)[i]?.map (fun l => l.boundary) = some none := by
  have h : ∀ s : Option (Shape K), (setB W i s)[i]? = some { W[i] with boundary := s } := by
    intro s
    simp [setB, List.getElem?_modify, List.getElem?_eq_getElem hi]
  constructor
  · unfold getB
    rw [h]
  · rw [h]; rfl

omit [IsStrictOrderedRing K] in
theorem addTo_boundary (ops : List (Nat × Op K)) (W : List (Layout K)) (i : Nat) :
    (ops.foldl addTo W)[i]?.map (fun l => l.boundary) = W[i]?.map fun l => l.boundary := by
  induction ops generalizing W with
  | nil => rfl
  | cons e ops ih =>
    rw [List.foldl_cons, ih]
    unfold addTo
    rw [List.getElem?_modify]
    by_cases h : e.1 = i
    · cases hW : W[i]? with
      | none => simp
      | some l => cases e with | mk k o => simp only at h; cases o <;> simp [h, Op.on]
    · cases hW : W[i]? <;> simp [h]

omit [IsStrictOrderedRing K] in
theorem read_kept (L : Lib K) (far : List (K × K)) (n : Nat) (W W' : List (Layout K)) (i : Nat) (s : Shape K)
    (h : getB L far n W i = some (.ok (W', s))) : W'[i]?.map (fun l => l.boundary) = some (some s) ∨ W'[i]? = none := by
  cases n with
  | zero => simp [getB] at h
  | succ n =>
    unfold getB at h
    cases hl : W[i]? with
    | none => simp [hl] at h
    | some l =>
      simp only [hl] at h
      cases hb : l.boundary with
      | some s' =>
        simp only [hb, Option.some.injEq, Res.ok.injEq, Prod.mk.injEq] at h
        obtain ⟨rfl, rfl⟩ := h
        left; rw [hl]; simp [hb]
      | none =>
        simp only [hb] at h
        cases hi : instLoop L (getB L far n) l.insts W (ownBox L l) with
        | none => simp [hi, finish] at h
        | some r =>
          cases r with
          | ub => simp [hi, finish] at h
          | exn => simp [hi, finish] at h
          | ok r =>
            simp only [hi, finish, Option.some.injEq, Res.ok.injEq, Prod.mk.injEq] at h
            obtain ⟨rfl, rfl⟩ := h
            simp only [setB, List.getElem?_modify]
            cases hr : r.1[i]? <;> simp

omit [IsStrictOrderedRing K] in
/-- objects added to the layouts cover what was covered before -/
theorem c118_more (L : Lib K) (W : List (Layout K)) (ops : List (Nat × Op K)) (i : Nat) (q : K × K) (h : Covers L W i q) :
    Covers L (ops.foldl addTo W) i q := by
  induction ops generalizing W with
  | nil => exact h
  | cons e ops ih =>
    refine ih _ ?_
    have step : ∀ (j : Nat) (l : Layout K), W[j]? = some l → ∃ l', (addTo W e)[j]? = some l' ∧ (∀ p ∈ l.prims, p ∈ l'.prims) ∧
        (∀ k ∈ l.layers, k ∈ l'.layers) ∧ ∀ c ∈ l.insts, c ∈ l'.insts := by
      intro j l hl
      unfold addTo
      rw [List.getElem?_modify, hl]
      by_cases hj : e.1 = j
      · refine ⟨e.2.on l, by simp [hj], ?_⟩
        cases e.2 <;> refine ⟨fun _ h => ?_, fun _ h => ?_, fun _ h => ?_⟩ <;> simp_all [Op.on]
      · exact ⟨l, by simp [hj], fun _ h => h, fun _ h => h, fun _ h => h⟩
    clear ih
    induction h with
    | own hi hp hl hk hq =>
      obtain ⟨l', h1, h2, h3, _⟩ := step _ _ hi
      exact .own h1 (h2 _ hp) (h3 _ hl) hk hq
    | inst hi hc hd _ ihq =>
      obtain ⟨l', h1, _, _, h4⟩ := step _ _ hi
      exact .inst h1 (h4 _ hc) hd ihq

omit [IsStrictOrderedRing K] in
/-- A layout that is not there is read through its pointer, and so is the layout of an instance without one. -/
theorem c118_null_refuted (L : Lib K) (far : List (K × K)) (n : Nat) (W : List (Layout K)) (i : Nat) :
    (W.length ≤ i → getB L far (n + 1) W i = some .ub) ∧
    (∀ l c cs, W[i]? = some l → l.boundary = none → l.insts = c :: cs → c.defn = none → getB L far (n + 1) W i = some .ub) := by
  refine ⟨fun h => ?_, fun l c cs hl hb hi hd => ?_⟩
  · unfold getB
    rw [List.getElem?_eq_none h]
  · unfold getB
    rw [hl]
    simp only [hb, hi, instLoop, hd, finish]

omit [IsStrictOrderedRing K] in
/-- after a reading, whatever is added to the layouts, the next reading gives what the first one gave -/
theorem c118_stale (L : Lib K) (far : List (K × K)) (n m : Nat) (W W' : List (Layout K)) (i : Nat) (s : Shape K)
    (h : getB L far n W i = some (.ok (W', s))) (hi : i < W'.length) (ops : List (Nat × Op K)) :
    getB L far (m + 1) (ops.foldl addTo W') i = some (.ok (ops.foldl addTo W', s)) := by
  have h0 := addTo_boundary ops W' i
  rcases read_kept L far n W W' i s h with h1 | h1
  · rw [h1] at h0
    cases hl : (ops.foldl addTo W')[i]? with
    | none => rw [hl] at h0; simp at h0
    | some l =>
      rw [hl] at h0
      simp only [Option.map_some, Option.some.injEq] at h0
      unfold getB
      simp only [hl, h0]
  · rw [List.getElem?_eq_getElem hi] at h1; simp at h1

/-- Full statement of C118, false: once the boundary of a layout that has a layer was read, there is a geometry that,
added to the layout, lies outside of the boundary read from then on. -/
theorem c118_stale_refuted (L : Lib K) (far : List (K × K)) (n : Nat) (W W' : List (Layout K)) (i : Nat) (s : Shape K)
    (h : getB L far n W i = some (.ok (W', s))) (l : Layout K) (hl : W'[i]? = some l) (k : Int) (hk : k ∈ l.layers) :
    ∃ op : Op K, ∃ q, getB L far 1 (addTo W' (i, op)) i = some (.ok (addTo W' (i, op), s)) ∧
      Covers L (addTo W' (i, op)) i q ∧ ¬ InBox (s.bbox L) q := by
  have hi : i < W'.length := by
    by_contra hn
    rw [List.getElem?_eq_none (by omega)] at hl
    simp at hl
  let q : K × K := ((s.bbox L).hi.1 + 1, 0)
  refine ⟨.prim ⟨0, k, .geom (some (.rect ⟨q, q⟩))⟩, q, c118_stale L far n 0 W W' i s h hi [(i, _)], ?_, ?_⟩
  · refine .own (l := { l with prims := l.prims ++ [⟨0, k, .geom (some (.rect ⟨q, q⟩))⟩] }) (p := ⟨0, k, .geom (some (.rect ⟨q, q⟩))⟩)
      (s := .rect ⟨q, q⟩) ?_ (by simp) hk rfl (by simp [Shape.contour, Box.corners])
    simp [addTo, List.getElem?_modify, hl, Op.on]
  · intro hb
    have := hb.2.1
    simp only [q] at this
    linarith

omit [IsStrictOrderedRing K] in
theorem fold_skip (L : Lib K) (ps qs : List (Prim K)) (m : List (Int × Option (Box K)))
    (h : ∀ q ∈ qs, q.layer ∉ UMap.keys m ∨ ∀ s, q.kind ≠ .geom (some s)) :
    (ps ++ qs).foldl (addPrim L) m = ps.foldl (addPrim L) m := by
  rw [List.foldl_append]
  have hk : UMap.keys (ps.foldl (addPrim L) m) = UMap.keys m := by
    clear h
    induction ps generalizing m with
    | nil => rfl
    | cons p ps ih => rw [List.foldl_cons, ih, addPrim_keys]
  generalize ps.foldl (addPrim L) m = m' at hk ⊢
  induction qs with
  | nil => rfl
  | cons q qs ih =>
    rw [List.foldl_cons]
    have : addPrim L m' q = m' := by
      unfold addPrim
      split
      · rfl
      · rename_i hc
        rcases h q List.mem_cons_self with h1 | h1
        · rw [← hk] at h1
          have := (UMap.count_eq_false_iff m' q.layer).2 h1
          simp [this] at hc
        · split
          · rename_i s hs; exact absurd hs (h1 s)
          · rfl
    rw [this]
    exact ih fun q hq => h q (List.mem_cons_of_mem _ hq)

omit [IsStrictOrderedRing K] in
/-- the boundary of a layout without instances -/
theorem read_own (L : Lib K) (far : List (K × K)) (n : Nat) (W : List (Layout K)) (i : Nat) (l : Layout K) (hl : W[i]? = some l)
    (hb : l.boundary = none) (hi : l.insts = []) :
    getB L far (n + 1) W i =
      some (.ok (setB W i (some (.polygon (toPoly far (ownBox L l)))), .polygon (toPoly far (ownBox L l)))) := by
  unfold getB
  simp only [hl, hb, hi, instLoop, finish]

omit [IsStrictOrderedRing K] in
/-- the boundary of a layout whose only instance is of a layout without instances -/
theorem read_inst (L : Lib K) (far : List (K × K)) (n : Nat) (l0 l1 : Layout K) (m : Aff K) (hb0 : l0.boundary = none)
    (hi0 : l0.insts = []) (hb1 : l1.boundary = none) (hi1 : l1.insts = [⟨some 0, m⟩]) :
    ∃ W, getB L far (n + 2) [l0, l1] 1 = some (.ok (W, .polygon (toPoly far (joinB (ownBox L l1)
      (some (extent ((toPoly far (ownBox L l0)).map m.act))))))) := by
  unfold getB
  simp only [List.getElem?_cons_succ, List.getElem?_cons_zero, hb1, hi1, instLoop]
  rw [read_own L far n [l0, l1] 0 l0 rfl hb0 hi0]
  exact ⟨_, rfl⟩

omit [IsStrictOrderedRing K] in
/-- what does not count: components, padstack instances, bond wires, texts, and geometry on layers the layout does
not have.  A layout with more of them has the same boundary, so that they may lie anywhere outside of it. -/
theorem c118_others_refuted (L : Lib K) (far : List (K × K)) (n : Nat) (l : Layout K) (hb : l.boundary = none) (hi : l.insts = [])
    (cs : List (Comp K)) (ps : List (List (K × K))) (qs : List (Prim K))
    (hq : ∀ q ∈ qs, q.layer ∉ l.layers ∨ ∀ s, q.kind ≠ .geom (some s)) :
    ∃ s W W', getB L far (n + 1) [l] 0 = some (.ok (W, s)) ∧
      getB L far (n + 1) [{ l with comps := l.comps ++ cs, pads := l.pads ++ ps, prims := l.prims ++ qs }] 0 = some (.ok (W', s)) := by
  have ho : ownBox L { l with comps := l.comps ++ cs, pads := l.pads ++ ps, prims := l.prims ++ qs } = ownBox L l := by
    unfold ownBox
    dsimp only
    rw [fold_skip]
    intro q hq'
    rcases hq q hq' with h | h
    · exact Or.inl fun hk => h ((bounds0_spec l.layers).1 _ |>.1 hk)
    · exact Or.inr h
  have h2 := read_own L far n [{ l with comps := l.comps ++ cs, pads := l.pads ++ ps, prims := l.prims ++ qs }] 0 _ rfl hb hi
  rw [ho] at h2
  exact ⟨_, _, _, read_own L far n [l] 0 l rfl hb hi, h2⟩

/-- a layout without geometry, instantiated in another one: the boundary of the other one reaches to the images of
the corners of the empty box, wherever the own geometry is -/
theorem c118_empty_refuted (L : Lib K) (far : List (K × K)) (n : Nat) (l0 l1 : Layout K) (m : Aff K)
    (h0 : l0.prims = []) (hi0 : l0.insts = []) (hb0 : l0.boundary = none)
    (hi1 : l1.insts = [⟨some 0, m⟩]) (hb1 : l1.boundary = none) :
    ∃ W b, getB L far (n + 2) [l0, l1] 1 = some (.ok (W, .polygon b.corners)) ∧ (∀ q ∈ far, InBox b (m.act q)) ∧
      ∀ q, ¬ Covers L [l0, l1] 0 q := by
  have ho : ownBox L l0 = none := by
    unfold ownBox
    rw [h0]
    have h := (bounds0_spec (K := K) l0.layers).2
    generalize bounds0 (K := K) l0.layers = m at h
    rw [List.foldl_nil]
    induction m with
    | nil => rfl
    | cons e m ih =>
      rw [List.foldl_cons, h e List.mem_cons_self]
      exact ih fun e he => h e (List.mem_cons_of_mem _ he)
  obtain ⟨b, hb⟩ : ∃ b, joinB (ownBox L l1) (some (extent (far.map m.act))) = some b := by
    cases ownBox L l1 <;> exact ⟨_, rfl⟩
  obtain ⟨W, hW⟩ := read_inst L far n l0 l1 m hb0 hi0 hb1 hi1
  rw [ho, toPoly, hb] at hW
  refine ⟨W, b, hW, ?_, ?_⟩
  · intro q hq
    have h1 : InBox (extent (far.map m.act)) (m.act q) := extent_mem _ _ (List.mem_map_of_mem hq)
    have h2 := has_right (ownBox L l1) (some (extent (far.map m.act))) (m.act q) h1
    rw [hb] at h2
    exact h2
  · intro q hq
    cases hq with
    | own hi hp => simp at hi; subst hi; simp [h0] at hp
    | inst hi hc => simp at hi; subst hi; simp [hi0] at hc

/-- a layout turned by an eighth of a full turn (and scaled): the boundary is that of the turned box, which is twice
as wide as the geometry -/
theorem c118_turned_refuted (L : Lib K) (far : List (K × K)) (n : Nat) (r : K) (hr : 0 < r) :
    ∃ W, getB L far (n + 2)
      [⟨[0], [⟨0, 0, .geom (some (.polygon [(r, 0), (0, r), (-r, 0), (0, -r)]))⟩], [], [], [], none⟩,
       ⟨[0], [], [⟨some 0, ⟨1, -1, 1, 1, 0, 0⟩⟩], [], [], none⟩] 1 =
        some (.ok (W, .polygon (Box.corners ⟨(-(2 * r), -(2 * r)), (2 * r, 2 * r)⟩))) ∧
      ∀ q, Covers L [⟨[0], [⟨0, 0, .geom (some (.polygon [(r, 0), (0, r), (-r, 0), (0, -r)]))⟩], [], [], [], none⟩,
        ⟨[0], [], [⟨some 0, ⟨1, -1, 1, 1, 0, 0⟩⟩], [], [], none⟩] 1 q → InBox ⟨(-r, -r), (r, r)⟩ q := by
  have h1 : -r < 0 := by linarith
  have h2 : -(2 * r) ≤ 2 * r := by linarith
  have e1 : extent [(r, 0), (0, r), (-r, 0), ((0 : K), -r)] = ⟨(-r, -r), (r, r)⟩ := by
    simp only [extent, List.foldl, Box.add, Box.mk.injEq, Prod.mk.injEq]
    refine ⟨⟨?_, ?_⟩, ?_, ?_⟩
    · rw [min_eq_right hr.le, min_eq_right h1.le, min_eq_left h1.le]
    · rw [min_eq_left hr.le, min_eq_left le_rfl, min_eq_right h1.le]
    · simp [hr.le, (h1.trans hr).le]
    · simp [hr.le, (h1.trans hr).le]
  have e2 : extent ((Box.corners ⟨(-r, -r), (r, r)⟩).map (Aff.act (⟨1, -1, 1, 1, 0, 0⟩ : Aff K))) = ⟨(-(2 * r), -(2 * r)), (2 * r, 2 * r)⟩ := by
    have c1 : ∀ x y : K, Aff.act (⟨1, -1, 1, 1, 0, 0⟩ : Aff K) (x, y) = (x - y, x + y) := by
      intro x y; simp only [Aff.act, Prod.mk.injEq]; constructor <;> ring
    simp only [Box.corners, List.map, c1, extent, List.foldl, Box.add, Box.mk.injEq, Prod.mk.injEq]
    have z1 : -r - -r = 0 := by ring
    have z2 : -r + -r = -(2 * r) := by ring
    have z3 : r - -r = 2 * r := by ring
    have z4 : r + -r = 0 := by ring
    have z5 : r - r = 0 := by ring
    have z6 : r + r = 2 * r := by ring
    have z7 : -r - r = -(2 * r) := by ring
    have z8 : -r + r = 0 := by ring
    rw [z1, z2, z3, z4, z5, z6, z7, z8]
    have p : (0 : K) ≤ 2 * r := by linarith
    have q : -(2 * r) ≤ 0 := by linarith
    refine ⟨⟨?_, ?_⟩, ?_, ?_⟩ <;> simp [p, q, h2]
  obtain ⟨W, hW⟩ := read_inst L far n
    ⟨[0], [⟨0, 0, .geom (some (.polygon [(r, 0), (0, r), (-r, 0), (0, -r)]))⟩], [], [], [], none⟩
    ⟨[0], [], [⟨some 0, ⟨1, -1, 1, 1, 0, 0⟩⟩], [], [], none⟩ ⟨1, -1, 1, 1, 0, 0⟩ rfl rfl rfl rfl
  have o1 : ownBox L ⟨[0], [⟨0, 0, .geom (some (.polygon [(r, 0), (0, r), (-r, 0), (0, -r)]))⟩], [], [], [], none⟩ =
      some (extent [(r, 0), (0, r), (-r, 0), ((0 : K), -r)]) := rfl
  have o2 : ownBox L (⟨[0], [], [⟨some 0, ⟨1, -1, 1, 1, 0, 0⟩⟩], [], [], none⟩ : Layout K) = none := rfl
  rw [o1, o2, e1, toPoly, e2] at hW
  refine ⟨W, hW, ?_⟩
  intro q hq
  cases hq with
  | own hi hp => simp at hi; subst hi; simp at hp
  | @inst _ j l c q hi hc hd hq =>
    simp only [List.getElem?_cons_succ, List.getElem?_cons_zero, Option.some.injEq] at hi
    subst hi
    simp only [List.mem_singleton] at hc
    subst hc
    simp only [Option.some.injEq] at hd
    subst hd
    cases hq with
    | inst hi hc => simp at hi; subst hi; simp at hc
    | own hi hp hl hk hq =>
      simp only [List.getElem?_cons_zero, Option.some.injEq] at hi
      subst hi
      simp only [List.mem_singleton] at hp
      subst hp
      simp only [Kind.geom.injEq, Option.some.injEq] at hk
      subst hk
      simp only [Shape.contour, List.mem_cons, List.not_mem_nil, or_false] at hq
      rcases hq with rfl | rfl | rfl | rfl <;> simp only [Aff.act, InBox] <;> refine ⟨?_, ?_, ?_, ?_⟩ <;> linarith

/-! ### instances in circles -/

omit [IsStrictOrderedRing K] in
theorem cycle_aux (L : Lib K) (far : List (K × K)) (C : Nat → Prop) :
    ∀ (n : Nat) (W : List (Layout K)),
      (∀ (i : Nat) (l : Layout K), C i → W[i]? = some l → l.boundary = none ∧ ∃ c ∈ l.insts, ∃ j, c.defn = some j ∧ C j) →
      ∀ (i : Nat) (W' : List (Layout K)) (s : Shape K), getB L far n W i = some (.ok (W', s)) → ¬ C i ∧ Same W W' ∧
        ∀ (k : Nat) (l : Layout K), C k → W'[k]? = some l → l.boundary = none := by
  intro n
  induction n with
  | zero => intro W _ i W' s h; simp [getB] at h
  | succ n ih =>
    intro W hW i W' s h
    have loop : ∀ (cs : List (Inst K)) (W1 : List (Layout K)) (b : Option (Box K)) (W2 : List (Layout K)) (b' : Option (Box K)),
        Same W W1 → (∀ (k : Nat) (l : Layout K), C k → W1[k]? = some l → l.boundary = none) →
        instLoop L (getB L far n) cs W1 b = some (.ok (W2, b')) →
        (∀ c ∈ cs, ∀ j, c.defn = some j → ¬ C j) ∧ Same W W2 ∧ ∀ (k : Nat) (l : Layout K), C k → W2[k]? = some l → l.boundary = none := by
      intro cs
      induction cs with
      | nil =>
        intro W1 b W2 b' h1 h2 h3
        simp only [instLoop, Option.some.injEq, Res.ok.injEq, Prod.mk.injEq] at h3
        exact ⟨by simp, h3.1 ▸ h1, h3.1 ▸ h2⟩
      | cons c cs ihc =>
        intro W1 b W2 b' h1 h2 h3
        cases hd : c.defn with
        | none => simp [instLoop, hd] at h3
        | some j =>
          cases hg : getB L far n W1 j with
          | none => simp [instLoop, hd, hg] at h3
          | some res =>
            cases res with
            | ub => simp [instLoop, hd, hg] at h3
            | exn => simp [instLoop, hd, hg] at h3
            | ok res =>
              simp only [instLoop, hd, hg] at h3
              have hW1 : ∀ (i : Nat) (l : Layout K), C i → W1[i]? = some l →
                  l.boundary = none ∧ ∃ c ∈ l.insts, ∃ j, c.defn = some j ∧ C j := by
                intro k l hk hl
                refine ⟨h2 k l hk hl, ?_⟩
                obtain ⟨l0, hl0, _, _, e3, _⟩ := h1.symm.get hl
                rw [← e3]
                exact (hW k l0 hk hl0).2
              obtain ⟨g1, g2, g3⟩ := ih W1 hW1 j res.1 res.2 hg
              obtain ⟨k1, k2, k3⟩ := ihc res.1 _ W2 b' (h1.trans g2) g3 h3
              refine ⟨?_, k2, k3⟩
              intro c' hc' j' hj'
              rcases List.mem_cons.1 hc' with rfl | hc'
              · rw [hd] at hj'; obtain rfl := Option.some.inj hj'; exact g1
              · exact k1 c' hc' j' hj'
    unfold getB at h
    cases hl : W[i]? with
    | none => simp [hl] at h
    | some l =>
      simp only [hl] at h
      cases hb : l.boundary with
      | some s' =>
        simp only [hb, Option.some.injEq, Res.ok.injEq, Prod.mk.injEq] at h
        obtain ⟨rfl, rfl⟩ := h
        refine ⟨fun hc => ?_, same_refl W, fun k l hk hl => (hW k l hk hl).1⟩
        rw [(hW i l hc hl).1] at hb
        simp at hb
      | none =>
        simp only [hb] at h
        cases hi : instLoop L (getB L far n) l.insts W (ownBox L l) with
        | none => simp [hi, finish] at h
        | some r =>
          cases r with
          | ub => simp [hi, finish] at h
          | exn => simp [hi, finish] at h
          | ok r =>
            simp only [hi, finish, Option.some.injEq, Res.ok.injEq, Prod.mk.injEq] at h
            obtain ⟨rfl, rfl⟩ := h
            obtain ⟨h1, h2, h3⟩ := loop l.insts W _ r.1 r.2 (same_refl W) (fun k l hk hl => (hW k l hk hl).1) hi
            have hC : ¬ C i := by
              intro hc
              obtain ⟨_, c, hc1, j, hj, hcj⟩ := hW i l hc hl
              exact h1 c hc1 j hj hcj
            refine ⟨hC, h2.trans (setB_same _ _ _), ?_⟩
            intro k l2 hk hl2
            have hne : i ≠ k := fun e => hC (e ▸ hk)
            simp only [setB, List.getElem?_modify, hne, if_false] at hl2
            exact h3 k l2 hk (by simpa using hl2)

omit [IsStrictOrderedRing K] in
/-- Layouts without a boundary that instantiate each other in a circle never get one: however deep the calls go, the
reading does not come back. -/
theorem c118_cycle_refuted (L : Lib K) (far : List (K × K)) (W : List (Layout K)) (C : Nat → Prop)
    (hC : ∀ (i : Nat) (l : Layout K), C i → W[i]? = some l → l.boundary = none ∧ ∃ c ∈ l.insts, ∃ j, c.defn = some j ∧ C j)
    (i : Nat) (hi : C i) (n : Nat) (r : List (Layout K) × Shape K) : getB L far n W i ≠ some (.ok r) :=
  fun h => (cycle_aux L far C n W hC i r.1 r.2 h).1 hi

/-! ### examples -/

/-- a layout with two shapes and a layout with a quarter turn of it and a rectangle of its own -/
def exW : List (Layout ℚ) :=
  [⟨[1, 2], [⟨0, 1, .geom (some (.rect ⟨(0, 0), (4, 1)⟩))⟩, ⟨0, 2, .geom (some (.polygon [(1, 0), (2, 3), (1, 2)]))⟩, ⟨0, 1, .text⟩],
     [], [], [], none⟩,
   ⟨[1], [⟨0, 1, .geom (some (.rect ⟨(0, 0), (1, 1)⟩))⟩, ⟨0, 7, .geom (some (.rect ⟨(0, 0), (100, 100)⟩))⟩],
     [⟨some 0, ⟨0, -1, 1, 0, 10, 0⟩⟩], [], [], none⟩]

/-- the library functions of the examples -/
def exLib : Lib ℚ := ⟨fun o _ _ => [o], fun l _ => l⟩

example : (getB exLib [] 2 exW 1).map (fun r => match r with | .ok r => r.2 | _ => .polygon []) =
    some (.polygon (Box.corners ⟨(0, 0), (10, 4)⟩)) := by decide +kernel

example : Ranked exW id ∧ ValidW exW ∧ AxialW exLib exW ∧ Sound exLib exW := by
  refine ⟨?_, ?_, ?_, c118_fresh _ _ (by simp [exW])⟩
  · intro i l hi c hc
    match i with
    | 0 => simp [exW] at hi; subst hi; simp at hc
    | 1 => simp [exW] at hi; subst hi; simp at hc; subst hc; exact ⟨0, rfl, by simp [exW], by simp⟩
    | i + 2 => simp [exW] at hi
  · intro l hl p hp hly s hs
    simp only [exW, List.mem_cons, List.not_mem_nil, or_false] at hl
    rcases hl with rfl | rfl <;> simp only [List.mem_cons, List.not_mem_nil, or_false] at hp
    · rcases hp with rfl | rfl | rfl <;> simp at hs <;> subst hs <;> decide +kernel
    · rcases hp with rfl | rfl <;> simp at hs <;> subst hs <;> decide +kernel
  · intro l hl
    simp only [exW, List.mem_cons, List.not_mem_nil, or_false] at hl
    rcases hl with rfl | rfl <;> constructor
    · intro p hp hly s hs
      simp only [List.mem_cons, List.not_mem_nil, or_false] at hp
      rcases hp with rfl | rfl | rfl <;> simp at hs <;> subst hs <;> simp [Shape.Plain, Shape.contour, Box.corners]
    · simp
    · intro p hp hly s hs
      simp only [List.mem_cons, List.not_mem_nil, or_false] at hp
      rcases hp with rfl | rfl <;> simp at hs <;> subst hs <;> simp [Shape.Plain, Shape.contour, Box.corners]
    · intro c hc
      simp only [List.mem_singleton] at hc
      subst hc
      exact ⟨Or.inr ⟨rfl, rfl⟩, by simp [Aff.det]⟩

example : Filled exLib exW := by
  intro i hi
  match i with
  | 0 => exact ⟨(0, 0), .own (l := exW[0]) (p := ⟨0, 1, .geom (some (.rect ⟨(0, 0), (4, 1)⟩))⟩) (s := .rect ⟨(0, 0), (4, 1)⟩)
      rfl (by simp [exW]) (by simp [exW]) rfl (by simp [Shape.contour, Box.corners])⟩
  | 1 => exact ⟨(0, 0), .own (l := exW[1]) (p := ⟨0, 1, .geom (some (.rect ⟨(0, 0), (1, 1)⟩))⟩) (s := .rect ⟨(0, 0), (1, 1)⟩)
      rfl (by simp [exW]) (by simp [exW]) rfl (by simp [Shape.contour, Box.corners])⟩
  | i + 2 => simp [exW] at hi

end Ecad.Bdy
