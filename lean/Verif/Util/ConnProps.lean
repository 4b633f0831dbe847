import Verif.Util.ConnModel
import Verif.Net.Lemmas
import Verif.Hier.Lemmas
import Verif.Naming.Props
/-!
C20: connectivity extraction groups objects into nets.
-/
namespace Ecad.Conn

/-- what holds while objects are registered -/
structure RegInv (s : Reg) (np nq : Nat) : Prop where
  wf : UMap.WF s.objs
  lt : ∀ e ∈ s.objs, e.1 < s.next
  prims : ∀ e ∈ s.objs, ∀ i, e.2 = .prim i → i < np
  pads : ∀ e ∈ s.objs, ∀ i, e.2 = .pad i → i < nq
  inj : ∀ e ∈ s.objs, ∀ f ∈ s.objs, e.2 = f.2 → e.1 = f.1

theorem RegInv.mono {s : Reg} {np nq np' nq' : Nat} (h : RegInv s np nq) (h1 : np ≤ np')
    (h2 : nq ≤ nq') : RegInv s np' nq' :=
  ⟨h.wf, h.lt, fun e he i hi => lt_of_lt_of_le (h.prims e he i hi) h1,
    fun e he i hi => lt_of_lt_of_le (h.pads e he i hi) h2, h.inj⟩

theorem objs_push {s : Reg} {np nq : Nat} (h : RegInv s np nq) (r : Ref) :
    (UMap.emplace s.objs s.next r).1 = s.objs ++ [(s.next, r)] := by
  have : UMap.count s.objs s.next = false := by
    rw [UMap.count_eq_false_iff]
    intro hm
    obtain ⟨e, he, h'⟩ := List.mem_map.1 hm
    have := h.lt e he
    omega
  simp [UMap.emplace, this]

theorem inv_push {s : Reg} {np nq : Nat} (h : RegInv s np nq) (r : Ref) (l : List (Nat × String))
    (hr : r = .prim np ∨ r = .pad nq) (np' nq' : Nat) (h1 : np ≤ np') (h2 : nq ≤ nq')
    (h3 : r = .prim np → np < np') (h4 : r = .pad nq → nq < nq') :
    RegInv { next := s.next + 1, objs := (UMap.emplace s.objs s.next r).1, labels := l } np' nq' := by
  have hne : ∀ e ∈ s.objs, e.2 ≠ r := by
    intro e he heq
    rcases hr with rfl | rfl
    · have := h.prims e he _ heq; omega
    · have := h.pads e he _ heq; omega
  constructor
  · exact UMap.WF_emplace h.wf _ _
  all_goals simp only [objs_push h r]
  · intro e he
    rcases List.mem_append.1 he with he | he
    · have := h.lt e he; omega
    · rw [List.mem_singleton.1 he]; simp
  · intro e he i hi
    rcases List.mem_append.1 he with he | he
    · have := h.prims e he i hi; omega
    · rw [List.mem_singleton.1 he] at hi
      simp only at hi
      rcases hr with hr | hr
      · rw [hr] at hi; injection hi with hi; subst hi; exact h3 hr
      · rw [hr] at hi; simp at hi
  · intro e he i hi
    rcases List.mem_append.1 he with he | he
    · have := h.pads e he i hi; omega
    · rw [List.mem_singleton.1 he] at hi
      simp only at hi
      rcases hr with hr | hr
      · rw [hr] at hi; simp at hi
      · rw [hr] at hi; injection hi with hi; subst hi; exact h4 hr
  · intro e he f hf hef
    rcases List.mem_append.1 he with he | he <;> rcases List.mem_append.1 hf with hf | hf
    · exact h.inj e he f hf hef
    · rw [List.mem_singleton.1 hf] at hef ⊢
      exact absurd hef (hne e he)
    · rw [List.mem_singleton.1 he] at hef ⊢
      exact absurd hef.symm (hne f hf)
    · rw [List.mem_singleton.1 he, List.mem_singleton.1 hf]

theorem inv_regPrims (ks : List Kind) : ∀ (i : Nat) (s : Reg), RegInv s i 0 →
    RegInv (regPrims i s ks) (i + ks.length) 0 := by
  induction ks with
  | nil => intro i s h; simpa [regPrims] using h
  | cons k ks ih =>
    intro i s h
    rw [List.length_cons, show i + (ks.length + 1) = i + 1 + ks.length by omega]
    cases k with
    | geom => exact ih _ _ (inv_push h _ _ (Or.inl rfl) _ _ (by omega) (le_refl _) (by omega) (by simp))
    | text t => exact ih _ _ (inv_push h _ _ (Or.inl rfl) _ _ (by omega) (le_refl _) (by omega) (by simp))
    | other => exact ih _ _ (h.mono (by omega) (le_refl _))

theorem inv_next {s : Reg} {np nq : Nat} (h : RegInv s np nq) :
    RegInv { s with next := s.next + 1 } np nq :=
  ⟨h.wf, fun e he => by have := h.lt e he; simp only; omega, h.prims, h.pads, h.inj⟩

theorem inv_regShapes (bs : List Bool) : ∀ (np j : Nat) (added : Bool) (s : Reg),
    RegInv s np (if added then j + 1 else j) →
    RegInv (regShapes j added s bs) np (j + 1) := by
  induction bs with
  | nil =>
    intro np j added s h
    exact h.mono (le_refl _) (by split <;> omega)
  | cons b bs ih =>
    intro np j added s h
    cases b with
    | false => exact ih np j added s h
    | true =>
      cases added with
      | false =>
        simp only [regShapes, Bool.not_false, if_true]
        apply ih
        exact inv_push h _ _ (Or.inr rfl) _ _ (le_refl _) (by simp) (by simp) (by simp)
      | true =>
        simp only [regShapes, Bool.not_true, Bool.false_eq_true, if_false]
        exact ih np j true _ (inv_next h)

theorem inv_regPads (ps : List (List Bool)) : ∀ (np j : Nat) (s : Reg), RegInv s np j →
    RegInv (regPads j s ps) np (j + ps.length) := by
  induction ps with
  | nil => intro np j s h; simpa [regPads] using h
  | cons p ps ih =>
    intro np j s h
    rw [List.length_cons, show j + (ps.length + 1) = j + 1 + ps.length by omega]
    exact ih np (j + 1) _ (inv_regShapes p np j false s h)

theorem inv_register (o : Objs) : RegInv (register o) o.prims.length o.pads.length := by
  have h0 : RegInv {} 0 0 := ⟨UMap.WF_nil, by simp, by simp, by simp, by simp⟩
  have := inv_regPads o.pads _ 0 _ (inv_regPrims o.prims 0 {} h0)
  simpa [register] using this

/-! which objects are registered -/

theorem mem_regPrims (ks : List Kind) : ∀ (i : Nat) (s : Reg), RegInv s i 0 → ∀ r,
    (∃ n, (n, r) ∈ (regPrims i s ks).objs) ↔ (∃ n, (n, r) ∈ s.objs) ∨
      ∃ k, r = .prim (i + k) ∧ ∃ x, ks[k]? = some x ∧ x ≠ .other := by
  induction ks with
  | nil => intro i s _ r; simp [regPrims]
  | cons k ks ih =>
    intro i s h r
    have tail : ∀ s' : Reg, RegInv s' (i + 1) 0 → ((∃ n, (n, r) ∈ s'.objs) ↔
        ((∃ n, (n, r) ∈ s.objs) ∨ (k ≠ .other ∧ r = .prim i))) →
        ((∃ n, (n, r) ∈ (regPrims (i + 1) s' ks).objs) ↔
          (((∃ n, (n, r) ∈ s.objs) ∨ (k ≠ .other ∧ r = .prim i)) ∨
          ∃ k', r = .prim (i + 1 + k') ∧ ∃ x, ks[k']? = some x ∧ x ≠ .other)) := fun s' h1 h2 => by
      have := ih (i + 1) s' h1 r
      rw [h2] at this
      exact this
    have shape : (((∃ n, (n, r) ∈ s.objs) ∨ (k ≠ .other ∧ r = .prim i)) ∨
        ∃ k', r = .prim (i + 1 + k') ∧ ∃ x, ks[k']? = some x ∧ x ≠ .other) ↔
        ((∃ n, (n, r) ∈ s.objs) ∨
          ∃ k', r = .prim (i + k') ∧ ∃ x, (k :: ks)[k']? = some x ∧ x ≠ .other) := by
      rw [or_assoc]
      apply or_congr Iff.rfl
      constructor
      · rintro (⟨h1, h2⟩ | ⟨k', h1, x, h2, h3⟩)
        · exact ⟨0, h2, k, rfl, h1⟩
        · exact ⟨k' + 1, by rw [h1]; congr 1; omega, x, by simpa using h2, h3⟩
      · rintro ⟨k', h1, x, h2, h3⟩
        cases k' with
        | zero => left; simp at h2; subst h2; exact ⟨h3, h1⟩
        | succ k' => right; exact ⟨k', by rw [h1]; congr 1; omega, x, by simpa using h2, h3⟩
    cases k with
    | geom =>
      refine Iff.trans (tail _ (inv_push h _ s.labels (Or.inl rfl) _ _ (by omega) (le_refl _)
        (by omega) (by simp)) ?_) shape
      simp only [objs_push h, List.mem_append, List.mem_singleton, Prod.mk.injEq]
      constructor
      · rintro ⟨n, h | h⟩
        · exact Or.inl ⟨n, h⟩
        · exact Or.inr ⟨by simp, h.2⟩
      · rintro (⟨n, h⟩ | h)
        · exact ⟨n, Or.inl h⟩
        · exact ⟨_, Or.inr ⟨rfl, h.2⟩⟩
    | text t =>
      refine Iff.trans (tail _ (inv_push h _ (UMap.emplace s.labels s.next t).1 (Or.inl rfl) _ _
        (by omega) (le_refl _) (by omega) (by simp)) ?_) shape
      simp only [objs_push h, List.mem_append, List.mem_singleton, Prod.mk.injEq]
      constructor
      · rintro ⟨n, h | h⟩
        · exact Or.inl ⟨n, h⟩
        · exact Or.inr ⟨by simp, h.2⟩
      · rintro (⟨n, h⟩ | h)
        · exact ⟨n, Or.inl h⟩
        · exact ⟨_, Or.inr ⟨rfl, h.2⟩⟩
    | other =>
      refine Iff.trans (tail s (h.mono (by omega) (le_refl _)) ?_) shape
      simp

theorem mem_regShapes (bs : List Bool) : ∀ (np j : Nat) (added : Bool) (s : Reg),
    RegInv s np (if added then j + 1 else j) → ∀ r,
    (∃ n, (n, r) ∈ (regShapes j added s bs).objs) ↔ (∃ n, (n, r) ∈ s.objs) ∨
      (added = false ∧ r = .pad j ∧ true ∈ bs) := by
  induction bs with
  | nil => intro np j added s _ r; simp [regShapes]
  | cons b bs ih =>
    intro np j added s h r
    cases b with
    | false =>
      simp only [regShapes]
      rw [ih np j added s h r]
      simp
    | true =>
      cases added with
      | false =>
        simp only [regShapes, Bool.not_false, if_true]
        simp only [Bool.false_eq_true, if_false] at h
        rw [ih np j true _ (inv_push h _ s.labels (Or.inr rfl) _ _ (le_refl _) (by simp) (by simp)
          (by simp)) r]
        simp only [objs_push h, List.mem_append, List.mem_singleton, Prod.mk.injEq]
        constructor
        · rintro (⟨n, h | h⟩ | h)
          · exact Or.inl ⟨n, h⟩
          · exact Or.inr ⟨trivial, h.2, by simp⟩
          · simp at h
        · rintro (⟨n, h⟩ | h)
          · exact Or.inl ⟨n, Or.inl h⟩
          · exact Or.inl ⟨_, Or.inr ⟨rfl, h.2.1⟩⟩
      | true =>
        simp only [regShapes, Bool.not_true, Bool.false_eq_true, if_false]
        rw [ih np j true _ (inv_next h) r]
        simp

theorem mem_regPads (ps : List (List Bool)) : ∀ (np j : Nat) (s : Reg), RegInv s np j → ∀ r,
    (∃ n, (n, r) ∈ (regPads j s ps).objs) ↔ (∃ n, (n, r) ∈ s.objs) ∨
      ∃ k, r = .pad (j + k) ∧ ∃ x, ps[k]? = some x ∧ true ∈ x := by
  induction ps with
  | nil => intro np j s _ r; simp [regPads]
  | cons p ps ih =>
    intro np j s h r
    simp only [regPads]
    rw [ih np (j + 1) _ (inv_regShapes p np j false s h) r, mem_regShapes p np j false s h r, or_assoc]
    apply or_congr Iff.rfl
    constructor
    · rintro (⟨_, h1, h2⟩ | ⟨k', h1, x, h2, h3⟩)
      · exact ⟨0, h1, p, rfl, h2⟩
      · exact ⟨k' + 1, by rw [h1]; congr 1; omega, x, by simpa using h2, h3⟩
    · rintro ⟨k', h1, x, h2, h3⟩
      cases k' with
      | zero => left; simp at h2; subst h2; exact ⟨rfl, h1, h3⟩
      | succ k' => right; exact ⟨k', by rw [h1]; congr 1; omega, x, by simpa using h2, h3⟩

/-- The objects that take part: geometries, texts, and padstack instances with a shape on some
layer. -/
def TakesPart (o : Objs) : Ref → Prop
  | .prim i => ∃ k, o.prims[i]? = some k ∧ k ≠ .other
  | .pad j => ∃ bs, o.pads[j]? = some bs ∧ true ∈ bs

theorem takesPart_iff (o : Objs) (r : Ref) : (∃ n, (n, r) ∈ (register o).objs) ↔ TakesPart o r := by
  have h0 : RegInv {} 0 0 := ⟨UMap.WF_nil, by simp, by simp, by simp, by simp⟩
  unfold register
  rw [mem_regPads _ _ 0 _ (inv_regPrims o.prims 0 {} h0), mem_regPrims _ 0 {} h0]
  cases r with
  | prim i => simp [TakesPart]
  | pad j => simp [TakesPart]

/-! the groups -/

theorem createNet_spec {c : Net.Coll} (h : Net.Inv c) (base : String) :
    ∃ n, (Net.createNet c (Naming.nextName (UMap.keys c.nets) base)).2 = some ⟨n, Net.uidValue c.uid⟩ ∧
      (Net.createNet c (Naming.nextName (UMap.keys c.nets) base)).1.nets =
        c.nets ++ [(n, ⟨n, Net.uidValue c.uid⟩)] ∧
      (Net.createNet c (Naming.nextName (UMap.keys c.nets) base)).1.uid = c.uid + 1 ∧
      Net.Inv (Net.createNet c (Naming.nextName (UMap.keys c.nets) base)).1 := by
  have hf := Net.nextName_fresh c base
  refine ⟨Naming.nextName (UMap.keys c.nets) base, ?_, ?_, ?_, Net.inv_step h (.create _)⟩
  · simp [Net.createNet, hf]
  · simp [Net.createNet, hf, UMap.emplace]
  · simp [Net.createNet, hf]

theorem setNets_spec (objs : List (Nat × Ref)) (id : Int) (is : List Nat) : ∀ (nets : Ref → Int) r,
    setNets objs id nets is r = if ∃ i ∈ is, UMap.find? objs i = some r then id else nets r := by
  induction is with
  | nil => intro nets r; simp [setNets]
  | cons i is ih =>
    intro nets r
    unfold setNets
    cases h : UMap.find? objs i with
    | none =>
      simp only
      rw [ih]
      simp [h]
    | some q =>
      simp only
      rw [ih]
      by_cases h1 : ∃ j ∈ is, UMap.find? objs j = some r
      · rw [if_pos h1, if_pos]
        obtain ⟨j, hj, h'⟩ := h1
        exact ⟨j, by simp [hj], h'⟩
      · rw [if_neg h1]
        by_cases h2 : r = q
        · subst h2
          rw [if_pos rfl, if_pos]
          exact ⟨i, by simp, h⟩
        · rw [if_neg h2, if_neg]
          rintro ⟨j, hj, h'⟩
          rcases List.mem_cons.1 hj with rfl | hj
          · rw [h] at h'; injection h' with h'; exact h2 h'.symm
          · exact h1 ⟨j, hj, h'⟩

theorem groups_spec (s : Reg) (hw : UMap.WF s.objs)
    (hinj : ∀ e ∈ s.objs, ∀ f ∈ s.objs, e.2 = f.2 → e.1 = f.1) (gs : List (List Nat)) :
    ∀ (c : Net.Coll) (nets : Ref → Int), Net.Inv c → gs.flatten.Nodup →
    ∃ c' nets' new, groups s c nets gs = .ok (c', nets') ∧ Net.Inv c' ∧ c'.uid = c.uid + gs.length ∧
      c'.nets = c.nets ++ new ∧ new.length = gs.length ∧
      (∀ (k : Nat) e, new[k]? = some e → e.2.id = Net.uidValue (c.uid + k)) ∧
      (∀ i r, (i, r) ∈ s.objs → ∀ (k : Nat) g, gs[k]? = some g → i ∈ g →
        nets' r = Net.uidValue (c.uid + k)) ∧
      (∀ r, (∀ i, (i, r) ∈ s.objs → i ∉ gs.flatten) → nets' r = nets r) := by
  induction gs with
  | nil =>
    intro c nets hc _
    exact ⟨c, nets, [], rfl, hc, rfl, by simp, rfl, by simp, by simp, by simp⟩
  | cons g gs ih =>
    intro c nets hc hnd
    rw [List.flatten_cons] at hnd
    obtain ⟨n, h1, h2, h3, h4⟩ := createNet_spec hc (netName s.labels g)
    obtain ⟨c', nets', new, r1, r2, r3, r4, r5, r6, r7, r8⟩ := ih
      (Net.createNet c (Naming.nextName (UMap.keys c.nets) (netName s.labels g))).1
      (setNets s.objs (Net.uidValue c.uid) nets g) h4 (List.nodup_append.1 hnd).2.1
    have hdisj := (List.nodup_append.1 hnd).2.2
    refine ⟨c', nets', (n, ⟨n, Net.uidValue c.uid⟩) :: new, ?_, r2, ?_, ?_, ?_, ?_, ?_, ?_⟩
    · simp only [groups, h1]; exact r1
    · rw [r3, h3, List.length_cons]; omega
    · rw [r4, h2]; simp
    · simp [r5]
    · intro k e hk
      cases k with
      | zero => simp only [List.getElem?_cons_zero, Option.some.injEq] at hk; rw [← hk]; simp
      | succ k =>
        rw [List.getElem?_cons_succ] at hk
        rw [r6 k e hk, h3]
        congr 1; omega
    · intro i r hir k g' hk hi
      cases k with
      | zero =>
        simp at hk
        subst hk
        rw [r8 r, setNets_spec, if_pos]
        · simp
        · exact ⟨i, hi, (UMap.find?_eq_some_iff hw i r).2 hir⟩
        · intro j hj hjm
          have : j = i := hinj (j, r) hj (i, r) hir rfl
          subst this
          exact hdisj j hi j hjm rfl
      | succ k =>
        rw [List.getElem?_cons_succ] at hk
        rw [r7 i r hir k g' hk hi, h3]
        congr 1; omega
    · intro r hr
      rw [r8 r (fun i hi hm => hr i hi (by simp [hm])), setNets_spec, if_neg]
      rintro ⟨i, hi, hf⟩
      exact hr i (UMap.find?_mem hf) (by simp [hi])

/-- **C20.** Let `cc` be a partition of the registered indices into connected groups.  Then the
extraction ends well; there is one net per group, with distinct names and ids; every object that
takes part has one registered index, is put on one of these nets, and two of them are on the same
net exactly when their indices are in the same group.  Other objects keep the net id they had. -/
theorem c20_connectivity (layers : Nat) (hlay : layers ≠ 0) (o : Objs) (cc : List (List Nat))
    (c : Net.Coll) (nets : Ref → Int)
    (hdisj : cc.flatten.Nodup) (hcover : ∀ i < (register o).next, ∃ g ∈ cc, i ∈ g)
    (hnum : cc.length ≤ 2 ^ 31) :
    ∃ c' nets', extract layers o cc c nets = .ok (c', nets') ∧
      c'.nets.length = cc.length ∧ (c'.nets.map fun e => e.2.name).Nodup ∧
      (c'.nets.map fun e => e.2.id).Nodup ∧
      (∀ r, TakesPart o r → ∃! i, (i, r) ∈ (register o).objs) ∧
      (∀ r, TakesPart o r → ∃ e ∈ c'.nets, e.2.id = nets' r) ∧
      (∀ i r j t, (i, r) ∈ (register o).objs → (j, t) ∈ (register o).objs →
        (nets' r = nets' t ↔ ∃ g ∈ cc, i ∈ g ∧ j ∈ g)) ∧
      (∀ r, ¬ TakesPart o r → nets' r = nets r) := by
  have hreg := inv_register o
  obtain ⟨c', nets', new, r1, r2, r3, r4, r5, r6, r7, r8⟩ :=
    groups_spec (register o) hreg.wf hreg.inj cc (Net.clear c) nets Net.inv_empty hdisj
  have hn : c'.nets = new := by rw [r4]; rfl
  have hu : c'.uid = cc.length := by rw [r3]; simp [Net.clear]
  have hval : ∀ i r, (i, r) ∈ (register o).objs → ∃ k g, cc[k]? = some g ∧ i ∈ g ∧ k < cc.length ∧
      nets' r = (k : Int) := by
    intro i r hir
    obtain ⟨g, hg, hi⟩ := hcover i (hreg.lt _ hir)
    obtain ⟨k, hk⟩ := List.mem_iff_getElem?.1 hg
    have hlt := (List.getElem?_eq_some_iff.1 hk).1
    refine ⟨k, g, hk, hi, hlt, ?_⟩
    rw [r7 i r hir k g hk hi]
    have e0 : (Net.clear c).uid + k = k := by simp [Net.clear]
    rw [e0]
    exact Hier.uidValue_small (by omega)
  refine ⟨c', nets', ?_, ?_, ?_, ?_, ?_, ?_, ?_, ?_⟩
  · simp only [extract, if_neg hlay]; exact r1
  · rw [hn, r5]
  · have : c'.nets.map (fun e => e.2.name) = UMap.keys c'.nets :=
      List.map_congr_left fun e he => r2.named e he
    rw [this]; exact r2.wf
  · exact Net.nodup_ids r2 (by rw [hu]; omega)
  · intro r hr
    obtain ⟨i, hi⟩ := (takesPart_iff o r).2 hr
    exact ⟨i, hi, fun j hj => hreg.inj _ hj _ hi rfl⟩
  · intro r hr
    obtain ⟨i, hi⟩ := (takesPart_iff o r).2 hr
    obtain ⟨k, g, hk, hig, hlt, hv⟩ := hval i r hi
    obtain ⟨e, he⟩ : ∃ e, new[k]? = some e := ⟨_, List.getElem?_eq_getElem (by omega)⟩
    refine ⟨e, by rw [hn]; exact List.mem_of_getElem? he, ?_⟩
    rw [r6 k e he, hv]
    have e0 : (Net.clear c).uid + k = k := by simp [Net.clear]
    rw [e0]
    exact Hier.uidValue_small (by omega)
  · intro i r j t hi hj
    obtain ⟨k, g, hk, hig, hlt, hv⟩ := hval i r hi
    obtain ⟨k', g', hk', hjg, hlt', hv'⟩ := hval j t hj
    rw [hv, hv']
    constructor
    · intro h
      have : k = k' := by omega
      subst this
      rw [hk] at hk'
      injection hk' with hk'
      subst hk'
      exact ⟨g, List.mem_of_getElem? hk, hig, hjg⟩
    · rintro ⟨x, hx, hix, hjx⟩
      obtain ⟨m, hm⟩ := List.mem_iff_getElem?.1 hx
      have a := r7 i r hi m x hm hix
      have b := r7 j t hj m x hm hjx
      rw [← hv, ← hv', a, b]
  · intro r hr
    exact r8 r fun i hi _ => hr ((takesPart_iff o r).1 ⟨i, hi⟩)

/-! names -/

/-- the labels are those of the texts among the registered primitives -/
def Lab (f : Nat → Option Kind) (s : Reg) : Prop :=
  ∀ n t, UMap.find? s.labels n = some t ↔ ∃ p, (n, Ref.prim p) ∈ s.objs ∧ f p = some (.text t)

theorem Lab.lt {f : Nat → Option Kind} {s : Reg} {np nq : Nat} (h : Lab f s) (hi : RegInv s np nq) : UMap.count s.labels s.next = false := by
  rw [Bool.eq_false_iff]
  intro hc
  rw [← UMap.find?_isSome_eq_count] at hc
  obtain ⟨t, ht⟩ := Option.isSome_iff_exists.1 hc
  obtain ⟨p, hp, _⟩ := (h _ _).1 ht
  have := hi.lt _ hp
  simp at this

theorem lab_regPrims (f : Nat → Option Kind) (ks : List Kind) : ∀ (i : Nat) (s : Reg), RegInv s i 0 →
    (∀ k x, ks[k]? = some x → f (i + k) = some x) → Lab f s → Lab f (regPrims i s ks) := by
  induction ks with
  | nil => intro i s _ _ h; exact h
  | cons k ks ih =>
    intro i s hi hk hl
    have hk0 := hk 0 k rfl
    have hk' : ∀ k' x, ks[k']? = some x → f (i + 1 + k') = some x := fun k' x hx => by
      rw [show i + 1 + k' = i + (k' + 1) by omega]; exact hk (k' + 1) x (by simpa using hx)
    rw [Nat.add_zero] at hk0
    cases k with
    | geom =>
      refine ih _ _ (inv_push hi _ _ (Or.inl rfl) _ _ (by omega) (le_refl _) (by omega) (by simp)) hk' ?_
      intro n t
      simp only [objs_push hi, List.mem_append, List.mem_singleton, Prod.mk.injEq]
      rw [hl n t]
      constructor
      · rintro ⟨p, h1, h2⟩; exact ⟨p, Or.inl h1, h2⟩
      · rintro ⟨p, h1 | h1, h2⟩
        · exact ⟨p, h1, h2⟩
        · injection h1.2 with h3
          rw [h3, hk0] at h2
          simp at h2
    | text lab =>
      refine ih _ _ (inv_push hi _ _ (Or.inl rfl) _ _ (by omega) (le_refl _) (by omega) (by simp)) hk' ?_
      intro n t
      have hc := hl.lt hi
      have hc' : UMap.find? s.labels s.next = none := by
        rw [← Option.not_isSome_iff_eq_none, UMap.find?_isSome_eq_count, hc]; simp
      simp only [objs_push hi, List.mem_append, List.mem_singleton, Prod.mk.injEq]
      rw [show (UMap.emplace s.labels s.next lab).1 = s.labels ++ [(s.next, lab)] by simp [UMap.emplace, hc], UMap.find?_append]
      constructor
      · intro h
        cases hn : UMap.find? s.labels n with
        | some t' =>
          rw [hn] at h
          simp only [Option.some_or, Option.some.injEq] at h
          obtain ⟨p, h1, h2⟩ := (hl n t').1 hn
          exact ⟨p, Or.inl h1, by rw [← h]; exact h2⟩
        | none =>
          rw [hn, Option.none_or, UMap.find?_cons] at h
          simp only [UMap.find?_nil] at h
          split at h
          · rename_i he
            simp only [Option.some.injEq] at h
            exact ⟨i, Or.inr ⟨he.symm, rfl⟩, by rw [hk0, h]⟩
          · simp at h
      · rintro ⟨p, h1 | h1, h2⟩
        · rw [(hl n t).2 ⟨p, h1, h2⟩]; rfl
        · injection h1.2 with h3
          rw [h3, hk0] at h2
          simp only [Option.some.injEq, Kind.text.injEq] at h2
          rw [h1.1, hc', Option.none_or, UMap.find?_cons, h2]
          simp
    | other => exact ih _ _ (hi.mono (by omega) (le_refl _)) hk' hl

theorem lab_regShapes (f : Nat → Option Kind) (bs : List Bool) : ∀ (np j : Nat) (added : Bool) (s : Reg),
    RegInv s np (if added then j + 1 else j) → Lab f s → Lab f (regShapes j added s bs) := by
  induction bs with
  | nil => intro np j added s _ h; exact h
  | cons b bs ih =>
    intro np j added s h hl
    cases b with
    | false => exact ih np j added s h hl
    | true =>
      cases added with
      | false =>
        simp only [regShapes, Bool.not_false, if_true]
        simp only [Bool.false_eq_true, if_false] at h
        refine ih np j true _ (inv_push h _ _ (Or.inr rfl) _ _ (le_refl _) (by simp) (by simp) (by simp)) ?_
        intro n t
        simp only [objs_push h, List.mem_append, List.mem_singleton, Prod.mk.injEq]
        rw [hl n t]
        simp
      | true =>
        simp only [regShapes, Bool.not_true, Bool.false_eq_true, if_false]
        exact ih np j true _ (inv_next h) hl

theorem lab_regPads (f : Nat → Option Kind) (ps : List (List Bool)) : ∀ (np j : Nat) (s : Reg), RegInv s np j → Lab f s →
    Lab f (regPads j s ps) := by
  induction ps with
  | nil => intro np j s _ h; exact h
  | cons p ps ih =>
    intro np j s h hl
    exact ih np (j + 1) _ (inv_regShapes p np j false s h) (lab_regShapes f p np j false s h hl)

theorem lab_register (o : Objs) : Lab (fun p => o.prims[p]?) (register o) := by
  have h0 : RegInv {} 0 0 := ⟨UMap.WF_nil, by simp, by simp, by simp, by simp⟩
  refine lab_regPads _ o.pads _ 0 _ (inv_regPrims o.prims 0 {} h0) (lab_regPrims _ o.prims 0 {} h0 ?_ ?_)
  · intro k x hx; simpa using hx
  · intro n t; simp [UMap.find?_nil]

/-- index `i` is that of a text with label `t` -/
def IsText (o : Objs) (i : Nat) (t : String) : Prop := ∃ p, (i, Ref.prim p) ∈ (register o).objs ∧ o.prims[p]? = some (.text t)

/-- the label of a group: that of its first text, if it is not empty, and `Auto_Net` otherwise -/
def GroupLabel (o : Objs) (g : List Nat) (s : String) : Prop :=
  (∃ pre i post, g = pre ++ i :: post ∧ (∀ j ∈ pre, ∀ t, ¬ IsText o j t) ∧ IsText o i s ∧ s ≠ "") ∨
  (s = "Auto_Net" ∧ ((∀ i ∈ g, ∀ t, ¬ IsText o i t) ∨
    ∃ pre i post, g = pre ++ i :: post ∧ (∀ j ∈ pre, ∀ t, ¬ IsText o j t) ∧ IsText o i ""))

theorem netName_label (o : Objs) (g : List Nat) : GroupLabel o g (netName (register o).labels g) := by
  have hl := lab_register o
  have hnone : ∀ j, UMap.find? (register o).labels j = none → ∀ t, ¬ IsText o j t := by
    intro j hj t ht
    have := (hl j t).2 ht
    rw [hj] at this
    simp at this
  unfold netName
  cases hf : g.findSome? (UMap.find? (register o).labels) with
  | none =>
    right
    refine ⟨by simp, Or.inl fun i hi => hnone i ?_⟩
    exact List.findSome?_eq_none_iff.1 hf i hi
  | some t =>
    obtain ⟨pre, i, post, rfl, hi, hpre⟩ := List.findSome?_eq_some_iff.1 hf
    have ht : IsText o i t := (hl i t).1 hi
    have hp : ∀ j ∈ pre, ∀ t, ¬ IsText o j t := fun j hj => hnone j (hpre j hj)
    simp only [Option.getD_some]
    split
    · rename_i he
      subst he
      exact Or.inr ⟨rfl, Or.inr ⟨pre, i, post, rfl, hp, ht⟩⟩
    · rename_i he
      exact Or.inl ⟨pre, i, post, rfl, hp, ht, he⟩

theorem groups_names (s : Reg) (gs : List (List Nat)) : ∀ (c : Net.Coll) (nets : Ref → Int) (c' : Net.Coll) (nets' : Ref → Int), Net.Inv c →
    groups s c nets gs = .ok (c', nets') → ∀ (k : Nat) g, gs[k]? = some g → ∃ r, UMap.keys c'.nets = UMap.keys c.nets ++ r ∧
      ∃ n, r[k]? = some n ∧ IsNextName (UMap.keys c.nets ++ r.take k) (netName s.labels g) n := by
  induction gs with
  | nil => intro c nets c' nets' _ _ k g hk; simp at hk
  | cons g0 gs ih =>
    intro c nets c' nets' hc h k g hk
    obtain ⟨n, h1, h2, h3, h4⟩ := createNet_spec hc (netName s.labels g0)
    simp only [groups, h1] at h
    have hn : n = Naming.nextName (UMap.keys c.nets) (netName s.labels g0) := by
      have hf := Net.nextName_fresh c (netName s.labels g0)
      simp only [Net.createNet, hf] at h1
      simp at h1
      exact h1.symm
    have hk1 : UMap.keys (Net.createNet c (Naming.nextName (UMap.keys c.nets) (netName s.labels g0))).1.nets = UMap.keys c.nets ++ [n] := by
      rw [h2]; simp [UMap.keys]
    cases k with
    | zero =>
      simp only [List.getElem?_cons_zero, Option.some.injEq] at hk
      subst hk
      have hpre : ∃ r, UMap.keys c'.nets = (UMap.keys c.nets ++ [n]) ++ r := by
        rw [← hk1]
        cases gs with
        | nil =>
          simp only [groups, Res.ok.injEq, Prod.mk.injEq] at h
          exact ⟨[], by rw [← h.1]; simp⟩
        | cons g1 gs =>
          obtain ⟨r, hr, _⟩ := ih _ _ _ _ h4 h 0 g1 rfl
          exact ⟨r, hr⟩
      obtain ⟨r, hr⟩ := hpre
      refine ⟨n :: r, by rw [hr]; simp, n, rfl, ?_⟩
      obtain ⟨r', hr', he⟩ := c01_next_name (UMap.keys c.nets) (netName s.labels g0)
      have := he ((UMap.keys c.nets).length + 1) (le_refl _)
      rw [Naming.nextName_eq, Option.some.injEq] at this
      simp only [List.take_zero, List.append_nil]
      rw [hn, this]
      exact hr'
    | succ k =>
      rw [List.getElem?_cons_succ] at hk
      obtain ⟨r, hr, n', hn', hnext⟩ := ih _ _ _ _ h4 h k g hk
      rw [hk1] at hr hnext
      refine ⟨n :: r, by rw [hr]; simp, n', by simpa using hn', ?_⟩
      simpa using hnext

/-- **C20**, names: the net of a group is named after the label of the group, with the first number that makes the name free if
an earlier group has it. -/
theorem c20_names (layers : Nat) (o : Objs) (cc : List (List Nat)) (c : Net.Coll) (nets : Ref → Int) (c' : Net.Coll) (nets' : Ref → Int)
    (h : extract layers o cc c nets = .ok (c', nets')) (k : Nat) (g : List Nat) (hk : cc[k]? = some g) :
    ∃ label name, GroupLabel o g label ∧ (c'.nets.map Prod.fst)[k]? = some name ∧ IsNextName ((c'.nets.map Prod.fst).take k) label name := by
  unfold extract at h
  split at h
  · simp at h
  · obtain ⟨r, hr, n, hn, hnext⟩ := groups_names _ _ _ _ _ _ Net.inv_empty h k g hk
    have h0 : UMap.keys ({} : Net.Coll).nets = [] := rfl
    rw [h0, List.nil_append] at hr hnext
    refine ⟨_, n, netName_label o g, ?_, ?_⟩
    · show (UMap.keys c'.nets)[k]? = some n
      rw [hr]; exact hn
    · show IsNextName ((UMap.keys c'.nets).take k) _ _
      rw [hr]; exact hnext

/-- **C20, a finding.** A bondwire (or a padstack instance without any shape) does not take part, but
the nets it might refer to are replaced: whenever at least one group is found, an object that does
not take part and was on net 0 ends up on the net of the first group, connected or not. -/
theorem c20_bystander_refuted (layers : Nat) (hlay : layers ≠ 0) (o : Objs) (g : List Nat)
    (cc : List (List Nat)) (c : Net.Coll) (nets : Ref → Int) (hdisj : (g :: cc).flatten.Nodup)
    (w : Ref) (hw : ¬ TakesPart o w) (hnet : nets w = 0)
    (i : Nat) (r : Ref) (hi : (i, r) ∈ (register o).objs) (hig : i ∈ g) :
    ∃ c' nets', extract layers o (g :: cc) c nets = .ok (c', nets') ∧ nets' w = nets' r := by
  have hreg := inv_register o
  obtain ⟨c', nets', new, r1, r2, r3, r4, r5, r6, r7, r8⟩ :=
    groups_spec (register o) hreg.wf hreg.inj (g :: cc) (Net.clear c) nets Net.inv_empty hdisj
  refine ⟨c', nets', by simp only [extract, if_neg hlay]; exact r1, ?_⟩
  rw [r7 i r hi 0 g rfl hig, r8 w fun j hj _ => hw ((takesPart_iff o w).1 ⟨j, hj⟩), hnet]
  have : (0 : Int) = Net.uidValue (0 + 0) := by decide
  exact this

/-- **C20, another finding.** Without stackup layers the extraction reads outside of a vector. -/
theorem c20_no_layers (o : Objs) (cc : List (List Nat)) (c : Net.Coll) (nets : Ref → Int) :
    extract 0 o cc c nets = .ub := rfl

/-- example: two geometries, a text, a bondwire, a padstack instance on two of three layers -/
def exObjs : Objs := ⟨[.geom, .other, .text "VDD", .geom], [[true, false, true]]⟩

example : (register exObjs).next = 5 ∧ ([[0, 2], [1, 3, 4]] : List (List Nat)).flatten.Nodup ∧
    (∀ i < 5, ∃ g ∈ ([[0, 2], [1, 3, 4]] : List (List Nat)), i ∈ g) ∧
    ¬ TakesPart exObjs (.prim 1) ∧ TakesPart exObjs (.pad 0) := by
  refine ⟨by decide, by decide, by decide, ?_, ?_⟩
  · rintro ⟨k, h1, h2⟩
    simp [exObjs] at h1
    exact h2 h1.symm
  · exact ⟨_, rfl, by decide⟩

example : (match extract 2 exObjs [[0, 2], [1, 3, 4]] {} (fun _ => 0) with
    | .ok (c, n) => (c.nets.map Prod.fst, [n (.prim 0), n (.prim 1), n (.prim 2), n (.prim 3), n (.pad 0)])
    | _ => ([], [])) = (["Auto_Net", "VDD"], [0, 0, 1, 0, 1]) := by decide +kernel

end Ecad.Conn
