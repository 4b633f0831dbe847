import Verif.Hier.Spec
/-!
Lemmas on flattening.
-/
namespace Ecad.Hier
open LayerMap (BiMap forward noLayer componentLayer)
variable {G T : Type}

/-- flattening of one cell as a function of the original design -/
def flatL (act : T → G → G) (comp : T → T → T) (sep : Char) (db : Db G T) :
    Nat → Nat → Res (Layout G T)
  | 0, _ => .ub
  | n + 1, c =>
    (forEach (fun l i => (flatL act comp sep db n i.defCell).bind fun o =>
      mergeInto act comp sep c l i o) (db c) (db c).insts).bind fun l => .ok { l with insts := [] }

theorem forEach_congr {S A : Type} {f g : S → A → Res S} (as : List A)
    (h : ∀ a ∈ as, ∀ s, f s a = g s a) (s : S) : forEach f s as = forEach g s as := by
  induction as generalizing s with
  | nil => rfl
  | cons a as ih =>
    simp only [forEach, h a (by simp) s]
    congr 1
    funext s'
    exact ih (fun b hb => h b (by simp [hb])) s'

/-- paths that begin with a number below `k`, or are empty -/
def Below (k : Nat) (e : Exp G) : Prop :=
  (∀ x ∈ e.prims, ∀ h π, x.1 = h :: π → h < k) ∧ (∀ x ∈ e.pads, ∀ h π, x.1 = h :: π → h < k) ∧
  (∀ x ∈ e.comps, ∀ h π, x.1 = h :: π → h < k) ∧ (∀ x ∈ e.nets, ∀ h π, x.1 = h :: π → h < k)

theorem below_own (l : Layout G T) : Below 0 (Exp.own l) := by
  refine ⟨?_, ?_, ?_, ?_⟩ <;>
  · intro x hx h π he
    simp only [Exp.own, List.mem_map] at hx
    obtain ⟨_, _, rfl⟩ := hx
    simp at he

theorem below_append {k : Nat} {e : Exp G} (h : Below k e) (act : T → G → G) (fwd : Int → Int)
    (t : T) (f : Exp G) : Below (k + 1) (e.append (f.under act k fwd t)) := by
  obtain ⟨h1, h2, h3, h4⟩ := h
  refine ⟨?_, ?_, ?_, ?_⟩ <;>
  · intro x hx a π he
    simp only [Exp.append, Exp.under, List.mem_append, List.mem_map] at hx
    rcases hx with hx | ⟨y, _, rfl⟩
    · have := by first | exact h1 x hx a π he | exact h2 x hx a π he | exact h3 x hx a π he | exact h4 x hx a π he
      omega
    · simp only [List.cons.injEq] at he
      omega

/-- the function on paths extended at `k` -/
def extend {A B : Type} (k : Nat) (f : List Nat → A → B) (g : List Nat → A → B) :
    List Nat → A → B
  | [] => f []
  | h :: π => if h = k then g π else f (h :: π)

theorem extend_below {A B : Type} {k : Nat} {f g : List Nat → A → B} {π : List Nat}
    (h : ∀ h' π', π = h' :: π' → h' < k) : extend k f g π = f π := by
  cases π with
  | nil => rfl
  | cons a π =>
    have := h a π rfl
    simp only [extend]
    rw [if_neg (by omega)]

theorem extend_cons {A B : Type} {k : Nat} {f g : List Nat → A → B} {π : List Nat} :
    extend k f g (k :: π) = g π := by simp [extend]

theorem rename_id {c : Nat} {l : Layout G T} (h : LayoutOK c l) {p : Prim G} (hp : p ∈ l.prims) :
    rename c id id p = p := by
  have hw := h.wire p hp
  obtain ⟨n, ly, g, w⟩ := p
  cases w with
  | none => rfl
  | some w =>
    obtain ⟨_, _, h3, h4, _⟩ := hw w rfl
    obtain ⟨el, sc, sp, ec, ep⟩ := w
    simp only at h3 h4
    simp only [rename, id, Option.map_some, Prim.mk.injEq, Option.some.injEq, Wire.mk.injEq, true_and,
      and_true]
    constructor
    · cases sc with
      | none => rfl
      | some r => rw [Option.map_some, ← (h3 r rfl).1]
    · cases ec with
      | none => rfl
      | some r => rw [Option.map_some, ← (h4 r rfl).1]

theorem shows_own {c : Nat} {l : Layout G T} (h : LayoutOK c l) :
    Shows c l (fun _ => id) (fun _ => id) (Exp.own l) := by
  constructor
  · simp only [Exp.own, List.map_map, Function.comp_def]
    conv_lhs => rw [← List.map_id l.prims]
    exact List.map_congr_left fun p hp => (rename_id h hp).symm
  · simp [Exp.own, Function.comp_def]
  · simp [Exp.own, Function.comp_def]
  · simp [Exp.own, Function.comp_def]
  · intro; rfl

/-- one merge in terms of expanded designs -/
theorem shows_step {act : T → G → G} {comp : T → T → T} {sep : Char} {c k : Nat} {l : Layout G T}
    {i : Inst T} {o : Layout G T} (hl : LayoutOK c l) (ho : LayoutOK i.defCell o)
    (hf : KeepsComponentLayer (layerFn l i)) (hu : l.nets.uid + o.nets.uid ≤ 2 ^ 31)
    (hoi : o.insts = []) {ν κ E νo κo F} (hs : Shows c l ν κ E) (hb : Below k E)
    (hso : Shows i.defCell o νo κo F) :
    ∃ l' ν' κ', mergeInto act comp sep c l i o = .ok l' ∧ LayoutOK c l' ∧ l'.insts = l.insts ∧
      l'.layers = l.layers ∧ l'.nets.uid ≤ l.nets.uid + o.nets.uid ∧
      Shows c l' ν' κ' (E.append (F.under act k (layerFn l i) i.trans)) := by
  have hlen := length_le_uid ho.nets
  obtain ⟨l', nf, cf, new, h1, h2, h3, h4, h5, h6, h7, h8, h9, h10, h11⟩ :=
    mergeInto_spec act comp sep c l i o hl ho hf (by omega) (by omega)
  refine ⟨l', extend k ν (fun π j => nf (νo π j)), extend k κ (fun π s => cf (κo π s)), h1, h11,
    h8 hoi, h2, by omega, ?_⟩
  obtain ⟨b1, b2, b3, b4⟩ := hb
  constructor
  · rw [h3, hs.prims, hso.prims]
    simp only [Exp.append, Exp.under, List.map_append, List.map_map]
    congr 1
    · apply List.map_congr_left
      intro x hx
      rw [extend_below (b1 x hx), extend_below (b1 x hx)]
    · apply List.map_congr_left
      intro x hx
      simp only [Function.comp, extend_cons, rename, place, Option.map_map, Prim.mk.injEq, true_and]
      congr 1
      funext w
      simp [Function.comp_def]
  · rw [h4, hs.pads, hso.pads]
    simp only [Exp.append, Exp.under, List.map_append, List.map_map]
    congr 1
    · apply List.map_congr_left
      intro x hx
      rw [extend_below (b2 x hx)]
    · apply List.map_congr_left
      intro x hx
      simp [Function.comp, extend_cons]
  · rw [h5, hs.comps, hso.comps]
    simp only [Exp.append, Exp.under, List.map_append, List.map_map]
    congr 1
    · apply List.map_congr_left
      intro x hx
      rw [extend_below (b3 x hx)]
    · apply List.map_congr_left
      intro x hx
      simp [Function.comp, extend_cons]
  · have e : (o.nets.nets.map fun e => nf e.2.id) = (o.nets.nets.map fun e => e.2.id).map nf := by
      simp [Function.comp_def]
    rw [h6, List.map_append, h9, hs.nets, e, hso.nets]
    simp only [Exp.append, Exp.under, List.map_append, List.map_map]
    congr 1
    · apply List.map_congr_left
      intro x hx
      rw [extend_below (b4 x hx)]
    · apply List.map_congr_left
      intro x hx
      simp [Function.comp, extend_cons]
  · intro π
    cases π with
    | nil => exact hs.noNet []
    | cons a π =>
      simp only [extend]
      split
      · simp only [hso.noNet, h10]
      · exact hs.noNet _

theorem layerFn_congr {l l' : Layout G T} (h : l.layers = l'.layers) (i : Inst T) :
    layerFn l i = layerFn l' i := by unfold layerFn; rw [h]

/-- all merges of a cell -/
theorem shows_loop {act : T → G → G} {comp : T → T → T} {sep : Char} {c : Nat} {base : Layout G T}
    (sub : Nat → Res (Layout G T)) (exps : Nat → Exp G) (tot : Nat → Nat) (is : List (Inst T))
    (hsub : ∀ i ∈ is, ∃ o ν κ, sub i.defCell = .ok o ∧ LayoutOK i.defCell o ∧ o.insts = [] ∧
      o.nets.uid ≤ tot i.defCell ∧ Shows i.defCell o ν κ (exps i.defCell))
    (hf : ∀ i ∈ is, KeepsComponentLayer (layerFn base i)) :
    ∀ (k : Nat) (l : Layout G T) ν κ E, LayoutOK c l → l.layers = base.layers →
    l.nets.uid + (is.map fun i => tot i.defCell).sum ≤ 2 ^ 31 →
    Shows c l ν κ E → Below k E →
    ∃ l' ν' κ', forEach (fun l i => (sub i.defCell).bind fun o => mergeInto act comp sep c l i o) l is
        = .ok l' ∧ LayoutOK c l' ∧ l'.nets.uid ≤ l.nets.uid + (is.map fun i => tot i.defCell).sum ∧
      Shows c l' ν' κ' (Exp.addAll act (layerFn base) exps k E is) := by
  induction is with
  | nil =>
    intro k l ν κ E hl _ _ hs _
    exact ⟨l, ν, κ, rfl, hl, by simp, hs⟩
  | cons i is ih =>
    intro k l ν κ E hl hlay hu hs hb
    obtain ⟨o, νo, κo, o1, o2, o3, o4, o5⟩ := hsub i (by simp)
    simp only [List.map_cons, List.sum_cons] at hu
    have hfi := hf i (by simp)
    rw [← layerFn_congr hlay] at hfi
    obtain ⟨l', ν', κ', m1, m2, m3, m4, m5, m6⟩ :=
      shows_step (act := act) (comp := comp) (sep := sep) (k := k) hl o2 hfi (by omega) o3 hs hb o5
    obtain ⟨l'', ν'', κ'', n1, n2, n3, n4⟩ := ih (fun j hj => hsub j (by simp [hj]))
      (fun j hj => hf j (by simp [hj])) (k + 1) l' ν' κ' _ m2 (m4.trans hlay) (by omega) m6
      (below_append hb act _ _ _)
    refine ⟨l'', ν'', κ'', ?_, n2, ?_, ?_⟩
    · simp only [forEach, o1, Res.bind_ok, m1]
      exact n1
    · simp only [List.map_cons, List.sum_cons]; omega
    · simp only [Exp.addAll]
      rw [← layerFn_congr hlay]
      exact n4

/-- hypotheses on a design -/
structure DesignOK (db : Db G T) (rank : Nat → Nat) : Prop where
  acyclic : ∀ c, ∀ i ∈ (db c).insts, rank i.defCell < rank c
  cells : ∀ c, LayoutOK c (db c)
  maps : ∀ c, ∀ i ∈ (db c).insts, KeepsComponentLayer (layerFn (db c) i)

theorem layoutOK_insts {c : Nat} {l : Layout G T} (h : LayoutOK c l) (is : List (Inst T)) :
    LayoutOK c { l with insts := is } := ⟨h.nets, h.comps, h.primNet, h.padNet, h.wire⟩

theorem le_sum_of_mem {l : List Nat} {x : Nat} (h : x ∈ l) : x ≤ l.sum := by
  induction l with
  | nil => simp at h
  | cons a l ih =>
    rw [List.sum_cons]
    rcases List.mem_cons.1 h with rfl | h
    · omega
    · have := ih h; omega

theorem netTotal_child {db : Db G T} {n c : Nat} {i : Inst T} (hi : i ∈ (db c).insts) :
    netTotal db n i.defCell ≤ netTotal db (n + 1) c := by
  have : netTotal db n i.defCell ≤ ((db c).insts.map fun i => netTotal db n i.defCell).sum :=
    le_sum_of_mem (List.mem_map_of_mem (f := fun i : Inst T => netTotal db n i.defCell) hi)
  simp only [netTotal]; omega

theorem flatL_spec {act : T → G → G} {comp : T → T → T} {sep : Char} {db : Db G T}
    {rank : Nat → Nat} (hd : DesignOK db rank) (n : Nat) :
    ∀ c, rank c < n → netTotal db n c ≤ 2 ^ 31 →
    ∃ l ν κ, flatL act comp sep db n c = .ok l ∧ LayoutOK c l ∧ l.insts = [] ∧
      l.nets.uid ≤ netTotal db n c ∧ Shows c l ν κ (expand act db n c) := by
  induction n with
  | zero => intro c h; omega
  | succ n ih =>
    intro c hr ht
    obtain ⟨l, ν, κ, h1, h2, h3, h4⟩ := shows_loop (act := act) (comp := comp) (sep := sep) (c := c)
      (base := db c) (fun d => flatL act comp sep db n d) (fun d => expand act db n d)
      (fun d => netTotal db n d) (db c).insts
      (by
        intro i hi
        have := hd.acyclic c i hi
        have := netTotal_child (n := n) hi
        obtain ⟨o, ν, κ, a, b, c', d, e⟩ := ih i.defCell (by omega) (by omega)
        exact ⟨o, ν, κ, a, b, c', d, e⟩)
      (hd.maps c) 0 (db c) (fun _ => id) (fun _ => id) (Exp.own (db c)) (hd.cells c) rfl
      (by simpa [netTotal] using ht) (shows_own (hd.cells c)) (below_own _)
    refine ⟨{ l with insts := [] }, ν, κ, ?_, layoutOK_insts h2 [], rfl, ?_, ?_⟩
    · simp only [flatL, h1, Res.bind_ok]
    · simpa [netTotal] using h3
    · exact ⟨h4.prims, h4.pads, h4.comps, h4.nets, h4.noNet⟩

theorem flatL_fuel {act : T → G → G} {comp : T → T → T} {sep : Char} {db : Db G T}
    {rank : Nat → Nat} (hd : ∀ c, ∀ i ∈ (db c).insts, rank i.defCell < rank c) (n : Nat) :
    ∀ m c, rank c < n → rank c < m →
      flatL act comp sep db n c = flatL act comp sep db m c := by
  induction n with
  | zero => intro m c h; omega
  | succ n ih =>
    intro m c h1 h2
    cases m with
    | zero => omega
    | succ m =>
      simp only [flatL]
      congr 1
      apply forEach_congr
      intro i hi s
      have := hd c i hi
      rw [ih m i.defCell (by omega) (by omega)]

/-- cell `c` is as in the original design or flattened -/
def Fine (act : T → G → G) (comp : T → T → T) (sep : Char) (db0 : Db G T) (rank : Nat → Nat)
    (db : Db G T) (c : Nat) : Prop :=
  db c = db0 c ∨ flatL act comp sep db0 (rank c + 1) c = .ok (db c)

theorem flatten_loop {act : T → G → G} {comp : T → T → T} {sep : Char} {db0 : Db G T}
    {rank : Nat → Nat} {n c : Nat}
    (ih : ∀ c' db, rank c' < n → (∀ d, rank d ≤ rank c' → Fine act comp sep db0 rank db d) →
      ∃ db', flatten act comp sep n db c' = .ok db' ∧
        flatL act comp sep db0 (rank c' + 1) c' = .ok (db' c') ∧
        (∀ d, d ≠ c' → rank c' ≤ rank d → db' d = db d) ∧
        (∀ d, rank d ≤ rank c' → Fine act comp sep db0 rank db' d) ∧
        (∀ d, flatL act comp sep db0 (rank d + 1) d = .ok (db d) →
          flatL act comp sep db0 (rank d + 1) d = .ok (db' d)))
    (hn : rank c ≤ n) (is : List (Inst T)) :
    ∀ (db : Db G T) (l : Layout G T), (∀ i ∈ is, rank i.defCell < rank c) →
      (∀ d, rank d < rank c → Fine act comp sep db0 rank db d) →
      forEach (fun l i => (flatL act comp sep db0 (rank i.defCell + 1) i.defCell).bind fun o =>
        mergeInto act comp sep c l i o) (db c) is = .ok l →
      ∃ db', forEach (fun db i => (flatten act comp sep n db i.defCell).bind fun db =>
          mergeDb act comp sep db c i) db is = .ok db' ∧ db' c = l ∧
        (∀ d, d ≠ c → rank c ≤ rank d → db' d = db d) ∧
        (∀ d, rank d < rank c → Fine act comp sep db0 rank db' d) ∧
        (∀ d, d ≠ c → flatL act comp sep db0 (rank d + 1) d = .ok (db d) →
          flatL act comp sep db0 (rank d + 1) d = .ok (db' d)) := by
  induction is with
  | nil =>
    intro db l _ hfine h
    simp only [forEach, Res.ok.injEq] at h
    exact ⟨db, rfl, h, fun _ _ _ => rfl, hfine, fun _ _ h => h⟩
  | cons i is ih2 =>
    intro db l hr hfine h
    have hri := hr i (by simp)
    have hne : i.defCell ≠ c := by intro h; rw [h] at hri; omega
    obtain ⟨db1, f1, f2, f3, f4, f5⟩ := ih i.defCell db (by omega) (fun d hd => hfine d (by omega))
    have hc : db1 c = db c := f3 c (Ne.symm hne) (by omega)
    simp only [forEach, f2, Res.bind_ok] at h
    cases hm : mergeInto act comp sep c (db c) i (db1 i.defCell) with
    | ub => rw [hm] at h; simp at h
    | exn => rw [hm] at h; simp at h
    | ok l1 =>
      rw [hm, Res.bind_ok] at h
      have hfine1 : ∀ d, rank d < rank c → Fine act comp sep db0 rank (db1.set c l1) d := by
        intro d hd
        have hdc : d ≠ c := by intro h; rw [h] at hd; omega
        have e : (db1.set c l1) d = db1 d := by simp [Db.set, hdc]
        unfold Fine
        rw [e]
        by_cases h' : rank d ≤ rank i.defCell
        · exact f4 d h'
        · have hdi : d ≠ i.defCell := by intro h; rw [h] at h'; omega
          rw [f3 d hdi (by omega)]
          exact hfine d hd
      obtain ⟨db2, g1, g2, g3, g4, g5⟩ := ih2 (db1.set c l1) l (fun j hj => hr j (by simp [hj])) hfine1
        (by simpa [Db.set] using h)
      refine ⟨db2, ?_, g2, ?_, g4, ?_⟩
      · simp only [forEach, f1, Res.bind_ok, mergeDb, if_neg hne, hc, hm]
        exact g1
      · intro d hd hrd
        rw [g3 d hd hrd]
        have hdi : d ≠ i.defCell := by intro h; rw [h] at hrd; omega
        simp only [Db.set, if_neg hd]
        exact f3 d hdi (by omega)
      · intro d hd h'
        apply g5 d hd
        simp only [Db.set, if_neg hd]
        exact f5 d h'

theorem flatten_spec {act : T → G → G} {comp : T → T → T} {sep : Char} {db0 : Db G T}
    {rank : Nat → Nat} (hd : DesignOK db0 rank)
    (ht : ∀ c, netTotal db0 (rank c + 1) c ≤ 2 ^ 31) (n : Nat) :
    ∀ c db, rank c < n → (∀ d, rank d ≤ rank c → Fine act comp sep db0 rank db d) →
      ∃ db', flatten act comp sep n db c = .ok db' ∧
        flatL act comp sep db0 (rank c + 1) c = .ok (db' c) ∧
        (∀ d, d ≠ c → rank c ≤ rank d → db' d = db d) ∧
        (∀ d, rank d ≤ rank c → Fine act comp sep db0 rank db' d) ∧
        (∀ d, flatL act comp sep db0 (rank d + 1) d = .ok (db d) →
          flatL act comp sep db0 (rank d + 1) d = .ok (db' d)) := by
  induction n with
  | zero => intro c db h; omega
  | succ n ih =>
    intro c db hr hfine
    obtain ⟨L, _, _, hL, _, hLi, _⟩ :=
      flatL_spec (act := act) (comp := comp) (sep := sep) hd (rank c + 1) c (by omega) (ht c)
    rcases hfine c (le_refl _) with hc | hc
    · have hL' := hL
      simp only [flatL] at hL
      cases hfe : forEach (fun l i => (flatL act comp sep db0 (rank c) i.defCell).bind fun o =>
          mergeInto act comp sep c l i o) (db0 c) (db0 c).insts with
      | ub => rw [hfe] at hL; simp at hL
      | exn => rw [hfe] at hL; simp at hL
      | ok l =>
        rw [hfe] at hL
        simp only [Res.bind_ok, Res.ok.injEq] at hL
        have hfe' : forEach (fun l i => (flatL act comp sep db0 (rank i.defCell + 1) i.defCell).bind
            fun o => mergeInto act comp sep c l i o) (db c) (db0 c).insts = .ok l := by
          rw [hc, ← hfe]
          apply forEach_congr
          intro i hi s
          have := hd.acyclic c i hi
          rw [flatL_fuel hd.acyclic _ (rank c) i.defCell (by omega) (by omega)]
        obtain ⟨db1, g1, g2, g3, g4, g5⟩ := flatten_loop ih (by omega) (db0 c).insts db l
          (hd.acyclic c) (fun d h => hfine d (by omega)) hfe'
        refine ⟨db1.set c { db1 c with insts := [] }, ?_, ?_, ?_, ?_, ?_⟩
        · simp only [flatten, hc, g1, Res.bind_ok]
        · simp only [Db.set, if_true, g2, hL, hL']
        · intro d hdc hrd
          simp only [Db.set, if_neg hdc]
          exact g3 d hdc hrd
        · intro d hrd
          by_cases hdc : d = c
          · subst hdc
            right
            simp only [Db.set, if_true, g2, hL, hL']
          · by_cases hlt : rank d < rank c
            · have := g4 d hlt
              unfold Fine at this ⊢
              simpa only [Db.set, if_neg hdc] using this
            · have := hfine d hrd
              unfold Fine at this ⊢
              simp only [Db.set, if_neg hdc]
              rw [g3 d hdc (by omega)]
              exact this
        · intro d h'
          by_cases hdc : d = c
          · subst hdc
            simp only [Db.set, if_true, g2, hL, hL']
          · simp only [Db.set, if_neg hdc]
            exact g5 d hdc h'
    · have hci : (db c).insts = [] := by
        rw [hL] at hc
        simp only [Res.ok.injEq] at hc
        rw [← hc]; exact hLi
      have hset : db.set c { db c with insts := [] } = db := by
        funext d
        unfold Db.set
        split
        · rename_i h
          subst h
          rw [← hci]
        · rfl
      refine ⟨db, ?_, hc, fun _ _ _ => rfl, hfine, fun _ h => h⟩
      simp only [flatten, hci, forEach, Res.bind_ok]
      rw [hset]

theorem runTasks_spec {act : T → G → G} {comp : T → T → T} {sep : Char} {db0 : Db G T}
    {rank : Nat → Nat} (hd : DesignOK db0 rank)
    (ht : ∀ c, netTotal db0 (rank c + 1) c ≤ 2 ^ 31) (n : Nat) (tasks : List Nat) :
    ∀ db, (∀ c ∈ tasks, rank c < n) → (∀ d, Fine act comp sep db0 rank db d) →
      ∃ db', runTasks act comp sep n db tasks = .ok db' ∧
        (∀ c, c ∈ tasks ∨ flatL act comp sep db0 (rank c + 1) c = .ok (db c) →
          flatL act comp sep db0 (rank c + 1) c = .ok (db' c)) ∧
        (∀ d, Fine act comp sep db0 rank db' d) := by
  induction tasks with
  | nil => intro db _ hf; exact ⟨db, rfl, by simp, hf⟩
  | cons c tasks ih =>
    intro db hr hf
    obtain ⟨db1, f1, f2, f3, f4, f5⟩ := flatten_spec hd ht n c db (hr c (by simp)) (fun d _ => hf d)
    have hf1 : ∀ d, Fine act comp sep db0 rank db1 d := by
      intro d
      by_cases h : rank d ≤ rank c
      · exact f4 d h
      · have := hf d
        unfold Fine at this ⊢
        rw [f3 d (by intro e; rw [e] at h; omega) (by omega)]
        exact this
    obtain ⟨db2, g1, g2, g3⟩ := ih db1 (fun c hc => hr c (by simp [hc])) hf1
    refine ⟨db2, ?_, ?_, g3⟩
    · simp only [runTasks, forEach, f1, Res.bind_ok]
      exact g1
    · intro d hdd
      apply g2
      rcases hdd with hdd | hdd
      · rcases List.mem_cons.1 hdd with rfl | h
        · exact Or.inr f2
        · exact Or.inl h
      · exact Or.inr (f5 d hdd)

end Ecad.Hier
