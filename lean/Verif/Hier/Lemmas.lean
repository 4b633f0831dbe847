import Verif.Hier.Model
import Verif.Net.Lemmas
import Verif.Layer.MapProps
namespace Ecad.Hier
open LayerMap (BiMap forward noLayer componentLayer)
variable {G T : Type}

/-! ### nets -/

theorem uidValue_small {n : Nat} (h : n < 2 ^ 31) : Net.uidValue n = n := by
  unfold Net.uidValue Int.bmod
  have e : ((2 ^ 32 : Nat) : Int) = 4294967296 := by decide
  simp only [e]
  omega

theorem length_le_uid {c : Net.Coll} (h : Net.Inv c) : c.nets.length ≤ c.uid := by
  obtain ⟨f, hf, hinj⟩ := h.ids
  have hnd : (c.nets.map fun e => f e.1).Nodup := by
    have := h.wf
    unfold UMap.WF UMap.keys at this
    have hk : c.nets.Nodup := List.Nodup.of_map _ this
    refine List.Nodup.map_on (fun e he e' he' hh => ?_) hk
    exact List.inj_on_of_nodup_map this he he' (hinj e he e' he' hh)
  have hsub : (c.nets.map fun e => f e.1) ⊆ List.range c.uid := by
    intro x hx
    obtain ⟨e, he, rfl⟩ := List.mem_map.1 hx
    exact List.mem_range.2 (hf e he).2
  have := (List.subperm_of_subset hnd hsub).length_le
  simpa using this

theorem id_range {c : Net.Coll} (h : Net.Inv c) (hu : c.uid ≤ 2 ^ 31) {e : String × Net.Net}
    (he : e ∈ c.nets) : 0 ≤ e.2.id ∧ e.2.id < c.uid := by
  obtain ⟨f, hf, _⟩ := h.ids
  obtain ⟨h1, h2⟩ := hf e he
  rw [h1, uidValue_small (by omega)]
  omega

theorem addNet_spec {c : Net.Coll} (h : Net.Inv c) (name : String) :
    ∃ n : String, (Net.addNet c name).2 = some ⟨n, Net.uidValue c.uid⟩ ∧
      (Net.addNet c name).1.nets = c.nets ++ [(n, ⟨n, Net.uidValue c.uid⟩)] ∧
      (Net.addNet c name).1.uid = c.uid + 1 ∧ Net.Inv (Net.addNet c name).1 := by
  refine ⟨Naming.nextName (UMap.keys c.nets) name, ?_, ?_, rfl, Net.inv_step h (.add name)⟩
  · have := Net.nextName_fresh c name
    simp only [Net.addNet]
    rw [UMap.find?_emplace']
    rw [UMap.count_eq_false_iff, ← UMap.find?_eq_none_iff] at this
    simp [this]
  · have := Net.nextName_fresh c name
    simp [Net.addNet, UMap.emplace, this]

theorem mergeNets_spec (sep : Char) (pre : String) (es : List (String × Net.Net)) :
    ∀ (c : Net.Coll) (m : List (Int × Int)), Net.Inv c →
    (es.map fun e => e.2.id).Nodup → (∀ e ∈ es, UMap.find? m e.2.id = none) →
    ∃ c' m' new, mergeNets sep pre c m es = .ok (c', m') ∧ Net.Inv c' ∧
      c'.uid = c.uid + es.length ∧
      (∀ i, (∀ e ∈ es, e.2.id ≠ i) → UMap.find? m' i = UMap.find? m i) ∧
      (∀ (k : Nat) e, es[k]? = some e → UMap.find? m' e.2.id = some (Net.uidValue (c.uid + k))) ∧
      c'.nets = c.nets ++ new ∧
      (∀ (k : Nat) e, es[k]? = some e → ∃ n, new[k]? = some (n, ⟨n, Net.uidValue (c.uid + k)⟩)) ∧
      new.length = es.length := by
  induction es with
  | nil => intro c m hc _ _; exact ⟨c, m, [], rfl, hc, rfl, by simp, by simp, by simp, by simp, rfl⟩
  | cons e es ih =>
    intro c m hc hnd hfree
    obtain ⟨n, h1, h2, h3, h4⟩ := addNet_spec hc (getName sep pre e.2.name)
    simp only [List.map_cons, List.nodup_cons, List.mem_map, not_exists, not_and] at hnd
    have hfe := hfree e (by simp)
    obtain ⟨c', m', new, r1, r2, r3, r4, r5, r6, r7, r8⟩ :=
      ih (Net.addNet c (getName sep pre e.2.name)).1
        (UMap.emplace m e.2.id (Net.uidValue c.uid)).1 h4 hnd.2 (by
          intro x hx
          rw [UMap.find?_emplace', if_neg]
          · exact hfree x (by simp [hx])
          · rintro ⟨h, _⟩
            exact hnd.1 x hx h)
    refine ⟨c', m', (n, ⟨n, Net.uidValue c.uid⟩) :: new, ?_, r2, ?_, ?_, ?_, ?_, ?_, ?_⟩
    · simp only [mergeNets, h1]; exact r1
    · rw [r3, h3, List.length_cons]; omega
    · intro i hi
      rw [r4 i (fun x hx => hi x (by simp [hx])), UMap.find?_emplace', if_neg]
      rintro ⟨h, _⟩
      exact hi e (by simp) h.symm
    · intro k x hk
      cases k with
      | zero =>
        simp only [List.getElem?_cons_zero, Option.some.injEq] at hk
        subst hk
        rw [r4 _ (fun x hx => hnd.1 x hx), UMap.find?_emplace', if_pos ⟨rfl, hfe⟩]
        rfl
      | succ k =>
        simp only [List.getElem?_cons_succ] at hk
        rw [r5 k x hk, h3]
        congr 2; omega
    · rw [r6, h2]; simp
    · intro k x hk
      cases k with
      | zero => exact ⟨n, by simp⟩
      | succ k =>
        simp only [List.getElem?_cons_succ] at hk
        obtain ⟨n', hn'⟩ := r7 k x hk
        refine ⟨n', ?_⟩
        rw [List.getElem?_cons_succ, hn', h3]
        congr 4; omega
    · simp [r8]

/-! ### well-formed layouts -/

/-- the objects of the layout of cell `c` refer to nets and components of that layout, and the
layers of bondwires are the component layer exactly at ends mounted on components -/
structure LayoutOK (c : Nat) (l : Layout G T) : Prop where
  nets : Net.Inv l.nets
  comps : UMap.WF l.comps
  primNet : ∀ p ∈ l.prims, p.net = noNet ∨ ∃ e ∈ l.nets.nets, e.2.id = p.net
  padNet : ∀ p ∈ l.pads, p.net = noNet ∨ ∃ e ∈ l.nets.nets, e.2.id = p.net
  wire : ∀ p ∈ l.prims, ∀ w, p.wire = some w →
    (w.startComp.isSome = true ↔ p.layer = componentLayer) ∧
    (w.endComp.isSome = true ↔ w.endLayer = componentLayer) ∧
    (∀ r, w.startComp = some r → r.1 = c ∧ r.2 ∈ UMap.keys l.comps) ∧
    (∀ r, w.endComp = some r → r.1 = c ∧ r.2 ∈ UMap.keys l.comps) ∧
    (w.endComp = none → w.endPin = "")

/-- a layer function that keeps the component layer apart -/
def KeepsComponentLayer (fwd : Int → Int) : Prop :=
  ∀ a, fwd a = componentLayer ↔ a = componentLayer

/-- the primitive seen through an instance: other layer, transformed; same net and components -/
def place (act : T → G → G) (fwd : Int → Int) (t : T) (p : Prim G) : Prim G :=
  { p with
    layer := fwd p.layer
    geo := act t p.geo
    wire := p.wire.map fun w => { w with endLayer := fwd w.endLayer } }

/-- the primitive with its net and components renamed -/
def rename (c : Nat) (nf : Int → Int) (cf : String → String) (p : Prim G) : Prim G :=
  { p with
    net := nf p.net
    wire := p.wire.map fun w => { w with
      startComp := w.startComp.map fun r => (c, cf r.2)
      endComp := w.endComp.map fun r => (c, cf r.2) } }

/-! ### components -/

theorem addComponent_spec (cs : List (String × Comp G)) (hw : UMap.WF cs) (name : String)
    (k : Comp G) :
    (addComponent cs name k).2 ∉ UMap.keys cs ∧
    (addComponent cs name k).1 = cs ++ [((addComponent cs name k).2, k)] ∧
    UMap.WF (addComponent cs name k).1 := by
  unfold addComponent
  simp only
  have hfresh : (if UMap.count cs name then Naming.nextName (UMap.keys cs) name else name) ∉
      UMap.keys cs := by
    split
    · exact Naming.nextName_not_mem _ _
    · rename_i h
      rw [UMap.count_iff_mem_keys] at h
      exact h
  refine ⟨hfresh, ?_, UMap.WF_emplace hw _ _⟩
  have := (UMap.count_eq_false_iff cs _).2 hfresh
  simp [UMap.emplace, this]

theorem mergeComps_spec (act : T → G → G) (sep : Char) (pre : String) (fwd : Int → Int) (t : T)
    (c d : Nat) (es : List (String × Comp G)) :
    ∀ (cs : List (String × Comp G)) (m : List (CompRef × CompRef)), UMap.WF cs →
    (UMap.keys es).Nodup → (∀ e ∈ es, UMap.find? m (d, e.1) = none) →
    ∃ cf : String → String,
      (mergeComps act sep pre fwd t c d cs m es).1 =
        cs ++ es.map (fun e => (cf e.1, ⟨fwd e.2.layer, act t e.2.geo⟩)) ∧
      UMap.WF (mergeComps act sep pre fwd t c d cs m es).1 ∧
      (∀ s ∈ UMap.keys es,
        UMap.find? (mergeComps act sep pre fwd t c d cs m es).2 (d, s) = some (c, cf s)) ∧
      (∀ r, (∀ s ∈ UMap.keys es, r ≠ (d, s)) →
        UMap.find? (mergeComps act sep pre fwd t c d cs m es).2 r = UMap.find? m r) := by
  induction es with
  | nil => intro cs m hw _ _; exact ⟨id, by simp [mergeComps], hw, by simp [UMap.keys], fun r _ => rfl⟩
  | cons e es ih =>
    intro cs m hw hnd hfree
    simp only [UMap.keys, List.map_cons, List.nodup_cons] at hnd
    obtain ⟨a1, a2, a3⟩ := addComponent_spec cs hw (getName sep pre e.1)
      ⟨fwd e.2.layer, act t e.2.geo⟩
    generalize hr : addComponent cs (getName sep pre e.1) ⟨fwd e.2.layer, act t e.2.geo⟩ = r
      at a1 a2 a3
    obtain ⟨cf, h1, h2, h3, h4⟩ := ih r.1 (UMap.emplace m (d, e.1) (c, r.2)).1 a3 hnd.2 (by
      intro x hx
      rw [UMap.find?_emplace', if_neg]
      · exact hfree x (by simp [hx])
      · rintro ⟨h, _⟩
        simp only [Prod.mk.injEq, true_and] at h
        exact hnd.1 (h ▸ List.mem_map_of_mem hx))
    have hmc : mergeComps act sep pre fwd t c d cs m (e :: es) =
        mergeComps act sep pre fwd t c d r.1 (UMap.emplace m (d, e.1) (c, r.2)).1 es := by
      simp only [mergeComps, hr]
    rw [hmc]
    refine ⟨fun s => if s = e.1 then r.2 else cf s, ?_, h2, ?_, ?_⟩
    · rw [h1, a2]
      simp only [List.append_assoc, List.map_cons, if_true, List.singleton_append,
        List.append_cancel_left_eq, List.cons.injEq, true_and]
      apply List.map_congr_left
      intro x hx
      have : x.1 ≠ e.1 := fun h => hnd.1 (h ▸ List.mem_map_of_mem hx)
      simp [this]
    · intro s hs
      by_cases h : s = e.1
      · subst h
        rw [h4, UMap.find?_emplace', if_pos ⟨rfl, hfree e (by simp)⟩]
        · simp
        · intro s hs heq
          simp only [Prod.mk.injEq, true_and] at heq
          exact hnd.1 (heq ▸ hs)
      · simp only [h, if_false]
        apply h3
        simpa [UMap.keys, h] using hs
    · intro x hx
      rw [h4 x (fun s hs => hx s (by simp only [UMap.keys, List.map_cons, List.mem_cons]; exact Or.inr hs)),
        UMap.find?_emplace', if_neg]
      rintro ⟨h, _⟩
      exact hx e.1 (by simp [UMap.keys]) h

/-! ### primitives -/

theorem mergePrim_spec (act : T → G → G) (fwd : Int → Int) (t : T) (nm : List (Int × Int))
    (cm : List (CompRef × CompRef)) (c d : Nat) (cf : String → String) (keys : List String)
    (hf : KeepsComponentLayer fwd)
    (hcm : ∀ s ∈ keys, UMap.find? cm (d, s) = some (c, cf s)) (p : Prim G)
    (hw : ∀ w, p.wire = some w →
      (w.startComp.isSome = true ↔ p.layer = componentLayer) ∧
      (w.endComp.isSome = true ↔ w.endLayer = componentLayer) ∧
      (∀ r, w.startComp = some r → r.1 = d ∧ r.2 ∈ keys) ∧
      (∀ r, w.endComp = some r → r.1 = d ∧ r.2 ∈ keys) ∧
      (w.endComp = none → w.endPin = "")) :
    mergePrim act fwd t nm cm p = .ok (rename c (mapNet nm) cf (place act fwd t p)) := by
  have hff : fwd componentLayer = componentLayer := (hf _).2 rfl
  unfold mergePrim rename place
  cases hp : p.wire with
  | none => simp
  | some w =>
    obtain ⟨h1, h2, h3, h4, h5⟩ := hw w hp
    obtain ⟨el, sc, sp, ec, ep⟩ := w
    simp only at h1 h2 h3 h4 h5
    cases ec with
    | none =>
      have hel : el ≠ componentLayer := fun h => by simpa using h2.2 h
      have hep : ep = "" := h5 rfl
      subst hep
      cases sc with
      | none => simp [hel, findComp]
      | some r =>
        obtain ⟨r1, r2⟩ := r
        obtain ⟨hr1, hr2⟩ := h3 _ rfl
        simp only at hr1 hr2
        subst hr1
        have hl : p.layer = componentLayer := h1.1 rfl
        simp [hel, findComp, hcm r2 hr2, hl, hff]
    | some q =>
      have hel : el = componentLayer := h2.1 rfl
      obtain ⟨q1, q2⟩ := q
      obtain ⟨hq1, hq2⟩ := h4 _ rfl
      simp only at hq1 hq2
      subst hq1
      cases sc with
      | none => simp [hel, findComp, hcm q2 hq2, hff]
      | some r =>
        obtain ⟨r1, r2⟩ := r
        obtain ⟨hr1, hr2⟩ := h3 _ rfl
        simp only at hr1 hr2
        subst hr1
        have hl : p.layer = componentLayer := h1.1 rfl
        simp [hel, findComp, hcm r2 hr2, hcm q2 hq2, hl, hff]

theorem mergePrims_spec (act : T → G → G) (fwd : Int → Int) (t : T) (nm : List (Int × Int))
    (cm : List (CompRef × CompRef)) (f : Prim G → Prim G) (ps : List (Prim G))
    (h : ∀ p ∈ ps, mergePrim act fwd t nm cm p = .ok (f p)) :
    mergePrims act fwd t nm cm ps = .ok (ps.map f) := by
  induction ps with
  | nil => rfl
  | cons p ps ih =>
    simp only [mergePrims, h p (by simp), Res.bind_ok, ih (fun q hq => h q (by simp [hq])),
      List.map_cons]

/-! ### one merge -/

/-- What a merge does: there are a renaming of nets and one of components, injective, with values
not used before, such that everything of the merged layout is appended, placed and renamed. -/
theorem mergeInto_spec (act : T → G → G) (comp : T → T → T) (sep : Char) (c : Nat)
    (l : Layout G T) (i : Inst T) (o : Layout G T) (hl : LayoutOK c l) (ho : LayoutOK i.defCell o)
    (hf : KeepsComponentLayer (layerFn l i)) (hu : l.nets.uid + o.nets.nets.length ≤ 2 ^ 31)
    (huo : o.nets.uid ≤ 2 ^ 31) :
    ∃ (l' : Layout G T) (nf : Int → Int) (cf : String → String) (new : List (String × Net.Net)),
      mergeInto act comp sep c l i o = .ok l' ∧
      l'.layers = l.layers ∧
      l'.prims = l.prims ++
        o.prims.map (fun p => rename c nf cf (place act (layerFn l i) i.trans p)) ∧
      l'.pads = l.pads ++ o.pads.map (fun p => ⟨nf p.net, act i.trans p.geo⟩) ∧
      l'.comps = l.comps ++
        o.comps.map (fun e => (cf e.1, ⟨layerFn l i e.2.layer, act i.trans e.2.geo⟩)) ∧
      l'.nets.nets = l.nets.nets ++ new ∧
      l'.nets.uid = l.nets.uid + o.nets.nets.length ∧
      (o.insts = [] → l'.insts = l.insts) ∧
      new.map (fun e => e.2.id) = o.nets.nets.map (fun e => nf e.2.id) ∧
      nf noNet = noNet ∧
      LayoutOK c l' := by
  have hnd := Net.nodup_ids ho.nets (by omega)
  have hrange := fun e he => id_range ho.nets huo (e := e) he
  obtain ⟨c', m', new, r1, r2, r3, r4, r5, r6, r7, r8⟩ :=
    mergeNets_spec sep i.name o.nets.nets l.nets (UMap.emplace [] noNet noNet).1 hl.nets hnd (by
      intro e he
      have := hrange e he
      rw [UMap.find?_emplace', if_neg, UMap.find?_nil]
      rintro ⟨h, _⟩
      rw [h] at this
      simp [noNet] at this)
  obtain ⟨cf, s1, s2, s3, s4⟩ := mergeComps_spec act sep i.name (layerFn l i) i.trans c i.defCell
    o.comps l.comps [] hl.comps ho.comps (by intros; rfl)
  have hps := mergePrims_spec act (layerFn l i) i.trans m'
    (mergeComps act sep i.name (layerFn l i) i.trans c i.defCell l.comps [] o.comps).2
    (fun p => rename c (mapNet m') cf (place act (layerFn l i) i.trans p)) o.prims (by
      intro p hp
      exact mergePrim_spec act (layerFn l i) i.trans m' _ c i.defCell cf (UMap.keys o.comps) hf s3 p
        (ho.wire p hp))
  have hn0 : mapNet m' noNet = noNet := by
    unfold mapNet
    rw [r4 noNet (fun e he h => by have := hrange e he; rw [h] at this; simp [noNet] at this)]
    rw [UMap.find?_emplace']; simp [UMap.find?_nil]
  have hids : new.map (fun e => e.2.id) = o.nets.nets.map (fun e => mapNet m' e.2.id) := by
    apply List.ext_getElem?
    intro k
    by_cases hk : k < o.nets.nets.length
    · have he := List.getElem?_eq_getElem hk
      obtain ⟨n, hn⟩ := r7 k _ he
      simp only [List.getElem?_map, hn, he, Option.map_some]
      unfold mapNet
      rw [r5 k _ he]
    · rw [List.getElem?_eq_none (by simpa [r8] using hk), List.getElem?_eq_none (by simpa using hk)]
  have hnet : ∀ j : Int, (j = noNet ∨ ∃ e ∈ o.nets.nets, e.2.id = j) →
      mapNet m' j = noNet ∨ ∃ e ∈ c'.nets, e.2.id = mapNet m' j := by
    rintro j (rfl | ⟨e, he, rfl⟩)
    · exact Or.inl hn0
    · right
      have : mapNet m' e.2.id ∈ new.map (fun e => e.2.id) := by
        rw [hids]; exact List.mem_map_of_mem (f := fun e => mapNet m' e.2.id) he
      obtain ⟨e', he', h'⟩ := List.mem_map.1 this
      exact ⟨e', by rw [r6]; simp [he'], h'⟩
  refine ⟨{ l with
      nets := c'
      insts := l.insts ++ o.insts.map fun j =>
        { j with name := getName sep i.name j.name, trans := comp i.trans j.trans }
      comps := (mergeComps act sep i.name (layerFn l i) i.trans c i.defCell l.comps [] o.comps).1
      prims := l.prims ++
        o.prims.map (fun p => rename c (mapNet m') cf (place act (layerFn l i) i.trans p))
      pads := l.pads ++ o.pads.map (fun p => ⟨mapNet m' p.net, act i.trans p.geo⟩) },
    mapNet m', cf, new, ?_, ?_, ?_, ?_, ?_, ?_, ?_, ?_, hids, hn0, ?_⟩
  · unfold mergeInto
    rw [r1]
    simp only [Res.bind_ok, hps]
  · rfl
  · rfl
  · rfl
  · exact s1
  · exact r6
  · exact r3
  · intro h; simp [h]
  · constructor
    · exact r2
    · exact s2
    · intro p hp
      simp only [List.mem_append, List.mem_map] at hp
      rcases hp with hp | ⟨q, hq, rfl⟩
      · rcases hl.primNet p hp with h | ⟨e, he, h⟩
        · exact Or.inl h
        · exact Or.inr ⟨e, by simp only [r6]; simp [he], h⟩
      · exact hnet _ (ho.primNet q hq)
    · intro p hp
      simp only [List.mem_append, List.mem_map] at hp
      rcases hp with hp | ⟨q, hq, rfl⟩
      · rcases hl.padNet p hp with h | ⟨e, he, h⟩
        · exact Or.inl h
        · exact Or.inr ⟨e, by simp only [r6]; simp [he], h⟩
      · exact hnet _ (ho.padNet q hq)
    · intro p hp w hw
      simp only [List.mem_append, List.mem_map] at hp
      have hkeys : UMap.keys (mergeComps act sep i.name (layerFn l i) i.trans c i.defCell l.comps []
          o.comps).1 = UMap.keys l.comps ++ (UMap.keys o.comps).map cf := by
        rw [s1]; simp [UMap.keys, Function.comp_def]
      rcases hp with hp | ⟨q, hq, rfl⟩
      · obtain ⟨a1, a2, a3, a4, a5⟩ := hl.wire p hp w hw
        refine ⟨a1, a2, fun r hr => ⟨(a3 r hr).1, ?_⟩, fun r hr => ⟨(a4 r hr).1, ?_⟩, a5⟩
        · simp only [hkeys, List.mem_append]; exact Or.inl (a3 r hr).2
        · simp only [hkeys, List.mem_append]; exact Or.inl (a4 r hr).2
      · simp only [rename, place, Option.map_map, Option.map_eq_some_iff, Function.comp] at hw
        obtain ⟨v, hv, rfl⟩ := hw
        obtain ⟨a1, a2, a3, a4, a5⟩ := ho.wire q hq v hv
        simp only [rename, place, Option.isSome_map, Option.map_eq_some_iff, Option.map_eq_none_iff]
        refine ⟨a1.trans (hf _).symm, a2.trans (hf _).symm, ?_, ?_, a5⟩
        · rintro r ⟨x, hx, rfl⟩
          refine ⟨rfl, ?_⟩
          simp only [hkeys, List.mem_append]
          exact Or.inr (List.mem_map_of_mem (a3 x hx).2)
        · rintro r ⟨x, hx, rfl⟩
          refine ⟨rfl, ?_⟩
          simp only [hkeys, List.mem_append]
          exact Or.inr (List.mem_map_of_mem (a4 x hx).2)

end Ecad.Hier
