import Verif.Hier.Flat
/-!
C18 (flattening draws every instance path once) and C19 (merging keeps connectivity).
-/
namespace Ecad.Hier
open LayerMap (BiMap forward noLayer componentLayer)
variable {G T : Type}

/-! ### C19 -/

/-- the ids of the nets of a layout -/
def netIds (l : Layout G T) : List Int := l.nets.nets.map fun e => e.2.id

theorem mergePrim_net {act : T → G → G} {fwd : Int → Int} {t : T} {nm : List (Int × Int)}
    {cm : List (CompRef × CompRef)} {p q : Prim G} (h : mergePrim act fwd t nm cm p = .ok q) :
    q.net = mapNet nm p.net := by
  unfold mergePrim at h
  split at h
  · simp only [Res.ok.injEq] at h; subst h; rfl
  · split at h
    · simp at h
    · simp only [Res.ok.injEq] at h; subst h; rfl

theorem mergePrims_net {act : T → G → G} {fwd : Int → Int} {t : T} {nm : List (Int × Int)}
    {cm : List (CompRef × CompRef)} {ps : List (Prim G)} :
    ∀ {qs}, mergePrims act fwd t nm cm ps = .ok qs →
      qs.map (fun q => q.net) = ps.map (fun p => mapNet nm p.net) := by
  induction ps with
  | nil => intro qs h; simp only [mergePrims, Res.ok.injEq] at h; subst h; rfl
  | cons p ps ih =>
    intro qs h
    simp only [mergePrims] at h
    cases hp : mergePrim act fwd t nm cm p with
    | ub => rw [hp] at h; simp at h
    | exn => rw [hp] at h; simp at h
    | ok q =>
      rw [hp, Res.bind_ok] at h
      cases hps : mergePrims act fwd t nm cm ps with
      | ub => rw [hps] at h; simp at h
      | exn => rw [hps] at h; simp at h
      | ok qs' =>
        rw [hps] at h
        simp only [Res.bind_ok, Res.ok.injEq] at h
        subst h
        simp [mergePrim_net hp, ih hps]

/-- **C19.** Whenever a merge of the layout `o` into the layout `l` comes to an end, the objects of
`l` are still there with their nets, the objects of `o` follow, and their nets are the values of one
function `nf` of the old net: without net goes to without net, different nets of `o` go to different
nets, none of them a net of `l`, all of them nets of the new layout; the nets of `l` are still
there.  Both net collections are the result of arbitrary calls; together no more than 2^31 ids were
handed out. -/
theorem c19_merge (act : T → G → G) (comp : T → T → T) (sep : Char) (c : Nat) (l : Layout G T)
    (i : Inst T) (o l' : Layout G T) (osl oso : List Net.Op)
    (hl : l.nets = Net.run {} osl) (ho : o.nets = Net.run {} oso)
    (hu : l.nets.uid + o.nets.uid ≤ 2 ^ 31)
    (h : mergeInto act comp sep c l i o = .ok l') :
    ∃ nf : Int → Int,
      (∃ ps, l'.prims = l.prims ++ ps ∧ ps.map (fun p => p.net) = o.prims.map (fun p => nf p.net)) ∧
      (∃ ps, l'.pads = l.pads ++ ps ∧ ps.map (fun p => p.net) = o.pads.map (fun p => nf p.net)) ∧
      nf noNet = noNet ∧
      (∀ a, a ∉ netIds o → nf a = noNet) ∧
      (∀ a ∈ netIds o, ∀ b ∈ netIds o, nf a = nf b → a = b) ∧
      (∀ a ∈ netIds o, nf a ≠ noNet ∧ nf a ∉ netIds l ∧ nf a ∈ netIds l') ∧
      (∃ new, l'.nets.nets = l.nets.nets ++ new ∧ new.length = o.nets.nets.length) ∧
      (netIds l').Nodup := by
  have il : Net.Inv l.nets := by rw [hl]; exact Net.inv_run Net.inv_empty osl
  have io : Net.Inv o.nets := by rw [ho]; exact Net.inv_run Net.inv_empty oso
  have hlen := length_le_uid io
  have hrange := fun e he => id_range io (by omega) (e := e) he
  obtain ⟨c', m', new, r1, r2, r3, r4, r5, r6, r7, r8⟩ :=
    mergeNets_spec sep i.name o.nets.nets l.nets (UMap.emplace [] noNet noNet).1 il
      (Net.nodup_ids io (by omega)) (by
      intro e he
      have := hrange e he
      rw [UMap.find?_emplace', if_neg, UMap.find?_nil]
      rintro ⟨h, _⟩
      rw [h] at this
      simp [noNet] at this)
  unfold mergeInto at h
  rw [r1] at h
  simp only [Res.bind_ok] at h
  cases hp : mergePrims act (layerFn l i) i.trans m' (mergeComps act sep i.name (layerFn l i) i.trans c
      i.defCell l.comps [] o.comps).2 o.prims with
  | ub => rw [hp] at h; simp at h
  | exn => rw [hp] at h; simp at h
  | ok ps =>
    rw [hp] at h
    simp only [Res.bind_ok, Res.ok.injEq] at h
    subst h
    have hval : ∀ a ∈ netIds o, ∃ k, k < o.nets.nets.length ∧ mapNet m' a = ((l.nets.uid + k : Nat) : Int) ∧
        (∃ e, o.nets.nets[k]? = some e ∧ e.2.id = a) := by
      intro a ha
      obtain ⟨e, he, rfl⟩ := List.mem_map.1 ha
      obtain ⟨k, hk⟩ := List.mem_iff_getElem?.1 he
      have hlt : k < o.nets.nets.length := (List.getElem?_eq_some_iff.1 hk).1
      refine ⟨k, hlt, ?_, e, hk, rfl⟩
      unfold mapNet
      rw [r5 k e hk]
      exact uidValue_small (by omega)
    refine ⟨mapNet m', ⟨ps, rfl, mergePrims_net hp⟩, ⟨_, rfl, by simp [Function.comp_def]⟩, ?_, ?_, ?_,
      ?_, ⟨new, r6, r8⟩, ?_⟩
    · unfold mapNet
      rw [r4 noNet (fun e he h => by have := hrange e he; rw [h] at this; simp [noNet] at this)]
      rw [UMap.find?_emplace']; simp [UMap.find?_nil]
    · intro a ha
      unfold mapNet
      rw [r4 a (fun e he h => ha (h ▸ List.mem_map_of_mem (f := fun e : String × Net.Net => e.2.id) he)),
        UMap.find?_emplace']
      by_cases ha' : a = noNet <;> simp [ha', UMap.find?_nil]
    · intro a ha b hb hab
      obtain ⟨k, _, hk, e, he, rfl⟩ := hval a ha
      obtain ⟨k', _, hk', e', he', rfl⟩ := hval b hb
      rw [hk, hk'] at hab
      have : k = k' := by omega
      subst this
      rw [he] at he'
      simp only [Option.some.injEq] at he'
      rw [he']
    · intro a ha
      obtain ⟨k, hlt, hk, e, he, _⟩ := hval a ha
      rw [hk]
      refine ⟨by simp only [noNet]; omega, ?_, ?_⟩
      · intro hm
        obtain ⟨x, hx, hxe⟩ := List.mem_map.1 hm
        have := id_range il (by omega) hx
        omega
      · obtain ⟨n, hn⟩ := r7 k e he
        simp only [netIds, r6, List.map_append, List.mem_append]
        right
        refine List.mem_map.2 ⟨_, List.mem_of_getElem? hn, ?_⟩
        have hsm : Net.uidValue (l.nets.uid + k) = ((l.nets.uid + k : Nat) : Int) :=
          uidValue_small (by omega)
        simpa only using hsm
    · exact Net.nodup_ids r2 (by rw [r3]; omega)

/-! ### C18 -/

/-- What the calls of the library keep up in the layout of cell `c`: the nets were made by calls of
the net collection; objects are on nets of the layout or on none; component names are unique; the
layer of a bondwire end is the component layer exactly if it is mounted on a component, which is one
of the layout. -/
structure Consistent (c : Nat) (l : Layout G T) : Prop where
  nets : ∃ os, l.nets = Net.run {} os
  primNet : ∀ p ∈ l.prims, p.net = noNet ∨ p.net ∈ netIds l
  padNet : ∀ p ∈ l.pads, p.net = noNet ∨ p.net ∈ netIds l
  comps : (l.comps.map Prod.fst).Nodup
  startLayer : ∀ p ∈ l.prims, ∀ w, p.wire = some w →
    (w.startComp ≠ none ↔ p.layer = componentLayer)
  endLayer : ∀ p ∈ l.prims, ∀ w, p.wire = some w →
    (w.endComp ≠ none ↔ w.endLayer = componentLayer) ∧ (w.endComp = none → w.endPin = "")
  mounted : ∀ p ∈ l.prims, ∀ w, p.wire = some w → ∀ r, (w.startComp = some r ∨ w.endComp = some r) →
    r.1 = c ∧ r.2 ∈ l.comps.map Prod.fst

theorem Consistent.ok {c : Nat} {l : Layout G T} (h : Consistent c l) : LayoutOK c l := by
  refine ⟨?_, h.comps, ?_, ?_, ?_⟩
  · obtain ⟨os, hos⟩ := h.nets
    rw [hos]; exact Net.inv_run Net.inv_empty os
  · intro p hp
    rcases h.primNet p hp with h | h
    · exact Or.inl h
    · exact Or.inr (List.mem_map.1 h)
  · intro p hp
    rcases h.padNet p hp with h | h
    · exact Or.inl h
    · exact Or.inr (List.mem_map.1 h)
  · intro p hp w hw
    refine ⟨?_, ?_, fun r hr => h.mounted p hp w hw r (Or.inl hr),
      fun r hr => h.mounted p hp w hw r (Or.inr hr), (h.endLayer p hp w hw).2⟩
    · rw [Option.isSome_iff_ne_none]; exact h.startLayer p hp w hw
    · rw [Option.isSome_iff_ne_none]; exact (h.endLayer p hp w hw).1

/-- **C18.** Let the design be acyclic (`rank` witnesses it), its layouts consistent, its layer maps
keep the component layer apart, and let there be fewer than 2^31 net ids in the expansion of any
cell.  Then every list of flattening tasks runs without undefined behaviour, and the layout of every
cell among the tasks has no instances and shows the expansion of the original cell: exactly one
placed copy of each object per path, in which nets and components are renamed by a function of path
and old name that keeps all of them apart. -/
theorem c18_flatten (act : T → G → G) (comp : T → T → T) (sep : Char) (db : Db G T)
    (rank : Nat → Nat) (hac : ∀ c, ∀ i ∈ (db c).insts, rank i.defCell < rank c)
    (hcon : ∀ c, Consistent c (db c))
    (hmaps : ∀ c, ∀ i ∈ (db c).insts, KeepsComponentLayer (layerFn (db c) i))
    (hids : ∀ c, netTotal db (rank c + 1) c ≤ 2 ^ 31)
    (tasks : List Nat) (depth : Nat) (hdepth : ∀ c ∈ tasks, rank c < depth) :
    ∃ db', runTasks act comp sep depth db tasks = .ok db' ∧
      ∀ top ∈ tasks, (db' top).insts = [] ∧
        ∃ (ν : List Nat → Int → Int) (κ : List Nat → String → String),
          Shows top (db' top) ν κ (expand act db (rank top + 1) top) ∧
          (∀ x ∈ (expand act db (rank top + 1) top).nets,
            ∀ y ∈ (expand act db (rank top + 1) top).nets, ν x.1 x.2 = ν y.1 y.2 → x = y) ∧
          (∀ x ∈ (expand act db (rank top + 1) top).nets, ν x.1 x.2 ≠ noNet) ∧
          (∀ x ∈ (expand act db (rank top + 1) top).comps,
            ∀ y ∈ (expand act db (rank top + 1) top).comps, κ x.1 x.2.1 = κ y.1 y.2.1 → x = y) := by
  have hd : DesignOK db rank := ⟨hac, fun c => (hcon c).ok, hmaps⟩
  obtain ⟨db', h1, h2, _⟩ := runTasks_spec (act := act) (comp := comp) (sep := sep) hd hids depth tasks
    db hdepth (fun d => Or.inl rfl)
  refine ⟨db', h1, ?_⟩
  intro top htop
  have hF := h2 top (Or.inl htop)
  obtain ⟨l, ν, κ, g1, g2, g3, g4, g5⟩ :=
    flatL_spec (act := act) (comp := comp) (sep := sep) hd (rank top + 1) top (by omega) (hids top)
  rw [g1] at hF
  simp only [Res.ok.injEq] at hF
  rw [← hF]
  have hu := le_trans g4 (hids top)
  refine ⟨g3, ν, κ, g5, ?_, ?_, ?_⟩
  · have hnd := Net.nodup_ids g2.nets (by omega)
    rw [g5.nets] at hnd
    intro x hx y hy hxy
    exact List.inj_on_of_nodup_map hnd hx hy hxy
  · intro x hx hno
    have : ν x.1 x.2 ∈ l.nets.nets.map fun n => n.2.id := by
      rw [g5.nets]
      exact List.mem_map_of_mem (f := fun x : List Nat × Int => ν x.1 x.2) hx
    obtain ⟨e, he, h⟩ := List.mem_map.1 this
    have := id_range g2.nets hu he
    rw [h, hno] at this
    simp [noNet] at this
  · have hnd := g2.comps
    unfold UMap.WF UMap.keys at hnd
    rw [g5.comps, List.map_map] at hnd
    intro x hx y hy hxy
    exact List.inj_on_of_nodup_map hnd hx hy hxy

/-- **C18, order of the tasks.** Two lists of tasks, in whatever order and whatever else they
contain, leave the same layout in every cell that is in both. -/
theorem c18_order (act : T → G → G) (comp : T → T → T) (sep : Char) (db : Db G T)
    (rank : Nat → Nat) (hac : ∀ c, ∀ i ∈ (db c).insts, rank i.defCell < rank c)
    (hcon : ∀ c, Consistent c (db c))
    (hmaps : ∀ c, ∀ i ∈ (db c).insts, KeepsComponentLayer (layerFn (db c) i))
    (hids : ∀ c, netTotal db (rank c + 1) c ≤ 2 ^ 31)
    (tasks tasks' : List Nat) (depth depth' : Nat) (hdepth : ∀ c ∈ tasks, rank c < depth)
    (hdepth' : ∀ c ∈ tasks', rank c < depth') (db1 db2 : Db G T)
    (h1 : runTasks act comp sep depth db tasks = .ok db1)
    (h2 : runTasks act comp sep depth' db tasks' = .ok db2) :
    ∀ top, top ∈ tasks → top ∈ tasks' → db1 top = db2 top := by
  have hd : DesignOK db rank := ⟨hac, fun c => (hcon c).ok, hmaps⟩
  obtain ⟨a, a1, a2, _⟩ := runTasks_spec (act := act) (comp := comp) (sep := sep) hd hids depth tasks
    db hdepth (fun d => Or.inl rfl)
  obtain ⟨b, b1, b2, _⟩ := runTasks_spec (act := act) (comp := comp) (sep := sep) hd hids depth' tasks'
    db hdepth' (fun d => Or.inl rfl)
  rw [h1] at a1
  rw [h2] at b1
  simp only [Res.ok.injEq] at a1 b1
  subst a1; subst b1
  intro top ht ht'
  have e1 := a2 top (Or.inl ht)
  have e2 := b2 top (Or.inl ht')
  rw [e1] at e2
  simpa using e2

/-- Layer maps built by the library keep the component layer apart (C07 gives that they are `Good`). -/
theorem reach_keeps {m : BiMap} (h : LayerMap.Reach m) : KeepsComponentLayer (forward m) := by
  have hg := h.good
  intro a
  constructor
  · intro ha
    have hne : componentLayer ≠ noLayer := by decide
    have h1 := (LayerMap.forward_eq_iff hg.1 hne).1 ha
    have h2 := (LayerMap.forward_eq_iff hg.1 hne).1 (LayerMap.good_forward_comp hg)
    exact LayerMap.inj_right hg.1 h1 h2
  · rintro rfl
    exact LayerMap.good_forward_comp hg

/-! #### cyclic designs -/

theorem mergeInto_insts {act : T → G → G} {comp : T → T → T} {sep : Char} {c : Nat} {l : Layout G T}
    {i : Inst T} {o l' : Layout G T} (h : mergeInto act comp sep c l i o = .ok l') :
    ∃ js, l'.insts = l.insts ++ js := by
  unfold mergeInto at h
  cases hn : mergeNets sep i.name l.nets (UMap.emplace [] noNet noNet).1 o.nets.nets with
  | ub => rw [hn] at h; simp at h
  | exn => rw [hn] at h; simp at h
  | ok nm =>
    rw [hn] at h
    simp only [Res.bind_ok] at h
    cases hp : mergePrims act (layerFn l i) i.trans nm.2 (mergeComps act sep i.name (layerFn l i)
        i.trans c i.defCell l.comps [] o.comps).2 o.prims with
    | ub => rw [hp] at h; simp at h
    | exn => rw [hp] at h; simp at h
    | ok ps =>
      rw [hp] at h
      simp only [Res.bind_ok, Res.ok.injEq] at h
      subst h
      exact ⟨_, rfl⟩

theorem flatten_avoids {act : T → G → G} {comp : T → T → T} {sep : Char} (S : Nat → Prop) (n : Nat) :
    ∀ (db db' : Db G T) (c : Nat), (∀ d, S d → ∃ i ∈ (db d).insts, S i.defCell) →
      flatten act comp sep n db c = .ok db' →
      ¬ S c ∧ ∀ d, S d → (db' d) = db d := by
  induction n with
  | zero => intro db db' c _ h; simp [flatten] at h
  | succ n ih =>
    intro db db' c hS h
    simp only [flatten] at h
    -- the loop
    have loop : ∀ (is : List (Inst T)) (db db' : Db G T),
        (∀ d, S d → ∃ i ∈ (db d).insts, S i.defCell) →
        (S c → ∃ i ∈ is, S i.defCell) →
        forEach (fun db i => (flatten act comp sep n db i.defCell).bind fun db =>
          mergeDb act comp sep db c i) db is = .ok db' →
        ¬ S c ∧ ∀ d, S d → db' d = db d := by
      intro is
      induction is with
      | nil =>
        intro db db' _ hex h
        simp only [forEach, Res.ok.injEq] at h
        subst h
        refine ⟨fun hc => ?_, fun _ _ => rfl⟩
        obtain ⟨i, hi, _⟩ := hex hc
        simp at hi
      | cons i is ih2 =>
        intro db db' hS hex h
        simp only [forEach] at h
        cases hf : flatten act comp sep n db i.defCell with
        | ub => rw [hf] at h; simp at h
        | exn => rw [hf] at h; simp at h
        | ok db1 =>
          obtain ⟨f1, f2⟩ := ih db db1 i.defCell hS hf
          have hex' : S c → ∃ j ∈ is, S j.defCell := by
            intro hc
            obtain ⟨j, hj, hSj⟩ := hex hc
            rcases List.mem_cons.1 hj with rfl | hj
            · exact absurd hSj f1
            · exact ⟨j, hj, hSj⟩
          rw [hf, Res.bind_ok] at h
          cases hm : mergeDb act comp sep db1 c i with
          | ub => rw [hm] at h; simp at h
          | exn => rw [hm] at h; simp at h
          | ok db2 =>
            rw [hm, Res.bind_ok] at h
            have h2 : ∀ d, (∃ js, (db2 d).insts = (db1 d).insts ++ js) ∧ (d ≠ c → db2 d = db1 d) := by
              intro d
              unfold mergeDb at hm
              split at hm
              · simp only [Res.ok.injEq] at hm
                subst hm
                exact ⟨⟨[], by simp⟩, fun _ => rfl⟩
              · cases hmi : mergeInto act comp sep c (db1 c) i (db1 i.defCell) with
                | ub => rw [hmi] at hm; simp at hm
                | exn => rw [hmi] at hm; simp at hm
                | ok l =>
                  rw [hmi] at hm
                  simp only [Res.bind_ok, Res.ok.injEq] at hm
                  subst hm
                  by_cases hd : d = c
                  · subst hd
                    obtain ⟨js, hjs⟩ := mergeInto_insts hmi
                    exact ⟨⟨js, by simpa [Db.set] using hjs⟩, fun h => absurd rfl h⟩
                  · exact ⟨⟨[], by simp [Db.set, hd]⟩, fun _ => by simp [Db.set, hd]⟩
            have hS2 : ∀ d, S d → ∃ i ∈ (db2 d).insts, S i.defCell := by
              intro d hd
              obtain ⟨j, hj, hSj⟩ := hS d hd
              obtain ⟨js, hjs⟩ := (h2 d).1
              refine ⟨j, ?_, hSj⟩
              rw [hjs, f2 d hd]
              simp [hj]
            obtain ⟨g1, g2⟩ := ih2 db2 db' hS2 hex' h
            refine ⟨g1, fun d hd => ?_⟩
            rw [g2 d hd, (h2 d).2 (fun e => g1 (e ▸ hd)), f2 d hd]
    cases hl : forEach (fun db i => (flatten act comp sep n db i.defCell).bind fun db =>
        mergeDb act comp sep db c i) db (db c).insts with
    | ub => rw [hl] at h; simp at h
    | exn => rw [hl] at h; simp at h
    | ok db1 =>
      obtain ⟨l1, l2⟩ := loop _ db db1 hS (hS c) hl
      rw [hl] at h
      simp only [Res.bind_ok, Res.ok.injEq] at h
      subst h
      refine ⟨l1, fun d hd => ?_⟩
      have : d ≠ c := fun e => l1 (e ▸ hd)
      simp only [Db.set, if_neg this]
      exact l2 d hd

/-- **C18, why acyclic.** If every cell of a set `S` instantiates a cell of `S` — a cell that
contains itself, for one — then flattening a cell of `S` never returns, whatever depth the stack
has. -/
theorem c18_cycle (act : T → G → G) (comp : T → T → T) (sep : Char) (db : Db G T) (S : Nat → Prop)
    (hS : ∀ d, S d → ∃ i ∈ (db d).insts, S i.defCell) (c : Nat) (hc : S c) (depth : Nat) (db' : Db G T) :
    flatten act comp sep depth db c ≠ .ok db' :=
  fun h => (flatten_avoids S depth db db' c hS h).1 hc

/-! #### an example

Cell 1 has a net, a component and two primitives, one of them a bondwire from the component to a
layer; cell 0 has two instances of cell 1 of the same name and a primitive of its own; coordinates
are integers, instances shift them. -/

def exCell : Layout Int Int where
  layers := []
  nets := Net.run {} [.create "a", .create "b"]
  comps := [("U", ⟨0, 5⟩)]
  prims := [⟨1, 0, 7, none⟩, ⟨-1, -10, 8, some ⟨0, some (1, "U"), "p", none, ""⟩⟩]
  pads := [⟨0, 9⟩]

def exTop : Layout Int Int where
  layers := []
  nets := Net.run {} [.create "x/a"]
  prims := [⟨0, 0, 1, none⟩]
  insts := [⟨"x", 1, 100, some (LayerMap.setMapping LayerMap.new 0 3)⟩,
            ⟨"x", 1, 200, some (LayerMap.setMapping LayerMap.new 0 4)⟩]

def exDb : Db Int Int := fun c => if c = 0 then exTop else if c = 1 then exCell else {}

/-- the hypotheses of `c18_flatten` hold of the example -/
example : (∀ c, ∀ i ∈ (exDb c).insts, (fun c => 1 - c : Nat → Nat) i.defCell < (fun c => 1 - c) c) ∧
    (∀ c, Consistent c (exDb c)) ∧
    (∀ c, ∀ i ∈ (exDb c).insts, KeepsComponentLayer (layerFn (exDb c) i)) := by
  refine ⟨?_, ?_, ?_⟩
  · intro c i hi
    unfold exDb at hi
    split at hi
    · rename_i h; subst h; simp [exTop] at hi; rcases hi with rfl | rfl <;> decide
    · split at hi
      · simp [exCell] at hi
      · simp at hi
  · intro c
    unfold exDb
    split
    · exact ⟨⟨_, rfl⟩, by decide, by simp [exTop], by simp [exTop], by simp [exTop], by simp [exTop],
        by simp [exTop]⟩
    · split
      · rename_i h; subst h
        exact ⟨⟨_, rfl⟩, by decide, by decide, by simp [exCell], by
          simp [exCell, componentLayer], by simp [exCell, componentLayer], by simp [exCell]⟩
      · exact ⟨⟨[], rfl⟩, by simp, by simp, by simp, by simp, by simp, by simp⟩
  · intro c i hi
    unfold exDb at hi
    split at hi
    · simp [exTop] at hi
      rcases hi with rfl | rfl
      · exact reach_keeps (.set _ _ .new (Or.inl (by decide)) (Or.inl (by decide)))
      · exact reach_keeps (.set _ _ .new (Or.inl (by decide)) (Or.inl (by decide)))
    · split at hi
      · simp [exCell] at hi
      · simp at hi

/-- and this is what comes out for the top cell -/
example : (match runTasks (· + ·) (· + ·) '/' 3 exDb [1, 1, 0] with
    | .ok db' => ((db' 0).prims.map fun p => (p.net, p.layer, p.geo), (db' 0).pads, (db' 0).comps)
    | _ => ([], [], [])) =
    ([(0, 0, 1), (2, 3, 107), (-1, -10, 108), (4, 4, 207), (-1, -10, 208)],
      [⟨1, 109⟩, ⟨3, 209⟩], [("x/U", ⟨3, 105⟩), ("x/U1", ⟨4, 205⟩)]) := by decide +kernel

/-- a merge meeting the hypotheses of `c19_merge` -/
example : ∃ l', mergeInto (· + ·) (· + ·) '/' 0 exTop ⟨"x", 1, (100 : Int), none⟩ exCell = .ok l' ∧
    exTop.nets.uid + exCell.nets.uid ≤ 2 ^ 31 := by
  refine ⟨_, rfl, ?_⟩
  have : exTop.nets.uid + exCell.nets.uid = 3 := by decide
  omega

/-- a cell that contains itself -/
example : ∃ i ∈ ((fun _ => { insts := [⟨"i", 0, 0, none⟩] } : Db Int Int) 0).insts, i.defCell = 0 :=
  ⟨_, List.mem_singleton.2 rfl, rfl⟩

end Ecad.Hier
