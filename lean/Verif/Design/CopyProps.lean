import Verif.Design.CopyModel
/-!
C93: a copied database is independent of the original.
-/
namespace Ecad.Copy

/-! ### Specification -/

/-- All objects that belong to a layout. -/
def Layout.owned (l : Layout) : List Nat :=
  l.obj :: (l.comps.map (fun e => e.2.obj) ++ l.insts.map CellInst.obj ++ l.pads.map PsInst.obj ++
    l.wires.map Wire.obj)

/-- All objects that belong to a database. -/
def Database.owned (d : Database) : List Nat :=
  d.obj :: (d.cells.flatMap (fun c => c.2.obj :: c.2.layout.owned) ++
    d.compDefs.flatMap (fun c => c.2.obj :: c.2.pins.map Prod.fst) ++
    d.plains.map (fun c => c.2.obj))

/-- Pointers of a layout to its cell and from bond wires to components. -/
def Layout.ownRefs (l : Layout) : List Nat :=
  l.cell.toList ++ l.wires.flatMap (fun w => w.startComp.toList ++ w.endComp.toList)

/-- Pointers of a layout from components, instances and bond wires to layouts, definitions and layer
maps. -/
def Layout.farRefs (l : Layout) : List Nat :=
  l.comps.flatMap (fun e => e.2.refLayout.toList ++ e.2.compDef.toList) ++
  l.insts.flatMap (fun i => i.refLayout.toList ++ i.defLayout.toList ++ i.layerMap.toList) ++
  l.pads.flatMap (fun p => p.psDef.toList ++ p.layerMap.toList) ++
  l.wires.flatMap (fun w => w.joints.toList)

/-- Pointers of definitions to their database, of layouts to their cell and of bond wires to
components. -/
def Database.ownRefs (d : Database) : List Nat :=
  d.cells.flatMap (fun c => c.2.owner.toList ++ c.2.layout.ownRefs) ++
  d.compDefs.flatMap (fun c => c.2.owner.toList) ++ d.plains.flatMap (fun c => c.2.owner.toList)

/-- All other pointers: those of `Layout.farRefs` and from pins to padstack definitions. -/
def Database.farRefs (d : Database) : List Nat :=
  d.cells.flatMap (fun c => c.2.layout.farRefs) ++
  d.compDefs.flatMap (fun c => c.2.pins.flatMap (fun p => p.2.toList))

/-- Every pointer held by the database leads to one of its own objects. -/
def SelfContained (d : Database) : Prop := ∀ r, r ∈ d.ownRefs ++ d.farRefs → r ∈ d.owned

/-- Components are filed under their names, bond wires end at components of the same layout, and the
heap knows these components. -/
structure Tidy (heap : Nat → Option String) (l : Layout) : Prop where
  wf : UMap.WF l.comps
  named : ∀ e ∈ l.comps, e.2.name = e.1
  heapOk : ∀ e ∈ l.comps, heap e.2.obj = some e.2.name
  ends : ∀ w ∈ l.wires, ∀ o, (w.startComp = some o ∨ w.endComp = some o) →
    ∃ e ∈ l.comps, e.2.obj = o

/-! ### Bond wires -/

theorem find_clone (base : Nat) (comps : List (String × Comp)) (n : String) :
    UMap.find? (comps.map (fun e => (e.1, e.2.clone base))) n =
      (UMap.find? comps n).map (Comp.clone base) := by
  induction comps with
  | nil => rfl
  | cons e m ih =>
    rw [List.map_cons, UMap.find?_cons, UMap.find?_cons, ih]
    by_cases h : e.1 = n
    · simp [h]
    · simp [h]

theorem rebind_tidy {heap : Nat → Option String} {l : Layout} (h : Tidy heap l) (base : Nat)
    (q : Option Nat) (hq : ∀ o, q = some o → ∃ e ∈ l.comps, e.2.obj = o) :
    rebind heap (l.comps.map (fun e => (e.1, e.2.clone base))) q = .ok (q.map (· + base)) := by
  cases q with
  | none => rfl
  | some o =>
    obtain ⟨e, he, rfl⟩ := hq o rfl
    have h1 := h.heapOk e he
    have h2 := h.named e he
    have h3 : UMap.find? l.comps e.1 = some e.2 := (UMap.find?_eq_some_iff h.wf _ _).2 he
    simp only [rebind, h1, findComponentByName, find_clone]
    rw [h2, h3]
    rfl

theorem rebindAll_tidy {heap : Nat → Option String} {l : Layout} (h : Tidy heap l) (base : Nat)
    (ws : List Wire) (hw : ∀ w ∈ ws, ∀ o, (w.startComp = some o ∨ w.endComp = some o) →
      ∃ e ∈ l.comps, e.2.obj = o) :
    rebindAll heap (l.comps.map (fun e => (e.1, e.2.clone base))) (ws.map (Wire.clone base)) =
      .ok (ws.map (fun w => ⟨w.obj + base, w.startComp.map (· + base), w.endComp.map (· + base),
        w.joints⟩)) := by
  induction ws with
  | nil => rfl
  | cons w ws ih =>
    have h1 := rebind_tidy h base w.startComp (fun o ho => hw w (by simp) o (Or.inl ho))
    have h2 := rebind_tidy h base w.endComp (fun o ho => hw w (by simp) o (Or.inr ho))
    have h3 := ih (fun v hv => hw v (by simp [hv]))
    simp only [List.map_cons, rebindAll]
    rw [show (Wire.clone base w).startComp = w.startComp from rfl,
      show (Wire.clone base w).endComp = w.endComp from rfl, h1]
    simp only [Res.bind_ok, h2, h3]
    rfl

/-- A copied layout: everything new, bond wires at the new components, the rest as before. -/
theorem layout_clone_tidy {heap : Nat → Option String} {l : Layout} (h : Tidy heap l)
    (base : Nat) :
    l.clone heap base = .ok ⟨l.obj + base, l.cell, l.comps.map (fun e => (e.1, e.2.clone base)),
      l.insts.map (CellInst.clone base), l.pads.map (PsInst.clone base),
      l.wires.map (fun w => ⟨w.obj + base, w.startComp.map (· + base), w.endComp.map (· + base),
        w.joints⟩)⟩ := by
  unfold Layout.clone
  simp only [rebindAll_tidy h base l.wires h.ends, Res.bind_ok]

/-! ### Pointers of the copy -/

theorem rebindAll_joints {heap : Nat → Option String} {comps : List (String × Comp)}
    {ws ws' : List Wire} (h : rebindAll heap comps ws = .ok ws') :
    ws'.map Wire.joints = ws.map Wire.joints ∧ ws'.map Wire.obj = ws.map Wire.obj := by
  induction ws generalizing ws' with
  | nil => injection h with h; subst h; exact ⟨rfl, rfl⟩
  | cons w ws ih =>
    simp only [rebindAll] at h
    cases h1 : rebind heap comps w.startComp with
    | ub => simp [h1] at h
    | exn => simp [h1] at h
    | ok s =>
      cases h2 : rebind heap comps w.endComp with
      | ub => simp [h1, h2] at h
      | exn => simp [h1, h2] at h
      | ok e =>
        cases h3 : rebindAll heap comps ws with
        | ub => simp [h1, h2, h3] at h
        | exn => simp [h1, h2, h3] at h
        | ok v =>
          simp only [h1, h2, h3, Res.bind_ok, Res.ok.injEq] at h
          subst h
          simp [ih h3]

theorem layout_clone_far {heap : Nat → Option String} {base : Nat} {l l' : Layout}
    (h : l.clone heap base = .ok l') :
    l'.farRefs = l.farRefs ∧ l'.owned = l.owned.map (· + base) := by
  unfold Layout.clone at h
  simp only at h
  cases hw : rebindAll heap (l.comps.map (fun e => (e.1, e.2.clone base)))
      (l.wires.map (Wire.clone base)) with
  | ub => simp [hw] at h
  | exn => simp [hw] at h
  | ok ws =>
    simp only [hw, Res.bind_ok, Res.ok.injEq] at h
    subst h
    obtain ⟨h1, h2⟩ := rebindAll_joints hw
    have h1' : ws.flatMap (fun w => w.joints.toList) = l.wires.flatMap (fun w => w.joints.toList) := by
      have := congrArg (fun x => x.flatMap Option.toList) h1
      simpa [List.flatMap_map, Wire.clone] using this
    constructor
    · simp only [Layout.farRefs, h1', List.flatMap_map]
      rfl
    · simp only [Layout.owned, h2, List.map_map, List.map_cons, List.map_append]
      rfl

theorem cloneCells_far {heap : Nat → Option String} {base : Nat} {cs cs' : List (String × Cell)}
    (h : cloneCells heap base cs = .ok cs') :
    cs'.flatMap (fun c => c.2.layout.farRefs) = cs.flatMap (fun c => c.2.layout.farRefs) ∧
    (cs'.flatMap (fun c => c.2.obj :: c.2.layout.owned)) =
      (cs.flatMap (fun c => c.2.obj :: c.2.layout.owned)).map (· + base) := by
  induction cs generalizing cs' with
  | nil => injection h with h; subst h; exact ⟨rfl, rfl⟩
  | cons c cs ih =>
    simp only [cloneCells, Cell.clone] at h
    cases h1 : c.2.layout.clone heap base with
    | ub => simp [h1] at h
    | exn => simp [h1] at h
    | ok l =>
      cases h3 : cloneCells heap base cs with
      | ub => simp [h1, h3] at h
      | exn => simp [h1, h3] at h
      | ok v =>
        simp only [h1, h3, Res.bind_ok, Res.ok.injEq] at h
        subst h
        obtain ⟨h4, h5⟩ := ih h3
        obtain ⟨h6, h7⟩ := layout_clone_far h1
        constructor
        · simp only [List.flatMap_cons, h4]
          rw [← h6]; rfl
        · simp only [List.flatMap_cons, h5, List.map_append, List.map_cons]
          rw [← h7]; rfl

/-- The copy consists of new objects, but its pointers to layouts, definitions and layer maps are
those of the original. -/
theorem copy_far {heap : Nat → Option String} {base self : Nat} {d d' : Database}
    (h : d.copy heap base self = .ok d') :
    d'.farRefs = d.farRefs ∧ d'.owned = self :: d.owned.tail.map (· + base) := by
  unfold Database.copy at h
  cases hc : cloneCells heap base d.cells with
  | ub => simp [hc] at h
  | exn => simp [hc] at h
  | ok cs =>
    simp only [hc, Res.bind_ok, Res.ok.injEq] at h
    subst h
    obtain ⟨h1, h2⟩ := cloneCells_far hc
    constructor
    · simp only [Database.farRefs, List.flatMap_map, h1, CompDef.clone]
    · simp only [Database.owned, List.flatMap_map, h2, List.tail_cons, List.map_append,
        List.map_flatMap, List.map_map, CompDef.clone, List.map_cons]
      rfl

/-- **C93** is false as soon as a component, an instance, a pin or a bond wire of the database points
to anything else than components: the copy holds the same pointers, which lead to no object of the
copy. -/
theorem c93_far_refuted {heap : Nat → Option String} {base self : Nat} {d d' : Database}
    (h : d.copy heap base self = .ok d') (hne : d.farRefs ≠ [])
    (hold : ∀ r ∈ d.farRefs, r < base) (hself : base ≤ self) :
    d'.farRefs = d.farRefs ∧ (∀ r ∈ d'.farRefs, r ∉ d'.owned) ∧ ¬ SelfContained d' := by
  obtain ⟨h1, h2⟩ := copy_far h
  have hout : ∀ r ∈ d'.farRefs, r ∉ d'.owned := by
    intro r hr ho
    rw [h1] at hr
    have := hold r hr
    rw [h2] at ho
    rcases List.mem_cons.1 ho with ho | ho
    · omega
    · obtain ⟨q, _, rfl⟩ := List.mem_map.1 ho
      omega
  refine ⟨h1, hout, ?_⟩
  intro hs
  obtain ⟨r, hr⟩ := List.exists_mem_of_ne_nil _ hne
  rw [← h1] at hr
  exact hout r hr (hs r (List.mem_append_right _ hr))

theorem cloneCells_tidy {heap : Nat → Option String} (base : Nat) (cs : List (String × Cell))
    (h : ∀ c ∈ cs, Tidy heap c.2.layout) :
    ∃ cs', cloneCells heap base cs = .ok cs' ∧ cs'.map Prod.fst = cs.map Prod.fst ∧
      ∀ c' ∈ cs', ∃ c ∈ cs, c'.1 = c.1 ∧ c'.2.obj = c.2.obj + base ∧
        c'.2.layout.cell = some c'.2.obj ∧
        c'.2.layout.wires = c.2.layout.wires.map (fun w => ⟨w.obj + base,
          w.startComp.map (· + base), w.endComp.map (· + base), w.joints⟩) ∧
        c'.2.layout.comps = c.2.layout.comps.map (fun e => (e.1, e.2.clone base)) := by
  induction cs with
  | nil => exact ⟨[], rfl, rfl, by simp⟩
  | cons c cs ih =>
    obtain ⟨v, h1, h2, h3⟩ := ih (fun x hx => h x (by simp [hx]))
    have h4 := layout_clone_tidy (h c (by simp)) base
    refine ⟨_, by simp only [cloneCells, Cell.clone, h4, h1, Res.bind_ok]; rfl, by simp [h2], ?_⟩
    intro c' hc'
    rcases List.mem_cons.1 hc' with rfl | hc'
    · exact ⟨c, by simp, rfl, rfl, rfl, rfl, rfl⟩
    · obtain ⟨x, hx, h5⟩ := h3 c' hc'
      exact ⟨x, by simp [hx], h5⟩

/-- **C93**, for the pointers the code takes care of: copying a database whose bond wires end at
components of their own layout is defined, keeps the names of all definitions, and in the copy every
definition belongs to the copy, every layout to its cell, and every bond wire ends at the copies of its
components.  Missing: all other pointers, see `c93_far_refuted`. -/
theorem c93_copy_partial {heap : Nat → Option String} (base self : Nat) (d : Database)
    (h : ∀ c ∈ d.cells, Tidy heap c.2.layout) :
    ∃ d', d.copy heap base self = .ok d' ∧
      d'.cells.map Prod.fst = d.cells.map Prod.fst ∧
      d'.compDefs.map Prod.fst = d.compDefs.map Prod.fst ∧
      d'.plains.map Prod.fst = d.plains.map Prod.fst ∧
      (∀ r ∈ d'.ownRefs, r ∈ d'.owned) ∧
      ∀ c' ∈ d'.cells, ∃ c ∈ d.cells, c'.1 = c.1 ∧
        c'.2.layout.wires.map (fun w => (w.startComp, w.endComp)) =
          c.2.layout.wires.map (fun w => (w.startComp.map (· + base), w.endComp.map (· + base))) ∧
        c'.2.layout.comps.map (fun e => (e.1, e.2.obj)) =
          c.2.layout.comps.map (fun e => (e.1, e.2.obj + base)) := by
  obtain ⟨cs, h1, h2, h3⟩ := cloneCells_tidy base d.cells h
  refine ⟨⟨self, cs.map (fun c => (c.1, { c.2 with owner := some self })),
    d.compDefs.map (fun c => (c.1, { c.2.clone base with owner := some self })),
    d.plains.map (fun c => (c.1, { c.2.clone base with owner := some self }))⟩,
    by simp only [Database.copy, h1, Res.bind_ok], ?_, ?_, ?_, ?_, ?_⟩
  · simp [Function.comp_def, ← h2]
  · simp [Function.comp_def]
  · simp [Function.comp_def]
  · intro r hr
    simp only [Database.ownRefs, List.mem_append, List.mem_flatMap, List.mem_map] at hr
    rcases hr with (⟨c, ⟨a, ha, rfl⟩, hr⟩ | ⟨c, ⟨a, _, rfl⟩, hr⟩) | ⟨c, ⟨a, _, rfl⟩, hr⟩
    · rcases hr with hr | hr
      · simp only [Option.toList_some, List.mem_singleton] at hr
        simp [Database.owned, hr]
      · obtain ⟨c0, hc0, _, hobj, hcell, hw, hcomps⟩ := h3 a ha
        simp only [Layout.ownRefs, hcell, hw, List.mem_append, Option.toList_some,
          List.mem_singleton, List.mem_flatMap, List.mem_map] at hr
        rcases hr with hr | ⟨w, ⟨w0, hw0, rfl⟩, hr⟩
        · simp only [Database.owned, List.mem_cons, List.mem_append, List.mem_flatMap, List.mem_map]
          exact Or.inr (Or.inl (Or.inl ⟨_, ⟨a, ha, rfl⟩, Or.inl hr⟩))
        · have : ∃ o, (w0.startComp = some o ∨ w0.endComp = some o) ∧ r = o + base := by
            rcases hr with hr | hr
            · cases hs : w0.startComp with
              | none => rw [hs] at hr; simp at hr
              | some o => rw [hs] at hr; simp at hr; exact ⟨o, Or.inl rfl, hr⟩
            · cases hs : w0.endComp with
              | none => rw [hs] at hr; simp at hr
              | some o => rw [hs] at hr; simp at hr; exact ⟨o, Or.inr rfl, hr⟩
          obtain ⟨o, ho, rfl⟩ := this
          obtain ⟨e, he, rfl⟩ := (h c0 hc0).ends w0 hw0 o ho
          simp only [Database.owned, List.mem_cons, List.mem_append, List.mem_flatMap, List.mem_map]
          refine Or.inr (Or.inl (Or.inl ⟨_, ⟨a, ha, rfl⟩, Or.inr ?_⟩))
          simp only [Layout.owned, hcomps, List.mem_cons, List.mem_append, List.mem_map]
          exact Or.inr (Or.inl (Or.inl (Or.inl ⟨_, ⟨e, he, rfl⟩, rfl⟩)))
    · simp only [Option.toList_some, List.mem_singleton] at hr
      simp [Database.owned, hr]
    · simp only [Option.toList_some, List.mem_singleton] at hr
      simp [Database.owned, hr]
  · intro c' hc'
    obtain ⟨a, ha, rfl⟩ := List.mem_map.1 hc'
    obtain ⟨c0, hc0, hn, _, _, hw, hcomps⟩ := h3 a ha
    refine ⟨c0, hc0, hn, ?_, ?_⟩
    · simp [hw]
    · simp [hcomps, Comp.clone]

/-- A component that was renamed after it was added is lost: bond wires of the copy that should end
at it end nowhere. -/
theorem c93_renamed_refuted (heap : Nat → Option String) (base : Nat)
    (comps : List (String × Comp)) (o : Nat) (name : String) (hh : heap o = some name)
    (hn : name ∉ UMap.keys comps) :
    rebind heap (comps.map (fun e => (e.1, e.2.clone base))) (some o) = .ok none := by
  simp only [rebind, hh, findComponentByName, find_clone]
  rw [(UMap.find?_eq_none_iff comps name).2 hn]
  rfl

/-- A database with two cells: in the first a component and a bond wire on it, in the second an
instance of the first. -/
def exDb : Database where
  obj := 0
  cells := [("A", ⟨1, some 0, ⟨2, some 1, [("U1", ⟨3, "U1", some 2, some 8⟩)], [], [],
      [⟨4, some 3, none, some 10⟩]⟩⟩),
    ("B", ⟨5, some 0, ⟨6, some 5, [], [⟨7, some 6, some 2, none⟩], [], []⟩⟩)]
  compDefs := [("chip", ⟨8, some 0, [(9, some 10)]⟩)]
  plains := [("joint", ⟨10, some 0⟩)]

def exHeap (o : Nat) : Option String := if o = 3 then some "U1" else none

example : (∀ c ∈ exDb.cells, Tidy exHeap c.2.layout) ∧ SelfContained exDb ∧
    exDb.farRefs = [2, 8, 10, 6, 2, 10] := by
  refine ⟨?_, by unfold SelfContained; decide +kernel, by decide +kernel⟩
  intro c hc
  simp only [exDb, List.mem_cons, List.not_mem_nil, or_false] at hc
  rcases hc with rfl | rfl
  · refine ⟨by simp [UMap.WF, UMap.keys], by simp, by simp [exHeap], ?_⟩
    intro w hw o ho
    simp only [List.mem_cons, List.not_mem_nil, or_false] at hw
    subst hw
    simp only [Option.some.injEq, reduceCtorEq, or_false] at ho
    exact ⟨("U1", ⟨3, "U1", some 2, some 8⟩), by simp, ho⟩
  · exact ⟨by simp [UMap.WF, UMap.keys], by simp, by simp, by simp⟩

example : (exDb.copy exHeap 100 100).bind (fun d => .ok (d.ownRefs, d.farRefs)) =
    .ok ([100, 101, 103, 100, 105, 100, 100], [2, 8, 10, 6, 2, 10]) := by decide +kernel

/-- **C93** (dangling).  Copying a layout in which a bond wire still names a component that no longer
exists is undefined behaviour. -/
theorem c93_dangling (heap : Nat → Option String) (base : Nat) (l : Layout) (w : Wire) (o : Nat)
    (hw : w ∈ l.wires) (hc : w.startComp = some o ∨ w.endComp = some o) (ho : heap o = none) :
    l.clone heap base = .ub := by
  have two : ∀ comps c, (∃ r, rebind heap comps c = .ok r) ∨ rebind heap comps c = .ub := by
    intro comps c
    cases c with
    | none => exact Or.inl ⟨_, rfl⟩
    | some o =>
      cases h : heap o with
      | none => right; simp [rebind, h]
      | some n => left; exact ⟨findComponentByName comps n, by simp only [rebind, h]⟩
  have key : ∀ comps (ws : List Wire), w ∈ ws →
      rebindAll heap comps (ws.map (Wire.clone base)) = .ub := by
    intro comps ws
    induction ws with
    | nil => intro h; simp at h
    | cons v ws ih =>
      intro h
      simp only [List.map_cons, rebindAll, Wire.clone]
      rcases two comps v.startComp with ⟨r, hr⟩ | hr
      · rcases two comps v.endComp with ⟨q, hq⟩ | hq
        · rcases List.mem_cons.1 h with rfl | h
          · rcases hc with hc | hc
            · rw [hc] at hr; simp [rebind, ho] at hr
            · rw [hc] at hq; simp [rebind, ho] at hq
          · have := ih h
            simp only [hr, hq, Res.bind_ok]
            rw [show (ws.map fun c => Wire.clone base c) = ws.map (Wire.clone base) from rfl, this]
            rfl
        · simp only [hr, hq, Res.bind_ok, Res.bind_ub]
      · simp only [hr, Res.bind_ub]
  simp only [Layout.clone, key _ _ hw, Res.bind_ub]

/-- A layout with such a wire. -/
example : ∃ w ∈ ([⟨1, some 7, none, none⟩] : List Wire), w.startComp = some 7 := by decide

end Ecad.Copy
