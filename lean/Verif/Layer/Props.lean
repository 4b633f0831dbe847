import Verif.Layer.Lemmas
/-!
C05: layer ids are stack positions.  C06: objects stay on their layer.
-/
namespace Ecad
namespace Layer
open LayerMap

/-- Specification of inserting default dielectric layers: old layer `i` is found at position `φ i`
with only its id changed to that position, the order is kept, every other layer is a new dielectric
layer whose name nobody else has and which lies directly between two layers that were adjacent and
both conducting, and no two conducting layers are adjacent any more. -/
structure Spread (old new : List Lyr) (φ : Nat → Nat) : Prop where
  order : ∀ i j, i < j → j < old.length → φ i < φ j
  kept : ∀ i y, old[i]? = some y → new[φ i]? = some { y with id := (φ i : Int) }
  between : ∀ j z, new[j]? = some z → (∀ i, i < old.length → φ i ≠ j) →
    z.type = .dielectric ∧
    (∀ k y, new[k]? = some y → k ≠ j → y.name ≠ z.name) ∧
    ∃ i x y, old[i]? = some x ∧ old[i + 1]? = some y ∧ x.type = .conducting ∧
      y.type = .conducting ∧ φ i + 1 = j ∧ φ (i + 1) = j + 1
  separated : ∀ j y z, new[j]? = some y → new[j + 1]? = some z →
    ¬ (y.type = .conducting ∧ z.type = .conducting)

/-- ids are positions -/
def Ordered (l : List Lyr) : Prop := ∀ (i : Nat) (y : Lyr), l[i]? = some y → y.id = (i : Int)

theorem ordered_append {l : List Lyr} (h : Ordered l) (y : Lyr) : Ordered (append l y).1 := by
  intro i z hz
  simp only [append] at hz
  rw [List.getElem?_append] at hz
  split at hz
  · exact h i z hz
  · rename_i hlt
    rw [List.getElem?_singleton] at hz
    split at hz
    · simp only [Option.some.injEq] at hz
      subst hz
      have : i = l.length := by omega
      simp [this]
    · cases hz

theorem ordered_appendAll {l : List Lyr} (h : Ordered l) (ys : List Lyr) :
    Ordered (appendAll l ys).1 := by
  induction ys generalizing l with
  | nil => exact h
  | cons y ys ih => exact ih (ordered_append h y)

theorem ordered_make (i : Nat) (m : BiMap) (l : List Lyr) : ∀ k y,
    (makeOrdered i m l).1[k]? = some y → y.id = ((i + k : Nat) : Int) := by
  intro k y h
  rw [makeOrdered_fst, List.getElem?_mapIdx] at h
  cases hl : l[k]? with
  | none => rw [hl] at h; simp at h
  | some z =>
    rw [hl] at h
    simp only [Option.map_some, Option.some.injEq] at h
    rw [← h]

theorem ordered_dielectric {l l' : List Lyr} {m : BiMap} (h : addDefaultDielectric l = .ok (l', m)) :
    Ordered l' := by
  cases l with
  | nil => simp [addDefaultDielectric] at h
  | cons c rest =>
    simp only [addDefaultDielectric, Res.ok.injEq] at h
    intro i y hy
    have h1 : l' = (makeOrdered 0 LayerMap.new (insertLoop [] c rest)).1 := by rw [h]
    rw [h1] at hy
    simpa using ordered_make 0 _ _ i y hy

theorem ordered_run {l l' : List Lyr} (h : Ordered l) (os : List Op) (hr : run l os = .ok l') :
    Ordered l' := by
  induction os generalizing l with
  | nil => simp only [run, Res.ok.injEq] at hr; exact hr ▸ h
  | cons o os ih =>
    simp only [run] at hr
    cases o with
    | append y => exact ih (ordered_append h y) hr
    | appendAll ys => exact ih (ordered_appendAll h ys) hr
    | addDielectric =>
      simp only [step] at hr
      cases ha : addDefaultDielectric l with
      | ub => rw [ha] at hr; simp at hr
      | exn => rw [ha] at hr; simp at hr
      | ok r =>
        obtain ⟨r1, r2⟩ := r
        rw [ha] at hr
        exact ih (ordered_dielectric ha) hr

/-- **C05** (ids).  After every history of appending layers and inserting default dielectric
layers, the id of every layer is its position, and looking up an id finds the layer with this id
and nothing else (ids are 32-bit numbers). -/
theorem c05_layer_ids (os : List Op) (l : List Lyr) (h : run [] os = .ok l)
    (hlen : l.length < 2 ^ 31) :
    (∀ (i : Nat) (y : Lyr), l[i]? = some y → y.id = (i : Int)) ∧
    (∀ (i : Int) (y : Lyr), -2 ^ 31 ≤ i → i < 2 ^ 31 →
      (findById l i = some y ↔ y ∈ l ∧ y.id = i)) := by
  have ho : Ordered l := ordered_run (by intro i y hy; simp at hy) os h
  refine ⟨ho, ?_⟩
  intro i y h1 h2
  unfold findById toSize
  constructor
  · intro hf
    refine ⟨List.mem_of_getElem? hf, ?_⟩
    have h3 := ho _ _ hf
    have h4 := (List.getElem?_eq_some_iff.1 hf).1
    omega
  · rintro ⟨hm, hid⟩
    obtain ⟨k, hk, hk'⟩ := List.getElem_of_mem hm
    have hk2 : l[k]? = some y := by rw [List.getElem?_eq_getElem hk, hk']
    have h3 := ho k y hk2
    have : (i % 2 ^ 64).toNat = k := by omega
    rw [this]; exact hk2

/-- **C05** (appending).  The id returned by appending a layer is the id of the layer, with which it is found. -/
theorem c05_append (os : List Op) (l : List Lyr) (h : run [] os = .ok l) (y : Lyr) (hlen : l.length + 1 < 2 ^ 31) :
    findById (append l y).1 (append l y).2 = some { y with id := (append l y).2 } := by
  have hr : run [] (os ++ [.append y]) = .ok (append l y).1 := by
    have gen : ∀ (os : List Op) (l0 : List Lyr), run l0 os = .ok l → run l0 (os ++ [.append y]) = .ok (append l y).1 := by
      intro os
      induction os with
      | nil => intro l0 h; simp only [run, Res.ok.injEq] at h; subst h; rfl
      | cons o os ih =>
        intro l0 h
        rw [List.cons_append]
        simp only [run] at h ⊢
        cases hs : step l0 o with
        | ub => rw [hs] at h; simp at h
        | exn => rw [hs] at h; simp at h
        | ok l1 => rw [hs] at h; exact ih l1 h
    exact gen os [] h
  have := c05_layer_ids _ _ hr (by simpa [append] using hlen)
  have hid : (append l y).2 = (l.length : Int) := rfl
  refine ((this.2 _ _ (by rw [hid]; omega) (by rw [hid]; omega)).2 ⟨?_, rfl⟩)
  unfold append
  simp

/-- example -/
example : findById (append [⟨"a", .conducting, 0, 5⟩] ⟨"b", .conducting, -1, 6⟩).1 1 = some ⟨"b", .conducting, 1, 6⟩ := by decide

/-- **C05** (dielectric layers).  On every non-empty stack built by the API, inserting default
dielectric layers succeeds and does what the specification says; **C06** (map): the returned map
sends the id of every old layer to the id of that layer in the new stack. -/
theorem c05_dielectric (os : List Op) (l : List Lyr) (h : run [] os = .ok l) (hne : l ≠ []) :
    ∃ l' m φ, addDefaultDielectric l = .ok (l', m) ∧ Spread l l' φ ∧
      (∀ i, i < l.length → forward m (i : Int) = (φ i : Int)) := by
  have ho : Ordered l := ordered_run (by intro i y hy; simp at hy) os h
  cases l with
  | nil => exact absurd rfl hne
  | cons c rest =>
    have hids : ∀ y ∈ c :: rest, y.id ≠ noLayer := by
      intro y hy
      obtain ⟨k, hk, hk'⟩ := List.getElem_of_mem hy
      have := ho k y (by rw [List.getElem?_eq_getElem hk, hk'])
      rw [this]; simp only [noLayer]; omega
    obtain ⟨out, h1, hrel⟩ := insertLoop_rel [] c rest
    simp only [List.nil_append] at h1
    have hu := insertLoop_uniq [] c rest (uniq_of_ids hids)
    rw [h1] at hu
    obtain ⟨φ, h0, hm, hk, hb, ha⟩ := hrel.positions
    have hout : ∀ (j : Nat) (z : Lyr), out[j]? = some z →
        (z.id = noLayer ∨ ∃ i : Nat, i < (c :: rest).length ∧ φ i = j ∧ z.id = (i : Int)) := by
      intro j z hz
      rcases hb j z hz with ⟨i, h2, h3⟩ | ⟨⟨s, h2⟩, _⟩
      · right
        refine ⟨i, h2, h3, ?_⟩
        have h4 : (c :: rest)[i]? = some (c :: rest)[i] := List.getElem?_eq_getElem h2
        have h5 := hk i _ h4
        rw [h3, hz] at h5
        simp only [Option.some.injEq] at h5
        rw [h5]; exact ho i _ h4
      · left; rw [h2]; rfl
    have hid : ∀ y ∈ out, y.id = noLayer ∨ 0 ≤ y.id := by
      intro y hy
      obtain ⟨k, hk, hk'⟩ := List.getElem_of_mem hy
      rcases hout k y (by rw [List.getElem?_eq_getElem hk, hk']) with h | ⟨i, _, _, h⟩
      · exact Or.inl h
      · right; omega
    have hinj : ∀ (i j : Nat) (x y : Lyr), out[i]? = some x → out[j]? = some y → x.id ≠ noLayer →
        x.id = y.id → i = j := by
      intro i j x y hx hy hxn hxy
      rcases hout i x hx with h | ⟨a, _, h2, h3⟩
      · exact absurd h hxn
      · rcases hout j y hy with h | ⟨b, _, h4, h5⟩
        · exact absurd (hxy.trans h) hxn
        · have : a = b := by omega
          subst this; omega
    refine ⟨(makeOrdered 0 LayerMap.new out).1, (makeOrdered 0 LayerMap.new out).2, φ, ?_, ?_, ?_⟩
    · simp only [addDefaultDielectric, h1]
    · have hget : ∀ j : Nat, (makeOrdered 0 LayerMap.new out).1[j]? =
          out[j]?.map (fun y => { y with id := (j : Int) }) := by
        intro j
        rw [makeOrdered_fst, List.getElem?_mapIdx]; simp
      refine ⟨hm, ?_, ?_, ?_⟩
      · intro i y hy
        rw [hget, hk i y hy]; rfl
      · intro j z hz hno
        rw [hget] at hz
        cases hj : out[j]? with
        | none => rw [hj] at hz; simp at hz
        | some w =>
          rw [hj] at hz
          simp only [Option.map_some, Option.some.injEq] at hz
          rcases hb j w hj with ⟨i, h2, h3⟩ | ⟨⟨s, hs⟩, h3⟩
          · exact absurd h3 (hno i h2)
          · refine ⟨?_, ?_, h3⟩
            · rw [← hz, hs]; rfl
            · intro k y hy hkj
              rw [hget] at hy
              cases hk2 : out[k]? with
              | none => rw [hk2] at hy; simp at hy
              | some w' =>
                rw [hk2] at hy
                simp only [Option.map_some, Option.some.injEq] at hy
                have hwid : w.id = noLayer := by rw [hs]; rfl
                obtain ⟨hj1, hj2⟩ := List.getElem?_eq_some_iff.1 hj
                obtain ⟨hk1, hk3⟩ := List.getElem?_eq_some_iff.1 hk2
                have hn : w'.name ≠ w.name := by
                  rcases Nat.lt_or_gt_of_ne hkj with hlt | hlt
                  · have := List.pairwise_iff_getElem.1 hu k j hk1 hj1 hlt
                    rw [hj2, hk3] at this
                    exact this (Or.inr hwid)
                  · have := List.pairwise_iff_getElem.1 hu j k hj1 hk1 hlt
                    rw [hj2, hk3] at this
                    exact fun he => this (Or.inl hwid) he.symm
                rw [← hy, ← hz]; exact hn
      · intro j y z hy hz
        rw [hget] at hy hz
        cases hj : out[j]? with
        | none => rw [hj] at hy; simp at hy
        | some w =>
          cases hj' : out[j + 1]? with
          | none => rw [hj'] at hz; simp at hz
          | some w' =>
            rw [hj] at hy; rw [hj'] at hz
            simp only [Option.map_some, Option.some.injEq] at hy hz
            rw [← hy, ← hz]
            exact ha j w w' hj hj'
    · intro i hi
      have h4 : (c :: rest)[i]? = some (c :: rest)[i] := List.getElem?_eq_getElem hi
      have h5 := hk i _ h4
      have h6 := ho i _ h4
      have := forward_makeOrdered hid hinj h5 (by rw [h6]; simp only [noLayer]; omega)
      rw [h6] at this
      exact this

/-- On an empty stack the call has undefined behaviour (the code moves an iterator past the end),
so `c05_dielectric` has to ask for a non-empty stack. -/
theorem c05_empty_stack_ub : addDefaultDielectric [] = .ub := rfl

/-- A stack with three adjacent conducting layers, one of them already called `Dielectric`. -/
example : let os : List Op := [.append ⟨"top", .conducting, -1, 1⟩,
      .append ⟨"Dielectric", .conducting, -1, 2⟩, .append ⟨"bot", .conducting, -1, 3⟩]
    ∃ l, run [] os = .ok l ∧ l ≠ [] ∧ (addDefaultDielectric l) = .ok
      ([⟨"top", .conducting, 0, 1⟩, ⟨"Dielectric1", .dielectric, 1, 0⟩,
        ⟨"Dielectric", .conducting, 2, 2⟩, ⟨"Dielectric2", .dielectric, 3, 0⟩,
        ⟨"bot", .conducting, 4, 3⟩],
       [(-10, -10), (-1, -1), (0, 0), (1, 2), (2, 4)]) := by
  refine ⟨_, rfl, by decide, by decide⟩

/-! ### C06 -/

/-- The layer an object refers to, up to the id which is renumbered. -/
def sameLayer (x y : Lyr) : Prop := x.name = y.name ∧ x.type = y.type ∧ x.payload = y.payload

/-- `new` refers in the new stack to the layer `old` referred to in the old stack; references to
no layer or to the component layer stay what they are. -/
def Follows (ol nl : List Lyr) (old new : Int) : Prop :=
  (∀ x, findById ol old = some x → ∃ y, findById nl new = some y ∧ sameLayer x y) ∧
  (old = noLayer → new = noLayer) ∧ (old = componentLayer → new = componentLayer)

theorem mapInsts_ok {m : BiMap} (ps : List PsInst) (maps : List (String × BiMap))
    (cache : List (Nat × Nat)) (maps0 : List (String × BiMap))
    (hpre : ∃ t, maps = maps0 ++ t)
    (hcache : ∀ o o', cache.lookup o = some o' → ∃ e e', maps0[o]? = some e ∧ maps[o']? = some e' ∧
      e'.2 = mappingLeft e.2 m)
    (hps : ∀ p ∈ ps, ∃ o, p.lmap = some o ∧ o < maps0.length) :
    ∃ ps' maps', mapInsts m maps cache ps = .ok (ps', maps') ∧ (∃ t, maps' = maps ++ t) ∧
      ps'.length = ps.length ∧
      ∀ (k : Nat) (p p' : PsInst), ps[k]? = some p → ps'[k]? = some p' →
        p'.top = forward m p.top ∧ p'.bot = forward m p.bot ∧
        ∃ (o o' : Nat) (e e' : String × BiMap), p.lmap = some o ∧ p'.lmap = some o' ∧ maps0[o]? = some e ∧ maps'[o']? = some e' ∧
          e'.2 = mappingLeft e.2 m := by
  induction ps generalizing maps cache with
  | nil => exact ⟨[], maps, rfl, ⟨[], by simp⟩, rfl, by intro k p p' h; simp at h⟩
  | cons p ps ih =>
    obtain ⟨o, ho, hlt⟩ := hps p (by simp)
    obtain ⟨t, ht⟩ := hpre
    simp only [mapInsts, ho]
    cases hc : cache.lookup o with
    | some o' =>
      obtain ⟨ps', maps', h1, ⟨t', ht'⟩, h2, h3⟩ := ih maps cache ⟨t, ht⟩ hcache
        (fun q hq => hps q (by simp [hq]))
      simp only [h1, Res.bind_ok]
      refine ⟨_, _, rfl, ⟨t', ht'⟩, by simp [h2], ?_⟩
      intro k q q' hq hq'
      cases k with
      | zero =>
        simp only [List.getElem?_cons_zero, Option.some.injEq] at hq hq'
        subst hq; subst hq'
        refine ⟨rfl, rfl, ?_⟩
        obtain ⟨e, e', h4, h5, h6⟩ := hcache o o' hc
        refine ⟨o, o', e, e', ho, rfl, h4, ?_, h6⟩
        rw [ht', List.getElem?_append_left (List.getElem?_eq_some_iff.1 h5).1]
        exact h5
      | succ k => exact h3 k q q' (by simpa using hq) (by simpa using hq')
    | none =>
      have hmo : maps[o]? = some maps0[o] := by
        rw [ht, List.getElem?_append_left hlt, List.getElem?_eq_getElem hlt]
      have hmo0 : maps0[o]? = some (maps0[o]) := List.getElem?_eq_getElem hlt
      simp only [hmo]
      generalize hnm : Naming.nextName (maps.map Prod.fst) (maps0[o]).1 = nm
      obtain ⟨ps', maps', h1, ⟨t', ht'⟩, h2, h3⟩ :=
        ih (maps ++ [(nm, mappingLeft (maps0[o]).2 m)]) ((o, maps.length) :: cache)
          ⟨t ++ [(nm, mappingLeft (maps0[o]).2 m)], by rw [ht, List.append_assoc]⟩ (by
            intro a a' ha
            rw [List.lookup_cons] at ha
            split at ha
            · rename_i hao
              simp only [Option.some.injEq] at ha
              have hao' : a = o := by simpa using hao
              subst hao'; subst ha
              exact ⟨maps0[a], (nm, mappingLeft (maps0[a]).2 m), hmo0, by simp, rfl⟩
            · obtain ⟨e, e', h4, h5, h6⟩ := hcache a a' ha
              refine ⟨e, e', h4, ?_, h6⟩
              rw [List.getElem?_append_left (List.getElem?_eq_some_iff.1 h5).1]
              exact h5) (fun q hq => hps q (by simp [hq]))
      simp only [h1, Res.bind_ok]
      refine ⟨_, maps', rfl, ⟨[(nm, mappingLeft (maps0[o]).2 m)] ++ t', by rw [ht', List.append_assoc]⟩,
        by simp [h2], ?_⟩
      intro k q q' hq hq'
      cases k with
      | zero =>
        simp only [List.getElem?_cons_zero, Option.some.injEq] at hq hq'
        subst hq; subst hq'
        refine ⟨rfl, rfl, o, maps.length, maps0[o], (nm, mappingLeft (maps0[o]).2 m), ho, rfl, hmo0,
          ?_, rfl⟩
        rw [ht', List.getElem?_append_left (by simp)]
        simp
      | succ k => exact h3 k q q' (by simpa using hq) (by simpa using hq')

/-- facts about the map returned for a stack built by the API -/
theorem map_facts (os : List Op) (l : List Lyr) (h : run [] os = .ok l) {l' : List Lyr} {m : BiMap}
    (hr : addDefaultDielectric l = .ok (l', m)) : Reach m := by
  have ho : Ordered l := ordered_run (by intro i y hy; simp at hy) os h
  cases l with
  | nil => simp [addDefaultDielectric] at hr
  | cons c rest =>
    obtain ⟨out, h1, hrel⟩ := insertLoop_rel [] c rest
    simp only [List.nil_append] at h1
    simp only [addDefaultDielectric, h1, Res.ok.injEq] at hr
    have hm : m = (makeOrdered 0 LayerMap.new out).2 := by rw [hr]
    rw [hm]
    apply reach_makeOrdered
    obtain ⟨φ, _, _, hk, hb, _⟩ := hrel.positions
    intro y hy
    obtain ⟨j, hj, hj'⟩ := List.getElem_of_mem hy
    have hj2 : out[j]? = some y := by rw [List.getElem?_eq_getElem hj, hj']
    rcases hb j y hj2 with ⟨i, h2, h3⟩ | ⟨⟨s, h2⟩, _⟩
    · right
      have h4 : (c :: rest)[i]? = some (c :: rest)[i] := List.getElem?_eq_getElem h2
      have h5 := hk i _ h4
      rw [h3, hj2] at h5
      simp only [Option.some.injEq] at h5
      rw [h5, ho i _ h4]; omega
    · left; rw [h2]; rfl

theorem follows_forward (os : List Op) (l : List Lyr) (h : run [] os = .ok l) {l' : List Lyr}
    {m : BiMap} (hr : addDefaultDielectric l = .ok (l', m)) (hlen : l'.length < 2 ^ 31)
    (a : Int) (ha1 : -2 ^ 31 ≤ a) (ha2 : a < 2 ^ 31) : Follows l l' a (forward m a) := by
  have hg := (map_facts os l h hr).good
  have hne : l ≠ [] := by rintro rfl; simp [addDefaultDielectric] at hr
  obtain ⟨l2, m2, φ, h1, hs, hf⟩ := c05_dielectric os l h hne
  rw [hr] at h1
  simp only [Res.ok.injEq, Prod.mk.injEq] at h1
  obtain ⟨rfl, rfl⟩ := h1
  refine ⟨?_, ?_, ?_⟩
  · intro x hx
    unfold findById toSize at hx
    have hb := (List.getElem?_eq_some_iff.1 hx).1
    have hk := hs.kept _ _ hx
    have hb2 := (List.getElem?_eq_some_iff.1 hk).1
    have ha : l.length ≤ l'.length := by
      have : ∀ i, i < l.length → i ≤ φ i := by
        intro i hi
        induction i with
        | zero => omega
        | succ i ih =>
          have := hs.order i (i + 1) (by omega) hi
          have := ih (by omega)
          omega
      have hz := this (l.length - 1) (by omega)
      have hl : l[l.length - 1]? = some l[l.length - 1] := List.getElem?_eq_getElem (by omega)
      have := (List.getElem?_eq_some_iff.1 (hs.kept _ _ hl)).1
      omega
    have hpos : a = ((a % 2 ^ 64).toNat : Int) := by omega
    have hfa := hf _ hb
    rw [← hpos] at hfa
    refine ⟨{ x with id := (φ (a % 2 ^ 64).toNat : Int) }, ?_, ?_⟩
    · unfold findById toSize
      rw [hfa]
      have : (((φ (a % 2 ^ 64).toNat : Nat) : Int) % 2 ^ 64).toNat = φ (a % 2 ^ 64).toNat := by omega
      rw [this]; exact hk
    · exact ⟨rfl, rfl, rfl⟩
  · rintro rfl; exact good_forward_no hg
  · rintro rfl; exact good_forward_comp hg

/-- **C06, what holds.**  After inserting default dielectric layers into a layout (whose padstack
instances all have a layer map of the database), every primitive's layer and every padstack
instance's range refer to the same layers as before, every padstack instance shows on every layer
the same pad layer of its definition as before, and the layer maps that existed are untouched.
Missing compared with C06: the end layer of a bondwire and the placement layer of a component,
which the code does not renumber (`c06_unmapped_refuted`). -/
theorem c06_objects_follow_partial (os : List Op) (v : Layout) (h : run [] os = .ok v.layers)
    (hne : v.layers ≠ [])
    (hmaps : ∀ p ∈ v.psInsts, ∃ o, p.lmap = some o ∧ o < v.maps.length)
    (hreach : ∀ e ∈ v.maps, Reach e.2)
    (hint : ∀ p ∈ v.prims, -2 ^ 31 ≤ p.layer ∧ p.layer < 2 ^ 31)
    (hint' : ∀ p ∈ v.psInsts, -2 ^ 31 ≤ p.top ∧ p.top < 2 ^ 31 ∧ -2 ^ 31 ≤ p.bot ∧ p.bot < 2 ^ 31) :
    ∃ v' m, layoutAddDielectric v = .ok (v', m) ∧
      (∃ l', addDefaultDielectric v.layers = .ok (l', m) ∧ v'.layers = l') ∧
      (v'.layers.length < 2 ^ 31 →
        v'.prims.length = v.prims.length ∧ v'.psInsts.length = v.psInsts.length ∧
        (∀ (k : Nat) (p p' : Prim), v.prims[k]? = some p → v'.prims[k]? = some p' →
          Follows v.layers v'.layers p.layer p'.layer) ∧
        (∀ (k : Nat) (p p' : PsInst), v.psInsts[k]? = some p → v'.psInsts[k]? = some p' →
          Follows v.layers v'.layers p.top p'.top ∧ Follows v.layers v'.layers p.bot p'.bot ∧
          ∃ (o o' : Nat) (e e' : String × BiMap), p.lmap = some o ∧ p'.lmap = some o' ∧ v.maps[o]? = some e ∧
            v'.maps[o']? = some e' ∧
            ∀ (a pad : Int), 0 ≤ a → a < v.layers.length → pad ≠ noLayer →
              (forward e'.2 (forward m a) = pad ↔ forward e.2 a = pad)) ∧
        (∀ (o : Nat) (e : String × BiMap), v.maps[o]? = some e → v'.maps[o]? = some e)) := by
  obtain ⟨l', m, φ, h1, hs, hf⟩ := c05_dielectric os v.layers h hne
  obtain ⟨ps', maps', h2, ⟨t, ht⟩, h3, h4⟩ := mapInsts_ok (m := m) v.psInsts v.maps [] v.maps
    ⟨[], by simp⟩ (by intro o o' ho; simp at ho) hmaps
  have hrm : Reach m := map_facts os v.layers h h1
  refine ⟨{ v with layers := l', prims := mapPrims m v.prims, psInsts := ps', maps := maps' }, m, ?_, ?_, ?_⟩
  · simp only [layoutAddDielectric, h1, h2, Res.bind_ok]
  · exact ⟨l', h1, rfl⟩
  · intro hlen
    simp only at hlen
    refine ⟨by simp [mapPrims], h3, ?_, ?_, ?_⟩
    · intro k p p' hp hp'
      simp only [mapPrims, List.getElem?_map, hp, Option.map_some, Option.some.injEq] at hp'
      subst hp'
      obtain ⟨i1, i2⟩ := hint p (List.mem_of_getElem? hp)
      exact follows_forward os v.layers h h1 hlen p.layer i1 i2
    · intro k p p' hp hp'
      obtain ⟨g1, g2, o, o', e, e', g3, g4, g5, g6, g7⟩ := h4 k p p' hp hp'
      obtain ⟨i1, i2, i3, i4⟩ := hint' p (List.mem_of_getElem? hp)
      rw [g1, g2]
      refine ⟨follows_forward os v.layers h h1 hlen p.top i1 i2,
        follows_forward os v.layers h h1 hlen p.bot i3 i4, o, o', e, e', g3, g4, g5, g6, ?_⟩
      intro a pad ha0 han hpad
      have hfa : forward m a ≠ noLayer := by
        have := hf a.toNat (by omega)
        rw [show ((a.toNat : Nat) : Int) = a by omega] at this
        rw [this]; simp only [noLayer]; omega
      rw [g7]
      rw [(c08_composition (hreach e (List.mem_of_getElem? g5)) hrm).1 _ _ hfa hpad]
      constructor
      · rintro ⟨b, hb1, hb2⟩
        have hi := hrm.good.inv
        have : b = a := inj_right hi (mem_of_forward hb1 hfa) (mem_of_forward rfl hfa)
        subst this; exact hb2
      · intro hh; exact ⟨a, rfl, hh⟩
    · intro o e he
      simp only [ht]
      rw [List.getElem?_append_left (List.getElem?_eq_some_iff.1 he).1]
      exact he

/-- A layout with objects on every layer of a stack of two adjacent conducting layers. -/
def exampleLayout : Layout :=
  { layers := [⟨"top", .conducting, 0, 1⟩, ⟨"bot", .conducting, 1, 2⟩]
    prims := [⟨1, none⟩, ⟨0, some 1⟩]
    psInsts := [⟨0, 1, some 0⟩]
    comps := [1]
    maps := [("map", setMapping (setMapping LayerMap.new 0 0) 1 1)] }

/-- The hypotheses of `c06_objects_follow_partial` are met by the example layout. -/
example : run [] [.append ⟨"top", .conducting, -1, 1⟩, .append ⟨"bot", .conducting, -1, 2⟩] =
      .ok exampleLayout.layers ∧ exampleLayout.layers ≠ [] ∧
    (∀ p ∈ exampleLayout.psInsts, ∃ o, p.lmap = some o ∧ o < exampleLayout.maps.length) ∧
    (∀ e ∈ exampleLayout.maps, Reach e.2) := by
  refine ⟨by decide, by decide, ?_, ?_⟩
  · intro p hp
    simp only [exampleLayout, List.mem_cons, List.not_mem_nil, or_false] at hp
    subst hp; exact ⟨0, rfl, by decide⟩
  · intro e he
    simp only [exampleLayout, List.mem_cons, List.not_mem_nil, or_false] at he
    subst he
    exact .set 1 1 (.set 0 0 .new (by decide) (by decide)) (by decide) (by decide)

/-- **C06 is false of the code** for components and for the end of a bondwire: no call changes
their layer numbers, so whenever the layer they refer to is renumbered, the number they keep
denotes another layer. -/
theorem c06_unmapped_refuted (os : List Op) (v v' : Layout) (m : BiMap)
    (h : run [] os = .ok v.layers) (hr : layoutAddDielectric v = .ok (v', m))
    (hlen : v'.layers.length < 2 ^ 31)
    (i : Nat) (hi : i < v.layers.length) (hmoved : forward m (i : Int) ≠ (i : Int))
    (hnames : (v.layers.map Lyr.name).Nodup) :
    v'.comps = v.comps ∧
    (∀ (k : Nat) (p p' : Prim), v.prims[k]? = some p → v'.prims[k]? = some p' → p'.endLayer = p.endLayer) ∧
    ¬ Follows v.layers v'.layers (i : Int) (i : Int) := by
  simp only [layoutAddDielectric] at hr
  cases ha : addDefaultDielectric v.layers with
  | ub => rw [ha] at hr; simp at hr
  | exn => rw [ha] at hr; simp at hr
  | ok r =>
    obtain ⟨l', m'⟩ := r
    rw [ha] at hr
    simp only [Res.bind_ok] at hr
    cases hb : mapInsts m' v.maps [] v.psInsts with
    | ub => rw [hb] at hr; simp at hr
    | exn => rw [hb] at hr; simp at hr
    | ok s =>
      rw [hb] at hr
      simp only [Res.bind_ok, Res.ok.injEq, Prod.mk.injEq] at hr
      obtain ⟨rfl, rfl⟩ := hr
      simp only at hlen
      refine ⟨rfl, ?_, ?_⟩
      · intro k p p' hp hp'
        simp only [mapPrims, List.getElem?_map, hp, Option.map_some, Option.some.injEq] at hp'
        rw [← hp']
      · simp only
        intro hfol
        have hne : v.layers ≠ [] := by intro h0; rw [h0] at hi; simp at hi
        obtain ⟨l2, m2, φ, h1, hs, hf⟩ := c05_dielectric os v.layers h hne
        rw [ha] at h1
        simp only [Res.ok.injEq, Prod.mk.injEq] at h1
        obtain ⟨rfl, rfl⟩ := h1
        have hphi : φ i ≠ i := by
          intro he; rw [hf i hi, he] at hmoved; exact hmoved rfl
        have hge : ∀ j, j < v.layers.length → j ≤ φ j := by
          intro j hj
          induction j with
          | zero => omega
          | succ j ih =>
            have := hs.order j (j + 1) (by omega) hj
            have := ih (by omega)
            omega
        have hge := hge i hi
        have hx : v.layers[i]? = some v.layers[i] := List.getElem?_eq_getElem hi
        have hkept := hs.kept i _ hx
        have hl' := (List.getElem?_eq_some_iff.1 hkept).1
        have hsz : toSize (i : Int) = i := by unfold toSize; omega
        obtain ⟨y, hy, hsame, _⟩ := hfol.1 v.layers[i] (by unfold findById; rw [hsz]; exact hx)
        unfold findById at hy
        rw [hsz] at hy
        by_cases hex : ∃ a, a < v.layers.length ∧ φ a = i
        · obtain ⟨a, ha1, ha2⟩ := hex
          have hxa : v.layers[a]? = some v.layers[a] := List.getElem?_eq_getElem ha1
          have hka := hs.kept a _ hxa
          rw [ha2, hy] at hka
          simp only [Option.some.injEq] at hka
          rw [hka] at hsame
          simp only at hsame
          have hai : i = a := by
            have := List.pairwise_iff_getElem.1 hnames
            rcases Nat.lt_trichotomy i a with hlt | heq | hlt
            · exact (this i a (by simpa using hi) (by simpa using ha1) hlt (by simpa using hsame)).elim
            · exact heq
            · exact (this a i (by simpa using ha1) (by simpa using hi) hlt (by simpa using hsame.symm)).elim
          subst hai; exact hphi ha2
        · have hno : ∀ a, a < v.layers.length → φ a ≠ i := fun a h1 h2 => hex ⟨a, h1, h2⟩
          obtain ⟨_, hun, _⟩ := hs.between i y hy hno
          exact hun (φ i) _ hkept hphi hsame

/-- The example layout has a component and a bondwire end on the layer that is renumbered. -/
example : ∃ v' m, layoutAddDielectric exampleLayout = .ok (v', m) ∧ forward m (1 : Int) = 2 ∧
    (exampleLayout.layers.map Lyr.name).Nodup ∧ v'.comps = [1] ∧
    v'.prims = [⟨2, none⟩, ⟨0, some 1⟩] := by
  refine ⟨_, _, rfl, by decide, by decide, by decide, by decide⟩

end Layer
end Ecad
