import Verif.Gds.DesignProps
import Verif.Gds.MapFileProps
/-!
C132: the main theorem and where the property fails.
-/
namespace Ecad.GdsD
open Gds (Name Elem Struct Lib)
open Hier (Layout noNet)

/-- the layouts of the cells of a library -/
def dbOf (rad : ℚ → ℚ × ℚ) (l : Lib) (stack : List Gds.Stack) (m : List (Int × List Nat)) : Hier.Db Geo (Shp.Aff ℚ) :=
  fun k => (l.structs[k]?).elim {} fun s => (full rad (l.structs.map Struct.name) stack m ⟨s.name, s.objs⟩).2

theorem dbOf_some {rad : ℚ → ℚ × ℚ} {l : Lib} {stack : List Gds.Stack} {m : List (Int × List Nat)} {k : Nat} {s : Struct}
    (h : l.structs[k]? = some s) : dbOf rad l stack m k = (full rad (l.structs.map Struct.name) stack m ⟨s.name, s.objs⟩).2 := by
  simp [dbOf, h]

theorem elem_insts (rad : ℚ → ℚ × ℚ) (names : List Name) (e : Elem) (hok : e.Ok) (harr : e.kind ≠ .aref) :
    (e.obj.elim [] (Gds.importRef names)).map (instOf rad names) =
      if e.kind = .sref ∧ e.sname ∈ names then
        [instOf rad names ⟨e.sname, none, e.mag, e.angle, e.points.headD (0, 0)⟩] else [] := by
  unfold Gds.Elem.obj
  cases hkd : e.kind <;> simp_all [Gds.importRef]
  by_cases h : e.sname ∈ names <;> simp [h]

theorem origins_sref {e : Elem} (hk : e.kind = .sref) (hok : e.Ok) :
    origins e = [(((e.points.headD (0, 0)).1 : ℚ), ((e.points.headD (0, 0)).2 : ℚ))] := by
  have := hok.1 (.inr hk)
  unfold origins
  rw [hk]
  cases h : e.points with
  | nil => exact absurd h this
  | cons p ps => rfl

theorem origins_none {e : Elem} (hk : e.kind ≠ .sref) (ha : e.kind ≠ .aref) : origins e = [] := by
  unfold origins
  split <;> simp_all

theorem placing_eq {rad deg : ℚ → ℚ × ℚ} (hr : rad 0 = (1, 0)) (hdg : deg 0 = (1, 0)) {e : Elem} (ha : e.angle = 0) (hm : ¬ mirrored e)
    (o : Gds.Point) : placing deg e ((o.1 : ℚ), (o.2 : ℚ)) = (matrix rad e.mag e.angle o).act := by
  funext p
  unfold placing matrix Shp.Aff.act
  rw [ha, hr, hdg, if_neg hm]
  refine Prod.ext ?_ ?_ <;> simp

theorem drawn_unknown (stroke : List (ℚ × ℚ) → ℚ → List (ℚ × ℚ)) (deg : ℚ → ℚ × ℚ) (l : Lib) (n : Nat) {name : Name}
    (h : name ∉ l.structs.map Struct.name) : drawn stroke deg l n name = [] := by
  cases n with
  | zero => rfl
  | succ n =>
    have hf : l.structs.find? (fun t => decide (t.name = name)) = none := by
      rw [List.find?_eq_none]
      intro u hu
      simp only [decide_eq_true_eq]
      intro e
      exact h (e ▸ List.mem_map_of_mem hu)
    rw [drawn, hf]

/-- the conditions under which references are placed as written -/
structure Straight (l : Lib) : Prop where
  arrays : ∀ s ∈ l.structs, ∀ e ∈ s.elems, e.kind ≠ .aref
  turned : ∀ s ∈ l.structs, ∀ e ∈ s.elems, e.kind = .sref → e.angle = 0 ∧ ¬ mirrored e
  magnified : (∀ s ∈ l.structs, ∀ e ∈ s.elems, e.kind = .sref → e.mag = 1) ∨ (∀ s ∈ l.structs, ∀ e ∈ s.elems, e.kind ≠ .path)

/-- what is to be seen of a drawing on the layers of the database -/
def shown (keys : List Int) (xs : List (Int × List (ℚ × ℚ))) : List (Int × Int × List (ℚ × ℚ)) :=
  xs.flatMap fun x => (numbers keys x.1).map fun i : Nat => (noNet, (i : Int), x.2)

theorem shown_append (keys : List Int) (a b : List (Int × List (ℚ × ℚ))) : shown keys (a ++ b) = shown keys a ++ shown keys b := by
  simp [shown]

theorem shown_flatMap {A : Type} (keys : List Int) (a : List A) (f : A → List (Int × List (ℚ × ℚ))) :
    shown keys (a.flatMap f) = a.flatMap fun x => shown keys (f x) := by
  induction a with
  | nil => rfl
  | cons x a ih => rw [List.flatMap_cons, shown_append, ih, List.flatMap_cons]

theorem shown_map (keys : List Int) (xs : List (Int × List (ℚ × ℚ))) (f : ℚ × ℚ → ℚ × ℚ) :
    shown keys (xs.map fun x => (x.1, x.2.map f)) = (shown keys xs).map fun x => (x.1, x.2.1, x.2.2.map f) := by
  simp [shown, List.flatMap_map, List.map_flatMap, Function.comp_def]

theorem flatMap_congr' {A B : Type} {f g : A → List B} {l : List A} (h : ∀ a ∈ l, f a = g a) : l.flatMap f = l.flatMap g := by
  induction l with
  | nil => rfl
  | cons a l ih => rw [List.flatMap_cons, List.flatMap_cons, h a (by simp), ih fun b hb => h b (by simp [hb])]

theorem flat_drawn (L : Shp.Lib ℚ) (hL : L.StrokeOK) (rad deg : ℚ → ℚ × ℚ) (hr : rad 0 = (1, 0)) (hdg : deg 0 = (1, 0)) (l : Lib)
    (hd : (l.structs.map Struct.name).Nodup) (he : ∀ s ∈ l.structs, ∀ e ∈ s.elems, e.Ok) (hdr : ∀ s ∈ l.structs, ∀ e ∈ s.elems, Drawable e)
    (hst : Straight l) (stack : List Gds.Stack) (m : List (Int × List Nat)) (keys : List Int) (hk : ∀ x, Gds.idsOf m x = numbers keys x)
    (hlen : stack.length = keys.length) (n : Nat) : ∀ (k : Nat) (s : Struct), l.structs[k]? = some s →
    (flat (dbOf rad l stack m) n k).filterMap (seen L) = shown keys (drawn L.stroke deg l n s.name) ∧
    ∀ p ∈ flat (dbOf rad l stack m) n k,
      GoodPrim (∀ s ∈ l.structs, ∀ e ∈ s.elems, e.kind = .sref → e.mag = 1) p ∧ Plain keys.length p := by
  induction n with
  | zero => intro k s _; simp [flat, Hier.expand, drawn, shown]
  | succ n ih =>
    intro k s hks
    have hs : s ∈ l.structs := List.mem_of_getElem? hks
    have hP : ∀ e ∈ s.elems, e.kind = .path → ∀ s ∈ l.structs, ∀ e ∈ s.elems, e.kind = .sref → e.mag = 1 := by
      intro e hes hp
      rcases hst.magnified with h | h
      · exact h
      · exact absurd hp (h s hs e hes)
    rw [flat_succ, drawn, find_struct hd hs, dbOf_some hks]
    simp only [full]
    have hprims : s.objs.flatMap (primsOf m) = s.elems.flatMap fun e => e.obj.elim [] (primsOf m) := by
      unfold Gds.Struct.objs
      exact flatMap_filterMap _ _ _
    have hinsts : (Gds.importRefs (l.structs.map Struct.name) ⟨s.name, s.objs⟩).map (instOf rad (l.structs.map Struct.name)) =
        s.elems.flatMap fun e => if e.kind = .sref ∧ e.sname ∈ l.structs.map Struct.name then
          [instOf rad (l.structs.map Struct.name) ⟨e.sname, none, e.mag, e.angle, e.points.headD (0, 0)⟩] else [] := by
      unfold Gds.importRefs Gds.Struct.objs
      simp only
      rw [flatMap_filterMap, List.map_flatMap]
      exact flatMap_congr' fun e hes => elem_insts rad _ e (he s hs e hes) (hst.arrays s hs e hes)
    rw [hprims, hinsts]
    obtain ⟨_, hfw⟩ := diag_layersIn stack
    -- one reference
    have href : ∀ e ∈ s.elems, e.kind = .sref → e.sname ∈ l.structs.map Struct.name →
        ∀ fwd : Int → Int, (∀ i : Nat, i < keys.length → fwd (i : Int) = (i : Int)) →
        ((flat (dbOf rad l stack m) n ((l.structs.map Struct.name).idxOf e.sname)).map
          (Hier.place act fwd (matrix rad e.mag e.angle (e.points.headD (0, 0))))).filterMap (seen L) =
            shown keys ((drawn L.stroke deg l n e.sname).map fun x => (x.1, x.2.map (matrix rad e.mag e.angle (e.points.headD (0, 0))).act)) ∧
        ∀ p ∈ (flat (dbOf rad l stack m) n ((l.structs.map Struct.name).idxOf e.sname)).map
          (Hier.place act fwd (matrix rad e.mag e.angle (e.points.headD (0, 0)))),
            GoodPrim (∀ s ∈ l.structs, ∀ e ∈ s.elems, e.kind = .sref → e.mag = 1) p ∧ Plain keys.length p := by
      intro e hes hkd hin fwd hfwd
      have hlt := List.idxOf_lt_length_of_mem hin
      have hlt' : (l.structs.map Struct.name).idxOf e.sname < l.structs.length := by simpa using hlt
      have hget : l.structs[(l.structs.map Struct.name).idxOf e.sname]? = some (l.structs[(l.structs.map Struct.name).idxOf e.sname]) :=
        List.getElem?_eq_getElem hlt'
      have hname : (l.structs[(l.structs.map Struct.name).idxOf e.sname]).name = e.sname := by
        have := List.getElem_idxOf hlt
        rw [List.getElem_map] at this
        exact this
      obtain ⟨i1, i2⟩ := ih _ _ hget
      rw [hname] at i1
      have hm : (∀ s ∈ l.structs, ∀ e ∈ s.elems, e.kind = .sref → e.mag = 1) →
          (matrix rad e.mag e.angle (e.points.headD (0, 0))).a ^ 2 + (matrix rad e.mag e.angle (e.points.headD (0, 0))).c ^ 2 = 1 ^ 2 ∧
          (matrix rad e.mag e.angle (e.points.headD (0, 0))).b ^ 2 + (matrix rad e.mag e.angle (e.points.headD (0, 0))).d ^ 2 = 1 ^ 2 ∧
          (matrix rad e.mag e.angle (e.points.headD (0, 0))).a * (matrix rad e.mag e.angle (e.points.headD (0, 0))).b +
            (matrix rad e.mag e.angle (e.points.headD (0, 0))).c * (matrix rad e.mag e.angle (e.points.headD (0, 0))).d = 0 := by
        intro h
        rw [(hst.turned s hs e hes hkd).1, h s hs e hes hkd]
        simp [matrix, hr]
      refine ⟨?_, ?_⟩
      · rw [shown_map, ← i1, List.filterMap_map, List.map_filterMap]
        apply List.filterMap_congr
        intro p hp
        exact (place_seen hL fwd hfwd _ hm p (i2 p hp).1 (i2 p hp).2).1
      · intro p hp
        obtain ⟨q, hq, rfl⟩ := List.mem_map.1 hp
        refine ⟨(place_seen hL fwd hfwd _ hm q (i2 q hq).1 (i2 q hq).2).2, ?_⟩
        obtain ⟨a, b, i, hi, e1⟩ := (i2 q hq).2
        exact ⟨a, by simp [Hier.place, b], i, hi, by simp only [Hier.place]; rw [e1, hfwd i hi]⟩
    refine ⟨?_, ?_⟩
    · rw [List.filterMap_append, shown_append]
      congr 1
      · rw [List.filterMap_flatMap]
        unfold shown
        rw [flatMap_filterMap]
        apply flatMap_congr'
        intro e hes
        rw [(elem_prims L m keys hk e (hdr s hs e hes) (hP e hes)).1]
        cases outline L.stroke e <;> rfl
      · rw [List.flatMap_assoc, List.filterMap_flatMap, shown_flatMap]
        apply flatMap_congr'
        intro e hes
        by_cases hkd : e.kind = .sref
        · rw [origins_sref hkd (he s hs e hes)]
          simp only [List.flatMap_cons, List.flatMap_nil, List.append_nil]
          rw [placing_eq hr hdg (hst.turned s hs e hes hkd).1 (hst.turned s hs e hes hkd).2]
          by_cases hin : e.sname ∈ l.structs.map Struct.name
          · rw [if_pos ⟨hkd, hin⟩]
            simp only [List.flatMap_cons, List.flatMap_nil, List.append_nil]
            exact (href e hes hkd hin _ (by
              intro i hi
              simp only [Hier.layerFn, instOf]
              exact hfw i (by omega))).1
          · rw [if_neg (by tauto), drawn_unknown _ _ _ _ hin]
            rfl
        · rw [if_neg (by tauto), origins_none hkd (hst.arrays s hs e hes)]
          rfl
    · intro p hp
      rw [List.mem_append] at hp
      rcases hp with hp | hp
      · obtain ⟨e, hes, hp⟩ := List.mem_flatMap.1 hp
        exact (elem_prims L m keys hk e (hdr s hs e hes) (hP e hes)).2 p hp
      · obtain ⟨i, hi, hp⟩ := List.mem_flatMap.1 hp
        obtain ⟨e, hes, hi⟩ := List.mem_flatMap.1 hi
        by_cases hin : e.kind = .sref ∧ e.sname ∈ l.structs.map Struct.name
        · rw [if_pos hin, List.mem_singleton] at hi
          subst hi
          exact (href e hes hin.1 hin.2 _ (by
              intro i hi
              simp only [Hier.layerFn, instOf]
              exact hfw i (by omega))).2 p hp
        · rw [if_neg hin] at hi
          simp at hi

/-! ### texts -/

/-- a text of a layout: net, layer, characters and the map from the places around it to those of the layout -/
def seenText (p : Hier.Prim Geo) : Option (Int × Int × Name × (ℚ × ℚ → ℚ × ℚ)) :=
  match p.geo with
  | .text str m => some (p.net, p.layer, str, m.act)
  | .shape _ => none

/-- the texts of a structure, with the maps from the places of the structures they stand in to those of the structure -/
def texts (deg : ℚ → ℚ × ℚ) (l : Lib) : Nat → Name → List (Int × Name × (ℚ × ℚ → ℚ × ℚ))
  | 0, _ => []
  | n + 1, name =>
    match l.structs.find? fun t => decide (t.name = name) with
    | none => []
    | some s =>
      (s.elems.filter fun e => decide (e.kind = .text)).map (fun e => (e.layer, e.string, id)) ++
      s.elems.flatMap fun e => (origins e).flatMap fun o => (texts deg l n e.sname).map fun x => (x.1, x.2.1, placing deg e o ∘ x.2.2)

/-- what is to be seen of texts on the layers of the database -/
def shownTexts (keys : List Int) (xs : List (Int × Name × (ℚ × ℚ → ℚ × ℚ))) : List (Int × Int × Name × (ℚ × ℚ → ℚ × ℚ)) :=
  xs.flatMap fun x => (numbers keys x.1).map fun i : Nat => (noNet, (i : Int), x.2)

theorem shownTexts_append (keys : List Int) (a b : List (Int × Name × (ℚ × ℚ → ℚ × ℚ))) :
    shownTexts keys (a ++ b) = shownTexts keys a ++ shownTexts keys b := by
  simp [shownTexts]

theorem shownTexts_flatMap {A : Type} (keys : List Int) (a : List A) (f : A → List (Int × Name × (ℚ × ℚ → ℚ × ℚ))) :
    shownTexts keys (a.flatMap f) = a.flatMap fun x => shownTexts keys (f x) := by
  induction a with
  | nil => rfl
  | cons x a ih => rw [List.flatMap_cons, shownTexts_append, ih, List.flatMap_cons]

theorem shownTexts_map (keys : List Int) (xs : List (Int × Name × (ℚ × ℚ → ℚ × ℚ))) (f : ℚ × ℚ → ℚ × ℚ) :
    shownTexts keys (xs.map fun x => (x.1, x.2.1, f ∘ x.2.2)) = (shownTexts keys xs).map fun x => (x.1, x.2.1, x.2.2.1, f ∘ x.2.2.2) := by
  simp [shownTexts, List.flatMap_map, List.map_flatMap, Function.comp_def]

theorem texts_unknown (deg : ℚ → ℚ × ℚ) (l : Lib) (n : Nat) {name : Name} (h : name ∉ l.structs.map Struct.name) : texts deg l n name = [] := by
  cases n with
  | zero => rfl
  | succ n =>
    have hf : l.structs.find? (fun t => decide (t.name = name)) = none := by
      rw [List.find?_eq_none]
      intro u hu
      simp only [decide_eq_true_eq]
      intro e
      exact h (e ▸ List.mem_map_of_mem hu)
    rw [texts, hf]

theorem onLayers_noText (s : Shp.Shape ℚ) (ids : List Nat) : (onLayers s ids).filterMap seenText = [] := by
  rw [List.filterMap_eq_nil_iff]
  intro p hp
  match ids, hp with
  | [], hp => simp [onLayers] at hp
  | [i], hp => simp [onLayers] at hp; subst hp; rfl
  | i :: j :: ids, hp =>
    simp only [onLayers] at hp
    obtain ⟨a, _, rfl⟩ := List.mem_map.1 hp
    rfl

theorem elem_texts (m : List (Int × List Nat)) (keys : List Int) (hk : ∀ x, Gds.idsOf m x = numbers keys x) (e : Elem) :
    (e.obj.elim [] (primsOf m)).filterMap seenText =
      if e.kind = .text then (numbers keys e.layer).map fun i : Nat => (noNet, (i : Int), e.string, id) else [] := by
  have h1 : (Shp.Aff.one : Shp.Aff ℚ).act = id := by
    funext p
    simp [Shp.Aff.act, Shp.Aff.one]
  unfold Gds.Elem.obj
  cases hkd : e.kind <;> simp [primsOf, onLayers_noText, hk]
  simp only [seenText, h1]
  exact congrFun List.filterMap_eq_map _

theorem place_text (fwd : Int → Int) (m : Shp.Aff ℚ) {N : Nat} (hf : ∀ i : Nat, i < N → fwd (i : Int) = (i : Int)) (p : Hier.Prim Geo)
    (hp : Plain N p) : seenText (Hier.place act fwd m p) = (seenText p).map fun x => (x.1, x.2.1, x.2.2.1, m.act ∘ x.2.2.2) := by
  obtain ⟨_, _, i, hi, e⟩ := hp
  unfold seenText Hier.place
  simp only
  rw [e, hf i hi]
  cases p.geo with
  | shape s => rfl
  | text str n =>
    have : (m.comp n).act = m.act ∘ n.act := by
      funext q
      exact Shp.comp_act m n q
    simp [act, this]

theorem flat_texts (rad deg : ℚ → ℚ × ℚ) (hr : rad 0 = (1, 0)) (hdg : deg 0 = (1, 0)) (l : Lib)
    (hd : (l.structs.map Struct.name).Nodup) (he : ∀ s ∈ l.structs, ∀ e ∈ s.elems, e.Ok)
    (hst : Straight l) (stack : List Gds.Stack) (m : List (Int × List Nat)) (keys : List Int) (hk : ∀ x, Gds.idsOf m x = numbers keys x)
    (hlen : stack.length = keys.length)
    (hpl : ∀ (n k : Nat) (s : Struct), l.structs[k]? = some s → ∀ p ∈ flat (dbOf rad l stack m) n k, Plain keys.length p) (n : Nat) :
    ∀ (k : Nat) (s : Struct), l.structs[k]? = some s →
    (flat (dbOf rad l stack m) n k).filterMap seenText = shownTexts keys (texts deg l n s.name) := by
  induction n with
  | zero => intro k s _; simp [flat, Hier.expand, texts, shownTexts]
  | succ n ih =>
    intro k s hks
    have hs : s ∈ l.structs := List.mem_of_getElem? hks
    rw [flat_succ, texts, find_struct hd hs, dbOf_some hks]
    simp only [full]
    have hprims : s.objs.flatMap (primsOf m) = s.elems.flatMap fun e => e.obj.elim [] (primsOf m) := by
      unfold Gds.Struct.objs
      exact flatMap_filterMap _ _ _
    have hinsts : (Gds.importRefs (l.structs.map Struct.name) ⟨s.name, s.objs⟩).map (instOf rad (l.structs.map Struct.name)) =
        s.elems.flatMap fun e => if e.kind = .sref ∧ e.sname ∈ l.structs.map Struct.name then
          [instOf rad (l.structs.map Struct.name) ⟨e.sname, none, e.mag, e.angle, e.points.headD (0, 0)⟩] else [] := by
      unfold Gds.importRefs Gds.Struct.objs
      simp only
      rw [flatMap_filterMap, List.map_flatMap]
      exact flatMap_congr' fun e hes => elem_insts rad _ e (he s hs e hes) (hst.arrays s hs e hes)
    rw [hprims, hinsts]
    obtain ⟨_, hfw⟩ := diag_layersIn stack
    rw [List.filterMap_append, shownTexts_append]
    congr 1
    · rw [List.filterMap_flatMap]
      unfold shownTexts
      rw [List.flatMap_map]
      have : ∀ es : List Elem, (es.flatMap fun e => (e.obj.elim [] (primsOf m)).filterMap seenText) =
          (es.filter fun e => decide (e.kind = .text)).flatMap fun e => (numbers keys e.layer).map fun i : Nat =>
            (noNet, (i : Int), e.string, (id : ℚ × ℚ → ℚ × ℚ)) := by
        intro es
        induction es with
        | nil => rfl
        | cons e es ih =>
          rw [List.flatMap_cons, elem_texts m keys hk, ih, List.filter_cons]
          by_cases h : e.kind = .text <;> simp [h]
      exact this s.elems
    · rw [List.flatMap_assoc, List.filterMap_flatMap, shownTexts_flatMap]
      apply flatMap_congr'
      intro e hes
      by_cases hkd : e.kind = .sref
      · rw [origins_sref hkd (he s hs e hes)]
        simp only [List.flatMap_cons, List.flatMap_nil, List.append_nil]
        rw [placing_eq hr hdg (hst.turned s hs e hes hkd).1 (hst.turned s hs e hes hkd).2]
        by_cases hin : e.sname ∈ l.structs.map Struct.name
        · rw [if_pos ⟨hkd, hin⟩]
          simp only [List.flatMap_cons, List.flatMap_nil, List.append_nil]
          have hlt := List.idxOf_lt_length_of_mem hin
          have hlt' : (l.structs.map Struct.name).idxOf e.sname < l.structs.length := by simpa using hlt
          have hget : l.structs[(l.structs.map Struct.name).idxOf e.sname]? = some (l.structs[(l.structs.map Struct.name).idxOf e.sname]) :=
            List.getElem?_eq_getElem hlt'
          have hname : (l.structs[(l.structs.map Struct.name).idxOf e.sname]).name = e.sname := by
            have := List.getElem_idxOf hlt
            rw [List.getElem_map] at this
            exact this
          have i1 := ih _ _ hget
          rw [hname] at i1
          rw [shownTexts_map, ← i1, List.filterMap_map, List.map_filterMap]
          apply List.filterMap_congr
          intro p hp
          refine place_text _ _ (N := keys.length) ?_ p (hpl n _ _ hget p hp)
          intro i hi
          simp only [Hier.layerFn, instOf]
          exact hfw i (by omega)
        · rw [if_neg (by tauto), texts_unknown _ _ _ hin]
          rfl
      · rw [if_neg (by tauto), origins_none hkd (hst.arrays s hs e hes)]
        rfl

/-- what the name and the text of a layer map file say -/
def MapSays (path : String) (map : Option (List Nat)) (rows : Option (List Gds.LayerRow)) : Prop :=
  (path = "" ∧ rows = none) ∨
  (path ≠ "" ∧ ∃ ls rs, Gds.MapLines ls rs ∧ ls ≠ [] ∧ (∀ x ∈ ls, 10 ∉ x) ∧ map = some (Dmc.joinLines ls) ∧ rows = some rs)

theorem importRows_says {dbs : List String} {name : String} (hname : name ∉ dbs) {path : String} {map : Option (List Nat)}
    {rows : Option (List Gds.LayerRow)} (h : MapSays path map rows) : (Gds.importRows dbs name true path map).2 = .ok (some rows) := by
  unfold Gds.importRows
  rw [if_pos rfl, if_neg hname]
  simp only
  rcases h with ⟨rfl, rfl⟩ | ⟨hp, ls, rs, h1, h2, h3, rfl, rfl⟩
  · rw [if_pos rfl]
  · rw [if_neg hp]
    obtain ⟨m', e, e2⟩ := Gds.c112_file h1 h2 h3 {}
    rw [e, Res.bind_ok, if_pos rfl, e2]

/-- what is made of the file of a library -/
theorem create_eq (rad : ℚ → ℚ × ℚ) (l : Lib) (hd : (l.structs.map Struct.name).Nodup) (he : ∀ s ∈ l.structs, ∀ e ∈ s.elems, e.Ok)
    (hf : ∀ r ∈ l.recs, r.Fits) (cap : Nat) (h1 : 1 ≤ cap) (h2 : cap < 2 ^ 63) (fuel : Nat) (hfuel : l.recs.length + 65 ≤ fuel)
    (dbs : List String) (name : String) (hname : name ∉ dbs)
    (order : List Int → List Int) (ho : ∀ xs, (order xs).Nodup ∧ ∀ x, x ∈ order xs ↔ x ∈ xs)
    (path : String) (map : Option (List Nat)) (rows : Option (List Gds.LayerRow)) (hmap : MapSays path map rows) :
    ∃ D keys m, createDatabase rad order cap fuel dbs name (l.recs.flatMap Gds.Rec.bytes) path map = some (.ok (some D)) ∧
      D.unit = l.unit.value ∧ D.precision = l.precision.value ∧ D.cells.map Prod.fst = l.structs.map Struct.name ∧
      LayersFit l rows D.stack keys ∧ D.layouts = dbOf rad l D.stack m ∧ (∀ x, Gds.idsOf m x = numbers keys x) ∧
      D.stack.length = keys.length := by
  obtain ⟨d, r1, _, _, r4, r5, r6, r7⟩ := Gds.c44_cells_partial l hd he hf cap h1 h2 fuel hfuel
  have hnames : d.cells.map Gds.Cell.name = l.structs.map Struct.name := by
    rw [r6]; simp [Function.comp_def]
  obtain ⟨keys, k1, k2, k3⟩ := layers_fit l d r7 order (ho _) rows
  refine ⟨⟨d.unit, d.precision, (layersOf order d rows).1, d.cells.map (full rad (d.cells.map Gds.Cell.name) (layersOf order d rows).1 (layersOf order d rows).2)⟩,
    keys, (layersOf order d rows).2, ?_, r4, r5, ?_, k1, ?_, k2, k3⟩
  · unfold createDatabase
    rw [r1]
    simp only [Option.map_some, Res.bind_ok]
    rw [importRows_says hname hmap]
    simp only [Res.bind_ok]
    rw [fill_eq rad order d rows (by rw [hnames]; exact hd)]
    rfl
  · simp only
    rw [map_fst_full, hnames]
  · funext k
    unfold Design.layouts dbOf
    simp only
    rw [hnames, r6, List.getElem?_map, List.getElem?_map]
    cases l.structs[k]? <;> rfl

/-- **C132** for files without arrays, turned or mirrored references, and without paths under magnified references: the file of every library
whose structures do not contain themselves, together with every layer map file, gives a database whose cells are the structures of the file, in
its units; and in whatever order and with whatever others the cells are flattened, a flattened cell has no instances left and shows, on the
layers that stand for the layer numbers, exactly what its structure draws, each outline once, and nothing else but its texts, each once for each chain of references, turned and shifted
as the chain says — from the origin of the structure it stands in, not from its own place (`c80_text_refuted`).  What is missing: see the
theorems below, and `c45_array_refuted`. -/
theorem c132_flat_partial (L : Shp.Lib ℚ) (hL : L.StrokeOK) (rad deg : ℚ → ℚ × ℚ) (hr : rad 0 = (1, 0)) (hdg : deg 0 = (1, 0)) (l : Lib)
    (hd : (l.structs.map Struct.name).Nodup) (he : ∀ s ∈ l.structs, ∀ e ∈ s.elems, e.Ok) (hf : ∀ r ∈ l.recs, r.Fits)
    (hdr : ∀ s ∈ l.structs, ∀ e ∈ s.elems, Drawable e) (hst : Straight l)
    (rank : Name → Nat) (hac : ∀ s ∈ l.structs, ∀ e ∈ s.elems, e.kind = .sref → rank e.sname < rank s.name)
    (cap : Nat) (h1 : 1 ≤ cap) (h2 : cap < 2 ^ 63) (fuel : Nat) (hfuel : l.recs.length + 65 ≤ fuel)
    (dbs : List String) (name : String) (hname : name ∉ dbs)
    (order : List Int → List Int) (ho : ∀ xs, (order xs).Nodup ∧ ∀ x, x ∈ order xs ↔ x ∈ xs)
    (path : String) (map : Option (List Nat)) (rows : Option (List Gds.LayerRow)) (hmap : MapSays path map rows) :
    ∃ D keys, createDatabase rad order cap fuel dbs name (l.recs.flatMap Gds.Rec.bytes) path map = some (.ok (some D)) ∧
      D.unit = l.unit.value ∧ D.precision = l.precision.value ∧ D.cells.map Prod.fst = l.structs.map Struct.name ∧
      LayersFit l rows D.stack keys ∧
      ∀ (sep : Char) (tasks : List Nat) (depth : Nat), (∀ k ∈ tasks, ∃ s, l.structs[k]? = some s ∧ rank s.name < depth) →
        ∃ db', Hier.runTasks act Shp.Aff.comp sep depth D.layouts tasks = .ok db' ∧
          ∀ k ∈ tasks, ∀ s, l.structs[k]? = some s → (db' k).insts = [] ∧
            ((db' k).prims.filterMap (seen L) = (drawn L.stroke deg l (rank s.name + 1) s.name).flatMap fun x =>
              (numbers keys x.1).map fun i : Nat => (noNet, (i : Int), x.2)) ∧
            (db' k).prims.filterMap seenText = (texts deg l (rank s.name + 1) s.name).flatMap fun x =>
              (numbers keys x.1).map fun i : Nat => (noNet, (i : Int), x.2) := by
  obtain ⟨D, keys, m, c1, c2, c3, c4, c5, c6, c7, c8⟩ :=
    create_eq rad l hd he hf cap h1 h2 fuel hfuel dbs name hname order ho path map rows hmap
  refine ⟨D, keys, c1, c2, c3, c4, c5, ?_⟩
  intro sep tasks depth ht
  have hfd := flat_drawn L hL rad deg hr hdg l hd he hdr hst D.stack m keys c7 c8
  rw [c6]
  have hinst : ∀ c, ∀ i ∈ (dbOf rad l D.stack m c).insts, ∃ s, l.structs[c]? = some s ∧ ∃ e ∈ s.elems, e.kind = .sref ∧
      ∃ t, l.structs[i.defCell]? = some t ∧ t.name = e.sname ∧ i.layerMap = none := by
    intro c i hi
    cases hc : l.structs[c]? with
    | none => simp [dbOf, hc] at hi
    | some s =>
      refine ⟨s, rfl, ?_⟩
      have hs := List.mem_of_getElem? hc
      rw [dbOf_some hc] at hi
      simp only [full] at hi
      obtain ⟨j, hj, rfl⟩ := List.mem_map.1 hi
      unfold Gds.importRefs Gds.Struct.objs at hj
      simp only at hj
      rw [flatMap_filterMap] at hj
      obtain ⟨e, hes, hj⟩ := List.mem_flatMap.1 hj
      have hj' := List.mem_map_of_mem (f := instOf rad (l.structs.map Struct.name)) hj
      rw [elem_insts rad _ e (he s hs e hes) (hst.arrays s hs e hes)] at hj'
      by_cases hin : e.kind = .sref ∧ e.sname ∈ l.structs.map Struct.name
      · rw [if_pos hin, List.mem_singleton] at hj'
        rw [hj']
        have hlt := List.idxOf_lt_length_of_mem hin.2
        have hlt' : (l.structs.map Struct.name).idxOf e.sname < l.structs.length := by simpa using hlt
        refine ⟨e, hes, hin.1, l.structs[(l.structs.map Struct.name).idxOf e.sname], List.getElem?_eq_getElem hlt', ?_, rfl⟩
        have := List.getElem_idxOf hlt
        rw [List.getElem_map] at this
        exact this
      · rw [if_neg hin] at hj'
        simp at hj'
  have hrank : ∀ (k : Nat) (s : Struct), l.structs[k]? = some s → (l.structs[k]?).elim 0 (fun s : Struct => rank s.name) = rank s.name := by
    intro k s h; rw [h]; rfl
  obtain ⟨⟨db', f1, f2⟩, _⟩ := flatten_plain (dbOf rad l D.stack m) D.stack (fun k : Nat => (l.structs[k]?).elim 0 fun s : Struct => rank s.name)
    (by
      intro c i hi
      obtain ⟨s, hc, e, hes, hkd, t, ht, hn, _⟩ := hinst c i hi
      rw [hrank _ _ ht, hrank _ _ hc, hn]
      exact hac s (List.mem_of_getElem? hc) e hes hkd)
    (by intro c; unfold dbOf; cases l.structs[c]? <;> rfl)
    (by intro c; unfold dbOf; cases l.structs[c]? <;> rfl)
    (by intro c; unfold dbOf; cases l.structs[c]? <;> rfl)
    (by
      intro c p hp
      cases hc : l.structs[c]? with
      | none => simp [dbOf, hc] at hp
      | some s =>
        rw [c8]
        refine ((hfd 1 c s hc).2 p ?_).2
        rw [flat_succ]
        exact List.mem_append_left _ hp)
    (by
      intro c i hi
      obtain ⟨s, hc, _, _, _, _, _, _, hl⟩ := hinst c i hi
      exact ⟨hl, by rw [dbOf_some hc]; rfl⟩)
    Shp.Aff.comp sep tasks depth (by
      intro c hc
      obtain ⟨s, hs, hlt⟩ := ht c hc
      rw [hrank _ _ hs]
      exact hlt)
  refine ⟨db', f1, ?_⟩
  intro k hk s hs
  obtain ⟨a, b⟩ := f2 k hk
  rw [hrank _ _ hs] at b
  refine ⟨a, ?_, ?_⟩
  · rw [b, (hfd _ k s hs).1]
    rfl
  · rw [b, flat_texts rad deg hr hdg l hd he hst D.stack m keys c7 c8 (fun n k s h p hp => ((hfd n k s h).2 p hp).2) _ k s hs]
    rfl

/-- **C132**, instances: the cell of a structure has one instance for each reference to a structure of the file, in the order of the file, named
after that structure and of its cell. -/
theorem c132_names (rad : ℚ → ℚ × ℚ) (l : Lib) (hd : (l.structs.map Struct.name).Nodup) (he : ∀ s ∈ l.structs, ∀ e ∈ s.elems, e.Ok)
    (hf : ∀ r ∈ l.recs, r.Fits) (hno : ∀ s ∈ l.structs, ∀ e ∈ s.elems, e.kind ≠ .aref)
    (cap : Nat) (h1 : 1 ≤ cap) (h2 : cap < 2 ^ 63) (fuel : Nat) (hfuel : l.recs.length + 65 ≤ fuel)
    (dbs : List String) (name : String) (hname : name ∉ dbs)
    (order : List Int → List Int) (ho : ∀ xs, (order xs).Nodup ∧ ∀ x, x ∈ order xs ↔ x ∈ xs)
    (path : String) (map : Option (List Nat)) (rows : Option (List Gds.LayerRow)) (hmap : MapSays path map rows) :
    ∃ D, createDatabase rad order cap fuel dbs name (l.recs.flatMap Gds.Rec.bytes) path map = some (.ok (some D)) ∧
      ∀ (k : Nat) (s : Struct), l.structs[k]? = some s →
        List.Forall₂ (fun (i : Hier.Inst (Shp.Aff ℚ)) (e : Elem) => i.name = str e.sname ++ "_inst" ∧ (l.structs[i.defCell]?).map Struct.name = some e.sname)
          (D.layouts k).insts (s.elems.filter fun e => decide (e.kind = .sref ∧ e.sname ∈ l.structs.map Struct.name)) := by
  obtain ⟨D, keys, m, c1, _, _, _, _, c6, _, _⟩ :=
    create_eq rad l hd he hf cap h1 h2 fuel hfuel dbs name hname order ho path map rows hmap
  refine ⟨D, c1, ?_⟩
  intro k s hks
  have hs : s ∈ l.structs := List.mem_of_getElem? hks
  rw [c6, dbOf_some hks]
  simp only [full]
  unfold Gds.importRefs Gds.Struct.objs
  simp only
  rw [flatMap_filterMap, List.map_flatMap]
  rw [flatMap_congr' fun e hes => elem_insts rad _ e (he s hs e hes) (hno s hs e hes)]
  generalize s.elems = es
  induction es with
  | nil => exact .nil
  | cons e es ih =>
    rw [List.flatMap_cons, List.filter_cons]
    by_cases h : e.kind = .sref ∧ e.sname ∈ l.structs.map Struct.name
    · rw [if_pos h, if_pos (by simpa using h)]
      refine .cons ⟨by simp [instOf], ?_⟩ ih
      have hlt := List.idxOf_lt_length_of_mem h.2
      have := List.getElem?_eq_getElem hlt
      rw [List.getElem_idxOf hlt, List.getElem?_map] at this
      exact this
    · rw [if_neg h, if_neg (by simpa using h)]
      exact ih

/-- **C132**, null: whatever file the reader takes, no database is returned for a name in use and for a layer map file that cannot
be opened or has a line, neither empty nor a comment, that is not made of five items. -/
theorem c132_null (rad : ℚ → ℚ × ℚ) (order : List Int → List Int) (cap fuel : Nat) (dbs : List String) (name : String) (gds : List Gds.Byte)
    (path : String) (map : Option (List Nat)) (d : Gds.Db) (good : Bool) (hrd : Gds.readFile cap fuel gds = some (.ok (d, good)))
    (h : name ∈ dbs ∨ (path ≠ "" ∧ (map = none ∨ ∃ ls rs bad more, Gds.MapLines ls rs ∧ ¬ Gds.Idle bad ∧
      (∀ ts, Gds.Items bad ts → ts.length ≠ 5) ∧ (∀ x ∈ ls ++ bad :: more, 10 ∉ x) ∧ map = some (Dmc.joinLines (ls ++ bad :: more))))) :
    createDatabase rad order cap fuel dbs name gds path map = some (.ok none) := by
  have key : (Gds.importRows dbs name good path map).2 = .ok none := by
    unfold Gds.importRows
    cases good with
    | false => rfl
    | true =>
      rw [if_pos rfl]
      by_cases hn : name ∈ dbs
      · rw [if_pos hn]
      · rw [if_neg hn]
        rcases h with h | ⟨hp, h⟩
        · exact absurd h hn
        · simp only [if_neg hp]
          rcases h with rfl | ⟨ls, rs, bad, more, a, b, c, e, rfl⟩
          · rfl
          · obtain ⟨m', e1⟩ := Gds.c112_reject a b c e {}
            rw [e1]
            rfl
  unfold createDatabase
  rw [hrd]
  simp only [Option.map_some, Res.bind_ok]
  rw [key]
  rfl

/-! ### where the property fails -/

/-- **Circular files are taken**: the file of a library in which every structure of a set refers to a structure of the set gives a database, but
no flattening of a cell of the set returns, however deep the stack. -/
theorem c132_cycle (rad : ℚ → ℚ × ℚ) (l : Lib) (hd : (l.structs.map Struct.name).Nodup) (he : ∀ s ∈ l.structs, ∀ e ∈ s.elems, e.Ok)
    (hf : ∀ r ∈ l.recs, r.Fits) (S : Struct → Prop) (hS : ∀ s ∈ l.structs, S s → ∃ e ∈ s.elems, e.kind = .sref ∧ ∃ t ∈ l.structs, t.name = e.sname ∧ S t)
    (cap : Nat) (h1 : 1 ≤ cap) (h2 : cap < 2 ^ 63) (fuel : Nat) (hfuel : l.recs.length + 65 ≤ fuel)
    (dbs : List String) (name : String) (hname : name ∉ dbs)
    (order : List Int → List Int) (ho : ∀ xs, (order xs).Nodup ∧ ∀ x, x ∈ order xs ↔ x ∈ xs)
    (path : String) (map : Option (List Nat)) (rows : Option (List Gds.LayerRow)) (hmap : MapSays path map rows) :
    ∃ D, createDatabase rad order cap fuel dbs name (l.recs.flatMap Gds.Rec.bytes) path map = some (.ok (some D)) ∧
      ∀ k s, l.structs[k]? = some s → S s → ∀ sep depth db', Hier.flatten act Shp.Aff.comp sep depth D.layouts k ≠ .ok db' := by
  obtain ⟨D, keys, m, c1, _, _, _, _, c6, _, _⟩ :=
    create_eq rad l hd he hf cap h1 h2 fuel hfuel dbs name hname order ho path map rows hmap
  refine ⟨D, c1, ?_⟩
  intro k s hk hs sep depth db'
  refine Hier.c18_cycle act Shp.Aff.comp sep D.layouts (fun k => ∃ s, l.structs[k]? = some s ∧ S s) ?_ k ⟨s, hk, hs⟩ depth db'
  rintro d ⟨s, hd', hs⟩
  obtain ⟨e, hes, hkd, t, ht, hn, hSt⟩ := hS s (List.mem_of_getElem? hd') hs
  have hin : e.sname ∈ l.structs.map Struct.name := hn ▸ List.mem_map_of_mem ht
  have hlt := List.idxOf_lt_length_of_mem hin
  have hlt' : (l.structs.map Struct.name).idxOf e.sname < l.structs.length := by simpa using hlt
  have hname' : (l.structs[(l.structs.map Struct.name).idxOf e.sname]).name = e.sname := by
    have := List.getElem_idxOf hlt
    rw [List.getElem_map] at this
    exact this
  refine ⟨instOf rad (l.structs.map Struct.name) ⟨e.sname, none, e.mag, e.angle, e.points.headD (0, 0)⟩, ?_, ?_⟩
  · rw [c6, dbOf_some hd']
    simp only [full]
    refine List.mem_map_of_mem ?_
    unfold Gds.importRefs Gds.Struct.objs
    simp only
    refine List.mem_flatMap.2 ⟨.ref e.sname (e.points.headD (0, 0)) e.angle e.mag e.strans, ?_, ?_⟩
    · exact List.mem_filterMap.2 ⟨e, hes, by simp [Gds.Elem.obj, hkd]⟩
    · simp only [Gds.importRef]
      rw [if_pos hin]
      simp
  · refine ⟨t, ?_, hSt⟩
    simp only [instOf]
    rw [List.getElem?_eq_getElem hlt']
    congr 1
    exact List.inj_on_of_nodup_map hd (List.getElem_mem _) ht (hname'.trans hn.symm)

/-- **Widths are not magnified**: a path on one layer, seen through a reference of magnification `k`, has the outline of a path of width `w / k`
placed by the reference; this is the placed outline of the path only if a path of width `w / k` has the outline of one of width `w`.  On two
layers or more the same path is shown magnified. -/
theorem c132_width_refuted (L : Shp.Lib ℚ) (hL : L.StrokeOK) (rad deg : ℚ → ℚ × ℚ) (hr : rad 0 = (1, 0)) (hdg : deg 0 = (1, 0))
    (e r : Elem) (hp : e.kind = .path) (hdr : Drawable e) (hk : 0 < r.mag) (ha : r.angle = 0) (hm : ¬ mirrored r)
    (m : List (Int × List Nat)) (o : Gds.Point) (fwd : Int → Int) (hfw : ∀ i ∈ Gds.idsOf m e.layer, fwd ((i : Nat) : Int) = ((i : Nat) : Int)) :
    (∀ i, Gds.idsOf m e.layer = [i] →
      ((e.obj.elim [] (primsOf m)).map (Hier.place act fwd (matrix rad r.mag r.angle o))).filterMap (seen L) =
        [(noNet, (i : Int), (L.stroke (e.points.map pt) (e.width / r.mag)).map (placing deg r (pt o)))] ∧
      (L.stroke (e.points.map pt) (e.width / r.mag) ≠ L.stroke (e.points.map pt) e.width →
        (L.stroke (e.points.map pt) (e.width / r.mag)).map (placing deg r (pt o)) ≠ (L.stroke (e.points.map pt) e.width).map (placing deg r (pt o)))) ∧
    (2 ≤ (Gds.idsOf m e.layer).length →
      ((e.obj.elim [] (primsOf m)).map (Hier.place act fwd (matrix rad r.mag r.angle o))).filterMap (seen L) =
        (Gds.idsOf m e.layer).map fun i : Nat => (noNet, (i : Int), (L.stroke (e.points.map pt) e.width).map (placing deg r (pt o)))) := by
  have hpl : placing deg r (pt o) = (matrix rad r.mag r.angle o).act := placing_eq hr hdg ha hm o
  have hobj : e.obj.elim [] (primsOf m) = onLayers (.path (e.points.map pt) (e.width : ℚ)) (Gds.idsOf m e.layer) := by
    simp [Gds.Elem.obj, hp, primsOf]
  have hv : (Shp.Shape.path (e.points.map pt) (e.width : ℚ)).isValid = true := by
    have := hdr.2 hp
    simp [Shp.Shape.isValid, this.1, this.2]
  rw [hobj, hpl]
  refine ⟨?_, ?_⟩
  · intro i hi
    refine ⟨?_, ?_⟩
    · rw [hi]
      simp only [onLayers, List.map_cons, List.map_nil, List.filterMap_cons, List.filterMap_nil, seen, Hier.place, act]
      rw [hfw i (by rw [hi]; simp)]
      rw [(Shp.c82_path_partial L hL (e.points.map pt) (e.width : ℚ) r.mag hk (matrix rad r.mag r.angle o)
        (by rw [ha]; simp [matrix, hr]) (by rw [ha]; simp [matrix, hr]) (by rw [ha]; simp [matrix, hr])).1]
      rfl
    · intro hne h
      apply hne
      refine List.map_injective_iff.2 ?_ h
      intro p q hpq
      rw [ha] at hpq
      simp only [matrix, Shp.Aff.act, hr, Prod.mk.injEq] at hpq
      obtain ⟨u, v⟩ := hpq
      refine Prod.ext ?_ ?_
      · have : r.mag * (p.1 - q.1) = 0 := by linear_combination u
        have := (mul_eq_zero.1 this).resolve_left hk.ne'
        linarith
      · have : r.mag * (p.2 - q.2) = 0 := by linear_combination v
        have := (mul_eq_zero.1 this).resolve_left hk.ne'
        linarith
  · intro h2
    generalize hids : Gds.idsOf m e.layer = ids at h2 hfw ⊢
    match ids, h2, hfw with
    | i :: j :: ids, _, hfw =>
      simp only [onLayers]
      rw [List.map_map, List.filterMap_map]
      rw [List.filterMap_congr (g := fun i : Nat => some (noNet, (i : Int),
        (L.stroke (e.points.map pt) e.width).map (matrix rad r.mag r.angle o).act))]
      · exact congrFun List.filterMap_eq_map _
      · intro k hk'
        simp only [Function.comp, seen, Hier.place, act, hfw k hk']
        rw [contour_transform (P := False) hL (s := .templ .one (.path (e.points.map pt) (e.width : ℚ))) hv _ (by simp)]
        simp only [Shp.Shape.contour, hv, Bool.not_true, Bool.false_eq_true, if_false]
        have : (Shp.Aff.one : Shp.Aff ℚ).act = id := by
          funext p
          simp [Shp.Aff.act, Shp.Aff.one]
        rw [this, List.map_id]

/-- **Angles are taken as radians and mirroring is dropped**: a reference puts a point other than the origin of its structure where the file says
exactly if cosine and sine of its angle in radians are those of the angle in degrees — or, for a mirrored one, those that turn the mirrored
point into the place of the point. -/
theorem c132_turned_refuted (rad deg : ℚ → ℚ × ℚ) (r : Elem) (hk : r.mag ≠ 0) (o : Gds.Point) (p : ℚ × ℚ) (hp : p ≠ (0, 0)) :
    (¬ mirrored r → ((matrix rad r.mag r.angle o).act p = placing deg r (pt o) p ↔ rad r.angle = deg r.angle)) ∧
    (mirrored r → rad r.angle = deg r.angle → (deg r.angle).1 ^ 2 + (deg r.angle).2 ^ 2 = 1 →
      ((matrix rad r.mag r.angle o).act p = placing deg r (pt o) p ↔ p.2 = 0)) := by
  have hsq : p.1 ^ 2 + p.2 ^ 2 ≠ 0 := by
    intro h
    apply hp
    have h1 := sq_nonneg p.1
    have h2 := sq_nonneg p.2
    exact Prod.ext (pow_eq_zero_iff (n := 2) (by norm_num) |>.1 (by linarith)) (pow_eq_zero_iff (n := 2) (by norm_num) |>.1 (by linarith))
  refine ⟨?_, ?_⟩
  · intro hm
    unfold placing matrix Shp.Aff.act pt
    simp only [if_neg hm, Prod.mk.injEq]
    constructor
    · rintro ⟨u, v⟩
      have u' : r.mag * (((rad r.angle).1 - (deg r.angle).1) * p.1 - ((rad r.angle).2 - (deg r.angle).2) * p.2) = 0 := by linear_combination u
      have v' : r.mag * (((rad r.angle).2 - (deg r.angle).2) * p.1 + ((rad r.angle).1 - (deg r.angle).1) * p.2) = 0 := by linear_combination v
      have u1 := (mul_eq_zero.1 u').resolve_left hk
      have v1 := (mul_eq_zero.1 v').resolve_left hk
      have a : ((rad r.angle).1 - (deg r.angle).1) * (p.1 ^ 2 + p.2 ^ 2) = 0 := by linear_combination p.1 * u1 + p.2 * v1
      have b : ((rad r.angle).2 - (deg r.angle).2) * (p.1 ^ 2 + p.2 ^ 2) = 0 := by linear_combination p.1 * v1 - p.2 * u1
      have a1 := (mul_eq_zero.1 a).resolve_right hsq
      have b1 := (mul_eq_zero.1 b).resolve_right hsq
      exact Prod.ext (by linarith) (by linarith)
    · intro h
      rw [h]
      exact ⟨by ring, by ring⟩
  · intro hm h h1
    unfold placing matrix Shp.Aff.act pt
    simp only [if_pos hm, Prod.mk.injEq]
    rw [h]
    constructor
    · rintro ⟨u, v⟩
      have u' : r.mag * ((deg r.angle).2 * p.2) = 0 := by linear_combination (-1 / 2) * u
      have v' : r.mag * ((deg r.angle).1 * p.2) = 0 := by linear_combination (1 / 2) * v
      have u1 := (mul_eq_zero.1 u').resolve_left hk
      have v1 := (mul_eq_zero.1 v').resolve_left hk
      linear_combination (deg r.angle).1 * v1 + (deg r.angle).2 * u1 - p.2 * h1
    · intro h0
      rw [h0]
      exact ⟨by ring, by ring⟩

end Ecad.GdsD
