import Verif.Gds.DesignLemmas
/-!
C132: a GDSII file imported and flattened shows every element of the file once for each chain of references that leads to it.
-/
namespace Ecad.GdsD
open Gds (Name Elem Struct Lib)
open Hier (Layout noNet)

/-! ### specification: what a library draws -/

/-- the flag of mirroring: bit 15 of the transformation flags -/
def mirrored (e : Elem) : Prop := 0 ≤ e.strans ∧ e.strans.toNat.testBit 15 = true

instance (e : Elem) : Decidable (mirrored e) := by unfold mirrored; infer_instance

/-- How a GDSII reference places a point: mirror at the x axis, magnify, turn, shift to `o`.  `deg` gives cosine and sine of an angle in
degrees. -/
def placing (deg : ℚ → ℚ × ℚ) (e : Elem) (o p : ℚ × ℚ) : ℚ × ℚ :=
  let y := if mirrored e then -p.2 else p.2
  (e.mag * ((deg e.angle).1 * p.1 - (deg e.angle).2 * y) + o.1, e.mag * ((deg e.angle).2 * p.1 + (deg e.angle).1 * y) + o.2)

/-- The points at which a reference places its structure: one for a single reference, columns times rows for an array, whose second and third
point are those after the last column and row. -/
def origins (e : Elem) : List (ℚ × ℚ) :=
  match e.kind, e.points with
  | .sref, p :: _ => [((p.1 : ℚ), (p.2 : ℚ))]
  | .aref, [p, c, r] =>
    (List.range e.columns.toNat).flatMap fun i => (List.range e.rows.toNat).map fun j =>
      (p.1 + i * ((c.1 - p.1 : ℚ) / e.columns) + j * ((r.1 - p.1 : ℚ) / e.rows),
       p.2 + i * ((c.2 - p.2 : ℚ) / e.columns) + j * ((r.2 - p.2 : ℚ) / e.rows))
  | _, _ => []

/-- the outline of an element; `stroke` draws a polyline with a width -/
def outline (stroke : List (ℚ × ℚ) → ℚ → List (ℚ × ℚ)) (e : Elem) : Option (List (ℚ × ℚ)) :=
  match e.kind with
  | .boundary | .box => some (e.points.map fun p => ((p.1 : ℚ), (p.2 : ℚ)))
  | .path => some (stroke (e.points.map fun p => ((p.1 : ℚ), (p.2 : ℚ))) (e.width : ℚ))
  | _ => none

/-- What the structure `name` of the library draws, down to `n` levels: layer numbers and outlines; first its own elements, then, for each
reference and each of its places, what the structure referred to draws. -/
def drawn (stroke : List (ℚ × ℚ) → ℚ → List (ℚ × ℚ)) (deg : ℚ → ℚ × ℚ) (l : Lib) : Nat → Name → List (Int × List (ℚ × ℚ))
  | 0, _ => []
  | n + 1, name =>
    match l.structs.find? (fun s => s.name = name) with
    | none => []
    | some s =>
      (s.elems.filterMap fun e => (outline stroke e).map fun o => (e.layer, o)) ++
      s.elems.flatMap fun e => (origins e).flatMap fun o =>
        (drawn stroke deg l n e.sname).map fun x => (x.1, x.2.map (placing deg e o))

/-- a chain of references from structure `s` to structure `t` and where it places things -/
inductive Chain (deg : ℚ → ℚ × ℚ) (l : Lib) : Struct → Struct → (ℚ × ℚ → ℚ × ℚ) → Prop
  | here {s} (hs : s ∈ l.structs) : Chain deg l s s id
  | ref {s u t g} (hs : s ∈ l.structs) (e : Elem) (he : e ∈ s.elems) (o : ℚ × ℚ) (ho : o ∈ origins e) (hu : e.sname = u.name)
      (h : Chain deg l u t g) : Chain deg l s t (placing deg e o ∘ g)

/-- the positions of `x` in a list of layer numbers -/
def numbers (keys : List Int) (x : Int) : List Nat := (keys.zipIdx.filter fun q => q.1 = x).map (·.2)

/-- The layers of the database and the numbers they stand for: one for each layer number of an element, or, with a layer map, one for each of
its rows. -/
def LayersFit (l : Lib) (rows : Option (List Gds.LayerRow)) (stack : List Gds.Stack) (keys : List Int) : Prop :=
  match rows with
  | none => keys.Nodup ∧ (∀ x, x ∈ keys ↔ ∃ s ∈ l.structs, ∃ e ∈ s.elems, e.layer = x) ∧ stack = keys.map fun x => ⟨.inr x, true, 0, 0⟩
  | some rows => keys = rows.map Gds.LayerRow.layerId ∧ stack.length = rows.length ∧
      ∀ k : Nat, stack[k]? = rows[k]?.map fun r => ⟨.inl r.name, r.conducting, - ((rows.take k).map Gds.LayerRow.thickness).sum, r.thickness⟩

/-- what is seen of a primitive: net, layer and outline; nothing of a text -/
def seen (L : Shp.Lib ℚ) (p : Hier.Prim Geo) : Option (Int × Int × List (ℚ × ℚ)) :=
  match p.geo with
  | .shape s => some (p.net, p.layer, s.contour L)
  | .text _ _ => none

/-! ### chains -/

theorem find_struct {l : Lib} (hd : (l.structs.map Struct.name).Nodup) {s : Struct} (hs : s ∈ l.structs) :
    l.structs.find? (fun t => t.name = s.name) = some s := by
  cases h : l.structs.find? (fun t => decide (t.name = s.name)) with
  | none =>
    have := List.find?_eq_none.1 h s hs
    simp at this
  | some t =>
    have h1 := List.mem_of_find?_eq_some h
    have h2 := List.find?_some h
    simp only [decide_eq_true_eq] at h2
    rw [List.inj_on_of_nodup_map hd h1 hs h2]

/-- What a structure draws are the outlines of the elements of the structures at the ends of its chains of references, placed by the
chain. -/
theorem c132_chains (stroke : List (ℚ × ℚ) → ℚ → List (ℚ × ℚ)) (deg : ℚ → ℚ × ℚ) (l : Lib) (hd : (l.structs.map Struct.name).Nodup)
    (rank : Name → Nat) (hac : ∀ s ∈ l.structs, ∀ e ∈ s.elems, origins e ≠ [] → rank e.sname < rank s.name)
    (s : Struct) (hs : s ∈ l.structs) (n : Nat) (hn : rank s.name < n) (x : Int × List (ℚ × ℚ)) :
    x ∈ drawn stroke deg l n s.name ↔
      ∃ t g, Chain deg l s t g ∧ ∃ e ∈ t.elems, ∃ o, outline stroke e = some o ∧ x = (e.layer, o.map g) := by
  induction n generalizing s x with
  | zero => omega
  | succ n ih =>
    rw [drawn, find_struct hd hs]
    simp only [List.mem_append, List.mem_filterMap, List.mem_flatMap, List.mem_map, Option.map_eq_some_iff]
    constructor
    · rintro (⟨e, he, o, ho, rfl⟩ | ⟨e, he, o, ho, y, hy, rfl⟩)
      · exact ⟨s, id, .here hs, e, he, o, ho, by simp⟩
      · have hr := hac s hs e he (by intro h; rw [h] at ho; simp at ho)
        have : ∃ u ∈ l.structs, u.name = e.sname := by
          by_contra hno
          have hf : l.structs.find? (fun t => decide (t.name = e.sname)) = none := by
            rw [List.find?_eq_none]
            intro u hu
            simpa using fun h => hno ⟨u, hu, h⟩
          cases n with
          | zero => simp [drawn] at hy
          | succ n => rw [drawn, hf] at hy; simp at hy
        obtain ⟨u, hu, hun⟩ := this
        rw [← hun] at hy
        obtain ⟨t, g, hc, e', he', o', ho', rfl⟩ := (ih u hu (by rw [hun]; omega) y).1 hy
        exact ⟨t, placing deg e o ∘ g, .ref hs e he o ho hun.symm hc, e', he', o', ho', by simp⟩
    · rintro ⟨t, g, hc, e', he', o', ho', rfl⟩
      cases hc with
      | here => exact .inl ⟨e', he', o', ho', by simp⟩
      | @ref _ u _ g hs e he o ho hu h =>
        right
        have hr := hac s hs e he (by intro h; rw [h] at ho; simp at ho)
        have hum : u ∈ l.structs := by cases h <;> assumption
        refine ⟨e, he, o, ho, (e'.layer, o'.map g), ?_, by simp⟩
        rw [hu]
        exact (ih u hum (by rw [← hu]; omega) _).2 ⟨t, g, h, e', he', o', ho', rfl⟩

/-! ### the import -/

theorem numbers_map {A : Type} (f : A → Int) (l : List A) (x : Int) :
    numbers (l.map f) x = ((l.zipIdx).filter fun q => f q.1 = x).map (·.2) := by
  unfold numbers
  rw [List.zipIdx_map, List.filter_map, List.map_map]
  rfl

theorem mem_numbers {keys : List Int} {x : Int} {i : Nat} (h : i ∈ numbers keys x) : i < keys.length := by
  unfold numbers at h
  obtain ⟨q, hq, rfl⟩ := List.mem_map.1 h
  have := (List.mem_filter.1 hq).1
  rw [List.mem_zipIdx_iff_getElem?] at this
  exact (List.getElem?_eq_some_iff.1 this).1

theorem layers_fit (l : Lib) (d : Gds.Db) (hd : ∀ x, x ∈ d.layers ↔ ∃ s ∈ l.structs, ∃ e ∈ s.elems, e.layer = x)
    (order : List Int → List Int) (ho : (order d.layers).Nodup ∧ ∀ x, x ∈ order d.layers ↔ x ∈ d.layers) (rows : Option (List Gds.LayerRow)) :
    ∃ keys, LayersFit l rows (layersOf order d rows).1 keys ∧ (∀ x, Gds.idsOf (layersOf order d rows).2 x = numbers keys x) ∧
      (layersOf order d rows).1.length = keys.length := by
  cases rows with
  | none =>
    refine ⟨order d.layers, ⟨ho.1, fun x => (ho.2 x).trans (hd x), ?_⟩, ?_, ?_⟩
    · simp only [layersOf]; rw [Gds.stack_fromDb]
    · intro x; simp only [layersOf]; rw [Gds.idsOf_fromDb]; simp [Gds.idsOf, numbers]
    · simp only [layersOf]; rw [Gds.stack_fromDb]; simp
  | some rows =>
    have hlen : ∀ (rows : List Gds.LayerRow) el id m, (Gds.layersFromMap rows el id m).1.length = rows.length := by
      intro rows
      induction rows with
      | nil => intro _ _ _; rfl
      | cons r rows ih => intro el id m; rw [Gds.layersFromMap]; simp [ih]
    refine ⟨rows.map Gds.LayerRow.layerId, ⟨rfl, hlen _ _ _ _, ?_⟩, ?_, ?_⟩
    · intro k; simp only [layersOf]; rw [Gds.stack_fromMap]; simp
    · intro x; simp only [layersOf]; rw [Gds.idsOf_fromMap, numbers_map]; simp [Gds.idsOf]
    · simp only [layersOf]; rw [hlen]; simp

theorem flatMap_filterMap {A B C : Type} (f : A → Option B) (g : B → List C) (l : List A) :
    (l.filterMap f).flatMap g = l.flatMap fun a => (f a).elim [] g := by
  induction l with
  | nil => rfl
  | cons a l ih =>
    rw [List.filterMap_cons, List.flatMap_cons]
    cases h : f a with
    | none => simp [ih]
    | some b => simp [ih]

/-- shapes whose outline follows every reference; plain paths only if `P` -/
def Good (P : Prop) : Shp.Shape ℚ → Prop
  | .polygon _ => True
  | .path _ _ => P
  | .templ _ s => s.isValid = true
  | _ => False

theorem good_transform {P : Prop} {s : Shp.Shape ℚ} (h : Good P s) (m : Shp.Aff ℚ) : Good P (s.transform m) := by
  cases s <;> simp_all [Good, Shp.Shape.transform]

theorem contour_transform {P : Prop} {L : Shp.Lib ℚ} (hL : L.StrokeOK) {s : Shp.Shape ℚ} (h : Good P s) (m : Shp.Aff ℚ)
    (hm : P → m.a ^ 2 + m.c ^ 2 = 1 ^ 2 ∧ m.b ^ 2 + m.d ^ 2 = 1 ^ 2 ∧ m.a * m.b + m.c * m.d = 0) :
    (s.transform m).contour L = (s.contour L).map m.act := by
  cases s with
  | polygon => rfl
  | path pts w =>
    have := hm h
    have := hL m 1 pts w (by norm_num) this.1 this.2.1 this.2.2
    rw [one_mul] at this
    exact this
  | templ m0 s =>
    simp only [Good] at h
    simp only [Shp.Shape.transform, Shp.Shape.contour, h, Bool.not_true, Bool.false_eq_true, if_false, List.map_map]
    apply List.map_congr_left
    intro p _
    simp only [Function.comp]
    refine Prod.ext ?_ ?_ <;> simp only [Shp.Aff.comp, Shp.Aff.act] <;> ring
  | rect => exact h.elim
  | circle => exact h.elim
  | holes => exact h.elim
  | noTempl => exact h.elim

/-- good primitives -/
def GoodPrim (P : Prop) (p : Hier.Prim Geo) : Prop := ∀ s, p.geo = .shape s → Good P s

theorem seen_onLayers (L : Shp.Lib ℚ) (s : Shp.Shape ℚ) (hv : s.isValid = true) (ids : List Nat) :
    (onLayers s ids).filterMap (seen L) = ids.map fun i : Nat => (noNet, (i : Int), s.contour L) := by
  have ht : (Shp.Shape.templ Shp.Aff.one s).contour L = s.contour L := by
    simp only [Shp.Shape.contour, hv, Bool.not_true, Bool.false_eq_true, if_false]
    have : (Shp.Aff.one : Shp.Aff ℚ).act = id := by
      funext p
      simp [Shp.Aff.act, Shp.Aff.one]
    rw [this, List.map_id]
  match ids with
  | [] => rfl
  | [i] => rfl
  | i :: j :: ids =>
    simp only [onLayers]
    rw [List.filterMap_map]
    rw [List.filterMap_congr (g := fun i : Nat => some (noNet, (i : Int), s.contour L))]
    · rw [← List.filterMap_eq_map]; rfl
    · intro k _
      simp only [Function.comp, seen, ht]

theorem good_onLayers {P : Prop} (s : Shp.Shape ℚ) (hv : s.isValid = true) (hg : Good P s) (N : Nat) (ids : List Nat) (hN : ∀ i ∈ ids, i < N) :
    ∀ p ∈ onLayers s ids, GoodPrim P p ∧ Plain N p := by
  intro p hp
  match ids, hN, hp with
  | [i], hN, hp =>
    simp only [onLayers, List.mem_singleton] at hp
    subst hp
    refine ⟨?_, rfl, rfl, i, hN i (by simp), rfl⟩
    intro s' e
    simp only [Geo.shape.injEq] at e
    exact e ▸ hg
  | i :: j :: ids, hN, hp =>
    simp only [onLayers] at hp
    obtain ⟨k, hk, rfl⟩ := List.mem_map.1 hp
    refine ⟨?_, rfl, rfl, k, hN k hk, rfl⟩
    intro s' e
    simp only [Geo.shape.injEq] at e
    subst e
    exact hv

/-- elements that can be drawn: polygons have three points or more, paths have points and a width -/
def Drawable (e : Elem) : Prop :=
  ((e.kind = .boundary ∨ e.kind = .box) → 3 ≤ e.points.length) ∧ (e.kind = .path → e.points ≠ [] ∧ e.width ≠ 0)

theorem elem_prims {P : Prop} (L : Shp.Lib ℚ) (m : List (Int × List Nat)) (keys : List Int) (hk : ∀ x, Gds.idsOf m x = numbers keys x)
    (e : Elem) (hdr : Drawable e) (hp : e.kind = .path → P) :
    ((e.obj.elim [] (primsOf m)).filterMap (seen L) =
      ((outline L.stroke e).elim [] fun o => (numbers keys e.layer).map fun i : Nat => (noNet, (i : Int), o))) ∧
    ∀ p ∈ e.obj.elim [] (primsOf m), GoodPrim P p ∧ Plain keys.length p := by
  have hN : ∀ i ∈ numbers keys e.layer, i < keys.length := fun i hi => mem_numbers hi
  unfold Gds.Elem.obj outline
  cases hkd : e.kind <;> simp only [Option.elim_some, Option.elim_none, primsOf, hk]
  case boundary =>
    have hv : (Shp.Shape.polygon (e.points.map pt)).isValid = true := by simpa [Shp.Shape.isValid] using hdr.1 (.inl hkd)
    exact ⟨seen_onLayers L _ hv _, good_onLayers _ hv trivial _ _ hN⟩
  case box =>
    have hv : (Shp.Shape.polygon (e.points.map pt)).isValid = true := by simpa [Shp.Shape.isValid] using hdr.1 (.inr hkd)
    exact ⟨seen_onLayers L _ hv _, good_onLayers _ hv trivial _ _ hN⟩
  case path =>
    have hv : (Shp.Shape.path (e.points.map pt) (e.width : ℚ)).isValid = true := by
      have := hdr.2 hkd
      simp [Shp.Shape.isValid, this.1, this.2]
    exact ⟨seen_onLayers L _ hv _, good_onLayers _ hv (hp hkd) _ _ hN⟩
  case text =>
    refine ⟨?_, ?_⟩
    · rw [List.filterMap_map, List.filterMap_eq_nil_iff]
      intro i _
      rfl
    · intro p hp
      obtain ⟨i, hi, rfl⟩ := List.mem_map.1 hp
      exact ⟨fun s h => by simp at h, rfl, rfl, i, hN i hi, rfl⟩
  all_goals simp

theorem place_seen {P : Prop} {L : Shp.Lib ℚ} (hL : L.StrokeOK) {N : Nat} (fwd : Int → Int) (hf : ∀ i : Nat, i < N → fwd (i : Int) = (i : Int))
    (m : Shp.Aff ℚ) (hm : P → m.a ^ 2 + m.c ^ 2 = 1 ^ 2 ∧ m.b ^ 2 + m.d ^ 2 = 1 ^ 2 ∧ m.a * m.b + m.c * m.d = 0)
    (p : Hier.Prim Geo) (hg : GoodPrim P p) (hp : Plain N p) :
    seen L (Hier.place act fwd m p) = (seen L p).map (fun x => (x.1, x.2.1, x.2.2.map m.act)) ∧ GoodPrim P (Hier.place act fwd m p) := by
  obtain ⟨_, _, i, hi, e⟩ := hp
  unfold GoodPrim at hg
  unfold seen GoodPrim Hier.place
  cases hgeo : p.geo with
  | shape s =>
    refine ⟨?_, ?_⟩
    · simp only [act, Option.map_some, e, hf i hi]
      rw [contour_transform hL (hg s hgeo) m hm]
    · intro s' h
      simp only [act, Geo.shape.injEq] at h
      exact h ▸ good_transform (hg s hgeo) m
  | text => exact ⟨rfl, fun s h => by simp [act] at h⟩

end Ecad.GdsD
