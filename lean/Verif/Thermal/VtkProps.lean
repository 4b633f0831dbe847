import Verif.Thermal.VtkModel
import Verif.Thermal.PrismIndexProps
import Verif.Thermal.PrismMeshProps
import Verif.Geom.CutModel
import Mathlib.Tactic.Ring
import Mathlib.Tactic.NormNum
/-!
C102: the VTK file of a prism model is an unstructured grid of the prisms and wires of the model at their places,
with the temperature of each element.
-/
namespace Ecad.Vtk
open Ecad.PrismT
open Tok

variable {K : Type} [Field K]

/-! ### specification: what a reader of legacy VTK files makes of a file -/

/-- an unstructured grid: points, cells with their type, and a number for each cell -/
structure Grid (K : Type) where
  points : List (P3 K)
  cells : List (Nat × List Nat)
  data : Option (List K)

/-- `k` items one after the other -/
def readN {α : Type} (f : List (Tok K) → Option (α × List (Tok K))) : Nat → List (Tok K) → Option (List α × List (Tok K))
  | 0, r => some ([], r)
  | k + 1, r => (f r).bind fun a => (readN f k a.2).bind fun as => some (a.1 :: as.1, as.2)

def readNum : List (Tok K) → Option (K × List (Tok K))
  | x a :: r => some (a, r)
  | _ => none

def readNat : List (Tok K) → Option (Nat × List (Tok K))
  | n i :: r => some (i, r)
  | _ => none

def readPoint : List (Tok K) → Option (P3 K × List (Tok K))
  | x a :: x b :: x c :: r => some ((a, b, c), r)
  | _ => none

def readColour : List (Tok K) → Option ((K × K × K × K) × List (Tok K))
  | x a :: x b :: x c :: x d :: r => some ((a, b, c, d), r)
  | _ => none

/-- a cell: the number of its points, and their indices -/
def readCell : List (Tok K) → Option (List Nat × List (Tok K))
  | n k :: r => readN readNat k r
  | _ => none

/-- data of the cells, at the end of the file: for each cell a number, with a table of colours -/
def readData (cells : Nat) : List (Tok K) → Option (Option (List K))
  | [] => some none
  | w "CELL_DATA" :: n k :: w "SCALARS" :: w _ :: w "FLOAT" :: n 1 :: w "LOOKUP_TABLE" :: w table :: r =>
    if k = cells then
      (readN readNum k r).bind fun d =>
      match d.2 with
      | w "LOOKUP_TABLE" :: w table' :: n rows :: r =>
        if table = table' then
          (readN readColour rows r).bind fun c => if c.2.isEmpty then some (some d.1) else none
        else none
      | _ => none
    else none
  | _ => none

/-- wedges (type 13) have six points, lines (type 3) two; all points exist -/
def cellOK (points : Nat) (c : Nat × List Nat) : Bool :=
  (c.1 == 13 && c.2.length == 6 || c.1 == 3 && c.2.length == 2) && c.2.all (· < points)

/-- the body of a file -/
def readBody : List (Tok K) → Option (Grid K)
  | w "ASCII" :: w "DATASET" :: w "UNSTRUCTURED_GRID" :: w "POINTS" :: n np :: w "FLOAT" :: r =>
    (readN readPoint np r).bind fun ps =>
    match ps.2 with
    | w "CELLS" :: n nc :: n size :: r =>
      (readN readCell nc r).bind fun cs =>
      if size = (cs.1.map fun c => c.length + 1).sum then
        match cs.2 with
        | w "CELL_TYPES" :: n nt :: r =>
          if nt = nc then
            (readN readNat nt r).bind fun ts =>
            (readData nc ts.2).bind fun d =>
            if (ts.1.zip cs.1).all (cellOK np) then some ⟨ps.1, ts.1.zip cs.1, d⟩ else none
          else none
        | _ => none
      else none
    | _ => none
  | _ => none

/-- a file: version, a title, and the body, in which line ends do not matter -/
def readVtk : List (List (Tok K)) → Option (Grid K)
  | [w v] :: _ :: body => if v = "# vtk DataFile Version 2.0" then readBody body.flatten else none
  | _ => none

/-! ### specification: what the file should describe -/

/-- the sizes of the layers -/
def sizes (m : Mdl K) : List Nat := m.layers.map fun L => L.elems.length

/-- the corners of a prism: the triangle at the elevation of the layer, and below it by the thickness of the layer -/
def corners (t : Tmpl K) (scale : K) (L : Layer K) (tri : Fin 3 → Nat) : List (Option (P3 K)) :=
  ([0, 1, 2].map fun v => (t.pts[tri v]?).map fun p => (p.1 * scale, p.2 * scale, L.elev)) ++
  ([0, 1, 2].map fun v => (t.pts[tri v]?).map fun p => (p.1 * scale, p.2 * scale, L.elev - L.thick))

/-- The grid has a wedge for each element and a line for each segment, in the order in which the elements are numbered, with
the given corners, and the data if there are as many as elements. -/
structure Describes (m : Mdl K) (segs : List (P3 K × P3 K)) (temps : Option (List K)) (g : Grid K) : Prop where
  count : g.cells.length = (sizes m).sum + segs.length
  prism : ∀ (l e id : Nat) (L : Layer K) (t : Tmpl K) (tri : Fin 3 → Nat), m.layers[l]? = some L → L.elems[e]? = some id →
    UMap.find? m.tmpls l = some t → t.tris[id]? = some tri →
    ∃ vs, g.cells[((sizes m).take l).sum + e]? = some (13, vs) ∧ (vs.map fun i => g.points[i]?) = corners t m.scale L tri
  line : ∀ (k : Nat) (a b : P3 K), segs[k]? = some (a, b) →
    ∃ vs, g.cells[(sizes m).sum + k]? = some (3, vs) ∧ (vs.map fun i => g.points[i]?) = [some a, some b]
  data : g.data = temps.filter fun ts => ts.length == (sizes m).sum + segs.length

/-- every layer begins where the one above it ends -/
def Contiguous (layers : List (Layer K)) : Prop :=
  ∀ (l : Nat) (L L' : Layer K), layers[l]? = some L → layers[l + 1]? = some L' → L'.elev = L.elev - L.thick

/-- every layer has a template with the triangles of its elements, and these have points -/
def Meshed (m : Mdl K) : Prop :=
  ∀ (l : Nat) (L : Layer K), m.layers[l]? = some L → ∃ t, UMap.find? m.tmpls l = some t ∧
    (∀ id ∈ L.elems, id < t.tris.length) ∧ ∀ tri ∈ t.tris, ∀ v, tri v < t.pts.length

/-- all layers have the same template -/
def OneTemplate (m : Mdl K) (t : Tmpl K) : Prop :=
  UMap.find? m.tmpls 0 = some t ∧ ∀ l, l < m.layers.length → UMap.find? m.tmpls l = some t

/-! ### reading -/

omit [Field K] in
theorem readN_map {α β : Type} (f : List (Tok K) → Option (α × List (Tok K))) (enc : β → List (Tok K)) (dec : β → α) :
    ∀ (l : List β) (k : Nat) (r : List (Tok K)), k = l.length → (∀ b ∈ l, ∀ r, f (enc b ++ r) = some (dec b, r)) →
      readN f k ((l.map enc).flatten ++ r) = some (l.map dec, r) := by
  intro l
  induction l with
  | nil => intro k r hk _; subst hk; rfl
  | cons b l ih =>
    intro k r hk h
    subst hk
    simp only [List.map_cons, List.flatten_cons, List.length_cons, List.append_assoc, readN]
    rw [h b (by simp)]
    simp only [Option.bind_some]
    rw [ih l.length r rfl fun b hb => h b (List.mem_cons_of_mem _ hb)]
    rfl

omit [Field K] in
theorem readN_nats (vs : List Nat) (k : Nat) (r : List (Tok K)) (hk : k = vs.length) :
    readN readNat k (vs.map n ++ r) = some (vs, r) := by
  have h := readN_map (K := K) readNat (fun i : Nat => [n i]) id vs k r hk (fun b _ r => rfl)
  have e : (vs.map fun i : Nat => ([n i] : List (Tok K))).flatten = vs.map n := by
    clear h hk
    induction vs with
    | nil => rfl
    | cons a l ih => simp [ih]
  rw [e] at h
  simpa using h

/-- What is written for any prisms of six vertices and any lines is read back. -/
theorem read_write (total : Nat) (prisms : List (List Nat)) (pts : List (P3 K)) (lines : List (Nat × Nat)) (temps : Option (List K))
    (rgb : Nat → P3 K) (ht : prisms.length = total) (h6 : ∀ vs ∈ prisms, vs.length = 6 ∧ ∀ i ∈ vs, i < pts.length)
    (hl : ∀ e ∈ lines, e.1 < pts.length ∧ e.2 < pts.length) :
    ∃ file, write total prisms pts lines temps rgb = .ok file ∧
      readVtk file = some ⟨pts, (prisms.map fun vs => (13, vs)) ++ (lines.map fun e => (3, [e.1, e.2])),
        temps.filter fun ts => ts.length == total + lines.length⟩ := by
  have hps : mapRes (Res.at_ prisms) (List.range total) = .ok prisms := by
    rw [mapRes_ok _ _ (fun i => prisms.getD i [])]
    · congr 1
      subst ht
      apply List.ext_getElem?
      intro i
      by_cases hi : i < prisms.length
      · simp [hi, List.getElem?_range]
      · simp [hi]
    · intro i hi
      have hi : i < prisms.length := by rw [ht]; exact List.mem_range.1 hi
      simp [Res.at_, List.getElem?_eq_getElem hi]
  refine ⟨fileLines total prisms pts lines temps rgb, by rw [write, hps, Res.bind_ok], ?_⟩
  simp only [fileLines, List.cons_append, List.nil_append, readVtk, if_true]
  simp only [List.flatten_cons, List.flatten_append, List.cons_append, List.nil_append, List.append_assoc, readBody]
  rw [readN_map readPoint (fun p : P3 K => [x p.1, x p.2.1, x p.2.2]) id pts _ _ rfl (fun p _ r => rfl)]
  simp only [Option.bind_some, List.map_id]
  -- cells
  have hcell : ∀ r : List (Tok K), readN readCell (lines.length + total)
      ((prisms.map fun vs => n 6 :: vs.map n).flatten ++ ((lines.map fun e => [n 2, n e.1, n e.2]).flatten ++ r)) =
      some (prisms ++ lines.map (fun e => [e.1, e.2]), r) := by
    intro r
    have := readN_map (K := K) readCell (fun vs : List Nat => n vs.length :: vs.map n) id
      (prisms ++ lines.map fun e => [e.1, e.2]) (lines.length + total) r (by simp [ht]; omega)
      (fun vs _ r => by simp only [List.cons_append, readCell]; exact readN_nats vs _ r rfl)
    rw [List.map_append, List.flatten_append, List.map_id, List.append_assoc, List.map_map] at this
    have e1 : (prisms.map fun vs : List Nat => (n vs.length :: vs.map n : List (Tok K))) = prisms.map fun vs => n 6 :: vs.map n :=
      List.map_congr_left fun vs hvs => by rw [(h6 vs hvs).1]
    rw [e1] at this
    exact this
  rw [hcell]
  simp only [Option.bind_some]
  -- size
  have hsize : total * 7 + lines.length * 3 =
      ((prisms ++ lines.map fun e => [e.1, e.2]).map fun c : List Nat => c.length + 1).sum := by
    rw [List.map_append, List.sum_append]
    have e1 : (prisms.map fun c : List Nat => c.length + 1) = prisms.map fun _ => 7 :=
      List.map_congr_left fun vs hvs => by rw [(h6 vs hvs).1]
    rw [e1, List.map_map]
    have e2 : ((fun c : List Nat => c.length + 1) ∘ fun e : Nat × Nat => [e.1, e.2]) = fun _ => 3 := rfl
    rw [e2, List.map_const', List.map_const', List.sum_replicate, List.sum_replicate, ht]
    simp
  rw [if_pos hsize]
  simp only [if_true]
  -- types
  have htype : ∀ r : List (Tok K), readN readNat (lines.length + total)
      ((prisms.map fun _ => [n 13]).flatten ++ ((lines.map fun _ => [n 3]).flatten ++ r)) =
      some (prisms.map (fun _ => 13) ++ lines.map (fun _ => 3), r) := by
    intro r
    have := readN_map (K := K) readNat (fun i : Nat => [n i]) id (prisms.map (fun _ => 13) ++ lines.map fun _ => 3)
      (lines.length + total) r (by simp [ht]; omega) (fun b _ r => rfl)
    rw [List.map_append, List.flatten_append, List.map_id, List.append_assoc, List.map_map, List.map_map] at this
    exact this
  rw [htype]
  simp only [Option.bind_some]
  -- data
  have hdata : readData (lines.length + total) (dataLines (lines.length + total) rgb temps).flatten =
      some (temps.filter fun ts => ts.length == total + lines.length) := by
    cases temps with
    | none => rfl
    | some ts =>
      by_cases hts : ts.length = lines.length + total
      · simp only [dataLines, hts, if_true, List.flatten_append, List.flatten_cons, List.flatten_nil, List.cons_append, List.nil_append,
          List.append_nil, List.append_assoc, readData]
        have h1 := readN_map (K := K) readNum (fun t : K => [x t]) id ts (lines.length + total)
          (w "LOOKUP_TABLE" :: w "TEMPERATURE" :: n 100 ::
            ((List.range 100).map fun i => [x (rgb i).1, x (rgb i).2.1, x (rgb i).2.2, x 1]).flatten) hts.symm (fun b _ r => rfl)
        rw [h1]
        simp only [Option.bind_some, if_true, List.map_id]
        have h2 := readN_map (K := K) readColour (fun i : Nat => [x (rgb i).1, x (rgb i).2.1, x (rgb i).2.2, x 1])
          (fun i => ((rgb i).1, (rgb i).2.1, (rgb i).2.2, 1)) (List.range 100) 100 [] (by simp) (fun b _ r => rfl)
        rw [List.append_nil] at h2
        rw [h2]
        simp [Option.filter, hts, Nat.add_comm]
      · simp only [dataLines, hts, if_false, List.flatten_nil, readData]
        have : ¬ ts.length = total + lines.length := by omega
        simp [Option.filter, this]
  rw [hdata]
  simp only [Option.bind_some]
  have hzip : (prisms.map (fun _ => 13) ++ lines.map fun _ => 3).zip (prisms ++ lines.map fun e : Nat × Nat => [e.1, e.2]) =
      (prisms.map fun vs => (13, vs)) ++ lines.map fun e => (3, [e.1, e.2]) := by
    rw [List.zip_append (by simp)]
    congr 1
    · have := List.zip_map' (f := fun _ : List Nat => 13) (g := fun vs : List Nat => vs) (l := prisms)
      simpa using this
    · exact List.zip_map'
  rw [hzip, if_pos]
  rw [List.all_eq_true]
  intro c hc
  rcases List.mem_append.1 hc with hc | hc
  · obtain ⟨vs, hvs, rfl⟩ := List.mem_map.1 hc
    have := h6 vs hvs
    simp only [cellOK, this.1, beq_self_eq_true, Bool.and_true, Bool.true_or, Bool.true_and, List.all_eq_true, decide_eq_true_eq]
    exact this.2
  · obtain ⟨e, he, rfl⟩ := List.mem_map.1 hc
    have := hl e he
    simp [cellOK, this.1, this.2]

/-! ### points -/

/-- the height of level `k`: the elevation of layer `k`, or the lower side of the last layer -/
def level (layers : List (Layer K)) (k : Nat) : Option K :=
  match layers[k]? with
  | some L => some L.elev
  | none => layers.getLast?.map fun L => L.elev - L.thick

/-- where a vertex of the mesh is on a level -/
def place (m : Mdl K) (t : Tmpl K) (k : Nat × Nat) : Option (P3 K) :=
  (t.pts[k.2]?).bind fun p => (level m.layers k.1).map fun h => (p.1 * m.scale, p.2 * m.scale, h)

theorem height_top (m : Mdl K) (l : Nat) (L : Layer K) (v : Fin 3) : heightAt m l L v = .ok L.elev := by
  unfold heightAt
  rw [if_pos v.2]

theorem height_bot (m : Mdl K) (l : Nat) (L : Layer K) (v : Fin 3) (hL : m.layers[l]? = some L) :
    ∃ h, heightAt m l L (v + 3) = .ok h ∧ level m.layers (l + 1) = some h := by
  have hlt := (List.getElem?_eq_some_iff.1 hL).1
  unfold heightAt level
  rw [if_neg (by omega)]
  by_cases hl : l + 1 = m.layers.length
  · rw [if_pos hl, List.getElem?_eq_none (by omega)]
    refine ⟨_, rfl, ?_⟩
    rw [List.getLast?_eq_getElem?, ← hl, Nat.add_sub_cancel, hL]
    rfl
  · rw [if_neg hl]
    have : l + 1 < m.layers.length := by omega
    simp only [Res.at_, List.getElem?_eq_getElem this, Res.bind_ok]
    exact ⟨_, rfl, rfl⟩

/-- the points of an element in terms of its template -/
theorem getPoint_eq {m : Mdl K} {t : Tmpl K} {l e id : Nat} {L : Layer K} {tri : Fin 3 → Nat} (ht : UMap.find? m.tmpls l = some t)
    (hL : m.layers[l]? = some L) (he : L.elems[e]? = some id) (htri : t.tris[id]? = some tri)
    (hp : ∀ v, tri v < t.pts.length) (v : Nat) (h : K) (hh : heightAt m l L v = .ok h) :
    ∃ p, t.pts[tri (Fin.ofNat 3 v)]? = some p ∧ getPoint m l e v = .ok (p.1 * m.scale, p.2 * m.scale, h) := by
  refine ⟨t.pts[tri (Fin.ofNat 3 v)]'(hp _), List.getElem?_eq_getElem (hp _), ?_⟩
  simp only [getPoint, tmplAt, ht, Res.at_, hL, he, htri, hh, Res.bind_ok, List.getElem?_eq_getElem (hp _)]

theorem ofNat_val (v : Fin 3) : Fin.ofNat 3 (v : Nat) = v := by
  apply Fin.ext; simp only [Fin.ofNat]; omega

theorem ofNat_add (v : Fin 3) : Fin.ofNat 3 ((v : Nat) + 3) = v := by
  apply Fin.ext; simp only [Fin.ofNat]; omega

theorem getPoint_top {m : Mdl K} {t : Tmpl K} {l e id : Nat} {L : Layer K} {tri : Fin 3 → Nat} (ht : UMap.find? m.tmpls l = some t)
    (hL : m.layers[l]? = some L) (he : L.elems[e]? = some id) (htri : t.tris[id]? = some tri)
    (hp : ∀ v, tri v < t.pts.length) (v : Fin 3) :
    ∃ p, getPoint m l e v = .ok p ∧ place m t (l, tri v) = some p := by
  obtain ⟨p, h1, h2⟩ := getPoint_eq ht hL he htri hp v L.elev (height_top m l L v)
  rw [ofNat_val] at h1
  refine ⟨_, h2, ?_⟩
  simp [place, h1, level, hL]

theorem getPoint_bot {m : Mdl K} {t : Tmpl K} {l e id : Nat} {L : Layer K} {tri : Fin 3 → Nat} (ht : UMap.find? m.tmpls l = some t)
    (hL : m.layers[l]? = some L) (he : L.elems[e]? = some id) (htri : t.tris[id]? = some tri)
    (hp : ∀ v, tri v < t.pts.length) (v : Fin 3) :
    ∃ p, getPoint m l e (v + 3) = .ok p ∧ place m t (l + 1, tri v) = some p := by
  obtain ⟨h, hh, hlev⟩ := height_bot m l L v hL
  obtain ⟨p, h1, h2⟩ := getPoint_eq ht hL he htri hp (v + 3) h hh
  rw [ofNat_add] at h1
  refine ⟨_, h2, ?_⟩
  simp [place, h1, hlev]

/-- the map of the points: everything in it is in its place, no point twice, and every point is in it -/
structure Inv (m : Mdl K) (t : Tmpl K) (s : Pts K) : Prop where
  at_place : ∀ k i, UMap.find? s.ids k = some i → ∃ p, s.pts[i]? = some p ∧ place m t k = some p
  inj : ∀ k k' i, UMap.find? s.ids k = some i → UMap.find? s.ids k' = some i → k = k'
  all : ∀ i, i < s.pts.length → ∃ k, UMap.find? s.ids k = some i

def Ext (s s' : Pts K) : Prop := ∀ k i, UMap.find? s.ids k = some i → UMap.find? s'.ids k = some i

omit [Field K] in
theorem Ext.trans {a b c : Pts K} (h : Ext a b) (h' : Ext b c) : Ext a c := fun k i hk => h' k i (h k i hk)

theorem vertexAt_ok {m : Mdl K} {t : Tmpl K} {s : Pts K} (I : Inv m t s) {lvl w : Nat} {new : Res (P3 K)} {p : P3 K}
    (hn : new = .ok p) (hp : place m t (lvl, w) = some p) :
    ∃ i s', vertexAt s lvl w new = .ok (i, s') ∧ Inv m t s' ∧ Ext s s' ∧ UMap.find? s'.ids (lvl, w) = some i := by
  unfold vertexAt
  cases hf : UMap.find? s.ids (lvl, w) with
  | some i => exact ⟨i, s, rfl, I, fun _ _ h => h, hf⟩
  | none =>
    subst hn
    have hfind : ∀ k, UMap.find? (UMap.emplace s.ids (lvl, w) s.pts.length).1 k =
        if k = (lvl, w) then some s.pts.length else UMap.find? s.ids k := by
      intro k; rw [UMap.find?_emplace']; simp [hf]
    have hlt : ∀ k i, UMap.find? s.ids k = some i → i < s.pts.length := by
      intro k i h
      obtain ⟨q, hq, _⟩ := I.at_place k i h
      exact (List.getElem?_eq_some_iff.1 hq).1
    refine ⟨_, _, rfl, ⟨?_, ?_, ?_⟩, ?_, ?_⟩
    · intro k i h
      simp only [hfind] at h
      by_cases hk : k = (lvl, w)
      · rw [if_pos hk] at h
        cases h
        exact ⟨p, by simp, hk ▸ hp⟩
      · rw [if_neg hk] at h
        obtain ⟨q, h1, h2⟩ := I.at_place k i h
        exact ⟨q, by simp only; rw [List.getElem?_append_left (hlt k i h)]; exact h1, h2⟩
    · intro k k' i h h'
      simp only [hfind] at h h'
      by_cases hk : k = (lvl, w) <;> by_cases hk' : k' = (lvl, w)
      · rw [hk, hk']
      · rw [if_pos hk] at h; rw [if_neg hk'] at h'
        cases h; exact absurd (hlt _ _ h') (lt_irrefl _)
      · rw [if_neg hk] at h; rw [if_pos hk'] at h'
        cases h'; exact absurd (hlt _ _ h) (lt_irrefl _)
      · rw [if_neg hk] at h; rw [if_neg hk'] at h'
        exact I.inj k k' i h h'
    · intro i hi
      simp only [hfind]
      simp only [List.length_append, List.length_cons, List.length_nil] at hi
      by_cases h : i = s.pts.length
      · exact ⟨(lvl, w), by rw [if_pos rfl, h]⟩
      · obtain ⟨k, hk⟩ := I.all i (by omega)
        refine ⟨k, ?_⟩
        rw [if_neg (by rintro rfl; rw [hf] at hk; cases hk)]
        exact hk
    · intro k i h
      simp only [hfind]
      rw [if_neg (by rintro rfl; rw [hf] at h; cases h)]
      exact h
    · simp only [hfind, if_true]

theorem vertexPair_ok {m : Mdl K} {t : Tmpl K} {l e id : Nat} {L : Layer K} {tri : Fin 3 → Nat} (ht : UMap.find? m.tmpls l = some t)
    (hL : m.layers[l]? = some L) (he : L.elems[e]? = some id) (htri : t.tris[id]? = some tri)
    (hp : ∀ v, tri v < t.pts.length) {s : Pts K} (I : Inv m t s) (v : Fin 3) :
    ∃ a b s', vertexPair m tri l e v s = .ok ((a, b), s') ∧ Inv m t s' ∧ Ext s s' ∧
      UMap.find? s'.ids (l, tri v) = some a ∧ UMap.find? s'.ids (l + 1, tri v) = some b := by
  obtain ⟨p, h1, h2⟩ := getPoint_top ht hL he htri hp v
  obtain ⟨a, s1, ha, I1, E1, f1⟩ := vertexAt_ok I h1 h2
  obtain ⟨q, h3, h4⟩ := getPoint_bot ht hL he htri hp v
  obtain ⟨b, s2, hb, I2, E2, f2⟩ := vertexAt_ok I1 h3 h4
  refine ⟨a, b, s2, ?_, I2, E1.trans E2, E2 _ _ f1, f2⟩
  simp only [vertexPair, ha, hb, Res.bind_ok]

/-- vertices of prism `i`: those of its triangle on the level of its layer and on the next -/
def Good (m : Mdl K) (t : Tmpl K) (s : Pts K) (i : Nat) (vs : List Nat) : Prop :=
  ∀ (l e id : Nat) (L : Layer K) (tri : Fin 3 → Nat), localIndex (offs m) i = .ok (l, e) → m.layers[l]? = some L →
    L.elems[e]? = some id → t.tris[id]? = some tri →
    vs.map some = [UMap.find? s.ids (l, tri 0), UMap.find? s.ids (l, tri 1), UMap.find? s.ids (l, tri 2),
      UMap.find? s.ids (l + 1, tri 0), UMap.find? s.ids (l + 1, tri 1), UMap.find? s.ids (l + 1, tri 2)]

theorem localIndex_ok (m : Mdl K) {i : Nat} (hi : i < (sizes m).sum) : ∃ l e L id, localIndex (offs m) i = .ok (l, e) ∧
    m.layers[l]? = some L ∧ L.elems[e]? = some id := by
  obtain ⟨l, e, k, hk, he, h, _⟩ := (c34_prisms (sizes m)).2.1 i hi
  unfold sizes at hk
  rw [List.getElem?_map, Option.map_eq_some_iff] at hk
  obtain ⟨L, hL, rfl⟩ := hk
  exact ⟨l, e, L, L.elems[e], h, hL, List.getElem?_eq_getElem he⟩

theorem prismVertices_ok {m : Mdl K} {t : Tmpl K} (M : Meshed m) (O : OneTemplate m t) {i : Nat} (hi : i < (sizes m).sum)
    {s : Pts K} (I : Inv m t s) :
    ∃ vs s', prismVertices m t.tris (offs m) i s = .ok (vs, s') ∧ Inv m t s' ∧ Ext s s' ∧ Good m t s' i vs ∧ vs.length = 6 := by
  obtain ⟨l, e, L, id, hloc, hL, he⟩ := localIndex_ok m hi
  have hlt := (List.getElem?_eq_some_iff.1 hL).1
  have ht := O.2 l hlt
  obtain ⟨t', ht', h1, h2⟩ := M l L hL
  rw [ht] at ht'
  cases ht'
  have hid := h1 id (List.mem_of_getElem? he)
  obtain ⟨tri, htri⟩ : ∃ tri, t.tris[id]? = some tri := ⟨_, List.getElem?_eq_getElem hid⟩
  have hp := h2 tri (List.mem_of_getElem? htri)
  obtain ⟨a0, b0, s0, e0, I0, E0, fa0, fb0⟩ := vertexPair_ok ht hL he htri hp I 0
  obtain ⟨a1, b1, s1, e1, I1, E1, fa1, fb1⟩ := vertexPair_ok ht hL he htri hp I0 1
  obtain ⟨a2, b2, s2, e2, I2, E2, fa2, fb2⟩ := vertexPair_ok ht hL he htri hp I1 2
  refine ⟨[a0, a1, a2, b0, b1, b2], s2, ?_, I2, (E0.trans E1).trans E2, ?_, rfl⟩
  · simp only [prismVertices, hloc, Res.index, hL, Res.at_, he, htri, e0, e1, e2, Res.bind_ok]
  · intro l' e' id' L' tri' h1 h2 h3 h4
    rw [hloc] at h1; cases h1
    rw [hL] at h2; cases h2
    rw [he] at h3; cases h3
    rw [htri] at h4; cases h4
    rw [E2 _ _ (E1 _ _ fa0), E2 _ _ fa1, fa2, E2 _ _ (E1 _ _ fb0), E2 _ _ fb1, fb2]
    rfl

omit [Field K] in
theorem find_ext {s s' : Pts K} (E : Ext s s') {k : Nat × Nat} (h : (UMap.find? s.ids k).isSome) :
    UMap.find? s'.ids k = UMap.find? s.ids k := by
  cases hf : UMap.find? s.ids k with
  | none => rw [hf] at h; cases h
  | some i => exact E k i hf

theorem Good.mono {m : Mdl K} {t : Tmpl K} {s s' : Pts K} (E : Ext s s') {i : Nat} {vs : List Nat} (h : Good m t s i vs) :
    Good m t s' i vs := by
  intro l e id L tri h1 h2 h3 h4
  have := h l e id L tri h1 h2 h3 h4
  rw [this]
  have hs : ∀ o ∈ vs.map some, o.isSome = true := by
    intro o ho; obtain ⟨a, _, rfl⟩ := List.mem_map.1 ho; rfl
  rw [this] at hs
  simp only [List.mem_cons, List.not_mem_nil, or_false, forall_eq_or_imp, forall_eq] at hs
  obtain ⟨g0, g1, g2, g3, g4, g5⟩ := hs
  rw [find_ext E g0, find_ext E g1, find_ext E g2, find_ext E g3, find_ext E g4, find_ext E g5]

theorem buildLoop_ok {m : Mdl K} {t : Tmpl K} (M : Meshed m) (O : OneTemplate m t) : ∀ (is : List Nat) {s : Pts K},
    (∀ i ∈ is, i < (sizes m).sum) → Inv m t s →
    ∃ ps s', buildLoop m t.tris (offs m) is s = .ok (ps, s') ∧ Inv m t s' ∧ Ext s s' ∧ ps.length = is.length ∧
      (∀ vs ∈ ps, vs.length = 6) ∧ ∀ (j i : Nat) (vs : List Nat), is[j]? = some i → ps[j]? = some vs → Good m t s' i vs := by
  intro is
  induction is with
  | nil => intro s _ I; exact ⟨[], s, rfl, I, fun _ _ h => h, rfl, by simp, by simp⟩
  | cons i is ih =>
    intro s hi I
    obtain ⟨vs, s1, e1, I1, E1, G1, L1⟩ := prismVertices_ok M O (hi i (by simp)) I
    obtain ⟨ps, s2, e2, I2, E2, L2, S2, G2⟩ := ih (fun j hj => hi j (List.mem_cons_of_mem _ hj)) I1
    refine ⟨vs :: ps, s2, ?_, I2, E1.trans E2, by simp [L2], ?_, ?_⟩
    · simp only [buildLoop, e1, e2, Res.bind_ok]
    · intro v hv
      rcases List.mem_cons.1 hv with rfl | hv
      · exact L1
      · exact S2 v hv
    · intro j i' vs' hj hv
      cases j with
      | zero => simp at hj hv; subst hj hv; exact G1.mono E2
      | succ j => simp at hj hv; exact G2 j i' vs' hj hv

/-- **C102, points.** The points of a prism model with one mesh for all layers: to every prism belong the vertices of its
triangle on the level of its layer and on the next level; every vertex of the mesh that is used on a level has exactly one point, at its
place, and there are no other points. So prisms that touch have the points where they touch in common. -/
theorem c102_points (m : Mdl K) (t : Tmpl K) (M : Meshed m) (O : OneTemplate m t) :
    ∃ (prisms : List (List Nat)) (pts : List (P3 K)) (idx : Nat × Nat → Option Nat), build m = .ok (prisms, pts) ∧
      prisms.length = (sizes m).sum ∧
      (∀ (l e id : Nat) (L : Layer K) (tri : Fin 3 → Nat), m.layers[l]? = some L → L.elems[e]? = some id → t.tris[id]? = some tri →
        ∃ vs, prisms[((sizes m).take l).sum + e]? = some vs ∧
          vs.map some = [idx (l, tri 0), idx (l, tri 1), idx (l, tri 2), idx (l + 1, tri 0), idx (l + 1, tri 1), idx (l + 1, tri 2)]) ∧
      (∀ vs ∈ prisms, vs.length = 6 ∧ ∀ i ∈ vs, i < pts.length) ∧
      (∀ k i, idx k = some i → ∃ p, pts[i]? = some p ∧ place m t k = some p) ∧
      (∀ k k' i, idx k = some i → idx k' = some i → k = k') ∧
      ∀ i, i < pts.length → ∃ k, idx k = some i := by
  have ht0 : tmplAt m 0 = .ok t := by simp [tmplAt, O.1]
  have htot : totalPrisms (offs m) = (sizes m).sum := by
    have := offsets_total 0 (sizes m)
    rw [Nat.zero_add] at this
    exact this
  obtain ⟨ps, s, e, I, _, hl, h6, hG⟩ := buildLoop_ok M O (List.range (totalPrisms (offs m))) (s := ⟨[], []⟩)
    (fun i hi => by rw [← htot]; exact List.mem_range.1 hi)
    ⟨fun k i h => by simp [UMap.find?_nil] at h, fun k k' i h => by simp [UMap.find?_nil] at h, fun i h => by simp at h⟩
  rw [List.length_range, htot] at hl
  refine ⟨ps, s.pts, UMap.find? s.ids, ?_, hl, ?_, ?_, I.at_place, I.inj, I.all⟩
  · simp only [build, ht0, e, Res.bind_ok]
  · intro l e' id L tri hL he htri
    have hsz : (sizes m)[l]? = some L.elems.length := by unfold sizes; rw [List.getElem?_map, hL]; rfl
    obtain ⟨_, hlt, hloc⟩ := (c34_prisms (sizes m)).1 l e' _ hsz (List.getElem?_eq_some_iff.1 he).1
    have hv : ((sizes m).take l).sum + e' < ps.length := by omega
    refine ⟨ps[((sizes m).take l).sum + e'], List.getElem?_eq_getElem hv, ?_⟩
    exact hG (((sizes m).take l).sum + e') (((sizes m).take l).sum + e') _ (by rw [htot]; exact List.getElem?_range hlt)
      (List.getElem?_eq_getElem hv) l e' id L tri hloc hL he htri
  · intro vs hvs
    refine ⟨h6 vs hvs, ?_⟩
    obtain ⟨j, hj, hjv⟩ := List.getElem_of_mem hvs
    have hjs : j < (sizes m).sum := by omega
    obtain ⟨l, e', L, id, hloc, hL, he⟩ := localIndex_ok m hjs
    have ht := O.2 l (List.getElem?_eq_some_iff.1 hL).1
    obtain ⟨t', ht', h1, h2⟩ := M l L hL
    rw [ht] at ht'
    cases ht'
    obtain ⟨tri, htri⟩ : ∃ tri, t.tris[id]? = some tri := ⟨_, List.getElem?_eq_getElem (h1 id (List.mem_of_getElem? he))⟩
    have g := hG j j vs (by rw [htot]; exact List.getElem?_range hjs) (by rw [← hjv]; exact List.getElem?_eq_getElem hj)
      l e' id L tri hloc hL he htri
    intro i hi
    have hm : some i ∈ vs.map some := List.mem_map.2 ⟨i, hi, rfl⟩
    rw [g] at hm
    have hk : ∃ k, UMap.find? s.ids k = some i := by
      simp only [List.mem_cons, List.not_mem_nil, or_false] at hm
      rcases hm with h | h | h | h | h | h <;> exact ⟨_, h.symm⟩
    obtain ⟨k, hk⟩ := hk
    obtain ⟨p, hp, _⟩ := I.at_place k i hk
    exact (List.getElem?_eq_some_iff.1 hp).1

/-! ### lines -/

omit [Field K] in
theorem addLines_spec (segs : List (P3 K × P3 K)) : ∀ (pts : List (P3 K)),
    (∃ r, (addLines pts segs).1 = pts ++ r) ∧ (addLines pts segs).2.length = segs.length ∧
    (∀ e ∈ (addLines pts segs).2, e.1 < (addLines pts segs).1.length ∧ e.2 < (addLines pts segs).1.length) ∧
    ∀ (k : Nat) (a b : P3 K), segs[k]? = some (a, b) → ∃ i j, (addLines pts segs).2[k]? = some (i, j) ∧
      (addLines pts segs).1[i]? = some a ∧ (addLines pts segs).1[j]? = some b := by
  induction segs with
  | nil => intro pts; exact ⟨⟨[], by simp [addLines]⟩, rfl, by simp [addLines], by simp⟩
  | cons s segs ih =>
    intro pts
    obtain ⟨a, b⟩ := s
    obtain ⟨⟨r, h1⟩, h2, h3, h4⟩ := ih (pts ++ [a] ++ [b])
    simp only [addLines]
    have hr : (addLines (pts ++ [a] ++ [b]) segs).1 = pts ++ ([a, b] ++ r) := by rw [h1]; simp
    refine ⟨⟨_, hr⟩, by rw [List.length_cons, List.length_cons, h2], ?_, ?_⟩
    · intro e he
      rcases List.mem_cons.1 he with rfl | he
      · simp only [hr, List.length_append, List.length_cons]; omega
      · exact h3 e he
    · intro k a' b' hk
      cases k with
      | zero =>
        simp at hk
        obtain ⟨rfl, rfl⟩ := hk
        refine ⟨pts.length, pts.length + 1, rfl, ?_, ?_⟩
        · rw [hr, List.getElem?_append_right (le_refl _), Nat.sub_self]; rfl
        · rw [hr, List.getElem?_append_right (by omega), Nat.add_sub_cancel_left]; rfl
      | succ k =>
        simp at hk
        obtain ⟨i, j, h5, h6, h7⟩ := h4 k a' b' hk
        exact ⟨i, j, by simpa using h5, h6, h7⟩

/-- from points and vertices to the file -/
theorem describes (m : Mdl K) (prisms : List (List Nat)) (pts : List (P3 K)) (hl : prisms.length = (sizes m).sum)
    (h6 : ∀ vs ∈ prisms, vs.length = 6 ∧ ∀ i ∈ vs, i < pts.length)
    (hpr : ∀ (l e id : Nat) (L : Layer K) (t : Tmpl K) (tri : Fin 3 → Nat), m.layers[l]? = some L → L.elems[e]? = some id →
      UMap.find? m.tmpls l = some t → t.tris[id]? = some tri →
      ∃ vs, prisms[((sizes m).take l).sum + e]? = some vs ∧ (vs.map fun i => pts[i]?) = corners t m.scale L tri)
    (segs : List (P3 K × P3 K)) (temps : Option (List K)) (rgb : Nat → P3 K) :
    ∃ file g, write (totalPrisms (offs m)) prisms (addLines pts segs).1 (addLines pts segs).2 temps rgb = .ok file ∧
      readVtk file = some g ∧ Describes m segs temps g := by
  have htot : totalPrisms (offs m) = (sizes m).sum := by
    have := offsets_total 0 (sizes m)
    rw [Nat.zero_add] at this
    exact this
  obtain ⟨⟨r, h1⟩, h2, h3, h4⟩ := addLines_spec segs pts
  have hlt : ∀ i, i < pts.length → i < (addLines pts segs).1.length := by
    intro i hi; rw [h1, List.length_append]; omega
  obtain ⟨file, hw, hr⟩ := read_write (totalPrisms (offs m)) prisms (addLines pts segs).1 (addLines pts segs).2 temps rgb
    (by rw [hl, htot]) (fun vs hvs => ⟨(h6 vs hvs).1, fun i hi => hlt i ((h6 vs hvs).2 i hi)⟩) h3
  refine ⟨file, _, hw, hr, ⟨?_, ?_, ?_, ?_⟩⟩
  · simp [hl, h2]
  · intro l e id L t tri hL he ht htri
    obtain ⟨vs, hv, hc⟩ := hpr l e id L t tri hL he ht htri
    have hvlt := (List.getElem?_eq_some_iff.1 hv).1
    refine ⟨vs, ?_, ?_⟩
    · simp only
      rw [List.getElem?_append_left (by rw [List.length_map]; exact hvlt), List.getElem?_map, hv]
      rfl
    · rw [← hc]
      apply List.map_congr_left
      intro i hi
      simp only [h1]
      rw [List.getElem?_append_left ((h6 vs (List.mem_of_getElem? hv)).2 i hi)]
  · intro k a b hk
    obtain ⟨i, j, h5, h6', h7⟩ := h4 k a b hk
    refine ⟨[i, j], ?_, by simp [h6', h7]⟩
    simp only
    rw [List.getElem?_append_right (by rw [List.length_map]; omega), List.length_map, hl, Nat.add_sub_cancel_left,
      List.getElem?_map, h5]
    rfl
  · simp only [htot, h2]

omit [Field K] in
theorem map_some_pts {vs : List Nat} {pts : List (P3 K)} {os : List (Option Nat)} (h : vs.map some = os) :
    (vs.map fun i => pts[i]?) = os.map fun o => o.bind fun i => pts[i]? := by
  rw [← h, List.map_map]
  rfl

/-- **C102.** The VTK file of a prism model whose layers have one mesh and lie upon each other: a reader finds the prisms and wires
of the model at their places, in the order of their numbers, and the temperature of each if there are as many as elements. -/
theorem c102_prism (m : Mdl K) (t : Tmpl K) (M : Meshed m) (O : OneTemplate m t) (C : Contiguous m.layers)
    (segs : List (P3 K × P3 K)) (temps : Option (List K)) (rgb : Nat → P3 K) :
    ∃ prisms pts file g, build m = .ok (prisms, pts) ∧
      write (totalPrisms (offs m)) prisms (addLines pts segs).1 (addLines pts segs).2 temps rgb = .ok file ∧
      readVtk file = some g ∧ Describes m segs temps g := by
  obtain ⟨prisms, pts, idx, hb, hl, hv, h6, hp, _, _⟩ := c102_points m t M O
  obtain ⟨file, g, hw, hr, hd⟩ := describes m prisms pts hl h6 (by
    intro l e id L t' tri hL he ht' htri
    have hlt := (List.getElem?_eq_some_iff.1 hL).1
    have ht := O.2 l hlt
    rw [ht] at ht'
    cases ht'
    obtain ⟨vs, h1, h2⟩ := hv l e id L tri hL he htri
    refine ⟨vs, h1, ?_⟩
    rw [map_some_pts h2]
    have hmem : ∀ k, idx k ∈ vs.map some → (idx k).bind (fun i => pts[i]?) = place m t k := by
      intro k hk
      obtain ⟨i, _, hi⟩ := List.mem_map.1 hk
      obtain ⟨p, h3, h4⟩ := hp k i hi.symm
      rw [← hi, h4]
      exact h3
    rw [h2] at hmem
    have hlev : level m.layers (l + 1) = some (L.elev - L.thick) := by
      unfold level
      cases hn : m.layers[l + 1]? with
      | some L' => simp only; rw [C l L L' hL hn]
      | none =>
        simp only
        have : l + 1 = m.layers.length := by have := List.getElem?_eq_none_iff.1 hn; omega
        rw [List.getLast?_eq_getElem?, ← this, Nat.add_sub_cancel, hL]
        rfl
    have hlev0 : level m.layers l = some L.elev := by simp [level, hL]
    have htop : ∀ v, place m t (l, tri v) = (t.pts[tri v]?).map fun p => (p.1 * m.scale, p.2 * m.scale, L.elev) := by
      intro v; unfold place; simp only [hlev0]; cases t.pts[tri v]? <;> rfl
    have hbot : ∀ v, place m t (l + 1, tri v) = (t.pts[tri v]?).map fun p => (p.1 * m.scale, p.2 * m.scale, L.elev - L.thick) := by
      intro v; unfold place; simp only [hlev]; cases t.pts[tri v]? <;> rfl
    simp only [List.map_cons, List.map_nil]
    rw [hmem (l, tri 0) (by simp), hmem (l, tri 1) (by simp), hmem (l, tri 2) (by simp), hmem (l + 1, tri 0) (by simp),
      hmem (l + 1, tri 1) (by simp), hmem (l + 1, tri 2) (by simp), htop, htop, htop, hbot, hbot, hbot]
    rfl) segs temps rgb
  exact ⟨prisms, pts, file, g, hb, hw, hr, hd⟩

/-! ### stackup prism models -/

theorem stackPrism_ok {m : Mdl K} (M : Meshed m) {i : Nat} (hi : i < (sizes m).sum) :
    ∃ ps, stackPrism m i = .ok ((List.range 6).map (fun v => 6 * i + v), ps) ∧ ps.length = 6 ∧
      ∀ (l e : Nat), localIndex (offs m) i = .ok (l, e) → ∀ v, v < 6 → ∃ p, getPoint m l e v = .ok p ∧ ps[v]? = some p := by
  obtain ⟨l, e, L, id, hloc, hL, he⟩ := localIndex_ok m hi
  obtain ⟨t, ht, h1, h2⟩ := M l L hL
  obtain ⟨tri, htri⟩ : ∃ tri, t.tris[id]? = some tri := ⟨_, List.getElem?_eq_getElem (h1 id (List.mem_of_getElem? he))⟩
  have hp := h2 tri (List.mem_of_getElem? htri)
  have hall : ∀ v, ∃ p, v < 6 → getPoint m l e v = .ok p := by
    intro v
    by_cases hv : v < 3
    · obtain ⟨p, hp, _⟩ := getPoint_top ht hL he htri hp ⟨v, hv⟩
      exact ⟨p, fun _ => hp⟩
    · by_cases hv6 : v < 6
      · obtain ⟨p, hp, _⟩ := getPoint_bot ht hL he htri hp ⟨v - 3, by omega⟩
        refine ⟨p, fun _ => ?_⟩
        simp only at hp
        rwa [Nat.sub_add_cancel (by omega)] at hp
      · exact ⟨(0, 0, 0), fun h => absurd h hv6⟩
  choose f hf using hall
  refine ⟨(List.range 6).map f, ?_, by simp, ?_⟩
  · simp only [stackPrism, hloc, Res.bind_ok]
    rw [mapRes_ok _ _ f (fun v hv => hf v (List.mem_range.1 hv))]
    rfl
  · intro l' e' hl' v hv
    rw [hloc] at hl'
    cases hl'
    exact ⟨f v, hf v hv, by rw [List.getElem?_map, List.getElem?_range hv]; rfl⟩

omit [Field K] in
theorem flatten_six {l : List (List (P3 K))} (h : ∀ a ∈ l, a.length = 6) : l.flatten.length = 6 * l.length ∧
    ∀ (i v : Nat) (a : List (P3 K)), l[i]? = some a → v < 6 → l.flatten[6 * i + v]? = a[v]? := by
  induction l with
  | nil => simp
  | cons b l ih =>
    have hb := h b (by simp)
    obtain ⟨h1, h2⟩ := ih fun a ha => h a (List.mem_cons_of_mem _ ha)
    refine ⟨by simp only [List.flatten_cons, List.length_append, List.length_cons]; omega, ?_⟩
    intro i v a hi hv
    rw [List.flatten_cons]
    cases i with
    | zero =>
      simp at hi
      subst hi
      rw [Nat.mul_zero, Nat.zero_add, List.getElem?_append_left (by omega)]
    | succ i =>
      simp at hi
      rw [List.getElem?_append_right (by omega), hb]
      have : 6 * (i + 1) + v - 6 = 6 * i + v := by omega
      rw [this]
      exact h2 i v a hi hv

/-- **C102, stackup prism models.** The same for models in which every layer has a mesh of its own. -/
theorem c102_stackup (m : Mdl K) (M : Meshed m) (C : Contiguous m.layers)
    (segs : List (P3 K × P3 K)) (temps : Option (List K)) (rgb : Nat → P3 K) :
    ∃ prisms pts file g, stackBuild m = .ok (prisms, pts) ∧
      write (totalPrisms (offs m)) prisms (addLines pts segs).1 (addLines pts segs).2 temps rgb = .ok file ∧
      readVtk file = some g ∧ Describes m segs temps g := by
  have htot : totalPrisms (offs m) = (sizes m).sum := by
    have := offsets_total 0 (sizes m)
    rw [Nat.zero_add] at this
    exact this
  have hall : ∀ i, ∃ ps : List (P3 K), i < (sizes m).sum → stackPrism m i = .ok ((List.range 6).map (fun v => 6 * i + v), ps) ∧ ps.length = 6 ∧
      ∀ (l e : Nat), localIndex (offs m) i = .ok (l, e) → ∀ v, v < 6 → ∃ p, getPoint m l e v = .ok p ∧ ps[v]? = some p := by
    intro i
    by_cases hi : i < (sizes m).sum
    · obtain ⟨ps, h⟩ := stackPrism_ok M hi
      exact ⟨ps, fun _ => h⟩
    · exact ⟨[], fun h => absurd h hi⟩
  choose f hf using hall
  let N := (sizes m).sum
  have hb : stackBuild m = .ok ((List.range N).map (fun i => (List.range 6).map fun v => 6 * i + v), ((List.range N).map f).flatten) := by
    rw [stackBuild, htot, mapRes_ok _ _ (fun i => ((List.range 6).map (fun v => 6 * i + v), f i))
      (fun i hi => (hf i (List.mem_range.1 hi)).1), Res.bind_ok]
    congr 2
    · rw [List.map_map]; rfl
    · rw [List.flatMap_map, List.flatMap_def]
  have h6 : ∀ a ∈ (List.range N).map f, a.length = 6 := by
    intro a ha
    obtain ⟨i, hi, rfl⟩ := List.mem_map.1 ha
    exact (hf i (List.mem_range.1 hi)).2.1
  obtain ⟨hlen, hget⟩ := flatten_six h6
  rw [List.length_map, List.length_range] at hlen
  obtain ⟨file, g, hw, hr, hd⟩ := describes m ((List.range N).map fun i => (List.range 6).map fun v => 6 * i + v)
    ((List.range N).map f).flatten (by simp [N]) (by
      intro vs hvs
      obtain ⟨i, hi, rfl⟩ := List.mem_map.1 hvs
      refine ⟨by simp, ?_⟩
      intro k hk
      obtain ⟨v, hv, rfl⟩ := List.mem_map.1 hk
      have := List.mem_range.1 hi
      have := List.mem_range.1 hv
      rw [hlen]; omega) (by
    intro l e id L t tri hL he ht htri
    have hsz : (sizes m)[l]? = some L.elems.length := by unfold sizes; rw [List.getElem?_map, hL]; rfl
    obtain ⟨_, hlt, hloc⟩ := (c34_prisms (sizes m)).1 l e _ hsz (List.getElem?_eq_some_iff.1 he).1
    obtain ⟨i, hi⟩ : ∃ i, i = ((sizes m).take l).sum + e := ⟨_, rfl⟩
    rw [← hi] at hloc hlt ⊢
    refine ⟨(List.range 6).map fun v => 6 * i + v, by rw [List.getElem?_map, List.getElem?_range hlt]; rfl, ?_⟩
    obtain ⟨t', ht', _, h2⟩ := M l L hL
    rw [ht] at ht'
    cases ht'
    have hp := h2 tri (List.mem_of_getElem? htri)
    have hpt : ∀ v, v < 6 → ∃ p, getPoint m l e v = .ok p ∧ ((List.range N).map f).flatten[6 * i + v]? = some p := by
      intro v hv
      obtain ⟨p, h3, h4⟩ := (hf i hlt).2.2 l e hloc v hv
      refine ⟨p, h3, ?_⟩
      rw [hget i v (f i) (by rw [List.getElem?_map, List.getElem?_range hlt]; rfl) hv]
      exact h4
    have htop : ∀ v : Fin 3, ((List.range N).map f).flatten[6 * i + (v : Nat)]? =
        (t.pts[tri v]?).map fun p => (p.1 * m.scale, p.2 * m.scale, L.elev) := by
      intro v
      obtain ⟨p, h3, h4⟩ := hpt v (by omega)
      obtain ⟨q, h5, h6⟩ := getPoint_eq ht hL he htri hp v L.elev (height_top m l L v)
      rw [h3] at h6
      cases h6
      rw [ofNat_val] at h5
      rw [h4, h5]
      rfl
    have hlev : level m.layers (l + 1) = some (L.elev - L.thick) := by
      unfold level
      cases hn : m.layers[l + 1]? with
      | some L' => simp only; rw [C l L L' hL hn]
      | none =>
        simp only
        have hlt := (List.getElem?_eq_some_iff.1 hL).1
        have : l + 1 = m.layers.length := by have := List.getElem?_eq_none_iff.1 hn; omega
        rw [List.getLast?_eq_getElem?, ← this, Nat.add_sub_cancel, hL]
        rfl
    have hbot : ∀ v : Fin 3, ((List.range N).map f).flatten[6 * i + ((v : Nat) + 3)]? =
        (t.pts[tri v]?).map fun p => (p.1 * m.scale, p.2 * m.scale, L.elev - L.thick) := by
      intro v
      obtain ⟨p, h3, h4⟩ := hpt (v + 3) (by omega)
      obtain ⟨h, hh, hl'⟩ := height_bot m l L v hL
      rw [hlev] at hl'
      cases hl'
      obtain ⟨q, h5, h6⟩ := getPoint_eq ht hL he htri hp (v + 3) _ hh
      rw [h3] at h6
      cases h6
      rw [ofNat_add] at h5
      rw [h4, h5]
      rfl
    have e0 := htop 0
    have e1 := htop 1
    have e2 := htop 2
    have e3 := hbot 0
    have e4 := hbot 1
    have e5 := hbot 2
    simp only [List.map_map, corners, List.map_cons, List.map_nil, List.cons_append, List.nil_append]
    rw [← e0, ← e1, ← e2, ← e3, ← e4, ← e5]
    rfl) segs temps rgb
  exact ⟨_, _, file, g, hb, hw, hr, hd⟩

/-- **C102, layers.** The layers of a layer cut model, with elevation and thickness as it gives them, lie upon each other. -/
theorem c102_layers (c : Geom.Cut) (scale : ℚ) (layers : List (Layer ℚ))
    (h : ∀ (l : Nat) (L : Layer ℚ), layers[l]? = some L → c.heightThickness scale l = some (L.elev, L.thick)) : Contiguous layers := by
  intro l L L' hL hL'
  have h1 := h l L hL
  have h2 := h (l + 1) L' hL'
  unfold Geom.Cut.heightThickness at h1 h2
  cases ha : c.order[l]? with
  | none => simp [ha] at h1
  | some a =>
    cases hb : c.order[l + 1]? with
    | none => simp [ha, hb] at h1
    | some b =>
      cases hc : c.order[l + 1 + 1]? with
      | none => simp [hb, hc] at h2
      | some d =>
        simp only [ha, hb, Option.some.injEq, Prod.mk.injEq] at h1
        simp only [hb, hc, Option.some.injEq, Prod.mk.injEq] at h2
        rw [← h2.1, ← h1.1, ← h1.2]
        ring

/-- C102: the mesh of a layer is the one set for it first; setting the mesh of one layer does not change that of others. -/
theorem c102_templates (m : Mdl K) (l k : Nat) (t : Tmpl K) :
    (tmplAt m l = .exn → tmplAt (setTmpl m l t) l = .ok t) ∧ (k ≠ l ∨ tmplAt m l ≠ .exn → tmplAt (setTmpl m l t) k = tmplAt m k) := by
  unfold tmplAt setTmpl
  simp only [UMap.find?_emplace']
  cases UMap.find? m.tmpls l <;> by_cases hk : k = l <;> simp [hk]

/-! ### example -/

/-- two triangles that share an edge -/
def exT : Tmpl ℚ := ⟨[(0, 0), (2, 0), (0, 2), (2, 2)], [fun v => [0, 1, 2].getD v 0, fun v => [1, 3, 2].getD v 0]⟩

/-- two layers upon each other, the upper with both triangles, the lower with the second only -/
def exM : Mdl ℚ := ⟨[(0, exT), (1, exT)], [⟨5, 2, [0, 1]⟩, ⟨3, 1, [1]⟩], 10⟩

example : Meshed exM ∧ OneTemplate exM exT ∧ Contiguous exM.layers := by
  refine ⟨?_, ⟨rfl, ?_⟩, ?_⟩
  · intro l L hL
    match l with
    | 0 => simp [exM] at hL; subst hL; exact ⟨exT, rfl, by decide, by decide⟩
    | 1 => simp [exM] at hL; subst hL; exact ⟨exT, rfl, by decide, by decide⟩
    | l + 2 => simp [exM] at hL
  · intro l hl
    match l with
    | 0 => rfl
    | 1 => rfl
    | l + 2 => simp [exM] at hl
  · intro l L L' h h'
    match l with
    | 0 => simp [exM] at h h'; subst h h'; norm_num
    | l + 1 => simp [exM] at h'

/-- three prisms of eleven points: the lower prism shares three with the upper ones -/
example : ∃ pts, build exM = .ok ([[0, 2, 4, 1, 3, 5], [2, 6, 4, 3, 7, 5], [3, 7, 5, 8, 9, 10]], pts) ∧ pts.length = 11 :=
  ⟨_, rfl, rfl⟩

end Ecad.Vtk
