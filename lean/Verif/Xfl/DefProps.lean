import Verif.Xfl.LayerProps
import Verif.Shape.PadInst
import Verif.Layer.MapLemmas
/-!
Padstack definitions of imported XFL files (C89).
-/
namespace Ecad.Xfl
open Shp (Aff Shape Box)

variable {K : Type} [Field K] [LinearOrder K]
variable (tmpl : List (Int × Shape K)) (metal : List (Int × Int)) (mats : List (String × String)) (pstks : List (Int × XPadstack))

/-! ### specification -/

/-- parameters of a shape from a template: at the origin, turned -/
def templPar (s : Shape K) (rot : Int) : Pad.Par (Shape K) := ⟨some (.templ ⟨1, 0, 0, 1, 0, 0⟩ s), (0, 0), rot⟩

/-- a via the import takes: its padstack, shape and material exist -/
def Taken (v : XVia) (ps : XPadstack) (ts : Shape K) : Prop :=
  UMap.find? pstks v.padstackId = some ps ∧ UMap.find? tmpl v.shapeId = some ts ∧
    (v.material = "" ∨ UMap.count mats v.material = true)

/-- what the definition of a via must be: its material, its shape, and one pad per pad of the padstack, with the
shape and rotation given (nothing if there is no such shape) -/
def IsDef (v : XVia) (ps : XPadstack) (ts : Shape K) (d : Pad.Data (Shape K)) : Prop :=
  d.material = (if v.material = "" then "" else (UMap.find? mats v.material).getD "") ∧
  d.via = templPar ts v.shapeRot ∧
  d.pads.length = ps.pads.length ∧
  ∀ (j : Nat) (p : XPad), ps.pads[j]? = some p → Pad.getPad d (j : Int) = .ok (some (match UMap.find? tmpl p.shapeId with
    | some s => templPar s p.rot
    | none => ⟨none, (0, 0), 0⟩))

/-- what the layer map must be: pad `j` belongs to the layer its number means, and nothing else is mapped but the
two layers every map has -/
def IsMap (ps : XPadstack) (m : LayerMap.BiMap) : Prop :=
  (∀ (j : Nat) (p : XPad) (s : Shape K) (l : Int), ps.pads[j]? = some p → UMap.find? tmpl p.shapeId = some s →
    UMap.find? metal p.sigLyr = some l → LayerMap.forward m (j : Int) = l ∧ LayerMap.backward m l = j) ∧
  ∀ a b, (a, b) ∈ m → (a, b) ∈ LayerMap.new ∨
    ∃ (j : Nat) (p : XPad), a = j ∧ ps.pads[j]? = some p ∧ UMap.find? metal p.sigLyr = some b

/-- layers of the layout have ids from 0 on, and different metal layers of the file have different ones (C85) -/
def MetalOk : Prop :=
  (∀ k l, UMap.find? metal k = some l → 0 ≤ l) ∧ ∀ k k' l, UMap.find? metal k = some l → UMap.find? metal k' = some l → k = k'

omit [LinearOrder K] in
/-- the ids of metal layers that the import makes are as required -/
theorem metalOk_import (mats : List (String × String)) (scale : K) (xs : List (XLayer K)) :
    MetalOk (importLayers mats scale xs).metalMap := by
  constructor
  · intro k l h
    obtain ⟨i, x, h1, _⟩ := (c85_metal mats scale xs k l).1.1 h
    omega
  · intro k k' l h h'
    obtain ⟨i, x, h1, _, _, h4⟩ := (c85_metal mats scale xs k l).1.1 h
    obtain ⟨i', x', h1', _, _, h4'⟩ := (c85_metal mats scale xs k' l).1.1 h'
    have : i = i' := by omega
    rw [h4, h4', this]

/-! ### the loop over the pads -/

/-- the pairs put into the layer map -/
def entries (i : Nat) : List XPad → List (Int × Int)
  | [] => []
  | p :: ps =>
    (match UMap.find? tmpl p.shapeId, UMap.find? metal p.sigLyr with
      | some _, some l => [((i : Int), l)]
      | _, _ => []) ++ entries (i + 1) ps

theorem padLoop_spec (d : Pad.Data (Shape K)) (m : LayerMap.BiMap) (i : Nat) (ps : List XPad) (h : i + ps.length ≤ d.pads.length) :
    ∃ d', padLoop tmpl metal d (some m) i ps =
        .ok (d', some ((entries tmpl metal i ps).foldl (fun m e => LayerMap.insert m e.1 e.2) m)) ∧
      d'.material = d.material ∧ d'.via = d.via ∧ d'.pads.length = d.pads.length ∧
      (∀ k : Nat, k < i → d'.pads[k]? = d.pads[k]?) ∧
      ∀ (j : Nat) (p : XPad), ps[j]? = some p → ∀ q, d.pads[i + j]? = some q →
        ∃ q', d'.pads[i + j]? = some q' ∧ q'.par = match UMap.find? tmpl p.shapeId with
          | some s => templPar s p.rot
          | none => q.par := by
  induction ps generalizing d m i with
  | nil => exact ⟨d, rfl, rfl, rfl, rfl, fun _ _ => rfl, fun j p hp => absurd hp (by simp)⟩
  | cons x ps ih =>
    simp only [List.length_cons] at h
    cases ht : UMap.find? tmpl x.shapeId with
    | none =>
      obtain ⟨d', e1, e2, e3, e4, e5, e6⟩ := ih d m (i + 1) (by omega)
      refine ⟨d', ?_, e2, e3, e4, fun k hk => e5 k (by omega), ?_⟩
      · simp only [padLoop, ht, entries, List.nil_append]
        exact e1
      · intro j p hp q hq
        cases j with
        | zero =>
          simp only [List.getElem?_cons_zero, Option.some.injEq] at hp
          subst hp
          refine ⟨q, ?_, by rw [ht]⟩
          rw [e5 _ (by omega)]; exact hq
        | succ j =>
          have ha : i + (j + 1) = i + 1 + j := by omega
          rw [ha] at hq ⊢
          exact e6 j p (by simpa using hp) q hq
    | some s =>
      obtain ⟨q0, hq0⟩ : ∃ q, d.pads[i]? = some q := ⟨_, List.getElem?_eq_getElem (by omega)⟩
      have hset := Pad.setPad_in d i q0 (templPar s x.rot) hq0
      have hset' : Pad.setPad d (i : Int) ⟨some (.templ Aff.one s), (0, 0), x.rot⟩ =
          .ok (true, { d with pads := d.pads.set i ⟨q0.lyr, templPar s x.rot⟩ }) := hset
      set d1 : Pad.Data (Shape K) := { d with pads := d.pads.set i ⟨q0.lyr, templPar s x.rot⟩ } with hd1
      have hl1 : d1.pads.length = d.pads.length := by simp [hd1]
      have hpads : ∀ k : Nat, k ≠ i → d1.pads[k]? = d.pads[k]? := by
        intro k hk
        simp only [hd1]
        rw [List.getElem?_set_ne (by omega)]
      have hpi : d1.pads[i]? = some ⟨q0.lyr, templPar s x.rot⟩ := by
        simp only [hd1]
        rw [List.getElem?_set_self (by omega)]
      cases hm : UMap.find? metal x.sigLyr with
      | none =>
        obtain ⟨d', e1, e2, e3, e4, e5, e6⟩ := ih d1 m (i + 1) (by omega)
        refine ⟨d', ?_, e2, e3, e4.trans hl1, ?_, ?_⟩
        · simp only [padLoop, ht, hset', Res.bind_ok, hm, entries, List.nil_append]
          exact e1
        · intro k hk
          rw [e5 k (by omega), hpads k (by omega)]
        · intro j p hp q hq
          cases j with
          | zero =>
            simp only [List.getElem?_cons_zero, Option.some.injEq] at hp
            subst hp
            refine ⟨⟨q0.lyr, templPar s x.rot⟩, ?_, ?_⟩
            · rw [e5 _ (by omega)]; exact hpi
            · rw [ht]
          | succ j =>
            have ha : i + (j + 1) = i + 1 + j := by omega
            rw [ha] at hq ⊢
            exact e6 j p (by simpa using hp) q (by rw [hpads _ (by omega)]; exact hq)
      | some l =>
        obtain ⟨d', e1, e2, e3, e4, e5, e6⟩ := ih d1 (LayerMap.setMapping m (i : Int) l) (i + 1) (by omega)
        refine ⟨d', ?_, e2, e3, e4.trans hl1, ?_, ?_⟩
        · simp only [padLoop, ht, hset', Res.bind_ok, hm, entries, List.cons_append, List.nil_append, List.foldl_cons]
          exact e1
        · intro k hk
          rw [e5 k (by omega), hpads k (by omega)]
        · intro j p hp q hq
          cases j with
          | zero =>
            simp only [List.getElem?_cons_zero, Option.some.injEq] at hp
            subst hp
            refine ⟨⟨q0.lyr, templPar s x.rot⟩, ?_, ?_⟩
            · rw [e5 _ (by omega)]; exact hpi
            · rw [ht]
          | succ j =>
            have ha : i + (j + 1) = i + 1 + j := by omega
            rw [ha] at hq ⊢
            exact e6 j p (by simpa using hp) q (by rw [hpads _ (by omega)]; exact hq)

/-! ### the layer map -/

theorem mem_entries (i : Nat) (ps : List XPad) (a b : Int) :
    (a, b) ∈ entries tmpl metal i ps ↔ ∃ (j : Nat) (p : XPad) (s : Shape K), a = ((i + j : Nat) : Int) ∧ ps[j]? = some p ∧
      UMap.find? tmpl p.shapeId = some s ∧ UMap.find? metal p.sigLyr = some b := by
  induction ps generalizing i with
  | nil => simp [entries]
  | cons x ps ih =>
    rw [entries, List.mem_append, ih]
    constructor
    · rintro (h | ⟨j, p, s, h1, h2, h3, h4⟩)
      · split at h
        · next s l ht hm =>
          simp only [List.mem_singleton, Prod.mk.injEq] at h
          exact ⟨0, x, s, by simpa using h.1, rfl, ht, by rw [hm, h.2]⟩
        · exact absurd h (by simp)
      · exact ⟨j + 1, p, s, by rw [h1]; push_cast; ring, by simpa using h2, h3, h4⟩
    · rintro ⟨j, p, s, h1, h2, h3, h4⟩
      cases j with
      | zero =>
        simp only [List.getElem?_cons_zero, Option.some.injEq] at h2
        subst h2
        left
        rw [h3, h4]
        simp [h1]
      | succ j => exact .inr ⟨j, p, s, by rw [h1]; push_cast; ring, by simpa using h2, h3, h4⟩

omit [Field K] [LinearOrder K] in
/-- insertions of entries that agree with nothing else all succeed -/
theorem insAll_free (es : List (Int × Int)) (m : LayerMap.BiMap) (hinv : LayerMap.Inv m)
    (h1 : es.Pairwise fun x y => x.1 ≠ y.1 ∧ x.2 ≠ y.2) (h2 : ∀ e ∈ es, ∀ x ∈ m, x.1 ≠ e.1 ∧ x.2 ≠ e.2) :
    LayerMap.Inv (es.foldl (fun m e => LayerMap.insert m e.1 e.2) m) ∧
    ∀ x, x ∈ es.foldl (fun m e => LayerMap.insert m e.1 e.2) m ↔ x ∈ m ∨ x ∈ es := by
  induction es generalizing m with
  | nil => exact ⟨hinv, by simp⟩
  | cons e es ih =>
    have hfree : ∀ x ∈ m, x.1 ≠ e.1 ∧ x.2 ≠ e.2 := h2 e List.mem_cons_self
    have hmem : ∀ x, x ∈ LayerMap.insert m e.1 e.2 ↔ x ∈ m ∨ x = e := by
      intro x
      rw [LayerMap.insert_of_free hfree, LayerMap.mem_insertSorted]
      exact or_comm
    rw [List.pairwise_cons] at h1
    obtain ⟨g1, g2⟩ := ih (LayerMap.insert m e.1 e.2) (LayerMap.inv_insert hinv _ _) h1.2 (by
      intro f hf x hx
      rcases (hmem x).1 hx with hx | rfl
      · exact h2 f (List.mem_cons_of_mem _ hf) x hx
      · exact h1.1 f hf)
    refine ⟨g1, fun x => ?_⟩
    rw [List.foldl_cons, g2, hmem, List.mem_cons]
    tauto

theorem entries_pairwise (i : Nat) (ps : List XPad) (hm : MetalOk metal) (hn : (ps.map XPad.sigLyr).Nodup) :
    (entries tmpl metal i ps).Pairwise fun x y => x.1 ≠ y.1 ∧ x.2 ≠ y.2 := by
  induction ps generalizing i with
  | nil => exact .nil
  | cons x ps ih =>
    simp only [List.map_cons, List.nodup_cons] at hn
    rw [entries]
    split
    · next s l ht hl =>
      rw [List.singleton_append, List.pairwise_cons]
      refine ⟨?_, ih (i + 1) hn.2⟩
      rintro ⟨a, b⟩ hab
      obtain ⟨j, p, s', h1, h2, h3, h4⟩ := (mem_entries tmpl metal (i + 1) ps a b).1 hab
      refine ⟨by simp only; omega, ?_⟩
      rintro rfl
      have := hm.2 _ _ _ hl h4
      apply hn.1
      rw [this]
      exact List.mem_map_of_mem (List.mem_of_getElem? h2)
    · exact ih (i + 1) hn.2

theorem map_spec (ps : XPadstack) (hm : MetalOk metal) (hn : (ps.pads.map XPad.sigLyr).Nodup) :
    IsMap tmpl metal ps ((entries tmpl metal 0 ps.pads).foldl (fun m e => LayerMap.insert m e.1 e.2) LayerMap.new) := by
  have hnew : ∀ x ∈ LayerMap.new, x.1 < 0 ∧ x.2 < 0 := by decide
  obtain ⟨h1, h2⟩ := insAll_free (entries tmpl metal 0 ps.pads) LayerMap.new LayerMap.inv_new
    (entries_pairwise tmpl metal 0 ps.pads hm hn) (by
      rintro ⟨a, b⟩ hab x hx
      obtain ⟨j, p, s, g1, g2, g3, g4⟩ := (mem_entries tmpl metal 0 ps.pads a b).1 hab
      have := hnew x hx
      have := hm.1 _ _ g4
      simp only
      omega)
  refine ⟨?_, ?_⟩
  · intro j p s l hp hs hl
    have hmem : ((j : Int), l) ∈ (entries tmpl metal 0 ps.pads).foldl (fun m e => LayerMap.insert m e.1 e.2) LayerMap.new :=
      (h2 _).2 (.inr ((mem_entries tmpl metal 0 ps.pads _ _).2 ⟨j, p, s, by simp, hp, hs, hl⟩))
    exact ⟨LayerMap.forward_of_mem h1 hmem, LayerMap.backward_of_mem h1 hmem⟩
  · intro a b hab
    rcases (h2 _).1 hab with h | h
    · exact .inl h
    · obtain ⟨j, p, s, g1, g2, g3, g4⟩ := (mem_entries tmpl metal 0 ps.pads a b).1 h
      exact .inr ⟨j, p, by simpa using g1, g2, g4⟩

/-! ### one via -/

/-- C89, one via: a via that is taken and whose name is new yields a layer map and a definition as they must be. -/
theorem viaStep_new (db : PDb K) (v : XVia) (ps : XPadstack) (ts : Shape K) (ht : Taken tmpl mats pstks v ps ts)
    (h1 : UMap.count db.maps v.name = false) (h2 : UMap.count db.defs v.name = false) :
    ∃ d m, viaStep tmpl metal mats pstks db v = .ok ⟨db.maps ++ [(v.name, m)], db.defs ++ [(v.name, d)]⟩ ∧
      IsDef tmpl mats v ps ts d ∧
      (MetalOk metal → (ps.pads.map XPad.sigLyr).Nodup → IsMap tmpl metal ps m) := by
  obtain ⟨t1, t2, t3⟩ := ht
  have hc : ¬ (v.material ≠ "" ∧ UMap.count mats v.material = false) := by
    rintro ⟨a, b⟩
    rcases t3 with h | h
    · exact a h
    · rw [b] at h; exact absurd h (by simp)
  set d0 : Pad.Data (Shape K) := Pad.Data.init with hd0
  set dm : Pad.Data (Shape K) := if v.material ≠ "" then { d0 with material := (UMap.find? mats v.material).getD "" } else d0 with hdm
  set dv := Pad.setVia dm ⟨some (.templ Aff.one ts), (0, 0), v.shapeRot⟩ with hdv
  set names := (List.range ps.pads.length).map (fun i => "layer_" ++ toString (i + 1)) with hnames
  set dl := Pad.setLayers dv names with hdl
  have hlen : dl.pads.length = ps.pads.length := by simp [hdl, Pad.setLayers, hnames]
  obtain ⟨d', e1, e2, e3, e4, -, e6⟩ := padLoop_spec tmpl metal dl LayerMap.new 0 ps.pads (by omega)
  refine ⟨d', (entries tmpl metal 0 ps.pads).foldl (fun m e => LayerMap.insert m e.1 e.2) LayerMap.new, ?_, ⟨?_, ?_, ?_, ?_⟩,
    map_spec tmpl metal ps⟩
  · simp only [viaStep, t1, t2, if_neg hc, h1, h2, Bool.not_false, if_true]
    rw [← hdm, ← hdv, ← hnames, ← hdl, e1]
    simp
  · rw [e2]
    show dm.material = _
    rw [hdm]
    by_cases hmt : v.material = ""
    · simp [hmt, hd0, Pad.Data.init]
    · simp [hmt]
  · rw [e3]; rfl
  · rw [e4, hlen]
  · intro j p hp
    have hj : j < ps.pads.length := (List.getElem?_eq_some_iff.1 hp).1
    have hpads : dv.pads = [] := by
      show dm.pads = []
      rw [hdm]; split <;> rfl
    obtain ⟨q, hq⟩ : ∃ q, dl.pads[0 + j]? = some q := ⟨_, List.getElem?_eq_getElem (by omega)⟩
    have hqp : q.par = ⟨none, (0, 0), 0⟩ := by
      have : dl.pads[j]? = some ⟨names[j]'(by simp [hnames]; exact hj), Pad.Par.init⟩ := by
        rw [hdl]
        unfold Pad.setLayers
        simp only
        rw [List.getElem?_map, List.getElem?_zipIdx, List.getElem?_eq_getElem (by simp [hnames]; exact hj)]
        simp [hpads]
      rw [Nat.zero_add, this] at hq
      rw [← Option.some.inj hq]; rfl
    obtain ⟨q', g1, g2⟩ := e6 j p hp q hq
    rw [Nat.zero_add] at g1
    rw [Pad.getPad_in d' j q' g1, g2]
    cases UMap.find? tmpl p.shapeId with
    | none => simp [hqp]
    | some s => rfl

/-- vias that are not taken change nothing -/
theorem viaStep_not (db : PDb K) (v : XVia) (h : ∀ ps ts, ¬ Taken tmpl mats pstks v ps ts) :
    viaStep tmpl metal mats pstks db v = .ok db := by
  unfold viaStep
  cases h1 : UMap.find? pstks v.padstackId with
  | none => rfl
  | some ps =>
    cases h2 : UMap.find? tmpl v.shapeId with
    | none => rfl
    | some ts =>
      simp only
      rw [if_pos]
      have := h ps ts
      simp only [Taken, h1, h2, true_and, not_or, Bool.not_eq_true] at this
      exact this

omit [Field K] [LinearOrder K] in
theorem find_append_new {α : Type} (l : List (String × α)) (k : String) (a : α) (x : String) (h : UMap.count l k = false) :
    UMap.find? (l ++ [(k, a)]) x = if x = k then some a else UMap.find? l x := by
  rw [UMap.find?_append, UMap.find?_cons]
  by_cases hx : k = x
  · subst hx
    have : UMap.find? l k = none := by
      have := UMap.find?_isSome_eq_count l k
      rw [h] at this
      exact Option.isSome_eq_false_iff.1 this |> Option.isNone_iff_eq_none.1
    simp [this]
  · have hx' : ¬ x = k := fun h => hx h.symm
    simp only [hx, hx', if_false]
    cases UMap.find? l x <;> rfl

/-- C89, partial: when the names of the vias that are taken are new and all different, the import ends, and
afterwards exactly the vias taken have a layer map and a definition, which are as they must be; what was there
before is kept.  Missing: vias with equal names (`c89_duplicate_refuted`). -/
theorem c89_import_partial (vs : List XVia) (db : PDb K)
    (hnew : ∀ v ∈ vs, ∀ ps ts, Taken tmpl mats pstks v ps ts → UMap.count db.maps v.name = false ∧ UMap.count db.defs v.name = false)
    (hdis : vs.Pairwise fun v w => (∃ ps ts, Taken tmpl mats pstks v ps ts) → (∃ ps ts, Taken tmpl mats pstks w ps ts) → v.name ≠ w.name) :
    ∃ db', importVias tmpl metal mats pstks db vs = .ok db' ∧
      (∀ v ∈ vs, ∀ ps ts, Taken tmpl mats pstks v ps ts → ∃ d m, UMap.find? db'.defs v.name = some d ∧ UMap.find? db'.maps v.name = some m ∧
        IsDef tmpl mats v ps ts d ∧ (MetalOk metal → (ps.pads.map XPad.sigLyr).Nodup → IsMap tmpl metal ps m)) ∧
      ∀ n, (∀ v ∈ vs, (∃ ps ts, Taken tmpl mats pstks v ps ts) → v.name ≠ n) →
        UMap.find? db'.defs n = UMap.find? db.defs n ∧ UMap.find? db'.maps n = UMap.find? db.maps n := by
  induction vs generalizing db with
  | nil => exact ⟨db, rfl, by simp, fun _ _ => ⟨rfl, rfl⟩⟩
  | cons v vs ih =>
    rw [List.pairwise_cons] at hdis
    by_cases htk : ∃ ps ts, Taken tmpl mats pstks v ps ts
    · obtain ⟨ps, ts, ht⟩ := htk
      obtain ⟨n1, n2⟩ := hnew v List.mem_cons_self ps ts ht
      obtain ⟨d, m, e1, e2, e3⟩ := viaStep_new tmpl metal mats pstks db v ps ts ht n1 n2
      have fm := fun n => find_append_new db.maps v.name m n n1
      have fd := fun n => find_append_new db.defs v.name d n n2
      have cnt : ∀ {α : Type} (l : List (String × α)) (k : String), UMap.count l k = false ↔ UMap.find? l k = none := by
        intro α l k
        rw [← UMap.find?_isSome_eq_count]
        simp
      obtain ⟨db', g1, g2, g3⟩ := ih ⟨db.maps ++ [(v.name, m)], db.defs ++ [(v.name, d)]⟩ (by
        intro w hw ps' ts' hw'
        have hne : v.name ≠ w.name := hdis.1 w hw ⟨ps, ts, ht⟩ ⟨ps', ts', hw'⟩
        obtain ⟨k1, k2⟩ := hnew w (List.mem_cons_of_mem _ hw) ps' ts' hw'
        simp only [cnt] at k1 k2 ⊢
        rw [fm, fd, if_neg (fun h => hne h.symm), if_neg (fun h => hne h.symm)]
        exact ⟨k1, k2⟩) hdis.2
      refine ⟨db', ?_, ?_, ?_⟩
      · rw [importVias, e1, Res.bind_ok, g1]
      · intro w hw ps' ts' hw'
        rcases List.mem_cons.1 hw with rfl | hw
        · have hps : ps' = ps := by
            have := hw'.1; rw [ht.1] at this; exact (Option.some.inj this).symm
          have hts : ts' = ts := by
            have := hw'.2.1; rw [ht.2.1] at this; exact (Option.some.inj this).symm
          subst hps; subst hts
          obtain ⟨k1, k2⟩ := g3 w.name fun u hu hu' => (hdis.1 u hu ⟨_, _, ht⟩ hu').symm
          refine ⟨d, m, ?_, ?_, e2, e3⟩
          · rw [k1, fd, if_pos rfl]
          · rw [k2, fm, if_pos rfl]
        · exact g2 w hw ps' ts' hw'
      · intro n hn
        obtain ⟨k1, k2⟩ := g3 n fun u hu => hn u (List.mem_cons_of_mem _ hu)
        have hne : ¬ n = v.name := fun h => hn v List.mem_cons_self ⟨ps, ts, ht⟩ h.symm
        rw [k1, k2, fd, fm, if_neg hne, if_neg hne]
        exact ⟨rfl, rfl⟩
    · have hnt : ∀ ps ts, ¬ Taken tmpl mats pstks v ps ts := by
        intro ps ts h; exact htk ⟨ps, ts, h⟩
      have e1 := viaStep_not tmpl metal mats pstks db v hnt
      obtain ⟨db', g1, g2, g3⟩ := ih db (fun w hw => hnew w (List.mem_cons_of_mem _ hw)) hdis.2
      refine ⟨db', by rw [importVias, e1, Res.bind_ok, g1], ?_, fun n hn => g3 n fun u hu => hn u (List.mem_cons_of_mem _ hu)⟩
      intro w hw ps' ts' hw'
      rcases List.mem_cons.1 hw with rfl | hw
      · exact absurd hw' (hnt ps' ts')
      · exact g2 w hw ps' ts' hw'

/-- C89, refuted: a via that is taken and whose name is that of a definition uses a null pointer. -/
theorem c89_duplicate_refuted (db : PDb K) (v : XVia) (ps : XPadstack) (ts : Shape K) (ht : Taken tmpl mats pstks v ps ts)
    (h2 : UMap.count db.defs v.name = true) : viaStep tmpl metal mats pstks db v = .ub := by
  obtain ⟨t1, t2, t3⟩ := ht
  have hc : ¬ (v.material ≠ "" ∧ UMap.count mats v.material = false) := by
    rintro ⟨a, b⟩
    rcases t3 with h | h
    · exact a h
    · rw [b] at h; exact absurd h (by simp)
  have noexn : ∀ (ps : List XPad) (d : Pad.Data (Shape K)) (lm : Option LayerMap.BiMap) (i : Nat), padLoop tmpl metal d lm i ps ≠ .exn := by
    intro ps
    induction ps with
    | nil => intro d lm i; simp [padLoop]
    | cons x ps ih =>
      intro d lm i
      simp only [padLoop]
      split
      · exact ih _ _ _
      · next s _ =>
        cases hs : Pad.setPad d (i : Int) ⟨some (.templ Aff.one s), (0, 0), x.rot⟩ with
        | ub => simp
        | exn => unfold Pad.setPad at hs; split_ifs at hs; split at hs <;> simp at hs
        | ok r =>
          simp only [Res.bind_ok]
          split
          · exact ih _ _ _
          · split
            · simp
            · exact ih _ _ _
  have hb : ∀ r : Res (Pad.Data (Shape K) × Option LayerMap.BiMap), r ≠ .exn → (r.bind fun _ => (Res.ub : Res (PDb K))) = .ub := by
    intro r hr
    cases r with
    | ok r => rfl
    | ub => rfl
    | exn => exact absurd rfl hr
  simp only [viaStep, t1, t2, if_neg hc, h2, if_true]
  exact hb _ (noexn _ _ _ _)

/-! ### pads of an instance -/

/-- C89, partial: on layer `l` an instance of a definition has the pad that belongs to layer `l`, when every pad is
on the layer of its own number.  Missing: all other padstacks (`c89_pad_layer_refuted`). -/
theorem c89_pad_layer_partial (R : Int → K × K) (i : Shp.PInst K) (v : XVia) (ps : XPadstack) (ts : Shape K) (d : Pad.Data (Shape K))
    (m : LayerMap.BiMap) (hd : IsDef tmpl mats v ps ts d) (hm : IsMap tmpl metal ps m) (h1 : i.data = some d) (h2 : i.lmap = some m)
    (j : Nat) (p : XPad) (s : Shape K) (hp : ps.pads[j]? = some p) (hs : UMap.find? tmpl p.shapeId = some s)
    (hl : UMap.find? metal p.sigLyr = some (j : Int)) (hr : min i.top i.bot ≤ j ∧ (j : Int) ≤ max i.top i.bot) :
    i.layerShape R j = .ok (some (Shape.transform ((Shp.place R p.rot (0, 0)).comp i.trans) (.templ ⟨1, 0, 0, 1, 0, 0⟩ s))) := by
  have hf := (hm.1 j p s j hp hs hl).1
  have hg := hd.2.2.2 j p hp
  rw [hs] at hg
  have h0 : ¬ ((j : Int) < min i.top i.bot ∨ (j : Int) > max i.top i.bot) := by omega
  simp only [Shp.PInst.layerShape, if_neg h0, h2, h1, hf, hg, Res.bind_ok, templPar, Option.isNone_some, Bool.false_eq_true, if_false]

/-- C89, refuted: a pad on a layer whose id is no number of a pad (as after a dielectric layer) is never drawn: on
this layer the instance has the shape of the via. -/
theorem c89_pad_layer_refuted (R : Int → K × K) (i : Shp.PInst K) (v : XVia) (ps : XPadstack) (ts : Shape K) (d : Pad.Data (Shape K))
    (m : LayerMap.BiMap) (hd : IsDef tmpl mats v ps ts d) (hm : IsMap tmpl metal ps m) (h1 : i.data = some d) (h2 : i.lmap = some m)
    (l : Int) (hl : (ps.pads.length : Int) ≤ l) (hr : min i.top i.bot ≤ l ∧ l ≤ max i.top i.bot) :
    i.layerShape R l = .ok (some (Shape.transform ((Shp.place R v.shapeRot (0, 0)).comp i.trans) (.templ ⟨1, 0, 0, 1, 0, 0⟩ ts))) := by
  have hf : LayerMap.forward m l = -1 := by
    by_contra hne
    have hmem := LayerMap.mem_of_forward rfl hne
    rcases hm.2 _ _ hmem with h | ⟨j, p, g1, g2, -⟩
    · have : ∀ x ∈ LayerMap.new, x.1 < 0 := by decide
      have := this _ h
      simp only at this
      omega
    · have : j < ps.pads.length := (List.getElem?_eq_some_iff.1 g2).1
      omega
  have hg : Pad.getPad d (-1) = .ok none := Pad.getPad_out d (-1) (.inl rfl)
  have h0 : ¬ (l < min i.top i.bot ∨ l > max i.top i.bot) := by omega
  simp only [Shp.PInst.layerShape, if_neg h0, h2, h1, hf, hg, Res.bind_ok, hd.2.1, templPar]

/-! ### examples -/

/-- a via with two pads, on the metal layers 1 and 2 of the file, which are the layers 0 and 2 of the layout -/
def exTmpl : List (Int × Shape ℚ) := [(1, .polygon [(0, 0), (1, 0), (1, 1)]), (2, .polygon [(0, 0), (2, 0), (2, 2)])]
def exMetal : List (Int × Int) := [(1, 0), (2, 2)]
def exStacks : List (Int × XPadstack) := [(7, ⟨7, [⟨1, 2, 0⟩, ⟨2, 2, 90⟩]⟩)]
def exVia : XVia := ⟨"V", 7, 1, 0, "cu"⟩

example : Taken exTmpl [("cu", "cu1")] exStacks exVia ⟨7, [⟨1, 2, 0⟩, ⟨2, 2, 90⟩]⟩ (.polygon [(0, 0), (1, 0), (1, 1)]) := by
  refine ⟨by decide, by decide +kernel, by decide⟩
example : MetalOk exMetal ∧ (([⟨1, 2, 0⟩, ⟨2, 2, 90⟩] : List XPad).map XPad.sigLyr).Nodup := by
  have h : exMetal = (importLayers [] (1 : ℚ) [⟨"a", 1, 'S', "", ""⟩, ⟨"b", 1, 'D', "", ""⟩, ⟨"c", 1, 'P', "", ""⟩]).metalMap := by
    decide +kernel
  rw [h]
  exact ⟨metalOk_import _ _ _, by decide⟩

/-- the pairs are (pad, layer): pad 1 is on layer 2 -/
example : (importVias exTmpl exMetal [("cu", "cu1")] exStacks ⟨[], []⟩ [exVia]).bind (fun db => .ok db.maps) =
    .ok [("V", [(-10, -10), (-1, -1), (0, 0), (1, 2)])] := by decide +kernel

end Ecad.Xfl
