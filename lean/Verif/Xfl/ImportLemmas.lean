import Verif.Xfl.ImportBase
/-!
The steps of the import for what a file lists: which tables have which entries, when the steps end.
-/
namespace Ecad.XflI
open Ecad.Xfl Ecad.XflP
open Shp (Aff Shape)

theorem str_inj {a b : Str} (h : str a = str b) : a = b := by
  unfold str at h
  have := congrArg String.toList h
  simpa using this

theorem bind_ok_iff {α β : Type} (x : Res α) (f : α → Res β) (b : β) : x.bind f = .ok b ↔ ∃ a, x = .ok a ∧ f a = .ok b := by
  cases x <;> simp

/-! ### tables -/

theorem emplace_key {K V : Type} [DecidableEq K] (m : List (K × V)) (k : K) (v : V) (x : K) :
    UMap.count (UMap.emplace m k v).1 x = true ↔ x = k ∨ UMap.count m x = true := by
  rw [UMap.count_iff_mem_keys, UMap.count_iff_mem_keys, UMap.keys_emplace]
  split
  · next h =>
    rw [UMap.count_iff_mem_keys] at h
    constructor
    · exact .inr
    · rintro (rfl | h') <;> assumption
  · simp [or_comm]

theorem templates_keys (G : Getter ℚ) (l : List (Int × Geo ℚ)) (acc t : List (Int × Shape ℚ)) (h : G.buildTemplates acc l = .ok t) (x : Int) :
    UMap.count t x = true ↔ UMap.count acc x = true ∨ ∃ e ∈ l, e.1 = x := by
  induction l generalizing acc with
  | nil => simp only [Getter.buildTemplates, Res.ok.injEq] at h; subst h; simp
  | cons e l ih =>
    obtain ⟨i, g⟩ := e
    simp only [Getter.buildTemplates, bind_ok_iff] at h
    obtain ⟨s, _, h⟩ := h
    rw [ih _ h, emplace_key]
    simp only [List.mem_cons, exists_eq_or_imp]
    constructor
    · rintro ((h | h) | h)
      · exact .inr (.inl h.symm)
      · exact .inl h
      · exact .inr (.inr h)
    · rintro (h | h | h)
      · exact .inl (.inr h)
      · exact .inl (.inl h.symm)
      · exact .inr h

theorem pstk_keys (l : List XPadstack) (x : Int) : UMap.count (pstkLut l) x = true ↔ ∃ e ∈ l, e.id = x := by
  have main : ∀ acc : List (Int × XPadstack), UMap.count (l.foldl (fun a p => (UMap.emplace a p.id p).1) acc) x = true ↔
      UMap.count acc x = true ∨ ∃ e ∈ l, e.id = x := by
    induction l with
    | nil => simp
    | cons e l ih =>
      intro acc
      rw [List.foldl_cons, ih, emplace_key]
      simp only [List.mem_cons, exists_eq_or_imp]
      constructor
      · rintro ((h | h) | h)
        · exact .inr (.inl h.symm)
        · exact .inl h
        · exact .inr (.inr h)
      · rintro (h | h | h)
        · exact .inl (.inr h)
        · exact .inl (.inl h.symm)
        · exact .inr h
  rw [pstkLut, main]
  simp [UMap.count]

theorem mats_keys (l : List (XMat ℚ)) (db : List (String × Mat ℚ)) (m : List (String × String)) (x : String) :
    UMap.count (importMats db m l).2 x = true ↔ UMap.count m x = true ∨ ∃ e ∈ l, e.name = x := by
  induction l generalizing db m with
  | nil => simp [importMats]
  | cons e l ih =>
    have hfresh : UMap.count db (Naming.nextName (UMap.keys db) e.name) = false := by
      rw [UMap.count_eq_false_iff]; exact Naming.nextName_not_mem _ _
    simp only [importMats, hfresh, Bool.false_eq_true, if_false]
    rw [ih, emplace_key]
    simp only [List.mem_cons, exists_eq_or_imp]
    constructor
    · rintro ((h | h) | h)
      · exact .inr (.inl h.symm)
      · exact .inl h
      · exact .inr (.inr h)
    · rintro (h | h | h)
      · exact .inl (.inr h)
      · exact .inl (.inl h.symm)
      · exact .inr h

/-! ### nets -/

theorem importNets_run (ns : List String) : importNets ns = Net.run {} (ns.map Net.Op.create) := by
  unfold importNets Net.run
  rw [List.foldl_map]
  rfl

theorem nets_keys (ns : List String) (x : String) : (Net.findByName (importNets ns) x).isSome = true ↔ x ∈ ns := by
  have main : ∀ c : Net.Coll, UMap.count (ns.foldl (fun c n => (Net.createNet c n).1) c).nets x = true ↔ UMap.count c.nets x = true ∨ x ∈ ns := by
    induction ns with
    | nil => simp
    | cons n ns ih =>
      intro c
      rw [List.foldl_cons, ih]
      unfold Net.createNet
      split
      · next h =>
        simp only [List.mem_cons]
        constructor
        · rintro (h' | h')
          · exact .inl h'
          · exact .inr (.inr h')
        · rintro (h' | rfl | h')
          · exact .inl h'
          · exact .inl h
          · exact .inr h'
      · simp only [emplace_key, List.mem_cons]
        tauto
  rw [Net.findByName_eq, UMap.find?_isSome_eq_count, importNets, main]
  simp [UMap.count]

/-! ### layers -/

/-- Number `k` of the file means layer `i`: it conducts and has `k - 1` conducting layers above it. -/
def MetalNo (F : List PSec) (k : Int) (i : Nat) : Prop :=
  ∃ x : PLay ℚ, (layersOf F)[i]? = some x ∧ x.type ≠ 'D' ∧ k = (((layersOf F).take i).countP fun y => y.type ≠ 'D') + 1

theorem metal_iff (mats : List (String × String)) (scale : ℚ) (F : List PSec) (k l : Int) :
    UMap.find? (importLayers mats scale ((layersOf F).map toLay)).metalMap k = some l ↔ ∃ i : Nat, l = i ∧ MetalNo F k i := by
  rw [(c85_metal mats scale ((layersOf F).map toLay) k l).1]
  unfold MetalNo metals
  constructor
  · rintro ⟨i, x, h1, h2, h3, h4⟩
    rw [List.getElem?_map, Option.map_eq_some_iff] at h2
    obtain ⟨y, hy, rfl⟩ := h2
    refine ⟨i, h1, y, hy, h3, ?_⟩
    rw [← List.map_take, List.countP_map] at h4
    exact h4
  · rintro ⟨i, h1, y, hy, h3, h4⟩
    refine ⟨i, toLay y, h1, by rw [List.getElem?_map, hy]; rfl, h3, ?_⟩
    rw [← List.map_take, List.countP_map]
    exact h4

/-! ### units -/

/-- nanometres in a millimetre, in an inch -/
def nm (inch : Bool) : ℚ := if inch then 25400000 else 1000000

theorem coordScale_eq (inch : Bool) : coordScale inch = nm inch := by
  unfold coordScale nm Units.scale2Coord Units.make
  cases inch <;> norm_num

/-! ### inversion of `build` -/

variable (ang : ℚ → Int) (lib : Lib ℚ) (div : Nat) (R : Int → ℚ × ℚ)

/-- material names and layers of the import -/
def matsI (d : Db) : List (String × Mat ℚ) × List (String × String) := importMats [] [] (d.materials.map toMat)
def laysI (d : Db) (u : ℚ) : LState ℚ := importLayers (matsI d).2 u (d.layers.map toLay)
def netsI (d : Db) : Net.Coll := importNets (d.nets.map fun n => str n.name)
def netIdI (d : Db) (n : String) : Option Int := (Net.findByName (netsI d) n).map Net.Net.id
def envI (d : Db) (u : ℚ) (tmpl : List (Int × Shape ℚ)) (pads : PDb ℚ) : Env ℚ := env lib div R u tmpl (laysI d u).metalMap pads

theorem build_iff (d : Db) (inch : Bool) (sc : ℚ) (r : Result) :
    build ang lib div R d inch sc = .ok r ↔ ∃ tmpl outs,
      Getter.buildTemplates ⟨lib, nm inch / sc, div⟩ [] d.templates = .ok tmpl ∧
      importVias tmpl (laysI d (nm inch / sc)).metalMap (matsI d).2 (pstkLut (d.padstacks.map (toPstk ang))) ⟨[], []⟩ (d.vias.map (toVia ang)) = .ok r.pads ∧
      (envI lib div R d (nm inch / sc) tmpl r.pads).routes (netIdI d) [] (d.routes.map fun r => (str r.1, r.2.map (toObj ang))) = .ok outs ∧
      (envI lib div R d (nm inch / sc) tmpl r.pads).board (d.board.map (toBoard ang)) = .ok r.boundary ∧
      r.inch = inch ∧ r.mats = (matsI d).1 ∧ r.layers = (laysI d (nm inch / sc)).layers ∧ r.nets = netsI d ∧ r.outs = outs.2 := by
  unfold build
  simp only [bind_ok_iff, coordScale_eq]
  constructor
  · rintro ⟨tmpl, h1, pads, h2, outs, h3, b, h4, h5⟩
    simp only [Res.ok.injEq] at h5
    subst h5
    exact ⟨tmpl, outs, h1, h2, h3, h4, rfl, rfl, rfl, rfl, rfl⟩
  · rintro ⟨tmpl, outs, h1, h2, h3, h4, rfl, h6, h7, h8, h9⟩
    refine ⟨tmpl, h1, r.pads, h2, outs, h3, r.boundary, h4, ?_⟩
    obtain ⟨a, b, c, d', e, f, g⟩ := r
    simp only at h6 h7 h8 h9 ⊢
    subst h6 h7 h8 h9
    rfl

end Ecad.XflI
