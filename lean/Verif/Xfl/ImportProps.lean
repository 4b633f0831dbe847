import Verif.Xfl.ImportLemmas
/-!
The database made of an XFL file (C131): from the text to the layout.
-/
namespace Ecad.XflI
open Ecad.Xfl Ecad.XflP
open Shp (Aff Shape)

variable (ang : ℚ → Int) (lib : Lib ℚ) (div : Nat) (R : Int → ℚ × ℚ)

/-! ### specification -/

/-- a via whose padstack, shape and material are in the file -/
def Usable (F : List PSec) (v : PVia ℚ) : Prop :=
  (∃ p ∈ padstacksOf F, p.1 = v.pstk) ∧ (∃ t ∈ templatesOf F, t.1 = v.id) ∧ ∀ b, v.barrel = some b → ∃ m ∈ materialsOf F, m.name = b.2

/-- The conditions for the import: units and a scale are given, vias that can be used have different names, the outline is not a
shape of the file. -/
structure Complete (F : List PSec) : Prop where
  unit : inchOf F ≠ none
  scale : scaleOf F ≠ none
  vias : (viasOf F).Pairwise fun v w => Usable F v → Usable F w → v.name ≠ w.name
  board : ∀ i p q m t, boardOf F = some (.shape i p q m t) → ∀ e ∈ templatesOf F, e.1 ≠ i

/-- the number of the layer an object is on -/
def layerNo : PObj ℚ → Option Int
  | .path l _ _ => some l
  | .via l _ _ _ _ _ => some l
  | .bondwire _ _ _ _ _ => none
  | .polygon _ l _ => some l
  | .rectangle _ l _ _ _ => some l
  | .square _ l _ _ => some l
  | .diamond _ l _ _ => some l
  | .circle _ l _ _ => some l
  | .annular l _ _ _ => some l
  | .composite _ l _ => some l
  | .shape _ l _ _ _ _ _ => some l

/-- the objects marked as voids -/
def isVoid : PObj ℚ → Bool
  | .polygon v _ _ => v
  | .rectangle v _ _ _ _ => v
  | .square v _ _ _ => v
  | .diamond v _ _ _ => v
  | .circle v _ _ _ => v
  | .composite v _ _ => v
  | .shape v _ _ _ _ _ _ => v
  | _ => false

/-- A factor for both coordinates -/
def times (u : ℚ) (p : ℚ × ℚ) : ℚ × ℚ := (p.1 * u, p.2 * u)

/-! ### the import of a file that is made -/

variable {ang lib div R}

theorem create_ok {F : List PSec} (hF : ∀ x ∈ F, WfSec x) {s g : Str} (hs : Writes true (F.flatMap secToks) s) (hg : Gap g) {r : Result}
    (h : create ang lib div R false (some (s ++ g)) = .ok (some r)) :
    ∃ inch sc, inchOf F = some inch ∧ scaleOf F = some sc ∧ build ang lib div R (dbOf F) inch sc = .ok r := by
  rw [create_file ang lib div R F hF s g hs hg] at h
  cases hi : inchOf F with
  | none => rw [hi] at h; simp at h
  | some inch =>
    cases hc : scaleOf F with
    | none => rw [hi, hc] at h; simp at h
    | some sc =>
      rw [hi, hc] at h
      simp only [bind_ok_iff, Res.ok.injEq, Option.some.injEq] at h
      obtain ⟨a, h1, rfl⟩ := h
      exact ⟨inch, sc, rfl, rfl, h1⟩

/-- the material `m` of the database for the material `n` of the file, `dflt` if it has none -/
def MatIs (F : List PSec) (r : Result) (n : Str) (dflt m : String) : Prop :=
  (∀ l1 x l2, materialsOf F = l1 ++ x :: l2 → (∀ y ∈ l1, y.name ≠ n) → x.name = n →
    UMap.find? r.mats m = some ⟨x.conductivity, x.permittivity, x.permeability, x.loss⟩) ∧
  ((∀ x ∈ materialsOf F, x.name ≠ n) → m = dflt)

theorem mat_is (F : List PSec) (r : Result) (hr : r.mats = (matsI (dbOf F)).1) (n : Str) (dflt : String) :
    MatIs F r n dflt (matOr (matsI (dbOf F)).2 (str n) dflt) := by
  constructor
  · rintro l1 x l2 h1 h2 rfl
    have hm : (dbOf F).materials.map toMat = l1.map toMat ++ toMat x :: l2.map toMat := by
      simp only [dbOf, h1, List.map_append, List.map_cons]
    obtain ⟨k, h3, h4, _⟩ := c85_materials ([] : List (String × Mat ℚ)) (l1.map toMat) (l2.map toMat) (toMat x) (by
      intro y hy
      obtain ⟨z, hz, rfl⟩ := List.mem_map.1 hy
      exact fun e => h2 z hz (str_inj e))
    rw [hr]
    unfold matsI matOr
    rw [hm]
    have h3' : UMap.find? (importMats ([] : List (String × Mat ℚ)) [] (l1.map toMat ++ toMat x :: l2.map toMat)).2 (str x.name) = some k := h3
    rw [h3']
    exact h4
  · intro h
    have : UMap.count (matsI (dbOf F)).2 (str n) = false := by
      rw [Bool.eq_false_iff, ne_eq]
      intro hc
      unfold matsI at hc
      rw [mats_keys] at hc
      rcases hc with hc | ⟨e, he, h'⟩
      · simp [UMap.count] at hc
      · simp only [dbOf, List.mem_map] at he
        obtain ⟨y, hy, rfl⟩ := he
        exact h y hy (str_inj h')
    have hn : UMap.find? (matsI (dbOf F)).2 (str n) = none := by
      have := UMap.find?_isSome_eq_count (matsI (dbOf F)).2 (str n) ▸ this
      simpa using this
    simp [matOr, hn]

/-- **C131** (layers): the layout has the layers of the file in their order, with their names and kinds; thicknesses and elevations are
the numbers of the file times the nanometres of its unit, divided by its scale; the first layer is at 0 and the others follow below
without gaps; the materials are those of the file. -/
theorem c131_layers {F : List PSec} (hF : ∀ x ∈ F, WfSec x) {s g : Str} (hs : Writes true (F.flatMap secToks) s) (hg : Gap g) {r : Result}
    (h : create ang lib div R false (some (s ++ g)) = .ok (some r)) :
    ∃ inch sc, inchOf F = some inch ∧ scaleOf F = some sc ∧ r.inch = inch ∧ r.layers.length = (layersOf F).length ∧
      ∀ (i : Nat) (x : PLay ℚ), (layersOf F)[i]? = some x → ∃ y, r.layers[i]? = some y ∧ y.name = str x.name ∧ (y.dielectric = true ↔ x.type = 'D') ∧
        y.thickness = x.thick * (nm inch / sc) ∧ y.elevation = - ((((layersOf F).take i).map PLay.thick).sum * (nm inch / sc)) ∧
        MatIs F r x.cmat "copper" y.cmat ∧ MatIs F r x.dmat "silicon" y.dmat := by
  obtain ⟨inch, sc, hi, hc, hb⟩ := create_ok hF hs hg h
  obtain ⟨tmpl, outs, h1, h2, h3, h4, h5, h6, h7, h8, h9⟩ := (build_iff ang lib div R (dbOf F) inch sc r).1 hb
  refine ⟨inch, sc, hi, hc, h5, ?_, ?_⟩
  · rw [h7, laysI, (c85_stack _ _ _).1, List.length_map]; rfl
  · intro i x hx
    obtain ⟨y, y1, y2, y3, y4, y5, y6, y7⟩ := (c85_stack (matsI (dbOf F)).2 (nm inch / sc) ((layersOf F).map toLay)).2 i (toLay x) (by
      rw [List.getElem?_map, hx]; rfl)
    refine ⟨y, by rw [h7]; exact y1, y2, y3, y4, ?_, ?_, ?_⟩
    · rw [y5, total, ← List.map_take, List.map_map]; rfl
    · rw [y6]; exact mat_is F r h6 x.cmat "copper"
    · rw [y7]; exact mat_is F r h6 x.dmat "silicon"

/-- **C131** (nets): the layout has a net for each name in the net list and no others, and different names have different ids. -/
theorem c131_nets {F : List PSec} (hF : ∀ x ∈ F, WfSec x) {s g : Str} (hs : Writes true (F.flatMap secToks) s) (hg : Gap g) {r : Result}
    (h : create ang lib div R false (some (s ++ g)) = .ok (some r)) :
    (∀ n, (Net.findByName r.nets n).isSome = true ↔ ∃ x ∈ netsOf F, str x.name = n) ∧
    ((netsOf F).length < 2 ^ 32 → ∀ a b x y, Net.findByName r.nets a = some x → Net.findByName r.nets b = some y → x.id = y.id → a = b) := by
  obtain ⟨inch, sc, hi, hc, hb⟩ := create_ok hF hs hg h
  obtain ⟨tmpl, outs, h1, h2, h3, h4, h5, h6, h7, h8, h9⟩ := (build_iff ang lib div R (dbOf F) inch sc r).1 hb
  rw [h8]
  constructor
  · intro n
    unfold netsI
    rw [nets_keys]
    simp only [dbOf, List.mem_map]
  · intro hl a b x y hx hy hxy
    unfold netsI at hx hy
    rw [importNets_run] at hx hy
    obtain ⟨n1, n2, n3, n4⟩ := c03_net_ids (((dbOf F).nets.map fun n => str n.name).map Net.Op.create) (by simpa [dbOf] using hl)
    obtain ⟨m1, e1⟩ := (n4 a x).1 hx
    obtain ⟨m2, e2⟩ := (n4 b y).1 hy
    have := List.inj_on_of_nodup_map n1 m1 m2 hxy
    rw [← e1, ← e2, this]

/-! ### what is drawn -/

theorem mem_drawnAll (E : Env ℚ) (net : Int) (o : Obj ℚ) (post : List (Obj ℚ)) (x : Out ℚ) (hx : x ∈ E.drawn net o post) (pre : List (Obj ℚ)) :
    x ∈ E.drawnAll net (pre ++ o :: post) := by
  induction pre with
  | nil => exact List.mem_append_left _ hx
  | cons p pre ih => exact List.mem_append_right _ ih

theorem drawnAll_mem (E : Env ℚ) (net : Int) (x : Out ℚ) (l : List (Obj ℚ)) (hx : x ∈ E.drawnAll net l) :
    ∃ pre o post, l = pre ++ o :: post ∧ x ∈ E.drawn net o post := by
  induction l with
  | nil => simp [Env.drawnAll] at hx
  | cons o l ih =>
    rcases List.mem_append.1 hx with h | h
    · exact ⟨[], o, l, rfl, h⟩
    · obtain ⟨pre, o', post, rfl, h'⟩ := ih h
      exact ⟨o :: pre, o', post, rfl, h'⟩

theorem composite_pts (G : Getter ℚ) (ps : List (ℚ × ℚ)) (hp : ps ≠ []) : G.composite (ps.map Seg.pt) = .ok (ps.map G.pt) := by
  have loop : ∀ (l : List (ℚ × ℚ)) (p : ℚ × ℚ), G.compositeLoop p (l.map Seg.pt) = .ok (l.map G.pt) := by
    intro l
    induction l with
    | nil => intro p; rfl
    | cons q l ih => intro p; simp only [List.map_cons, Getter.compositeLoop, ih, Res.bind_ok]
  cases ps with
  | nil => exact absurd rfl hp
  | cons p l => simp only [List.map_cons, Getter.composite, loop, Res.bind_ok]

/-- what is drawn for an object of a route of a listed net is in the layout -/
theorem drawn_in {F : List PSec} (hF : ∀ x ∈ F, WfSec x) {s g : Str} (hs : Writes true (F.flatMap secToks) s) (hg : Gap g) {r : Result}
    (h : create ang lib div R false (some (s ++ g)) = .ok (some r)) :
    ∃ inch sc tmpl, inchOf F = some inch ∧ scaleOf F = some sc ∧ ∀ n pre o post, (n, pre ++ o :: post) ∈ routesOf F → (∃ x ∈ netsOf F, x.name = n) →
      ∃ net, Net.findByName r.nets (str n) = some net ∧
        ∀ x ∈ (envI lib div R (dbOf F) (nm inch / sc) tmpl r.pads).drawn net.id (toObj ang o) (post.map (toObj ang)), x ∈ r.outs := by
  obtain ⟨inch, sc, hi, hc, hb⟩ := create_ok hF hs hg h
  obtain ⟨tmpl, outs, h1, h2, h3, h4, h5, h6, h7, h8, h9⟩ := (build_iff ang lib div R (dbOf F) inch sc r).1 hb
  refine ⟨inch, sc, tmpl, hi, hc, ?_⟩
  intro n pre o post hr ⟨z, hz, hzn⟩
  have hsome := ((c131_nets hF hs hg h).1 (str n)).2 ⟨z, hz, by rw [hzn]⟩
  obtain ⟨net, hnet⟩ := Option.isSome_iff_exists.1 hsome
  refine ⟨net, hnet, ?_⟩
  intro x hx
  rw [h9]
  have hg := c86_routes _ (netIdI (dbOf F)) _ [] outs h3
  have : x ∈ geoms outs.2 := by
    rw [hg, List.mem_flatMap]
    refine ⟨(str n, (pre ++ o :: post).map (toObj ang)), List.mem_map.2 ⟨_, hr, rfl⟩, ?_⟩
    have hid : netIdI (dbOf F) (str n) = some net.id := by
      unfold netIdI
      rw [← h8, hnet]; rfl
    simp only [hid, List.map_append, List.map_cons]
    exact mem_drawnAll _ _ _ _ _ hx _
  exact List.mem_of_mem_filter this

/-- **C131** (paths): a path along points in a route of a listed net is drawn in this net, on the layer its number means, along the
points of the file and with the width of the file, times the nanometres of the unit and divided by the scale. -/
theorem c131_path {F : List PSec} (hF : ∀ x ∈ F, WfSec x) {s g : Str} (hs : Writes true (F.flatMap secToks) s) (hg : Gap g) {r : Result}
    (h : create ang lib div R false (some (s ++ g)) = .ok (some r)) (n : Str) (objs : List (PObj ℚ)) (hr : (n, objs) ∈ routesOf F)
    (hn : ∃ x ∈ netsOf F, x.name = n) (k : Int) (w : ℚ) (ps : List (ℚ × ℚ)) (hp : ps ≠ []) (ho : PObj.path k w (ps.map Seg.pt) ∈ objs)
    (i : Nat) (hk : MetalNo F k i) :
    ∃ inch sc net, inchOf F = some inch ∧ scaleOf F = some sc ∧ Net.findByName r.nets (str n) = some net ∧
      Out.geom i net.id (.path (ps.map (times (nm inch / sc))) (w * (nm inch / sc))) ∈ r.outs := by
  obtain ⟨inch, sc, tmpl, hi, hc, hd⟩ := drawn_in hF hs hg h
  obtain ⟨pre, post, rfl⟩ := List.append_of_mem ho
  obtain ⟨net, hnet, hx⟩ := hd n pre _ post hr hn
  refine ⟨inch, sc, net, hi, hc, hnet, hx _ ?_⟩
  have hm : UMap.find? (envI lib div R (dbOf F) (nm inch / sc) tmpl r.pads).metal k = some (i : Int) :=
    (metal_iff (matsI (dbOf F)).2 (nm inch / sc) F k i).2 ⟨i, rfl, hk⟩
  simp only [Env.drawn, toObj, Obj.layer, hm, composite_pts _ _ hp]
  exact List.mem_singleton.2 rfl

/-- **C131** (polygons): a polygon in a route of a listed net, followed by polygons that are voids on its layer and then by something
else, is drawn in this net, on the layer its number means, with the voids cut out, all points times the nanometres of the unit and
divided by the scale. -/
theorem c131_polygon {F : List PSec} (hF : ∀ x ∈ F, WfSec x) {s g : Str} (hs : Writes true (F.flatMap secToks) s) (hg : Gap g) {r : Result}
    (h : create ang lib div R false (some (s ++ g)) = .ok (some r)) (n : Str) (pre post : List (PObj ℚ)) (k : Int) (ps : List (ℚ × ℚ))
    (vs : List (List (ℚ × ℚ)))
    (hr : (n, pre ++ .polygon false k ps :: (vs.map (PObj.polygon true k) ++ post)) ∈ routesOf F)
    (hn : ∃ x ∈ netsOf F, x.name = n) (hp : 3 ≤ ps.length) (hpost : ∀ o ∈ post.head?, ¬ (isVoid o = true ∧ layerNo o = some k))
    (i : Nat) (hk : MetalNo F k i) :
    ∃ inch sc net, inchOf F = some inch ∧ scaleOf F = some sc ∧ Net.findByName r.nets (str n) = some net ∧
      Out.geom i net.id (if vs = [] then .polygon (ps.map (times (nm inch / sc)))
        else .holes (ps.map (times (nm inch / sc))) (vs.map fun v => v.map (times (nm inch / sc)))) ∈ r.outs := by
  obtain ⟨inch, sc, tmpl, hi, hc, hd⟩ := drawn_in hF hs hg h
  obtain ⟨net, hnet, hx⟩ := hd n pre _ _ hr hn
  refine ⟨inch, sc, net, hi, hc, hnet, hx _ ?_⟩
  have hm : UMap.find? (envI lib div R (dbOf F) (nm inch / sc) tmpl r.pads).metal k = some (i : Int) :=
    (metal_iff (matsI (dbOf F)).2 (nm inch / sc) F k i).2 ⟨i, rfl, hk⟩
  generalize hE : envI lib div R (dbOf F) (nm inch / sc) tmpl r.pads = E at hm ⊢
  have hsc : E.G.scale = nm inch / sc := by rw [← hE]; rfl
  have hpt : E.G.pt = times (nm inch / sc) := by
    funext p; simp only [Getter.pt, times, hsc]
  have hpoly : ∀ (b : Bool) (v : List (ℚ × ℚ)), E.shapeOf (.polygon b k v) = some (.polygon (v.map (times (nm inch / sc)))) := by
    intro b v
    simp only [Env.shapeOf, Env.mkShape, Getter.get, Res.bind_ok, hpt]
  have htw : ((vs.map (PObj.polygon true k) ++ post).map (toObj ang)).takeWhile (E.voidOn k) = vs.map (Obj.polygon true k) := by
    rw [List.map_append, List.map_map]
    have e1 : vs.map (toObj ang ∘ PObj.polygon true k) = vs.map (Obj.polygon true k) := rfl
    rw [e1, List.takeWhile_append_of_pos]
    · have : (post.map (toObj ang)).takeWhile (E.voidOn k) = [] := by
        cases post with
        | nil => rfl
        | cons o post =>
          rw [List.map_cons, List.takeWhile_cons_of_neg]
          intro hv
          simp only [Env.voidOn, Bool.and_eq_true, decide_eq_true_eq] at hv
          refine hpost o rfl ⟨?_, ?_⟩
          · cases o <;> first | exact hv.1.1 | (exact absurd hv.1.1 (by simp [toObj, Obj.isHole]))
          · cases o <;> first | (exact congrArg some hv.1.2) | (exact absurd hv.1.1 (by simp [toObj, Obj.isHole]))
      rw [this, List.append_nil]
    · intro o ho
      obtain ⟨v, _, rfl⟩ := List.mem_map.1 ho
      simp [Env.voidOn, Obj.isHole, Obj.layer, hpoly]
  have hfm : (vs.map (Obj.polygon true k)).filterMap E.shapeOf = vs.map fun v => Shape.polygon (v.map (times (nm inch / sc))) := by
    rw [List.filterMap_map]
    have : (E.shapeOf ∘ Obj.polygon true k) = fun v => some (Shape.polygon (v.map (times (nm inch / sc)))) := by
      funext v; exact hpoly true v
    rw [this]
    induction vs with
    | nil => rfl
    | cons v vs ih => simp
  simp only [Env.drawn, toObj, Obj.layer, hm, Obj.isShape, Obj.isHole, Bool.not_false, Bool.and_self, if_true, hpoly, htw, hfm, Env.cut]
  have hlen : 3 ≤ (ps.map (times (nm inch / sc))).length := by simpa using hp
  by_cases hv : vs = []
  · subst hv
    have : (Shape.polygon (ps.map (times (nm inch / sc)))).isValid = true := by simpa [Shape.isValid] using hp
    simp only [List.map_nil, if_true, this, List.mem_singleton]
  · have h1 : ¬ (vs.map fun v => Shape.polygon (v.map (times (nm inch / sc)))) = [] := by simpa using hv
    rw [if_neg h1, if_neg hv]
    have hmap : ((vs.map fun v => Shape.polygon (v.map (times (nm inch / sc)))).map fun h => h.contour E.G.lib.toLib) = vs.map fun v => v.map (times (nm inch / sc)) := by
      rw [List.map_map]; rfl
    rw [hmap]
    have : (Shape.holes (Shape.contour E.G.lib.toLib (.polygon (ps.map (times (nm inch / sc))))) (vs.map fun v => v.map (times (nm inch / sc)))).isValid = true := by
      simpa [Shape.isValid, Shape.contour] using hp
    rw [if_pos this]
    exact List.mem_singleton.2 rfl

end Ecad.XflI
