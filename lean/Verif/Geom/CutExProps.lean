import Verif.Geom.CutExModel
import Verif.Geom.CutProps
import Verif.Util.UtilProps
/-!
C96: a layer cut model has a polygon for every outline and hole of the layout.
-/
namespace Ecad.CutEx
open Geom Util

/-! ### specification -/

/-- something to be put into the model: a shape with its holes, or an outline with a heat source -/
inductive Item where
  | shape (net solid hole : Int) (s : Shape) (elev thick : ℚ)
  | heat (mat : Int) (p : Polygon) (elev thick : ℚ) (scen : Nat) (power : List (ℚ × ℚ)) (pos : ℚ)

/-- one polygon to be put into the model: `heat` is scenario, table and position of a heat source -/
structure Piece where
  net : Int
  mat : Int
  poly : Polygon
  hole : Bool
  elev : ℚ
  thick : ℚ
  heat : Option (Nat × List (ℚ × ℚ) × ℚ)

/-- the polygons of an item: the outline, then the holes -/
def Item.pieces : Item → List Piece
  | .shape net solid hole s e t =>
    ⟨net, solid, s.outline, false, e, t, none⟩ :: s.holes.map fun h => ⟨net, hole, h, true, e, t, none⟩
  | .heat mat p e t scen power pos => [⟨-1, mat, p, false, e, t, some (scen, power, pos)⟩]

/-- the centre of a circle -/
def Item.centre : Item → List (Int × Int)
  | .shape _ _ _ s _ _ => s.centre.toList
  | .heat .. => []

/-- a polygon that is at least one height unit thick after rounding -/
def Piece.Thick (E : Env) (p : Piece) : Bool :=
  decide (Geom.round ((p.elev - p.thick) * E.scale) < Geom.round (p.elev * E.scale))

/-- the heights of a polygon -/
def Piece.range (E : Env) (p : Piece) : Range :=
  ⟨Geom.round (p.elev * E.scale), Geom.round ((p.elev - p.thick) * E.scale)⟩

/-- outlines counterclockwise, holes clockwise -/
def Piece.oriented (E : Env) (p : Piece) : Polygon := if E.ccw p.poly = !p.hole then p.poly else p.poly.reverse

/-- the heat source of a polygon: a tenth of its thickness, from `pos` on -/
def Piece.block (E : Env) (i : Nat) (p : Piece) : Option Block :=
  p.heat.map fun h => ⟨i, powerRange E.scale p.elev p.thick h.2.2 (1 / 10), h.1, h.2.1⟩

/-- the layout outline on each stackup layer, made of its dielectric -/
def stackItems (b : Shape) (l : LayerIn) : List Item :=
  match l.slab.stackup, l.diel with
  | true, some d => [.shape (-1) d (-1) b l.slab.elev l.slab.thick]
  | _, _ => []

/-- a component: its body on the solder layer on its side of the placement layer -/
def compItems (layers : List LayerIn) (c : CompIn) : List Item :=
  match findLayer layers c.part.layer, c.outline, c.mat with
  | some l, some b, some mat =>
    let top := if c.part.flipped then l.slab.elev - l.slab.thick - c.part.solder
      else l.slab.elev + c.part.solder + c.part.height
    (if c.power = [] then .shape (-1) mat (-1) ⟨b, [], none⟩ top c.part.height
      else .heat mat b top c.part.height c.scen c.power (1 / 10)) ::
    match c.solderMat with
    | some sm => if 0 < c.part.solder then
        [.shape (-1) sm (-1) ⟨b, [], none⟩
          (if c.part.flipped then l.slab.elev - l.slab.thick else l.slab.elev + c.part.solder) c.part.solder]
      else []
    | none => []
  | _, _, _ => []

/-- a solder joint: heated if there is a current -/
def jointItems (E : Env) (w : WireIn) (j : Option Joint) : List Item :=
  match j with
  | none => []
  | some j =>
    match j.place, j.mat with
    | some (s, (e, t)), some mat =>
      if 0 < w.current then
        [.heat mat s.outline e t w.scen [(29815 / 100, w.current ^ 2 * (j.resist * t / E.area s.outline))] (1 / 2)]
      else [.shape w.net mat (-1) s e t]
    | _, _ => []

/-- a primitive -/
def primItems (E : Env) (layers : List LayerIn) : Prim → List Item
  | .other => []
  | .wire w => jointItems E w w.top ++ jointItems E w w.bot
  | .geom s net lyr =>
    match findLayer layers lyr, s with
    | some l, some s =>
      match l.cond, l.diel with
      | some c, some d => [.shape net c d s l.slab.elev l.slab.thick]
      | _, _ => []
    | _, _ => []

/-- a padstack instance on one layer -/
def padItem (layers : List LayerIn) (p : PadIn) (lyr : Int) : List Item :=
  match findLayer layers lyr, p.mat, p.shape lyr with
  | some l, some mat, some s => [.shape p.net mat mat s l.slab.elev l.slab.thick]
  | _, _, _ => []

/-- a padstack instance on all layers of its range -/
def padItems (layers : List LayerIn) (p : PadIn) : List Item :=
  if p.data then
    (List.range (max p.top p.bot - min p.top p.bot + 1).toNat).flatMap fun (k : Nat) =>
      padItem layers p (min p.top p.bot + k)
  else []

/-- everything -/
def items (E : Env) (I : Input) (b : Shape) : List Item :=
  I.layers.flatMap (stackItems b) ++ I.comps.flatMap (compItems I.layers) ++
    I.prims.flatMap (primItems E I.layers) ++ I.pads.flatMap (padItems I.layers)

/-- the bond wires -/
def wiresOf (ps : List Prim) : List WireOut :=
  ps.filterMap fun
    | .wire w => w.mat.map fun m => ⟨w.net, w.radius, m, w.current, w.scen, w.points⟩
    | _ => none

/-- a number of a stackup layer -/
def IsLayer (layers : List LayerIn) (lyr : Int) : Prop :=
  ∃ (k : Nat) (l : LayerIn), lyr = k ∧ layers[k]? = some l ∧ l.slab.stackup = true

/-- a solder joint with shape and material -/
def JointOk (j : Option Joint) : Prop := ∀ x, j = some x → x.place.isSome ∧ x.mat.isSome

/-- A layout that is complete: layers are numbered by position and have their materials, components, wires,
shapes and padstack instances have materials, outlines and layers, and no wire with a current has a joint
at its end. -/
structure Complete (I : Input) : Prop where
  ids : ∀ (k : Nat) l, I.layers[k]? = some l → l.slab.id = k
  mats : ∀ l ∈ I.layers, l.slab.stackup = true → l.cond.isSome ∧ l.diel.isSome
  comps : ∀ c ∈ I.comps, c.outline.isSome ∧ c.mat.isSome ∧ IsLayer I.layers c.part.layer ∧
    (0 < c.part.solder → c.solderMat.isSome)
  wires : ∀ w, Prim.wire w ∈ I.prims → w.mat.isSome ∧ JointOk w.top ∧ JointOk w.bot ∧
    (w.bot.isSome → w.current ≤ 0)
  geoms : ∀ s net lyr, Prim.geom s net lyr ∈ I.prims → s.isSome ∧ IsLayer I.layers lyr
  pads : ∀ p ∈ I.pads, p.data = true → p.mat.isSome ∧
    ∀ lyr, min p.top p.bot ≤ lyr → lyr ≤ max p.top p.bot → (p.shape lyr).isSome ∧ IsLayer I.layers lyr

/-! ### the builder -/

/-- an item is put into the model -/
def addItem (E : Env) (m : Model) : Item → Model
  | .shape net solid hole s e t =>
    let m := match E.circles, s.centre with
      | true, some o => { m with steiner := m.steiner ++ [o] }
      | _, _ => m
    addHoles E net hole e t (addPolygon E m net solid s.outline false e t).1 s.holes
  | .heat mat p e t scen power pos => addPowerBlock E m mat p scen power e t pos (1 / 10)

def addItems (E : Env) (m : Model) (is : List Item) : Model := is.foldl (addItem E) m

theorem addItems_append (E : Env) (m : Model) (a b : List Item) :
    addItems E m (a ++ b) = addItems E (addItems E m a) b := List.foldl_append

/-- the model holds exactly these pieces -/
structure Rep (E : Env) (m : Model) (ps : List Piece) (cs : List (Int × Int)) (ws : List WireOut) : Prop where
  ranges : m.ranges = ps.map (Piece.range E)
  polygons : m.polygons = ps.map (Piece.oriented E)
  mats : m.mats = ps.map Piece.mat
  nets : m.nets = ps.map Piece.net
  wf : UMap.WF m.blocks
  blocks : ∀ i, UMap.find? m.blocks i = (ps[i]?).bind (Piece.block E i)
  steiner : m.steiner = if E.circles then cs else []
  wires : m.wires = ws

theorem oriented_eq (E : Env) (p : Polygon) (h : Bool) (q : Piece) (hq : q.poly = p) (hh : q.hole = h) :
    q.oriented E = if h = E.ccw p then p.reverse else p := by
  unfold Piece.oriented
  rw [hq, hh]
  cases h <;> cases E.ccw p <;> rfl

theorem rep_polygon {E : Env} {m : Model} {ps : List Piece} {cs : List (Int × Int)} {ws : List WireOut}
    (R : Rep E m ps cs ws) (net mat : Int) (p : Polygon) (h : Bool) (e t : ℚ) :
    Rep E (addPolygon E m net mat p h e t).1
      (ps ++ ([⟨net, mat, p, h, e, t, none⟩] : List Piece).filter (Piece.Thick E)) cs ws ∧
    (addPolygon E m net mat p h e t).2 =
      if Piece.Thick E ⟨net, mat, p, h, e, t, none⟩ then some ps.length else none := by
  have hv : (layerRange E.scale e t).isValid = Piece.Thick E ⟨net, mat, p, h, e, t, none⟩ := rfl
  unfold addPolygon
  simp only [hv]
  cases hT : Piece.Thick E ⟨net, mat, p, h, e, t, none⟩ with
  | false => simp only [hT, Bool.false_eq_true, if_false, List.filter_cons, List.filter_nil, List.append_nil]; exact ⟨R, trivial⟩
  | true =>
    simp only [hT, if_true, List.filter_cons, List.filter_nil]
    refine ⟨⟨?_, ?_, ?_, ?_, R.wf, ?_, R.steiner, R.wires⟩, ?_⟩
    · rw [R.ranges, List.map_append]; rfl
    · rw [R.polygons, List.map_append, List.map_singleton, oriented_eq E p h _ rfl rfl]
    · rw [R.mats, List.map_append]; rfl
    · rw [R.nets, List.map_append]; rfl
    · intro i
      rw [R.blocks i]
      by_cases hi : i < ps.length
      · rw [List.getElem?_append_left hi]
      · rw [List.getElem?_eq_none (by omega)]
        by_cases hi2 : i = ps.length
        · subst hi2; simp [Piece.block]
        · rw [List.getElem?_eq_none (by simp; omega)]
    · rw [R.polygons, List.length_map]

theorem rep_holes {E : Env} (net mat : Int) (e t : ℚ) (hs : List Polygon) {m : Model} {ps : List Piece}
    {cs : List (Int × Int)} {ws : List WireOut} (R : Rep E m ps cs ws) :
    Rep E (addHoles E net mat e t m hs)
      (ps ++ (hs.map fun h => (⟨net, mat, h, true, e, t, none⟩ : Piece)).filter (Piece.Thick E)) cs ws := by
  induction hs generalizing m ps with
  | nil => simpa [addHoles] using R
  | cons h hs ih =>
    have := ih (rep_polygon R net mat h true e t).1
    rw [addHoles]
    rw [List.append_assoc, ← List.filter_append] at this
    exact this

theorem rep_item {E : Env} {m : Model} {ps : List Piece} {cs : List (Int × Int)} {ws : List WireOut}
    (R : Rep E m ps cs ws) (x : Item) :
    Rep E (addItem E m x) (ps ++ x.pieces.filter (Piece.Thick E)) (cs ++ x.centre) ws := by
  cases x with
  | shape net solid hole s e t =>
    have R0 : Rep E (match E.circles, s.centre with
      | true, some o => { m with steiner := m.steiner ++ [o] }
      | _, _ => m) ps (cs ++ s.centre.toList) ws := by
      cases hc : E.circles with
      | false =>
        refine ⟨R.ranges, R.polygons, R.mats, R.nets, R.wf, R.blocks, ?_, R.wires⟩
        simp [R.steiner, hc]
      | true =>
        cases s.centre with
        | none => refine ⟨R.ranges, R.polygons, R.mats, R.nets, R.wf, R.blocks, ?_, R.wires⟩; simp [R.steiner, hc]
        | some o => refine ⟨R.ranges, R.polygons, R.mats, R.nets, R.wf, R.blocks, ?_, R.wires⟩; simp [R.steiner, hc]
    have := rep_holes net hole e t s.holes (rep_polygon R0 net solid s.outline false e t).1
    rw [List.append_assoc, ← List.filter_append] at this
    exact this
  | heat mat p e t scen power pos =>
    obtain ⟨R1, h2⟩ := rep_polygon R noId mat p false e t
    have hnoId : noId = -1 := rfl
    have hT : Piece.Thick E ⟨-1, mat, p, false, e, t, some (scen, power, pos)⟩ =
      Piece.Thick E ⟨-1, mat, p, false, e, t, none⟩ := rfl
    unfold addItem addPowerBlock
    simp only [Item.pieces, Item.centre, List.append_nil, List.filter_cons, List.filter_nil, hT]
    simp only [List.filter_cons, List.filter_nil] at R1
    rw [hnoId] at R1 h2 ⊢
    rcases hq : addPolygon E m (-1) mat p false e t with ⟨m1, r⟩
    rw [hq] at R1 h2
    have h2' : r = _ := h2
    have R1' : Rep E m1 _ cs ws := R1
    cases hT' : Piece.Thick E ⟨-1, mat, p, false, e, t, none⟩ with
    | false =>
      rw [hT'] at h2' R1'
      simp only [Bool.false_eq_true, if_false] at h2' R1' ⊢
      subst h2'
      exact R1'
    | true =>
      rw [hT'] at h2' R1'
      simp only [if_true] at h2' R1' ⊢
      subst h2'
      simp only
      refine ⟨?_, ?_, ?_, ?_, UMap.WF_emplace R1'.wf _ _, ?_, R1'.steiner, R1'.wires⟩
      · rw [R1'.ranges]; simp [Piece.range]
      · rw [R1'.polygons]; simp [Piece.oriented]
      · rw [R1'.mats]; simp
      · rw [R1'.nets]; simp
      · intro i
        have hb := R1'.blocks ps.length
        rw [UMap.find?_emplace']
        by_cases hi : i = ps.length
        · subst hi
          rw [hb]
          simp [Piece.block]
        · simp only [hi, false_and, if_false]
          rw [R1'.blocks i]
          by_cases hi2 : i < ps.length
          · rw [List.getElem?_append_left hi2, List.getElem?_append_left hi2]
          · rw [List.getElem?_eq_none (by simp; omega), List.getElem?_eq_none (by simp; omega)]

theorem rep_items {E : Env} (is : List Item) {m : Model} {ps : List Piece} {cs : List (Int × Int)}
    {ws : List WireOut} (R : Rep E m ps cs ws) :
    Rep E (addItems E m is) (ps ++ (is.flatMap Item.pieces).filter (Piece.Thick E)) (cs ++ is.flatMap Item.centre) ws := by
  induction is generalizing m ps cs with
  | nil => simpa [addItems] using R
  | cons x is ih =>
    have := ih (rep_item R x)
    rw [List.append_assoc, ← List.filter_append, List.append_assoc] at this
    exact this

/-! ### the extraction -/

theorem addShape_eq (E : Env) (m : Model) (net solid hole : Int) (s : Shape) (e t : ℚ) :
    addShape E m net solid hole (some s) e t = .ok (addItem E m (.shape net solid hole s e t)) := rfl

theorem addItem_outline (E : Env) (m : Model) (net mat hole : Int) (b : Polygon) (e t : ℚ) :
    addItem E m (.shape net mat hole ⟨b, [], none⟩ e t) = (addPolygon E m net mat b false e t).1 := by
  unfold addItem
  cases E.circles <;> rfl

theorem layer_of {I : Input} (C : Complete I) {lyr : Int} (h : IsLayer I.layers lyr) :
    ∃ l c d, findLayer I.layers lyr = some l ∧ l.slab.stackup = true ∧ l.cond = some c ∧ l.diel = some d ∧
      layerHeight (I.layers.map LayerIn.slab) lyr = some (l.slab.elev, l.slab.thick) := by
  obtain ⟨k, l, rfl, hk, hs⟩ := h
  obtain ⟨h1, h2⟩ := C.mats l (List.mem_of_getElem? hk) hs
  obtain ⟨c, hc⟩ := Option.isSome_iff_exists.1 h1
  obtain ⟨d, hd⟩ := Option.isSome_iff_exists.1 h2
  refine ⟨l, c, d, by simp [findLayer, hk], hs, hc, hd, ?_⟩
  rw [c23_layer]
  have hfind : (stackupLayers (I.layers.map LayerIn.slab)).find? (fun y => y.id = (k : Int)) = some l.slab := by
    unfold stackupLayers
    rw [List.find?_filter, List.find?_map, Option.map_eq_some_iff]
    refine ⟨l, ?_, rfl⟩
    rw [List.find?_eq_some_iff_getElem]
    have hlt := (List.getElem?_eq_some_iff.1 hk).1
    have hget := (List.getElem?_eq_some_iff.1 hk).2
    refine ⟨by simp [hs, C.ids k l hk], k, hlt, hget, ?_⟩
    intro j hj
    have hjl : j < I.layers.length := by omega
    have := C.ids j I.layers[j] (List.getElem?_eq_getElem hjl)
    simp only [Function.comp_apply, this, Bool.not_eq_true', decide_eq_false_iff_not]
    rintro ⟨-, h⟩
    simp at h
    omega
  rw [hfind]
  rfl

/-- the tables say what the layers say -/
structure Cache (I : Input) (st : St) : Prop where
  heights : ∀ lyr e, UMap.find? st.heights lyr = some e →
    ∀ l, findLayer I.layers lyr = some l → l.slab.stackup = true → e = (l.slab.elev, l.slab.thick)
  mats : ∀ lyr e, UMap.find? st.mats lyr = some e →
    ∀ l, findLayer I.layers lyr = some l → l.cond = some e.1 ∧ l.diel = some e.2

theorem readHeight_ok {I : Input} (C : Complete I) {st : St} (K : Cache I st) {lyr : Int}
    (h : IsLayer I.layers lyr) {l : LayerIn} (hl : findLayer I.layers lyr = some l) :
    ∃ st', readHeight I.layers st lyr = .ok (st', (l.slab.elev, l.slab.thick)) ∧ st'.m = st.m ∧ Cache I st' := by
  obtain ⟨l', c, d, h1, h2, h3, h4, h5⟩ := layer_of C h
  rw [hl, Option.some.injEq] at h1
  subst h1
  unfold readHeight
  cases hf : UMap.find? st.heights lyr with
  | some e =>
    have := K.heights lyr e hf l hl h2
    subst this
    exact ⟨{ st with cur := some (l.slab.elev, l.slab.thick) }, rfl, rfl, K.heights, K.mats⟩
  | none =>
    simp only [h5]
    refine ⟨{ st with cur := some (l.slab.elev, l.slab.thick),
                      heights := (UMap.emplace st.heights lyr (l.slab.elev, l.slab.thick)).1 }, rfl, rfl, ?_, K.mats⟩
    intro lyr' e he l'' hl'' hs''
    rw [UMap.find?_emplace'] at he
    by_cases hc : lyr' = lyr
    · subst hc
      simp only [hf, true_and, if_true, Option.some.injEq] at he
      rw [hl, Option.some.injEq] at hl''
      subst hl''
      exact he.symm
    · simp only [hc, false_and, if_false] at he
      exact K.heights lyr' e he l'' hl'' hs''

theorem readMats_ok {I : Input} {st : St} (K : Cache I st) {lyr : Int} {l : LayerIn} {c d : Int}
    (hl : findLayer I.layers lyr = some l) (hs : l.slab.stackup = true) (hc : l.cond = some c)
    (hd : l.diel = some d) :
    ∃ st', readMats I.layers st lyr = .ok (some (st', (c, d))) ∧ st'.m = st.m ∧ Cache I st' := by
  unfold readMats
  cases hf : UMap.find? st.mats lyr with
  | some e =>
    obtain ⟨e1, e2⟩ := K.mats lyr e hf l hl
    rw [hc, Option.some.injEq] at e1
    rw [hd, Option.some.injEq] at e2
    subst e1 e2
    exact ⟨st, rfl, rfl, K⟩
  | none =>
    simp only [hl, hs, hc, hd]
    refine ⟨{ st with mats := (UMap.emplace st.mats lyr (c, d)).1 }, rfl, rfl, K.heights, ?_⟩
    intro lyr' e he l'' hl''
    rw [UMap.find?_emplace'] at he
    by_cases hcc : lyr' = lyr
    · subst hcc
      simp only [hf, true_and, if_true, Option.some.injEq] at he
      rw [hl, Option.some.injEq] at hl''
      subst hl'' he
      exact ⟨hc, hd⟩
    · simp only [hcc, false_and, if_false] at he
      exact K.mats lyr' e he l'' hl''

theorem addStack_ok {I : Input} (C : Complete I) (E : Env) (b : Shape) (hb : I.boundary = some b)
    (ls : List LayerIn) (hls : ∀ l ∈ ls, l ∈ I.layers) (st : St) :
    ∃ st', addStack E I.layers I.boundary st (ls.filter (·.slab.stackup)) = .ok st' ∧
      st'.m = addItems E st.m (ls.flatMap (stackItems b)) ∧ st'.heights = st.heights ∧ st'.mats = st.mats := by
  induction ls generalizing st with
  | nil => exact ⟨st, rfl, rfl, rfl, rfl⟩
  | cons l ls ih =>
    have ih := ih (fun x hx => hls x (by simp [hx]))
    rw [List.flatMap_cons, addItems_append]
    cases hs : l.slab.stackup with
    | false =>
      rw [List.filter_cons_of_neg (by simp [hs])]
      have : stackItems b l = [] := by simp [stackItems, hs]
      rw [this]
      exact ih st
    | true =>
      rw [List.filter_cons_of_pos (by simp [hs])]
      obtain ⟨k, hk⟩ := List.getElem?_of_mem (hls l (by simp))
      have hid := C.ids k l hk
      obtain ⟨l', c, d, h1, h2, h3, h4, h5⟩ := layer_of C (lyr := k) ⟨k, l, rfl, hk, hs⟩
      have : l' = l := by simpa [findLayer, hk] using h1.symm
      subst this
      rw [addStack]
      simp only [h4, hid, h5, hb, addShape_eq, Res.bind_ok]
      have hst : stackItems b l' = [.shape (-1) d (-1) b l'.slab.elev l'.slab.thick] := by simp [stackItems, hs, h4]
      obtain ⟨st', e1, e2, e3, e4⟩ := ih { st with
        m := addItem E st.m (.shape noId d noId b l'.slab.elev l'.slab.thick),
        cur := some (l'.slab.elev, l'.slab.thick) }
      rw [hb] at e1
      exact ⟨st', e1, by rw [e2, hst]; rfl, e3, e4⟩

theorem addComponent_ok {I : Input} (C : Complete I) (E : Env) (m : Model) (c : CompIn) (hc : c ∈ I.comps) :
    addComponent E (I.layers.map LayerIn.slab) m c = .ok (addItems E m (compItems I.layers c)) := by
  obtain ⟨h1, h2, h3, h4⟩ := C.comps c hc
  obtain ⟨b, hb⟩ := Option.isSome_iff_exists.1 h1
  obtain ⟨mat, hm⟩ := Option.isSome_iff_exists.1 h2
  obtain ⟨l, _, _, hl, _, _, _, hh⟩ := layer_of C h3
  unfold addComponent compItems partHeight solderHeight
  simp only [hb, hm, hl, hh]
  have hb : ∀ (m : Model) (mat : Int) (e t : ℚ), (addPolygon E m noId mat b false e t).1 =
      addItem E m (.shape (-1) mat (-1) ⟨b, [], none⟩ e t) := fun m mat e t => (addItem_outline E m _ _ _ b e t).symm
  have hh : ∀ (e : ℚ), addPowerBlock E m mat b c.scen c.power e c.part.height (1 / 10) (1 / 10) =
      addItem E m (.heat mat b e c.part.height c.scen c.power (1 / 10)) := fun _ => rfl
  simp only [hb, hh, gt_iff_lt]
  have hp : (!c.power.isEmpty) = true ↔ ¬ c.power = [] := by simp
  by_cases hs : 0 < c.part.solder
  · obtain ⟨sm, hsm⟩ := Option.isSome_iff_exists.1 (h4 hs)
    by_cases hpw : c.power = []
    · simp [hs, hsm, hpw, addItems]
    · simp [hs, hsm, hpw, addItems]
  · by_cases hpw : c.power = []
    · cases c.solderMat <;> simp [hs, hpw, addItems]
    · cases c.solderMat <;> simp [hs, hpw, addItems]

theorem addComponents_ok {I : Input} (C : Complete I) (E : Env) (cs : List CompIn) (hcs : ∀ c ∈ cs, c ∈ I.comps)
    (m : Model) :
    addComponents E (I.layers.map LayerIn.slab) m cs = .ok (addItems E m (cs.flatMap (compItems I.layers))) := by
  induction cs generalizing m with
  | nil => rfl
  | cons c cs ih =>
    rw [addComponents, addComponent_ok C E m c (hcs c (by simp)), Res.bind_ok, ih (fun x hx => hcs x (by simp [hx])),
      List.flatMap_cons, addItems_append]

theorem jointTable_eq (E : Env) (w : WireIn) (j : Joint) (s : Shape) (t : ℚ) :
    jointTable E w j s t = [(29815 / 100, w.current ^ 2 * (j.resist * t / E.area s.outline))] := by
  unfold jointTable
  rw [pow_two]

theorem addTop_ok (E : Env) (st : St) (w : WireIn) (h : JointOk w.top) :
    ∃ st', addTop E st w = .ok st' ∧ st'.m = addItems E st.m (jointItems E w w.top) ∧
      st'.heights = st.heights ∧ st'.mats = st.mats := by
  unfold addTop jointItems
  cases hj : w.top with
  | none => exact ⟨st, rfl, rfl, rfl, rfl⟩
  | some j =>
    obtain ⟨h1, h2⟩ := h j hj
    obtain ⟨⟨s, e, t⟩, hp⟩ := Option.isSome_iff_exists.1 h1
    obtain ⟨mat, hm⟩ := Option.isSome_iff_exists.1 h2
    simp only [hp, hm, gt_iff_lt, jointTable_eq, addShape_eq, Res.bind_ok]
    by_cases hc : 0 < w.current
    · simp only [hc, if_true]
      exact ⟨_, rfl, rfl, rfl, rfl⟩
    · simp only [hc, if_false]
      exact ⟨_, rfl, rfl, rfl, rfl⟩

theorem addBot_ok (E : Env) (st : St) (w : WireIn) (h : JointOk w.bot) (hcur : w.bot.isSome → w.current ≤ 0) :
    ∃ st', addBot E st w = .ok st' ∧ st'.m = addItems E st.m (jointItems E w w.bot) ∧
      st'.heights = st.heights ∧ st'.mats = st.mats := by
  unfold addBot jointItems
  cases hj : w.bot with
  | none => exact ⟨st, rfl, rfl, rfl, rfl⟩
  | some j =>
    obtain ⟨h1, h2⟩ := h j hj
    obtain ⟨⟨s, e, t⟩, hp⟩ := Option.isSome_iff_exists.1 h1
    obtain ⟨mat, hm⟩ := Option.isSome_iff_exists.1 h2
    have hc : ¬ 0 < w.current := not_lt.2 (hcur (by rw [hj]; rfl))
    simp only [hp, hm, gt_iff_lt, jointTable_eq, addShape_eq, Res.bind_ok, hc, if_false]
    exact ⟨_, rfl, rfl, rfl, rfl⟩

theorem cache_of_eq {I : Input} {st st' : St} (K : Cache I st) (h1 : st'.heights = st.heights)
    (h2 : st'.mats = st.mats) : Cache I st' := ⟨by rw [h1]; exact K.heights, by rw [h2]; exact K.mats⟩

theorem addPrim_ok {I : Input} (C : Complete I) (E : Env) (st : St) (K : Cache I st) (p : Prim) (hp : p ∈ I.prims)
    {ps : List Piece} {cs : List (Int × Int)} {ws : List WireOut} (R : Rep E st.m ps cs ws) :
    ∃ st', addPrim E I.layers st p = .ok st' ∧ Cache I st' ∧
      Rep E st'.m (ps ++ ((primItems E I.layers p).flatMap Item.pieces).filter (Piece.Thick E))
        (cs ++ (primItems E I.layers p).flatMap Item.centre) (ws ++ wiresOf [p]) := by
  cases p with
  | other => exact ⟨st, rfl, K, by simpa [primItems, wiresOf] using R⟩
  | wire w =>
    obtain ⟨h1, h2, h3, h4⟩ := C.wires w hp
    obtain ⟨mat, hm⟩ := Option.isSome_iff_exists.1 h1
    simp only [addPrim, addWire, hm, primItems]
    have R0 : Rep E { st.m with wires := st.m.wires ++ [⟨w.net, w.radius, mat, w.current, w.scen, w.points⟩] }
        ps cs (ws ++ wiresOf [.wire w]) :=
      ⟨R.ranges, R.polygons, R.mats, R.nets, R.wf, R.blocks, R.steiner, by simp [R.wires, wiresOf, hm]⟩
    obtain ⟨st1, a1, a2, a3, a4⟩ := addTop_ok E { st with m := { st.m with wires := st.m.wires ++ [⟨w.net, w.radius, mat, w.current, w.scen, w.points⟩] } } w h2
    obtain ⟨st2, b1, b2, b3, b4⟩ := addBot_ok E st1 w h3 h4
    refine ⟨st2, by simp only [a1, Res.bind_ok, b1], cache_of_eq K (b3.trans a3) (b4.trans a4), ?_⟩
    rw [b2, a2, ← addItems_append]
    exact rep_items _ R0
  | geom s net lyr =>
    obtain ⟨h1, h2⟩ := C.geoms s net lyr hp
    obtain ⟨s, rfl⟩ := Option.isSome_iff_exists.1 h1
    obtain ⟨l, c, d, e1, e2, e3, e4, -⟩ := layer_of C h2
    obtain ⟨st1, a1, a2, a3⟩ := readMats_ok K e1 e2 e3 e4
    obtain ⟨st2, b1, b2, b3⟩ := readHeight_ok C a3 h2 e1
    simp only [addPrim, a1, Res.bind_ok, b1, addShape_eq, primItems, e1, e3, e4]
    refine ⟨_, rfl, cache_of_eq b3 rfl rfl, ?_⟩
    have : ws ++ wiresOf [.geom (some s) net lyr] = ws := by simp [wiresOf]
    rw [this]
    rw [b2, a2]
    exact rep_items [.shape net c d s l.slab.elev l.slab.thick] R

theorem addPrims_ok {I : Input} (C : Complete I) (E : Env) (qs : List Prim) (hq : ∀ p ∈ qs, p ∈ I.prims) (st : St)
    (K : Cache I st) {ps : List Piece} {cs : List (Int × Int)} {ws : List WireOut} (R : Rep E st.m ps cs ws) :
    ∃ st', addPrims E I.layers st qs = .ok st' ∧ Cache I st' ∧
      Rep E st'.m (ps ++ ((qs.flatMap (primItems E I.layers)).flatMap Item.pieces).filter (Piece.Thick E))
        (cs ++ (qs.flatMap (primItems E I.layers)).flatMap Item.centre) (ws ++ wiresOf qs) := by
  induction qs generalizing st ps cs ws with
  | nil => exact ⟨st, rfl, K, by simpa [wiresOf] using R⟩
  | cons q qs ih =>
    obtain ⟨st1, a1, a2, a3⟩ := addPrim_ok C E st K q (hq q (by simp)) R
    obtain ⟨st2, b1, b2, b3⟩ := ih (fun p hp => hq p (by simp [hp])) st1 a2 a3
    refine ⟨st2, by simp only [addPrims, a1, Res.bind_ok, b1], b2, ?_⟩
    have hw : wiresOf (q :: qs) = wiresOf [q] ++ wiresOf qs := by
      unfold wiresOf
      rw [← List.filterMap_append]
      rfl
    rw [hw, List.flatMap_cons, List.flatMap_append, List.flatMap_append, List.filter_append, ← List.append_assoc,
      ← List.append_assoc, ← List.append_assoc]
    exact b3

theorem addPadLayers_ok {I : Input} (C : Complete I) (E : Env) (p : PadIn) (mat : Int) (hm : p.mat = some mat) (n : Nat)
    (lyr : Int)
    (h : ∀ k : Nat, k < n → (p.shape (lyr + k)).isSome ∧ IsLayer I.layers (lyr + k)) (st : St) (K : Cache I st) :
    ∃ st', addPadLayers E I.layers p.net mat p.shape st lyr n = .ok st' ∧ Cache I st' ∧
      st'.m = addItems E st.m ((List.range n).flatMap fun (k : Nat) => padItem I.layers p (lyr + k)) := by
  induction n generalizing lyr st with
  | zero => exact ⟨st, rfl, K, rfl⟩
  | succ n ih =>
    obtain ⟨h1, h2⟩ := h 0 (by omega)
    simp only [Nat.cast_zero, add_zero] at h1 h2
    obtain ⟨s, hs⟩ := Option.isSome_iff_exists.1 h1
    obtain ⟨l, c, d, e1, e2, e3, e4, -⟩ := layer_of C h2
    obtain ⟨st1, b1, b2, b3⟩ := readHeight_ok C K h2 e1
    have hstep : addPadLayer E I.layers p.net mat p.shape st lyr =
        .ok { st1 with m := addItem E st.m (.shape p.net mat mat s l.slab.elev l.slab.thick) } := by
      simp only [addPadLayer, b1, Res.bind_ok, hs, addShape_eq, b2]
    obtain ⟨st2, c1, c2, c3⟩ := ih (lyr + 1) (by
      intro k hk
      have := h (k + 1) (by omega)
      have e : lyr + ((k + 1 : Nat) : Int) = lyr + 1 + k := by push_cast; omega
      rw [e] at this
      exact this) { st1 with m := addItem E st.m (.shape p.net mat mat s l.slab.elev l.slab.thick) }
      (cache_of_eq b3 rfl rfl)
    refine ⟨st2, by simp only [addPadLayers, hstep, Res.bind_ok, c1], c2, ?_⟩
    rw [c3, List.range_succ_eq_map, List.flatMap_cons, addItems_append, List.flatMap_map]
    have h0 : padItem I.layers p (lyr + ((0 : Nat) : Int)) = [.shape p.net mat mat s l.slab.elev l.slab.thick] := by
      simp [padItem, e1, hm, hs]
    rw [h0]
    have e : ∀ k : Nat, lyr + ((k + 1 : Nat) : Int) = lyr + 1 + k := by intro k; push_cast; omega
    simp only [Nat.succ_eq_add_one, e]
    rfl

theorem addPads_ok {I : Input} (C : Complete I) (E : Env) (qs : List PadIn) (hq : ∀ p ∈ qs, p ∈ I.pads) (st : St)
    (K : Cache I st) :
    ∃ st', addPads E I.layers st qs = .ok st' ∧ st'.m = addItems E st.m (qs.flatMap (padItems I.layers)) := by
  induction qs generalizing st with
  | nil => exact ⟨st, rfl, rfl⟩
  | cons p qs ih =>
    have one : ∃ st1, addPad E I.layers st p = .ok st1 ∧ Cache I st1 ∧
        st1.m = addItems E st.m (padItems I.layers p) := by
      unfold addPad padItems
      cases hd : p.data with
      | false => exact ⟨st, rfl, K, rfl⟩
      | true =>
        obtain ⟨h1, h2⟩ := C.pads p (hq p (by simp)) hd
        obtain ⟨mat, hm⟩ := Option.isSome_iff_exists.1 h1
        simp only [hm, Bool.not_true, Bool.false_eq_true, if_false, if_true]
        apply addPadLayers_ok C E p mat hm
        · intro k hk
          exact h2 _ (by omega) (by omega)
        · exact K
    obtain ⟨st1, a1, a2, a3⟩ := one
    obtain ⟨st2, b1, b2⟩ := ih (fun x hx => hq x (by simp [hx])) st1 a2
    exact ⟨st2, by simp only [addPads, a1, Res.bind_ok, b1], by rw [b2, a3, List.flatMap_cons, addItems_append]⟩

/-- what the imprint boxes add -/
theorem foldl_imprint (ps : List Polygon) (m : Model) :
    ps.foldl addImprint m = { m with
      ranges := m.ranges ++ ps.map fun _ => ⟨-2147483647, 2147483647⟩, polygons := m.polygons ++ ps,
      mats := m.mats ++ ps.map fun _ => -1, nets := m.nets ++ ps.map fun _ => -1 } := by
  induction ps generalizing m with
  | nil => simp
  | cons p ps ih =>
    rw [List.foldl_cons, ih]
    simp [addImprint, noId, List.append_assoc]

theorem rep_generate {I : Input} (C : Complete I) (E : Env) (b : Shape) (hb : I.boundary = some b) :
    ∃ m, generate E I = .ok (I.imprints.foldl addImprint m) ∧
      Rep E m (((items E I b).flatMap Item.pieces).filter (Piece.Thick E)) ((items E I b).flatMap Item.centre)
        (wiresOf I.prims) := by
  have R0 : Rep E Model.new [] [] [] :=
    ⟨rfl, rfl, rfl, rfl, UMap.WF_nil, fun i => by simp [Model.new, UMap.find?_nil], by simp [Model.new], rfl⟩
  obtain ⟨st1, a1, a2, a3, a4⟩ := addStack_ok C E b hb I.layers (fun l h => h) ⟨Model.new, none, [], []⟩
  have a5 := addComponents_ok C E I.comps (fun c h => h) st1.m
  have R1 := rep_items (I.layers.flatMap (stackItems b) ++ I.comps.flatMap (compItems I.layers)) R0
  rw [addItems_append] at R1
  have K1 : Cache I { st1 with m := addItems E st1.m (I.comps.flatMap (compItems I.layers)) } := by
    refine ⟨?_, ?_⟩
    · intro lyr e h; simp only [a3, UMap.find?_nil] at h; simp at h
    · intro lyr e h; simp only [a4, UMap.find?_nil] at h; simp at h
  have a2' : addItems E Model.new (I.layers.flatMap (stackItems b)) = st1.m := a2.symm
  rw [a2'] at R1
  obtain ⟨st2, b1, b2, b3⟩ := addPrims_ok C E I.prims (fun p h => h)
    { st1 with m := addItems E st1.m (I.comps.flatMap (compItems I.layers)) } K1 R1
  obtain ⟨st3, c1, c2⟩ := addPads_ok C E I.pads (fun p h => h) st2 b2
  refine ⟨st3.m, by simp only [generate, a1, a5, Res.bind_ok, b1, c1], ?_⟩
  have R3 := rep_items (I.pads.flatMap (padItems I.layers)) b3
  rw [← c2] at R3
  simp only [List.nil_append] at R3
  unfold items
  simp only [List.flatMap_append, List.filter_append] at R3 ⊢
  exact R3

/-- **C96**, the part that holds. From a complete layout a model is made whose polygons are, in this order:
for each stackup layer the outline and holes of the board, for each component its body and its solder layer,
for each solder joint and each shape its outline and holes, for each padstack instance its shape on each
layer of its range, all those at least one unit thick with the heights, material and net of their object;
then the imprint boxes, without height and material.  Power blocks are exactly those of the components with
loss power and of the heated joints and refer to their polygon.  There is a bond wire for each bond wire, and
the centres of all circles are kept if asked for.  What is missing: the joint at the end of a wire with a
current (`c96_joint_twice_refuted`), the net of heated joints (`c96_net_refuted`), layers without pad
(`c96_pad_refuted`), layers without height (`c96_stale_refuted`), thin components with power
(`c96_thin_refuted`). -/
theorem c96_extract_partial (E : Env) (I : Input) (C : Complete I) (b : Shape) (hb : I.boundary = some b) :
    ∃ m ps, generate E I = .ok m ∧
      ps = ((items E I b).flatMap Item.pieces).filter (Piece.Thick E) ∧
      m.polygons = ps.map (Piece.oriented E) ++ I.imprints ∧
      (∃ rs, m.ranges = ps.map (Piece.range E) ++ rs ∧ rs.length = I.imprints.length ∧ ∀ r ∈ rs, r.high < r.low) ∧
      m.mats = ps.map Piece.mat ++ I.imprints.map (fun _ => -1) ∧
      m.nets = ps.map Piece.net ++ I.imprints.map (fun _ => -1) ∧
      (∀ i, UMap.find? m.blocks i = (ps[i]?).bind (Piece.block E i)) ∧
      m.wires = wiresOf I.prims ∧
      m.steiner = if E.circles then (items E I b).flatMap Item.centre else [] := by
  obtain ⟨m, h, R⟩ := rep_generate C E b hb
  refine ⟨_, _, h, rfl, ?_, ⟨I.imprints.map fun _ => ⟨-2147483647, 2147483647⟩, ?_, by simp, ?_⟩, ?_, ?_, ?_, ?_, ?_⟩
  · rw [foldl_imprint, R.polygons]
  · rw [foldl_imprint, R.ranges]
  · intro r hr
    rw [List.mem_map] at hr
    obtain ⟨_, _, rfl⟩ := hr
    decide
  · rw [foldl_imprint, R.mats]
  · rw [foldl_imprint, R.nets]
  · rw [foldl_imprint]; exact R.blocks
  · rw [foldl_imprint]; exact R.wires
  · rw [foldl_imprint]; exact R.steiner

/-- Outlines end up counterclockwise and holes clockwise if reversing turns the sense round. -/
theorem c96_orientation (E : Env) (p : Piece) (h : E.ccw p.poly.reverse = !E.ccw p.poly) :
    E.ccw (p.oriented E) = !p.hole ∧ (p.oriented E).Perm p.poly := by
  unfold Piece.oriented
  split
  · exact ⟨by assumption, List.Perm.refl _⟩
  · rename_i hn
    refine ⟨?_, List.reverse_perm _⟩
    rw [h]
    revert hn
    cases E.ccw p.poly <;> cases p.hole <;> simp

/-- polygons of an item: those without material have the heights of one with material -/
def Solid (I : Input) : Prop :=
  (∀ l ∈ I.layers, l.cond ≠ some (-1) ∧ l.diel ≠ some (-1)) ∧
  (∀ c ∈ I.comps, c.mat ≠ some (-1) ∧ c.solderMat ≠ some (-1)) ∧
  (∀ w, Prim.wire w ∈ I.prims → ∀ j, w.top = some j ∨ w.bot = some j → j.mat ≠ some (-1)) ∧
  (∀ p ∈ I.pads, p.mat ≠ some (-1))

/-- every item begins with a polygon that has a material -/
def ItemSolid : Item → Prop
  | .shape _ solid _ _ _ _ => solid ≠ -1
  | .heat mat _ _ _ _ _ _ => mat ≠ -1

theorem solid_items (E : Env) (I : Input) (b : Shape) (S : Solid I) : ∀ x ∈ items E I b, ItemSolid x := by
  obtain ⟨s1, s2, s3, s4⟩ := S
  have hj : ∀ w j, (∀ x, j = some x → x.mat ≠ some (-1)) → ∀ x ∈ jointItems E w j, ItemSolid x := by
    intro w j hj x hx
    unfold jointItems at hx
    cases j with
    | none => simp at hx
    | some j =>
      have hj := hj j rfl
      simp only at hx
      split at hx
      · rename_i hm
        rw [hm] at hj
        split at hx
        · simp only [List.mem_singleton] at hx; subst hx; simpa [ItemSolid] using hj
        · simp only [List.mem_singleton] at hx; subst hx; simpa [ItemSolid] using hj
      · simp at hx
  intro x hx
  unfold items at hx
  simp only [List.mem_append, List.mem_flatMap] at hx
  rcases hx with ((⟨l, hl, hx⟩ | ⟨c, hc, hx⟩) | ⟨p, hp, hx⟩) | ⟨p, hp, hx⟩
  · unfold stackItems at hx
    split at hx
    · rename_i hd
      have := (s1 l hl).2
      rw [hd] at this
      simp only [List.mem_singleton] at hx; subst hx; simpa [ItemSolid] using this
    · simp at hx
  · unfold compItems at hx
    obtain ⟨m1, m2⟩ := s2 c hc
    split at hx
    · rename_i hm
      rw [hm] at m1
      simp only [List.mem_cons] at hx
      rcases hx with rfl | hx
      · split <;> simpa [ItemSolid] using m1
      · split at hx
        · rename_i hsm
          rw [hsm] at m2
          split at hx
          · simp only [List.mem_singleton] at hx; subst hx; simpa [ItemSolid] using m2
          · simp at hx
        · simp at hx
    · simp at hx
  · cases p with
    | other => simp [primItems] at hx
    | wire w =>
      simp only [primItems, List.mem_append] at hx
      rcases hx with hx | hx
      · exact hj w w.top (fun j h => s3 w hp j (Or.inl h)) x hx
      · exact hj w w.bot (fun j h => s3 w hp j (Or.inr h)) x hx
    | geom s net lyr =>
      simp only [primItems] at hx
      split at hx
      · rename_i l s' hl
        have hmem : l ∈ I.layers := by
          unfold findLayer at hl
          split at hl
          · simp at hl
          · exact List.mem_of_getElem? hl
        split at hx
        · rename_i hc _
          have := (s1 l hmem).1
          rw [hc] at this
          simp only [List.mem_singleton] at hx; subst hx; simpa [ItemSolid] using this
        · simp at hx
      · simp at hx
  · unfold padItems at hx
    split at hx
    · rw [List.mem_flatMap] at hx
      obtain ⟨k, _, hx⟩ := hx
      unfold padItem at hx
      split at hx
      · rename_i hm _
        have := s4 p hp
        rw [hm] at this
        simp only [List.mem_singleton] at hx; subst hx; simpa [ItemSolid] using this
      · simp at hx
    · simp at hx

/-- each polygon has the heights of a polygon with material -/
theorem solid_range (E : Env) (is : List Item) (h : ∀ x ∈ is, ItemSolid x) :
    ∀ p ∈ (is.flatMap Item.pieces).filter (Piece.Thick E), ∃ q ∈ (is.flatMap Item.pieces).filter (Piece.Thick E),
      q.mat ≠ -1 ∧ q.range E = p.range E := by
  intro p hp
  rw [List.mem_filter, List.mem_flatMap] at hp
  obtain ⟨⟨x, hx, hpx⟩, hT⟩ := hp
  have hs := h x hx
  cases x with
  | heat mat o e t scen power pos =>
    simp only [Item.pieces, List.mem_singleton] at hpx
    subst hpx
    exact ⟨_, List.mem_filter.2 ⟨List.mem_flatMap.2 ⟨_, hx, by simp [Item.pieces]⟩, hT⟩, hs, rfl⟩
  | shape net solid hole s e t =>
    have hq : (⟨net, solid, s.outline, false, e, t, none⟩ : Piece).range E = p.range E ∧
        Piece.Thick E ⟨net, solid, s.outline, false, e, t, none⟩ = Piece.Thick E p := by
      simp only [Item.pieces, List.mem_cons, List.mem_map] at hpx
      rcases hpx with rfl | ⟨o, _, rfl⟩ <;> exact ⟨rfl, rfl⟩
    exact ⟨⟨net, solid, s.outline, false, e, t, none⟩,
      List.mem_filter.2 ⟨List.mem_flatMap.2 ⟨_, hx, by simp [Item.pieces]⟩, by rw [hq.2]; exact hT⟩, hs, hq.1⟩

theorem filterMap_range_get {α : Type} (f : Nat → Option α) (n : Nat) (h : ∀ i, i < n → (f i).isSome = true) :
    ((List.range n).filterMap f).length = n ∧ ∀ i, i < n → ((List.range n).filterMap f)[i]? = f i := by
  induction n with
  | zero => simp
  | succ n ih =>
    obtain ⟨h1, h2⟩ := ih fun i hi => h i (by omega)
    obtain ⟨x, hx⟩ := Option.isSome_iff_exists.1 (h n (by omega))
    rw [List.range_succ, List.filterMap_append]
    simp only [List.filterMap_cons, List.filterMap_nil, hx, List.length_append, h1, List.length_cons, List.length_nil]
    refine ⟨trivial, fun i hi => ?_⟩
    by_cases hn : i < n
    · rw [List.getElem?_append_left (by omega), h2 i hn]
    · have : i = n := by omega
      subst this
      rw [List.getElem?_append_right (by omega), h1, Nat.sub_self, hx]
      rfl

/-- From a complete layout whose materials have ids the tables of layers can be built (here without slicing),
although holes of the board and of solder joints have no material: no height is unknown.  Each polygon of the
specification is then listed on exactly the layers between its heights. -/
theorem c96_build (E : Env) (I : Input) (C : Complete I) (S : Solid I) (b : Shape) (hb : I.boundary = some b)
    {ratio : ℚ} (hr : ratio ≤ 1) (fuel : Nat) :
    ∃ m c, extract E ratio fuel I = .ok (m, some (.ok c)) ∧ c.order.Pairwise (· > ·) ∧
      ∀ (i : Nat) p, (((items E I b).flatMap Item.pieces).filter (Piece.Thick E))[i]? = some p →
        ∃ s e, s < e ∧ c.order[s]? = some (p.range E).high ∧ c.order[e]? = some (p.range E).low ∧
          ∀ k, (∃ l, c.lut k = some l ∧ i ∈ l) ↔ s ≤ k ∧ k < e := by
  obtain ⟨m, ps, h, hps, hpol, ⟨rs, hrs, hlen, hinv⟩, hmat, hnet, hblk, -, -⟩ := c96_extract_partial E I C b hb
  have hsol := solid_range E (items E I b) (solid_items E I b S)
  rw [← hps] at hsol
  have hat : ∀ i p, ps[i]? = some p → m.polyAt i =
      some ⟨p.range E, decide (p.mat ≠ -1), ((p.block E i).map Block.range)⟩ := by
    intro i p hp
    have hi := (List.getElem?_eq_some_iff.1 hp).1
    unfold Model.polyAt
    rw [hrs, hmat, List.getElem?_append_left (by simpa using hi), List.getElem?_append_left (by simpa using hi),
      List.getElem?_map, List.getElem?_map, hp, hblk, hp]
    rfl
  have hplen : m.polygons.length = ps.length + I.imprints.length := by rw [hpol]; simp
  have hmem : ∀ p ∈ ps, ∃ q ∈ m.polys, q.range = p.range E ∧ (q.mat = true ↔ p.mat ≠ -1) := by
    intro p hp
    obtain ⟨i, hi⟩ := List.getElem?_of_mem hp
    have hil := (List.getElem?_eq_some_iff.1 hi).1
    refine ⟨_, List.mem_filterMap.2 ⟨i, List.mem_range.2 (by omega), hat i p hi⟩, rfl, ?_⟩
    simp
  have hval : ∀ q ∈ m.polys, q.range.isValid = true → ∃ p ∈ ps, q.range = p.range E := by
    intro q hq hv
    obtain ⟨i, hi, hq⟩ := List.mem_filterMap.1 hq
    rw [List.mem_range, hplen] at hi
    by_cases hil : i < ps.length
    · obtain ⟨p, hp⟩ : ∃ p, ps[i]? = some p := ⟨_, List.getElem?_eq_getElem hil⟩
      rw [hat i p hp, Option.some.injEq] at hq
      exact ⟨p, List.mem_of_getElem? hp, by rw [← hq]⟩
    · exfalso
      unfold Model.polyAt at hq
      split at hq
      · rename_i r mat h1 h2
        rw [Option.some.injEq] at hq
        subst hq
        rw [hrs, List.getElem?_append_right (by simp; omega)] at h1
        have := hinv r (List.mem_of_getElem? h1)
        unfold Range.isValid at hv
        simp at hv
        omega
      · simp at hq
  have hord : ∀ q ∈ m.polys, q.range.isValid = true → q.range.high ∈ layerOrder m.polys ∧ q.range.low ∈ layerOrder m.polys := by
    intro q hq hv
    obtain ⟨p, hp, e⟩ := hval q hq hv
    obtain ⟨p', hp', hm', e'⟩ := hsol p hp
    obtain ⟨q', hq', er, em⟩ := hmem p' hp'
    have hv' : q'.range.isValid = true := by rw [er, e', ← e]; exact hv
    have hqq : q'.range = q.range := by rw [er, e', e]
    have hh : q.range.high ∈ polyHeights q' ∧ q.range.low ∈ polyHeights q' := by
      unfold polyHeights
      rw [em.2 hm', hv', hqq]
      cases q'.power <;> simp
    exact ⟨(mem_order _ _).2 ⟨q', hq', hh.1⟩, (mem_order _ _).2 ⟨q', hq', hh.2⟩⟩
  obtain ⟨lut, hl⟩ := fillLut_ok m.polys hord 0 (fun _ => none)
  have hall : ∀ i, i < m.polygons.length → (m.polyAt i).isSome = true := by
    intro i hi
    rw [hplen] at hi
    have e1 : i < m.ranges.length := by rw [hrs]; simp; omega
    have e2 : i < m.mats.length := by rw [hmat]; simp; omega
    unfold Model.polyAt
    rw [List.getElem?_eq_getElem e1, List.getElem?_eq_getElem e2]
    rfl
  have hget := (filterMap_range_get m.polyAt m.polygons.length hall).2
  have hbuild : build ratio fuel m.polys = some (.ok ⟨layerOrder m.polys, lut⟩) := by
    simp only [build, hl]
    rw [if_neg (by linarith)]
  obtain ⟨o1, o2, -⟩ := c26_cover hbuild
  refine ⟨m, ⟨layerOrder m.polys, lut⟩, ?_, o1, ?_⟩
  rotate_left
  · rw [← hps]
    intro i p hp
    have hil := (List.getElem?_eq_some_iff.1 hp).1
    have hg := hget i (by omega)
    rw [hat i p hp] at hg
    have hT : Piece.Thick E p = true := by
      have := List.mem_of_getElem? hp
      rw [hps, List.mem_filter] at this
      exact this.2
    exact o2 i _ hg (by simpa [Piece.Thick, Piece.range] using hT)
  have : build ratio fuel m.polys = some (.ok ⟨layerOrder m.polys, lut⟩) := by
    simp only [build, hl]
    rw [if_neg (by linarith)]
  simp only [extract, h, Res.bind_ok, this]

/-! ### what is wrong -/

/-- **C96** fails for a wire with a current and a solder joint at its end: the joint is put into the model
twice, once as power block and once as shape. -/
theorem c96_joint_twice_refuted (E : Env) (st : St) (w : WireIn) (j : Joint) (s : Shape) (e t : ℚ) (mat wm : Int)
    (hw : w.mat = some wm) (ht : w.top = none) (hbt : w.bot = some j) (hp : j.place = some (s, (e, t)))
    (hm : j.mat = some mat) (hs : s.holes = []) (hcur : 0 < w.current)
    (hthick : (layerRange E.scale e t).isValid = true) :
    ∃ st' q, addWire E st w = .ok st' ∧
      st'.m.polygons = st.m.polygons ++ [q, q] ∧ st'.m.mats = st.m.mats ++ [mat, mat] ∧
      st'.m.ranges = st.m.ranges ++ [layerRange E.scale e t, layerRange E.scale e t] ∧
      st'.m.nets = st.m.nets ++ [-1, w.net] := by
  simp only [addWire, hw, addTop, ht, addBot, hbt, hp, hm, Res.bind_ok, gt_iff_lt, hcur, if_true, addShape, hs, addHoles]
  refine ⟨_, if false = E.ccw s.outline then s.outline.reverse else s.outline, rfl, ?_⟩
  unfold addPowerBlock addPolygon
  simp only [hthick, if_true]
  cases E.circles <;> cases s.centre <;> simp [noId]

/-- **C96** fails for the net of a heated joint: it is lost. -/
theorem c96_net_refuted (E : Env) (st : St) (w : WireIn) (j : Joint) (s : Shape) (e t : ℚ) (mat : Int)
    (ht : w.top = some j) (hp : j.place = some (s, (e, t))) (hm : j.mat = some mat) (hcur : 0 < w.current)
    (hthick : (layerRange E.scale e t).isValid = true) :
    ∃ st', addTop E st w = .ok st' ∧ st'.m.nets = st.m.nets ++ [-1] := by
  simp only [addTop, ht, hp, hm, gt_iff_lt, hcur, if_true]
  refine ⟨_, rfl, ?_⟩
  unfold addPowerBlock addPolygon
  simp only [hthick, if_true]
  rfl

theorem addPadLayers_null (E : Env) (layers : List LayerIn) (net mat : Int) (shape : Int → Option Shape) (n k : Nat)
    (hk : k < n) (lyr : Int) (h : shape (lyr + k) = none) (st st' : St) :
    addPadLayers E layers net mat shape st lyr n ≠ .ok st' := by
  induction n generalizing k lyr st with
  | zero => omega
  | succ n ih =>
    intro he
    rw [addPadLayers] at he
    cases hs : addPadLayer E layers net mat shape st lyr with
    | ub => simp [hs] at he
    | exn => simp [hs] at he
    | ok st1 =>
      simp only [hs, Res.bind_ok] at he
      cases k with
      | zero =>
        simp only [Nat.cast_zero, add_zero] at h
        unfold addPadLayer at hs
        cases hr : readHeight layers st lyr with
        | ub => simp [hr] at hs
        | exn => simp [hr] at hs
        | ok r => simp [hr, h, addShape] at hs
      | succ k =>
        refine ih k (by omega) (lyr + 1) ?_ st1 he
        have e : lyr + ((k + 1 : Nat) : Int) = lyr + 1 + k := by push_cast; omega
        rw [← e]; exact h

/-- **C96** fails for a padstack instance with a layer in its range on which it has no shape, for example a
definition with pads on the outer layers and without via: no model is made, a null pointer is
dereferenced. -/
theorem c96_pad_refuted (E : Env) (I : Input) (p : PadIn) (hp : p ∈ I.pads) (hd : p.data = true) (lyr : Int)
    (h1 : min p.top p.bot ≤ lyr) (h2 : lyr ≤ max p.top p.bot) (hs : p.shape lyr = none) (m : Model) :
    generate E I ≠ .ok m := by
  have hpad : ∀ st st', addPad E I.layers st p ≠ .ok st' := by
    intro st st' h
    unfold addPad at h
    simp only [hd, Bool.not_true, Bool.false_eq_true, if_false] at h
    cases hm : p.mat with
    | none => simp [hm] at h
    | some mat =>
      simp only [hm] at h
      refine addPadLayers_null E I.layers p.net mat p.shape _ (lyr - min p.top p.bot).toNat (by omega) _ ?_ st st' h
      have : min p.top p.bot + (((lyr - min p.top p.bot).toNat : Nat) : Int) = lyr := by omega
      rw [this]; exact hs
  have hpads : ∀ (qs : List PadIn), p ∈ qs → ∀ st st', addPads E I.layers st qs ≠ .ok st' := by
    intro qs
    induction qs with
    | nil => intro h; simp at h
    | cons q qs ih =>
      intro hq st st' h
      rw [addPads] at h
      cases ha : addPad E I.layers st q with
      | ub => simp [ha] at h
      | exn => simp [ha] at h
      | ok st1 =>
        simp only [ha, Res.bind_ok] at h
        rcases List.mem_cons.1 hq with rfl | hq
        · exact hpad st st1 ha
        · exact ih hq st1 st' h
  intro h
  unfold generate at h
  generalize addStack E I.layers I.boundary ⟨Model.new, none, [], []⟩ (I.layers.filter (·.slab.stackup)) = a at h
  cases a with
  | ub => simp at h
  | exn => simp at h
  | ok st =>
    simp only [Res.bind_ok] at h
    generalize addComponents E (I.layers.map LayerIn.slab) st.m I.comps = b at h
    cases b with
    | ub => simp at h
    | exn => simp at h
    | ok m1 =>
      simp only [Res.bind_ok] at h
      generalize addPrims E I.layers { st with m := m1 } I.prims = c at h
      cases c with
      | ub => simp at h
      | exn => simp at h
      | ok st2 =>
        simp only [Res.bind_ok] at h
        cases hq : addPads E I.layers st2 I.pads with
        | ub => simp [hq] at h
        | exn => simp [hq] at h
        | ok st3 => exact hpads I.pads hp st2 st3 hq

/-- **C96** fails on a layer without height (a via layer in the range of an instance): the shape gets
elevation and thickness of whatever was read before. -/
theorem c96_stale_refuted (E : Env) (layers : List LayerIn) (net mat : Int) (shape : Int → Option Shape) (s : Shape)
    (lyr : Int) (hs : shape lyr = some s) (hl : layerHeight (layers.map LayerIn.slab) lyr = none) (st : St)
    (hc : UMap.find? st.heights lyr = none) (e t : ℚ) (hcur : st.cur = some (e, t)) :
    ∃ st', addPadLayer E layers net mat shape st lyr = .ok st' ∧
      st'.m = addItem E st.m (.shape net mat mat s e t) := by
  simp only [addPadLayer, readHeight, hc, hl, hcur, Res.bind_ok, hs, addShape_eq]
  exact ⟨_, rfl, rfl⟩

/-- **C96** fails for a component with loss power that is thinner than the height unit: it leaves no trace, its
power is lost. -/
theorem c96_thin_refuted (E : Env) (layers : List (Slab ℚ)) (m : Model) (c : CompIn) (b : Polygon) (mat : Int) (e t : ℚ)
    (hb : c.outline = some b) (hm : c.mat = some mat) (hh : partHeight layers c.part = some (e, t))
    (hsol : c.part.solder = 0) (hthin : (layerRange E.scale e t).isValid = false) :
    addComponent E layers m c = .ok m := by
  have hs : ∃ x, solderHeight layers c.part = some (x, 0) := by
    unfold partHeight at hh
    unfold solderHeight
    cases hl : layerHeight layers c.part.layer with
    | none => simp [hl] at hh
    | some y => exact ⟨_, by rw [hsol]⟩
  obtain ⟨x, hs⟩ := hs
  simp [addComponent, hb, hm, hh, hs, addPowerBlock, addPolygon, hthin]

/-! ### example -/

def sq (x y d : Int) : Polygon := [(x, y), (x + d, y), (x + d, y + d), (x, y + d)]

/-- twice the area inside -/
def area2 (p : Polygon) : Int :=
  ((p.zip (p.tail ++ p.take 1)).map fun e => e.1.1 * e.2.2 - e.2.1 * e.1.2).sum

def exEnv : Env := ⟨1000, true, fun p => decide (0 < area2 p), fun p => (area2 p : ℚ) / 2⟩

/-- a board of a copper layer on a dielectric, a die with loss power on solder, a shape with a hole, a wire with
a joint at its start, and a via through both layers -/
def exIn : Input where
  layers := [⟨⟨"top", 0, true, 2, 1 / 2⟩, some 5, some 6⟩, ⟨⟨"core", 1, true, 3 / 2, 3 / 2⟩, some 5, some 6⟩]
  boundary := some ⟨sq 0 0 100, [], none⟩
  comps := [⟨⟨0, false, 1, 1 / 5⟩, some (sq 10 10 20), some 7, some 8, [(300, 4)], 0⟩]
  prims := [.geom (some ⟨sq 5 5 50, [sq 6 6 2], none⟩) 3 0, .other,
    .wire ⟨some 9, 3, 1 / 10, 2, 1, [((12, 12), 3), ((60, 60), 2)], some ⟨some (⟨sq 11 11 2, [], some (12, 12)⟩, (33 / 10, 1 / 10)), some 8, 1⟩, none⟩]
  pads := [⟨3, true, some 5, 1, 0, fun _ => some ⟨sq 50 50 4, [], some (52, 52)⟩⟩]
  imprints := [sq 0 0 40]

example : Complete exIn where
  ids := by
    intro k l h
    match k, h with
    | 0, h => simp only [exIn, List.getElem?_cons_zero, Option.some.injEq] at h; subst h; rfl
    | 1, h => simp only [exIn, List.getElem?_cons_succ, List.getElem?_cons_zero, Option.some.injEq] at h; subst h; rfl
    | k + 2, h => simp [exIn] at h
  mats := by simp [exIn]
  comps := by
    simp only [exIn, List.mem_singleton, forall_eq, Option.isSome_some, true_and, implies_true, and_true]
    exact ⟨0, _, rfl, rfl, rfl⟩
  wires := by
    intro w hw
    simp only [exIn, List.mem_cons, List.not_mem_nil, or_false, reduceCtorEq, false_or, Prim.wire.injEq] at hw
    subst hw
    simp [JointOk]
  geoms := by
    intro s net lyr h
    simp only [exIn, List.mem_cons, List.not_mem_nil, or_false, reduceCtorEq, Prim.geom.injEq] at h
    obtain ⟨rfl, rfl, rfl⟩ := h
    exact ⟨rfl, 0, _, rfl, rfl, rfl⟩
  pads := by
    intro p hp _
    simp only [exIn, List.mem_singleton] at hp
    subst hp
    refine ⟨rfl, fun lyr h1 h2 => ⟨rfl, ?_⟩⟩
    simp only at h1 h2
    have : lyr = 0 ∨ lyr = 1 := by omega
    rcases this with rfl | rfl
    · exact ⟨0, _, rfl, rfl, rfl⟩
    · exact ⟨1, _, rfl, rfl, rfl⟩

example : Solid exIn := by
  refine ⟨by simp [exIn], by simp [exIn], ?_, by simp [exIn]⟩
  intro w hw j hj
  simp only [exIn, List.mem_cons, List.not_mem_nil, or_false, reduceCtorEq, false_or, Prim.wire.injEq] at hw
  subst hw
  simp only [Option.some.injEq, reduceCtorEq, or_false] at hj
  subst hj
  simp

def exOut : Model := match generate exEnv exIn with
  | .ok m => m
  | _ => Model.new

example : exOut.mats = [6, 6, 7, 8, 5, 6, 8, 5, 5, -1] := by decide +kernel

example : exOut.nets = [-1, -1, -1, -1, 3, 3, -1, 3, 3, -1] := by decide +kernel

example : exOut.ranges = [⟨2000, 1500⟩, ⟨1500, 0⟩, ⟨3200, 2200⟩, ⟨2200, 2000⟩, ⟨2000, 1500⟩, ⟨2000, 1500⟩,
  ⟨3300, 3200⟩, ⟨2000, 1500⟩, ⟨1500, 0⟩, ⟨-2147483647, 2147483647⟩] := by decide +kernel

example : exOut.blocks.map (fun e => (e.1, e.2.range)) = [(2, ⟨3100, 3000⟩), (6, ⟨3250, 3240⟩)] := by decide +kernel

example : exOut.blocks.map (fun e => (e.1, e.2.scen, e.2.power)) =
  [(2, 0, [(300, 4)]), (6, 1, [(5963 / 20, 1 / 10)])] := by decide +kernel

/-- the same wire with a joint at its end -/
def exWire : WireIn := ⟨some 9, 3, 1 / 10, 2, 1, [((12, 12), 3), ((60, 60), 2)], none,
  some ⟨some (⟨sq 58 58 4, [], none⟩, (21 / 10, 1 / 10)), some 8, 1⟩⟩

example : 0 < exWire.current ∧ (layerRange exEnv.scale (21 / 10) (1 / 10)).isValid = true := by decide +kernel

example : (match addWire exEnv ⟨Model.new, none, [], []⟩ exWire with
  | .ok st => st.m.polygons
  | _ => []) = [sq 58 58 4, sq 58 58 4] := by decide +kernel

/-- a component a hundredth of a unit thick -/
example : partHeight (exIn.layers.map LayerIn.slab) ⟨0, false, 1 / 100000, 0⟩ = some (200001 / 100000, 1 / 100000) ∧
    (layerRange exEnv.scale (200001 / 100000) (1 / 100000)).isValid = false := by decide +kernel

/-- layer 2 has no height -/
example : layerHeight (exIn.layers.map LayerIn.slab) 2 = none := by decide +kernel

end Ecad.CutEx
