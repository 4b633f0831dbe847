import Verif.Thermal.NamedModel
import Verif.Thermal.MatProps
import Verif.Thermal.LayoutPrismProps
/-!
C145: the networks of the prism models of a layout use the properties that were given to the materials its objects name, and in the steady state the
models give off the heat that follows from these.
-/
namespace Ecad.Named
open Ecad.Thermal Ecad.GridT Ecad.PrismT Ecad.CutEx Ecad.Mat Ecad.Db Ecad.LayoutPrism Finset

/-! ## specification -/

/-- a polygon of a layout with the name of its material (`none`: nothing, a hole of an outline), and whether it is heated -/
structure NPiece where
  name : Option String
  net : Int
  poly : Polygon
  hole : Bool
  elev : ℚ
  thick : ℚ
  heated : Bool

/-- the polygons of a shape: the outline, then the holes -/
def shapeP (net : Int) (solid : String) (hole : Option String) (s : CutEx.Shape) (e t : ℚ) : List NPiece :=
  ⟨some solid, net, s.outline, false, e, t, false⟩ :: s.holes.map fun h => ⟨hole, net, h, true, e, t, false⟩

/-- the layer with a number -/
def layerAt (layers : List NLayer) (lyr : Int) : Option NLayer := if lyr < 0 then none else layers[lyr.toNat]?

/-- the outline of the layout on a stackup layer, of its dielectric -/
def stackP (b : CutEx.Shape) (l : NLayer) : List NPiece := if l.slab.stackup then shapeP (-1) l.diel none b l.slab.elev l.slab.thick else []

/-- a component on the solder on its side of its layer -/
def compP (layers : List NLayer) (c : NComp) : List NPiece :=
  match layerAt layers c.part.layer, c.outline with
  | some l, some b =>
    ⟨some c.mat, -1, b, false, if c.part.flipped then l.slab.elev - l.slab.thick - c.part.solder else l.slab.elev + c.part.solder + c.part.height,
      c.part.height, !c.power.isEmpty⟩ ::
    if 0 < c.part.solder then
      [⟨some c.solder, -1, b, false, if c.part.flipped then l.slab.elev - l.slab.thick else l.slab.elev + c.part.solder, c.part.solder, false⟩]
    else []
  | _, _ => []

/-- a solder joint: only its outline if there is a current -/
def jointP (w : NWire) (j : Option NJoint) : List NPiece :=
  match j with
  | none => []
  | some j =>
    match j.place with
    | some (s, (e, t)) => if 0 < w.current then [⟨some j.mat, -1, s.outline, false, e, t, true⟩] else shapeP w.net j.mat none s e t
    | none => []

/-- a primitive: a shape is of the conductor of its layer, its holes of the dielectric -/
def primP (layers : List NLayer) : NPrim → List NPiece
  | .other => []
  | .wire w => jointP w w.top ++ jointP w w.bot
  | .geom s net lyr =>
    match layerAt layers lyr, s with
    | some l, some s => shapeP net l.cond (some l.diel) s l.slab.elev l.slab.thick
    | _, _ => []

/-- a padstack instance on one layer, with holes of the same material -/
def padLayerP (layers : List NLayer) (p : NPad) (lyr : Int) : List NPiece :=
  match layerAt layers lyr, p.shape lyr with
  | some l, some s => shapeP p.net p.mat (some p.mat) s l.slab.elev l.slab.thick
  | _, _ => []

/-- a padstack instance on all layers of its range -/
def padP (layers : List NLayer) (p : NPad) : List NPiece :=
  if p.data then (List.range (max p.top p.bot - min p.top p.bot + 1).toNat).flatMap fun (k : Nat) => padLayerP layers p (min p.top p.bot + k) else []

/-- a polygon that is at least one height unit thick after rounding -/
def NPiece.Thick (E : Env) (p : NPiece) : Bool := decide (Geom.round ((p.elev - p.thick) * E.scale) < Geom.round (p.elev * E.scale))

/-- all polygons of a layout -/
def allP (I : NLayout) (b : CutEx.Shape) : List NPiece :=
  I.layers.flatMap (stackP b) ++ I.comps.flatMap (compP I.layers) ++ I.prims.flatMap (primP I.layers) ++ I.pads.flatMap (padP I.layers)

/-- those with a height -/
def pieces (E : Env) (I : NLayout) (b : CutEx.Shape) : List NPiece := (allP I b).filter (NPiece.Thick E)

/-- a polygon reaches through a layer from its upper to its lower height -/
def Spans (E : Env) (cut : Geom.Cut) (k : Nat) (q : NPiece) : Prop :=
  ∃ s e, cut.order[s]? = some (Geom.round (q.elev * E.scale)) ∧ cut.order[e]? = some (Geom.round ((q.elev - q.thick) * E.scale)) ∧ s ≤ k ∧ k < e

/-- the names a layout uses -/
inductive Uses (I : NLayout) : String → Prop where
  | cond (l : NLayer) (h : l ∈ I.layers) (hs : l.slab.stackup = true) : Uses I l.cond
  | diel (l : NLayer) (h : l ∈ I.layers) (hs : l.slab.stackup = true) : Uses I l.diel
  | comp (c : NComp) (h : c ∈ I.comps) : Uses I c.mat
  | solder (c : NComp) (h : c ∈ I.comps) (hs : 0 < c.part.solder) : Uses I c.solder
  | wire (w : NWire) (h : NPrim.wire w ∈ I.prims) : Uses I w.mat
  | joint (w : NWire) (j : NJoint) (h : NPrim.wire w ∈ I.prims) (hj : w.top = some j ∨ w.bot = some j) : Uses I j.mat
  | pad (p : NPad) (h : p ∈ I.pads) (hd : p.data = true) : Uses I p.mat

/-- a number of a stackup layer -/
def OnStack (I : NLayout) (lyr : Int) : Prop := ∃ (k : Nat) (l : NLayer), lyr = k ∧ I.layers[k]? = some l ∧ l.slab.stackup = true

/-- What a material was given: conductivities along the axes, a specific heat and a density. -/
structure Has (ops : List (MOp ℚ)) (n : String) (k : ℚ → Fin 3 → ℚ) (heat rho : ℚ → ℚ) : Prop where
  cond : ∃ p, first ops n 14 = some p ∧ Plain p ∧ ∀ t (i : Fin 3), along p t i = some (k t i)
  heat : ∃ p, first ops n 38 = some p ∧ Single p heat
  rho : ∃ p, first ops n 34 = some p ∧ Single p rho

/-- A resistivity. -/
def HasRes (ops : List (MOp ℚ)) (n : String) (res : ℚ → ℚ) : Prop := ∃ p, first ops n 8 = some p ∧ Single p res

/-- Layouts of the claim: layers are numbered by position; components, shapes and padstack instances have outlines and are on stackup layers, solder
joints have a place, and no wire with a current has one at its end; every name was made a material; what heats is more than two height units thick and
was not last called a fluid; the solder joints with a current have a resistivity. -/
structure NReady (ops : List (MOp ℚ)) (E : Env) (I : NLayout) (b : CutEx.Shape) (res : String → ℚ → ℚ) : Prop where
  boundary : I.boundary = some b
  ids : ∀ (k : Nat) l, I.layers[k]? = some l → l.slab.id = k
  comps : ∀ c ∈ I.comps, c.outline.isSome ∧ OnStack I c.part.layer
  wires : ∀ w, NPrim.wire w ∈ I.prims → (∀ j, w.top = some j ∨ w.bot = some j → j.place.isSome) ∧ (w.bot.isSome → w.current ≤ 0)
  geoms : ∀ s net lyr, NPrim.geom s net lyr ∈ I.prims → s.isSome ∧ OnStack I lyr
  pads : ∀ p ∈ I.pads, p.data = true → ∀ lyr, min p.top p.bot ≤ lyr → lyr ≤ max p.top p.bot → (p.shape lyr).isSome ∧ OnStack I lyr
  made : ∀ n, Uses I n → ∃ o ∈ ops, makes n o = true
  few : ops.length < 2147483648
  thick : ∀ q ∈ allP I b, q.heated = true → 2 < q.thick * E.scale
  rigid : ∀ q ∈ allP I b, q.heated = true → ∀ n, q.name = some n → fluidLast ops n = false
  joints : ∀ w, NPrim.wire w ∈ I.prims → 0 < w.current → ∀ j, w.top = some j → HasRes ops j.mat (res j.mat)

/-- Properties by name are those that were given: to all names that are not fluids and to those of the bond wires. -/
structure Known (ops : List (MOp ℚ)) (I : NLayout) (k : String → ℚ → Fin 3 → ℚ) (heat rho res : String → ℚ → ℚ) : Prop where
  rigid : ∀ n, Uses I n → fluidLast ops n = false → Has ops n (k n) (heat n) (rho n)
  wires : ∀ w, NPrim.wire w ∈ I.prims → Has ops w.mat (k w.mat) (heat w.mat) (rho w.mat) ∧ (w.current ≠ 0 → HasRes ops w.mat (res w.mat))

/-- Properties by id are those by name. -/
def ById {α : Type} (l : Lib ℚ) (F : String → α) (G : Nat → α) : Prop := ∀ n x, findByName l.db .materialDef n = some x → G x.matId = F n

/-- the joule heat of the solder joints at resistivities `r` of their materials -/
def joules (E : Env) (I : NLayout) (r : String → ℚ) : List ℚ :=
  I.prims.filterMap fun
    | .wire w => if 0 < w.current then
        w.top.bind fun j => j.place.map fun p => w.current ^ 2 * (r j.mat * p.2.2 / E.area p.1.outline)
      else none
    | _ => none

/-- The power of a layout by the names of its materials: `p` for each component with a loss power, the joule heat of the joints and of the segments of
the bond wires. -/
def power (E : Env) (I : NLayout) (L : WireLib) (p : NComp → ℚ) (r : String → ℚ) : ℚ :=
  ((I.comps.filter fun c => !c.power.isEmpty).map p).sum + (joules E I r).sum +
    (I.prims.map fun
      | .wire w => ∑ s ∈ range (w.points.length - 1), w.current ^ 2 * (r w.mat * L.len (w.radius, w.points) s / L.cross (w.radius, w.points))
      | _ => 0).sum

/-! ## names and ids -/

section
variable {ops : List (MOp ℚ)} {l : Lib ℚ}

theorem found (hr : Lib.empty.run ops = .ok l) {n : String} (h : ∃ o ∈ ops, makes n o = true) :
    ∃ x, findByName l.db .materialDef n = some x ∧ idOf l n = some (x.matId : Int) := by
  obtain ⟨x, hx⟩ := ((linv_of hr).named n).2 h
  exact ⟨x, hx, by unfold idOf; rw [hx]; rfl⟩

theorem id_lt (hr : Lib.empty.run ops = .ok l) {n : String} {x : Defn} (hx : findByName l.db .materialDef n = some x) : x.matId < ops.length := by
  have hi := linv_of hr
  obtain ⟨c, hc, h1, -, -⟩ := hi.mat.ex
  have hmem := (mem_defs_iff hi.good hc n x).2 hx
  have hlt : x.matId < c.defs.length := by
    have : x.matId ∈ c.defs.map (fun e => e.2.matId) := List.mem_map.2 ⟨_, hmem, rfl⟩
    rw [h1, List.mem_range] at this
    exact this
  have hnd : (UMap.keys c.defs).Nodup := hi.good.collWF hc
  let name : MOp ℚ → String := fun o => match o with | .mat n => n | .prop n _ _ => n | .type n _ => n
  have hsub : UMap.keys c.defs ⊆ ops.map name := by
    intro m hm
    obtain ⟨⟨m', y⟩, hy, rfl⟩ := List.mem_map.1 hm
    obtain ⟨o, ho, hmk⟩ := (hi.named m').1 ⟨y, (mem_defs_iff hi.good hc m' y).1 hy⟩
    refine List.mem_map.2 ⟨o, ho, ?_⟩
    cases o with
    | mat a => simpa [makes] using hmk
    | prop a b c => simp [makes] at hmk
    | type a b => simp [makes] at hmk
  have := (hnd.subperm hsub).length_le
  rw [List.length_map] at this
  unfold UMap.keys at this
  rw [List.length_map] at this
  omega

theorem matNo_nat {i : Nat} (h : i < 2147483648) : matNo (i : Int) = i ∧ matNo (i : Int) ≠ matNo (-1) := by
  unfold matNo
  constructor
  · omega
  · rw [show (-1 : Int) % 4294967296 = 4294967295 from rfl]; omega

theorem fluid_iff (hr : Lib.empty.run ops = .ok l) (hf : ops.length < 2147483648) {n : String} {x : Defn}
    (hx : findByName l.db .materialDef n = some x) : matNo (x.matId : Int) ∈ (fluidIds l).map matNo ↔ fluidLast ops n = true := by
  rw [← c142_fluid hr hx, (matNo_nat (lt_trans (id_lt hr hx) hf)).1]
  unfold fluidIds
  rw [List.map_map]
  have hid : ∀ i ∈ l.fluids, (matNo ∘ fun i : Nat => (i : Int)) i = i := by
    intro i hi
    have hi' := linv_of hr
    obtain ⟨c, hc, h1, -, -⟩ := hi'.mat.ex
    unfold Lib.fluids at hi
    rw [hc] at hi
    simp only [Option.map_some, Option.getD_some, List.mem_filterMap, Option.ite_none_right_eq_some, Option.some.injEq] at hi
    obtain ⟨⟨n', x'⟩, hm, -, rfl⟩ := hi
    exact (matNo_nat (lt_trans (id_lt hr ((mem_defs_iff hi'.good hc n' x').1 hm)) hf)).1
  rw [List.map_congr_left hid, List.map_id']

theorem jointRes_eq (hr : Lib.empty.run ops = .ok l) {n : String} (h : ∃ o ∈ ops, makes n o = true) {f : ℚ → ℚ} (hf : HasRes ops n f) :
    jointRes l n = .ok (f 25) := by
  obtain ⟨x, hx, -⟩ := found hr h
  obtain ⟨m, hm1, hm2⟩ := (linv_of hr).props n x hx
  obtain ⟨p, hp, hs⟩ := hf
  unfold jointRes
  simp only [hx, hm1, hm2, show pidRes = 8 from rfl, hp]
  cases hs with
  | one a => rfl
  | poly c h =>
    show (Res.bind (Ecad.Material.polySimple [c] 25) _).bind _ = _
    rw [((Ecad.c56_polynomial 25).2.1 c 0 0).2.2, calculate_eval h]
    rfl

/-! ## the polygons -/

/-- what both kinds of polygons have -/
abbrev Sh := Int × Int × Polygon × Bool × ℚ × ℚ × Bool

def sh (p : Piece) : Sh := (p.net, p.mat, p.poly, p.hole, p.elev, p.thick, p.heat.isSome)

def nsh (l : Lib ℚ) (p : NPiece) : Sh := (p.net, (p.name.bind (idOf l)).getD (-1), p.poly, p.hole, p.elev, p.thick, p.heated)

theorem sh_shape {net : Int} {solid : String} {hole : Option String} {i k : Int} {s : CutEx.Shape} {e t : ℚ} (h1 : idOf l solid = some i)
    (h2 : (hole.bind (idOf l)).getD (-1) = k) : (Item.pieces (.shape net i k s e t)).map sh = (shapeP net solid hole s e t).map (nsh l) := by
  unfold Item.pieces shapeP
  rw [List.map_cons, List.map_cons, List.map_map, List.map_map]
  unfold nsh
  simp only [Option.bind_some, h1, Option.getD_some]
  congr 1
  refine List.map_congr_left fun x _ => ?_
  simp [sh, h2]

theorem find_resolve (layers : List NLayer) (lyr : Int) : findLayer (layers.map (NLayer.resolve l)) lyr = (layerAt layers lyr).map (NLayer.resolve l) := by
  unfold findLayer layerAt
  split_ifs
  · rfl
  · rw [List.getElem?_map]

theorem layerAt_of {I : NLayout} {lyr : Int} (h : OnStack I lyr) : ∃ x, layerAt I.layers lyr = some x ∧ x ∈ I.layers ∧ x.slab.stackup = true := by
  obtain ⟨k, x, rfl, hk, hs⟩ := h
  refine ⟨x, ?_, List.mem_of_getElem? hk, hs⟩
  unfold layerAt
  rw [if_neg (by omega), Int.toNat_natCast, hk]

theorem map_flatMap_congr {α β γ δ ε ζ : Type} (xs : List α) (g : α → β) (it : β → List γ) (pc : γ → List δ) (f : δ → ε) (np : α → List ζ)
    (f' : ζ → ε) (h : ∀ x ∈ xs, ((it (g x)).flatMap pc).map f = (np x).map f') :
    (((xs.map g).flatMap it).flatMap pc).map f = (xs.flatMap np).map f' := by
  induction xs with
  | nil => rfl
  | cons x xs ih =>
    rw [List.map_cons, List.flatMap_cons, List.flatMap_append, List.map_append, h x (by simp), ih fun y hy => h y (by simp [hy]), List.flatMap_cons,
      List.map_append]

theorem all_pieces (hr : Lib.empty.run ops = .ok l) {E : Env} {I : NLayout} {b : CutEx.Shape} {res : String → ℚ → ℚ} (N : NReady ops E I b res) :
    ((items E (I.resolve l) b).flatMap Item.pieces).map sh = (allP I b).map (nsh l) := by
  have hid : ∀ n, Uses I n → ∃ x : Defn, findByName l.db .materialDef n = some x ∧ idOf l n = some (x.matId : Int) := fun n hn => found hr (N.made n hn)
  unfold items allP
  simp only [List.flatMap_append, List.map_append]
  congr 1
  · congr 1
    · congr 1
      · show (((I.layers.map (NLayer.resolve l)).flatMap (stackItems b)).flatMap Item.pieces).map sh = _
        refine map_flatMap_congr _ _ _ _ _ _ _ fun x hx => ?_
        unfold stackItems stackP
        cases hs : x.slab.stackup with
        | false => simp [NLayer.resolve, hs]
        | true =>
          obtain ⟨y, -, hy⟩ := hid _ (.diel x hx hs)
          simp only [NLayer.resolve, hs, hy, List.flatMap_cons, List.flatMap_nil, List.append_nil, if_true]
          exact sh_shape hy rfl
      · show (((I.comps.map (NComp.resolve l)).flatMap (compItems (I.layers.map (NLayer.resolve l)))).flatMap Item.pieces).map sh = _
        refine map_flatMap_congr _ _ _ _ _ _ _ fun c hc => ?_
        obtain ⟨ho, hst⟩ := N.comps c hc
        obtain ⟨o, ho⟩ := Option.isSome_iff_exists.1 ho
        obtain ⟨x, hx, -, -⟩ := layerAt_of hst
        obtain ⟨y, -, hy⟩ := hid _ (.comp c hc)
        unfold compItems compP
        rw [find_resolve]
        simp only [NComp.resolve, hx, ho, hy, Option.map_some]
        have hsol : 0 < c.part.solder → ∃ z : Defn, idOf l c.solder = some (z.matId : Int) := fun h => by
          obtain ⟨z, -, hz⟩ := hid _ (.solder c hc h); exact ⟨z, hz⟩
        rw [List.flatMap_cons, List.map_append, List.map_cons, ← List.singleton_append (l := List.map (nsh l) _)]
        congr 1
        · cases hp : c.power with
          | nil => simp [Item.pieces, sh, nsh, NLayer.resolve, hy]
          | cons a as => simp [Item.pieces, sh, nsh, NLayer.resolve, hy]
        · by_cases hpos : 0 < c.part.solder
          · obtain ⟨z, hz⟩ := hsol hpos
            simp [hz, hpos, Item.pieces, sh, nsh, NLayer.resolve]
          · cases idOf l c.solder <;> simp [hpos]
    · show (((I.prims.map (NPrim.resolve l)).flatMap (primItems E (I.layers.map (NLayer.resolve l)))).flatMap Item.pieces).map sh = _
      refine map_flatMap_congr _ _ _ _ _ _ _ fun p hp => ?_
      cases p with
      | other => rfl
      | wire w =>
        obtain ⟨hw, -⟩ := N.wires w hp
        have hj : ∀ j, (∀ x, j = some x → w.top = some x ∨ w.bot = some x) →
            ((jointItems E (w.resolve l) (j.map (NJoint.resolve l))).flatMap Item.pieces).map sh = (jointP w j).map (nsh l) := by
          intro j hj
          cases j with
          | none => rfl
          | some j =>
            obtain ⟨⟨s, e, t⟩, hpl⟩ := Option.isSome_iff_exists.1 (hw j (hj j rfl))
            obtain ⟨y, -, hy⟩ := hid _ (.joint w j hp (hj j rfl))
            unfold jointItems jointP
            simp only [Option.map_some, NJoint.resolve, hpl, hy]
            have hcur : (w.resolve l).current = w.current := rfl
            rw [hcur]
            by_cases hc : 0 < w.current
            · simp [hc, Item.pieces, sh, nsh, hy]
            · simp only [hc, if_false, List.flatMap_cons, List.flatMap_nil, List.append_nil]
              exact sh_shape hy rfl
        show ((jointItems E (w.resolve l) (w.top.map (NJoint.resolve l)) ++ jointItems E (w.resolve l) (w.bot.map (NJoint.resolve l))).flatMap
          Item.pieces).map sh = (jointP w w.top ++ jointP w w.bot).map (nsh l)
        rw [List.flatMap_append, List.map_append, List.map_append, hj w.top fun x hx => .inl hx, hj w.bot fun x hx => .inr hx]
      | geom s net lyr =>
        obtain ⟨hs, hst⟩ := N.geoms s net lyr hp
        obtain ⟨s, rfl⟩ := Option.isSome_iff_exists.1 hs
        obtain ⟨x, hx, hxm, hxs⟩ := layerAt_of hst
        obtain ⟨y, -, hy⟩ := hid _ (.cond x hxm hxs)
        obtain ⟨z, -, hz⟩ := hid _ (.diel x hxm hxs)
        unfold primItems primP NPrim.resolve
        simp only [find_resolve, hx, Option.map_some, NLayer.resolve, hy, hz, List.flatMap_cons, List.flatMap_nil, List.append_nil]
        exact sh_shape hy (by simp [hz])
  · show (((I.pads.map (NPad.resolve l)).flatMap (padItems (I.layers.map (NLayer.resolve l)))).flatMap Item.pieces).map sh = _
    refine map_flatMap_congr _ _ _ _ _ _ _ fun p hp => ?_
    unfold padItems padP
    have hd : (p.resolve l).data = p.data := rfl
    rw [hd]
    cases hpd : p.data with
    | false => rfl
    | true =>
      simp only [if_true]
      obtain ⟨y, -, hy⟩ := hid _ (.pad p hp hpd)
      rw [← List.map_id (List.range _)]
      show (((List.map id (List.range (max p.top p.bot - min p.top p.bot + 1).toNat)).flatMap fun (k : Nat) =>
        padItem (I.layers.map (NLayer.resolve l)) (p.resolve l) (min p.top p.bot + k)).flatMap Item.pieces).map sh = _
      rw [map_flatMap_congr (np := fun (k : Nat) => padLayerP I.layers p (min p.top p.bot + k)) (f' := nsh l)]
      intro k hk
      rw [List.mem_range] at hk
      obtain ⟨h1, h2⟩ := N.pads p hp hpd (min p.top p.bot + k) (by omega) (by omega)
      obtain ⟨s, hs⟩ := Option.isSome_iff_exists.1 h1
      obtain ⟨x, hx, -, -⟩ := layerAt_of h2
      unfold padItem padLayerP
      simp only [find_resolve, hx, Option.map_some, NPad.resolve, hy, hs, id, List.flatMap_cons, List.flatMap_nil, List.append_nil, NLayer.resolve]
      exact sh_shape hy (by simp [hy])

theorem complete_of (hr : Lib.empty.run ops = .ok l) {E : Env} {I : NLayout} {b : CutEx.Shape} {res : String → ℚ → ℚ} (N : NReady ops E I b res) :
    Complete (I.resolve l) := by
  have hid : ∀ n, Uses I n → (idOf l n).isSome := fun n hn => by obtain ⟨x, -, hx⟩ := found hr (N.made n hn); rw [hx]; rfl
  have hst : ∀ lyr, OnStack I lyr → IsLayer (I.resolve l).layers lyr := by
    rintro lyr ⟨k, x, rfl, hk, hs⟩
    exact ⟨k, x.resolve l, rfl, by show (I.layers.map _)[k]? = _; rw [List.getElem?_map, hk]; rfl, hs⟩
  refine ⟨?_, ?_, ?_, ?_, ?_, ?_⟩
  · intro k x hk
    rw [show (I.resolve l).layers = I.layers.map (NLayer.resolve l) from rfl, List.getElem?_map] at hk
    obtain ⟨y, hy, rfl⟩ := Option.map_eq_some_iff.1 hk
    exact N.ids k y hy
  · intro x hx hs
    obtain ⟨y, hy, rfl⟩ := List.mem_map.1 hx
    exact ⟨hid _ (.cond y hy hs), hid _ (.diel y hy hs)⟩
  · intro c' hc'
    obtain ⟨c, hc, rfl⟩ := List.mem_map.1 hc'
    exact ⟨(N.comps c hc).1, hid _ (.comp c hc), hst _ (N.comps c hc).2, fun h => hid _ (.solder c hc h)⟩
  · intro w hw
    obtain ⟨p, hp, hpw⟩ := List.mem_map.1 hw
    cases p with
    | other => cases hpw
    | geom s n y => cases hpw
    | wire w0 =>
      simp only [NPrim.resolve, Prim.wire.injEq] at hpw
      subst hpw
      refine ⟨hid _ (.wire w0 hp), ?_, ?_, ?_⟩
      · intro x hx
        obtain ⟨j, hj, rfl⟩ := Option.map_eq_some_iff.1 (show w0.top.map (NJoint.resolve l) = some x from hx)
        exact ⟨(N.wires w0 hp).1 j (.inl hj), hid _ (.joint w0 j hp (.inl hj))⟩
      · intro x hx
        obtain ⟨j, hj, rfl⟩ := Option.map_eq_some_iff.1 (show w0.bot.map (NJoint.resolve l) = some x from hx)
        exact ⟨(N.wires w0 hp).1 j (.inr hj), hid _ (.joint w0 j hp (.inr hj))⟩
      · intro hs
        exact (N.wires w0 hp).2 (by simpa [NWire.resolve] using hs)
  · intro s net lyr hg
    obtain ⟨p, hp, hpw⟩ := List.mem_map.1 hg
    cases p with
    | other => cases hpw
    | wire w => cases hpw
    | geom s' n' y' =>
      simp only [NPrim.resolve, Prim.geom.injEq] at hpw
      obtain ⟨rfl, rfl, rfl⟩ := hpw
      exact ⟨(N.geoms _ _ _ hp).1, hst _ (N.geoms _ _ _ hp).2⟩
  · intro p' hp' hd
    obtain ⟨p, hp, rfl⟩ := List.mem_map.1 hp'
    exact ⟨hid _ (.pad p hp hd), fun lyr h1 h2 => ⟨(N.pads p hp hd lyr h1 h2).1, hst _ (N.pads p hp hd lyr h1 h2).2⟩⟩

theorem id_solid (n : String) : idOf l n ≠ some (-1) := by
  unfold idOf
  intro h
  obtain ⟨x, -, hx⟩ := Option.map_eq_some_iff.1 h
  omega

theorem solid_of (I : NLayout) : CutEx.Solid (I.resolve l) := by
  refine ⟨?_, ?_, ?_, ?_⟩
  · intro x hx
    obtain ⟨y, -, rfl⟩ := List.mem_map.1 hx
    exact ⟨id_solid _, id_solid _⟩
  · intro x hx
    obtain ⟨y, -, rfl⟩ := List.mem_map.1 hx
    exact ⟨id_solid _, id_solid _⟩
  · intro w hw j hj
    obtain ⟨p, -, hpw⟩ := List.mem_map.1 hw
    cases p with
    | other => cases hpw
    | geom s n y => cases hpw
    | wire w0 =>
      simp only [NPrim.resolve, Prim.wire.injEq] at hpw
      subst hpw
      rcases hj with hj | hj
      · obtain ⟨x, -, rfl⟩ := Option.map_eq_some_iff.1 (show w0.top.map (NJoint.resolve l) = some j from hj)
        exact id_solid _
      · obtain ⟨x, -, rfl⟩ := Option.map_eq_some_iff.1 (show w0.bot.map (NJoint.resolve l) = some j from hj)
        exact id_solid _
  · intro x hx
    obtain ⟨y, -, rfl⟩ := List.mem_map.1 hx
    exact id_solid _

/-- the names of polygons are used -/
theorem uses_of {ops : List (MOp ℚ)} {E : Env} {I : NLayout} {b : CutEx.Shape} {res : String → ℚ → ℚ} (N : NReady ops E I b res) :
    ∀ q ∈ allP I b, ∀ n, q.name = some n → Uses I n := by
  have hshape : ∀ {net : Int} {solid : String} {hole : Option String} {s : CutEx.Shape} {e t : ℚ}, Uses I solid → (∀ n, hole = some n → Uses I n) →
      ∀ q ∈ shapeP net solid hole s e t, ∀ n, q.name = some n → Uses I n := by
    intro net solid hole s e t h1 h2 q hq n hn
    rcases List.mem_cons.1 hq with rfl | hq
    · simp only [Option.some.injEq] at hn
      subst hn
      exact h1
    · obtain ⟨x, -, rfl⟩ := List.mem_map.1 hq
      exact h2 n hn
  intro q hq n hn
  unfold allP at hq
  simp only [List.mem_append, List.mem_flatMap] at hq
  rcases hq with ((⟨x, hx, hq⟩ | ⟨c, hc, hq⟩) | ⟨p, hp, hq⟩) | ⟨p, hp, hq⟩
  · unfold stackP at hq
    split_ifs at hq with hs
    · exact hshape (.diel x hx hs) (by simp) q hq n hn
    · cases hq
  · unfold compP at hq
    split at hq
    · rcases List.mem_cons.1 hq with rfl | hq
      · simp only [Option.some.injEq] at hn
        subst hn
        exact .comp c hc
      · by_cases hs : 0 < c.part.solder
        · rw [if_pos hs, List.mem_singleton] at hq
          subst hq
          simp only [Option.some.injEq] at hn
          subst hn
          exact .solder c hc hs
        · rw [if_neg hs] at hq
          cases hq
    · cases hq
  · cases p with
    | other => cases hq
    | wire w =>
      have hj : ∀ j, (∀ x, j = some x → w.top = some x ∨ w.bot = some x) → q ∈ jointP w j → Uses I n := by
        intro j hj hq
        cases j with
        | none => cases hq
        | some j =>
          have hu : Uses I j.mat := .joint w j hp (hj j rfl)
          simp only [jointP] at hq
          split at hq
          · split_ifs at hq
            · rw [List.mem_singleton] at hq
              subst hq
              simp only [Option.some.injEq] at hn
              subst hn
              exact hu
            · exact hshape hu (by simp) q hq n hn
          · cases hq
      rcases List.mem_append.1 (show q ∈ jointP w w.top ++ jointP w w.bot from hq) with hq | hq
      · exact hj _ (fun x hx => .inl hx) hq
      · exact hj _ (fun x hx => .inr hx) hq
    | geom s net lyr =>
      obtain ⟨hs, hst⟩ := N.geoms s net lyr hp
      obtain ⟨s, rfl⟩ := Option.isSome_iff_exists.1 hs
      obtain ⟨x, hx, hxm, hxs⟩ := layerAt_of hst
      simp only [primP, hx] at hq
      exact hshape (.cond x hxm hxs) (fun m hm => by simp only [Option.some.injEq] at hm; subst hm; exact .diel x hxm hxs) q hq n hn
  · unfold padP at hq
    split_ifs at hq with hd
    · obtain ⟨k, -, hq⟩ := List.mem_flatMap.1 hq
      unfold padLayerP at hq
      split at hq
      · exact hshape (.pad p hp hd) (fun m hm => by simp only [Option.some.injEq] at hm; subst hm; exact .pad p hp hd) q hq n hn
      · cases hq
    · cases hq

/-- heated polygons have a name -/
theorem heated_named {I : NLayout} {b : CutEx.Shape} : ∀ q ∈ allP I b, q.heated = true → ∃ n, q.name = some n := by
  have hshape : ∀ {net : Int} {solid : String} {hole : Option String} {s : CutEx.Shape} {e t : ℚ}, ∀ q ∈ shapeP net solid hole s e t, q.heated = false := by
    intro net solid hole s e t q hq
    rcases List.mem_cons.1 hq with rfl | hq
    · rfl
    · obtain ⟨x, -, rfl⟩ := List.mem_map.1 hq
      rfl
  intro q hq hh
  have no : ∀ {net : Int} {solid : String} {hole : Option String} {s : CutEx.Shape} {e t : ℚ}, q ∈ shapeP net solid hole s e t → ∃ n, q.name = some n := by
    intro net solid hole s e t hq
    rw [hshape q hq] at hh
    cases hh
  unfold allP at hq
  simp only [List.mem_append, List.mem_flatMap] at hq
  rcases hq with ((⟨x, hx, hq⟩ | ⟨c, hc, hq⟩) | ⟨p, hp, hq⟩) | ⟨p, hp, hq⟩
  · unfold stackP at hq
    split_ifs at hq with hs
    · exact no hq
    · cases hq
  · unfold compP at hq
    split at hq
    · rcases List.mem_cons.1 hq with rfl | hq
      · exact ⟨_, rfl⟩
      · by_cases hs : 0 < c.part.solder
        · rw [if_pos hs, List.mem_singleton] at hq
          subst hq
          exact ⟨_, rfl⟩
        · rw [if_neg hs] at hq
          cases hq
    · cases hq
  · cases p with
    | other => cases hq
    | wire w =>
      have hj : ∀ j, q ∈ jointP w j → ∃ n, q.name = some n := by
        intro j hq
        cases j with
        | none => cases hq
        | some j =>
          simp only [jointP] at hq
          split at hq
          · split_ifs at hq
            · rw [List.mem_singleton] at hq
              subst hq
              exact ⟨_, rfl⟩
            · exact no hq
          · cases hq
      rcases List.mem_append.1 (show q ∈ jointP w w.top ++ jointP w w.bot from hq) with hq | hq
      · exact hj _ hq
      · exact hj _ hq
    | geom s net lyr =>
      simp only [primP] at hq
      split at hq
      · exact no hq
      · cases hq
  · unfold padP at hq
    split_ifs at hq with hd
    · obtain ⟨k, -, hq⟩ := List.mem_flatMap.1 hq
      unfold padLayerP at hq
      split at hq
      · exact no hq
      · cases hq
    · cases hq

theorem ready_of (hr : Lib.empty.run ops = .ok l) {E : Env} {I : NLayout} {b : CutEx.Shape} {res : String → ℚ → ℚ} (N : NReady ops E I b res) :
    Ready E (I.resolve l) b (fluidIds l) := by
  have hall := all_pieces hr N
  have hq : ∀ x ∈ items E (I.resolve l) b, ∀ q ∈ x.pieces, q.heat ≠ none → ∃ r ∈ allP I b, nsh l r = sh q ∧ r.heated = true := by
    intro x hx q hq hne
    have hm : sh q ∈ ((items E (I.resolve l) b).flatMap Item.pieces).map sh := List.mem_map_of_mem (List.mem_flatMap.2 ⟨x, hx, hq⟩)
    rw [hall] at hm
    obtain ⟨r, hr, he⟩ := List.mem_map.1 hm
    refine ⟨r, hr, he, ?_⟩
    have : r.heated = q.heat.isSome := by
      have := congrArg (fun s : Sh => s.2.2.2.2.2.2) he
      exact this
    rw [this, Option.isSome_iff_ne_none]
    exact hne
  refine ⟨complete_of hr N, solid_of I, N.boundary, ?_, ?_⟩
  · intro x hx q hqm hne
    obtain ⟨r, hrm, he, hh⟩ := hq x hx q hqm hne
    have : r.thick = q.thick := congrArg (fun s : Sh => s.2.2.2.2.2.1) he
    rw [← this]
    exact N.thick r hrm hh
  · intro x hx q hqm hne
    obtain ⟨r, hrm, he, hh⟩ := hq x hx q hqm hne
    obtain ⟨n, hn⟩ := heated_named r hrm hh
    obtain ⟨y, hy, hid⟩ := found hr (N.made n (uses_of N r hrm n hn))
    have : q.mat = (y.matId : Int) := by
      have := congrArg (fun s : Sh => s.2.1) he
      simp only [nsh, sh, hn, Option.bind_some, hid, Option.getD_some] at this
      exact this.symm
    rw [this]
    refine ⟨fun hc => ?_, (matNo_nat (lt_trans (id_lt hr hy) N.few)).2⟩
    have := (fluid_iff hr N.few hy).1 hc
    rw [N.rigid r hrm hh n hn] at this
    cases this

theorem reads_ok (hr : Lib.empty.run ops = .ok l) {E : Env} {I : NLayout} {b : CutEx.Shape} {res : String → ℚ → ℚ} (N : NReady ops E I b res) :
    allOk (I.prims.flatMap (NPrim.reads l)) = .ok () := by
  refine allOk_ok fun r hrm => ?_
  obtain ⟨p, hp, hrp⟩ := List.mem_flatMap.1 hrm
  cases p with
  | other => cases hrp
  | geom s n y => cases hrp
  | wire w =>
    simp only [NPrim.reads] at hrp
    split_ifs at hrp with hc
    · obtain ⟨j, hj, rfl⟩ := List.mem_map.1 hrp
      rw [List.mem_append, Option.mem_toList, Option.mem_toList] at hj
      rcases hj with hj | hj
      · rw [jointRes_eq hr (N.made _ (.joint w j hp (.inl hj))) (N.joints w hp hc j hj)]
        rfl
      · have := (N.wires w hp).2 (by rw [hj]; rfl)
        exact absurd hc (not_lt.2 this)
    · cases hrp

theorem pieces_eq (hr : Lib.empty.run ops = .ok l) {E : Env} {I : NLayout} {b : CutEx.Shape} {res : String → ℚ → ℚ} (N : NReady ops E I b res) :
    (LayoutPrism.pieces E (I.resolve l) b).map sh = (pieces E I b).map (nsh l) := by
  have hall := all_pieces hr N
  let F : Sh → Bool := fun s => decide (Geom.round ((s.2.2.2.2.1 - s.2.2.2.2.2.1) * E.scale) < Geom.round (s.2.2.2.2.1 * E.scale))
  have h1 : Piece.Thick E = F ∘ sh := rfl
  have h2 : NPiece.Thick E = F ∘ nsh l := rfl
  unfold LayoutPrism.pieces pieces
  rw [h1, h2, ← List.filter_map, ← List.filter_map, hall]

theorem piece_at (hr : Lib.empty.run ops = .ok l) {E : Env} {I : NLayout} {b : CutEx.Shape} {res : String → ℚ → ℚ} (N : NReady ops E I b res) (i : Nat) :
    ((LayoutPrism.pieces E (I.resolve l) b)[i]?).map sh = ((pieces E I b)[i]?).map (nsh l) := by
  rw [← List.getElem?_map, ← List.getElem?_map, pieces_eq hr N]

theorem spans_iff {E : Env} {cut : Geom.Cut} {k : Nat} {q : NPiece} {p : Piece} (h : sh p = nsh l q) : LayoutPrism.Spans E cut k p ↔ Spans E cut k q := by
  have h1 : p.elev = q.elev := congrArg (fun s : Sh => s.2.2.2.2.1) h
  have h2 : p.thick = q.thick := congrArg (fun s : Sh => s.2.2.2.2.2.1) h
  unfold LayoutPrism.Spans Spans
  rw [h1, h2]

/-- **C145, elements.** For every history of calls that make materials, and every layout of the claim: an element of a layer has the material named by
the least of the polygons of the layout around its centre that reach through the layer; this name was not last called a fluid, and the network uses
what the first properties given to it say. -/
theorem c145_element (hr : Lib.empty.run ops = .ok l) {E : Env} {I : NLayout} {b : CutEx.Shape} {res : String → ℚ → ℚ} (N : NReady ops E I b res)
    {ratio : ℚ} {fuel : Nat} {lc : Model} {cut : Geom.Cut} (hx : extractN l E ratio fuel I = .ok (lc, some (.ok cut))) (area : Polygon → ℚ) {v : View}
    (hh : Hits (readCut lc cut (fluidIds l) area) v) (k t : Nat) (y : Cell ℚ) (hy : infoOf (readCut lc cut (fluidIds l) area) v k t = some y) :
    ∃ i q n, (pieces E I b)[i]? = some q ∧ q.name = some n ∧ Spans E cut k q ∧ v.contains k t i = true ∧ Uses I n ∧ fluidLast ops n = false ∧
      (∃ x, findByName l.db .materialDef n = some x ∧ y.mat = x.matId) ∧
      (∀ j q', (pieces E I b)[j]? = some q' → Spans E cut k q' → v.contains k t j = true →
        (readCut lc cut (fluidIds l) area).area i ≤ (readCut lc cut (fluidIds l) area).area j) ∧
      (∀ p, first ops n 14 = some p → Plain p → ∀ T, ∀ i < 3, ∃ u, along p T i = some u ∧ l.conductivity y.mat T i = .ok u) ∧
      ∀ id p f, first ops n id = some p → Single p f → ∀ T, l.scalar id y.mat T = .ok (f T) := by
  have hx' : CutEx.extract E ratio fuel (I.resolve l) = .ok (lc, some (.ok cut)) := by
    unfold extractN at hx
    rw [reads_ok hr N, Res.bind_ok] at hx
    exact hx
  have R := ready_of hr N
  obtain ⟨i, p, hp, hs, hc, hm, hnf, hn1, hmin⟩ := c143_material R.complete R.boundary hx' (fluidIds l) area hh k t y hy
  have hi := piece_at hr N i
  rw [hp] at hi
  obtain ⟨q, hq, he⟩ := Option.map_eq_some_iff.1 hi.symm
  have hmem : q ∈ allP I b := (List.mem_filter.1 (List.mem_of_getElem? hq)).1
  have hmat : p.mat = (q.name.bind (idOf l)).getD (-1) := (congrArg (fun s : Sh => s.2.1) he).symm
  cases hname : q.name with
  | none =>
    exfalso
    rw [hname] at hmat
    exact hn1 (by rw [hmat]; rfl)
  | some n =>
    have hu := uses_of N q hmem n hname
    obtain ⟨x, hxf, hid⟩ := found hr (N.made n hu)
    rw [hname, Option.bind_some, hid, Option.getD_some] at hmat
    have hno := (matNo_nat (lt_trans (id_lt hr hxf) N.few)).1
    have hym : y.mat = x.matId := by rw [hm, hmat, hno]
    refine ⟨i, q, n, hq, hname, (spans_iff he.symm).1 hs, hc, hu, ?_, ⟨x, hxf, hym⟩, ?_, ?_, ?_⟩
    · rw [hmat] at hnf
      cases hfl : fluidLast ops n with
      | false => rfl
      | true => exact absurd ((fluid_iff hr N.few hxf).2 hfl) hnf
    · intro j q' hq' hs' hc'
      have hj := piece_at hr N j
      rw [hq'] at hj
      obtain ⟨p', hp', he'⟩ := Option.map_eq_some_iff.1 hj
      exact hmin j p' hp' ((spans_iff he').2 hs') hc'
    · intro p' hp' hpl T i' hi'
      rw [hym]
      exact c142_conductivity_partial hr hxf hp' hpl T i' hi'
    · intro id p' f hp' hsg T
      rw [hym]
      exact c142_scalar_partial hr hxf hp' hsg T

/-! ## networks -/

theorem byId (hr : Lib.empty.run ops = .ok l) {α : Type} (F : String → α) (d : α) :
    ∃ G : Nat → α, ById l F G ∧ ∀ i, (∀ n x, findByName l.db .materialDef n = some x → x.matId ≠ i) → G i = d := by
  classical
  have hi := linv_of hr
  obtain ⟨c, hc, h1, -, -⟩ := hi.mat.ex
  refine ⟨fun i => if h : ∃ n x, findByName l.db .materialDef n = some x ∧ x.matId = i then F h.choose else d, ?_, ?_⟩
  · intro n x hx
    have h : ∃ n' x', findByName l.db .materialDef n' = some x' ∧ x'.matId = x.matId := ⟨n, x, hx, rfl⟩
    dsimp only
    rw [dif_pos h]
    obtain ⟨x', hx', he⟩ := h.choose_spec
    have := inj_ids h1 ((mem_defs_iff hi.good hc _ _).2 hx') ((mem_defs_iff hi.good hc _ _).2 hx) he
    injection this with e1 e2
    rw [e1]
  · intro i hn
    dsimp only
    rw [dif_neg]
    rintro ⟨n, x, hx, he⟩
    exact hn n x hx he

theorem given_of (hr : Lib.empty.run ops = .ok l) {n : String} {x : Defn} (hx : findByName l.db .materialDef n = some x)
    {k : String → ℚ → Fin 3 → ℚ} {heat rho : String → ℚ → ℚ} (h : Has ops n (k n) (heat n) (rho n)) {k' : Nat → ℚ → Fin 3 → ℚ} {heat' rho' : Nat → ℚ → ℚ}
    (e1 : ById l k k') (e2 : ById l heat heat') (e3 : ById l rho rho') : Given ops l x.matId (k' x.matId) (heat' x.matId) (rho' x.matId) := by
  rw [e1 n x hx, e2 n x hx, e3 n x hx]
  exact ⟨n, x, hx, rfl, h.cond, h.heat, h.rho⟩

theorem wires_of (hr : Lib.empty.run ops = .ok l) {E : Env} {I : NLayout} {b : CutEx.Shape} {res : String → ℚ → ℚ} (N : NReady ops E I b res) :
    ∀ w ∈ wiresOf (I.resolve l).prims, ∃ w0, NPrim.wire w0 ∈ I.prims ∧ w.current = w0.current ∧
      ∃ x, findByName l.db .materialDef w0.mat = some x ∧ matNo w.mat = x.matId := by
  intro w hw
  obtain ⟨p, hp, hpw⟩ := List.mem_filterMap.1 hw
  obtain ⟨p0, hp0, rfl⟩ := List.mem_map.1 (show p ∈ I.prims.map (NPrim.resolve l) from hp)
  cases p0 with
  | other => simp [NPrim.resolve] at hpw
  | geom s n y => simp [NPrim.resolve] at hpw
  | wire w0 =>
    obtain ⟨x, hx, hid⟩ := found hr (N.made _ (.wire w0 hp0))
    simp only [NPrim.resolve, NWire.resolve, hid, Option.map_some, Option.some.injEq] at hpw
    subst hpw
    exact ⟨w0, hp0, rfl, x, hx, (matNo_nat (lt_trans (id_lt hr hx) N.few)).1⟩

theorem lines_of (hr : Lib.empty.run ops = .ok l) {E : Env} {I : NLayout} {b : CutEx.Shape} {res : String → ℚ → ℚ} (N : NReady ops E I b res)
    {off : List Nat} {L : WireLib} {lines : List (Line ℚ)} (h : addWires off [] ((wiresOf (I.resolve l).prims).map (readWire L)) = .ok lines) :
    ∀ y ∈ lines, ∃ w0, NPrim.wire w0 ∈ I.prims ∧ y.current = w0.current ∧ ∃ x, findByName l.db .materialDef w0.mat = some x ∧ y.mat = x.matId := by
  intro y hy
  have hd : PrismBal.Line.data y ∈ lines.map PrismBal.Line.data := List.mem_map_of_mem hy
  rw [PrismBal.data_wires _ _ _ _ h, List.map_nil, List.nil_append] at hd
  obtain ⟨w, hw, hs⟩ := List.mem_flatMap.1 hd
  obtain ⟨w1, hw1, rfl⟩ := List.mem_map.1 hw
  obtain ⟨s, -, he⟩ := List.mem_map.1 hs
  obtain ⟨w0, h1, h2, x, h3, h4⟩ := wires_of hr N w1 hw1
  have m1 : matNo w1.mat = y.mat := congrArg Prod.fst he
  have m2 : w1.current = y.current := congrArg (fun d : Nat × ℚ × ℚ × ℚ => d.2.1) he
  exact ⟨w0, h1, by rw [← m2, h2], x, h3, by rw [← m1, h4]⟩

theorem extract_of (hr : Lib.empty.run ops = .ok l) {E : Env} {I : NLayout} {b : CutEx.Shape} {res : String → ℚ → ℚ} (N : NReady ops E I b res)
    {ratio : ℚ} {fuel : Nat} {lc : Model} {cut : Geom.Cut} (hx : extractN l E ratio fuel I = .ok (lc, some (.ok cut))) :
    CutEx.extract E ratio fuel (I.resolve l) = .ok (lc, some (.ok cut)) ∧ lc.wires = wiresOf (I.resolve l).prims := by
  have hx' : CutEx.extract E ratio fuel (I.resolve l) = .ok (lc, some (.ok cut)) := by
    unfold extractN at hx
    rw [reads_ok hr N, Res.bind_ok] at hx
    exact hx
  exact ⟨hx', (blocks_of (ready_of hr N) hx').2.1⟩

/-- **C145, networks**: the network built with the materials of the database is the one whose elements have the properties given to the names. -/
theorem c145_network (hr : Lib.empty.run ops = .ok l) {E : Env} {I : NLayout} {b : CutEx.Shape} {k : String → ℚ → Fin 3 → ℚ}
    {heat rho res : String → ℚ → ℚ} (N : NReady ops E I b res) (P : Known ops I k heat rho res)
    {ratio : ℚ} {fuel : Nat} {lc : Model} {cut : Geom.Cut} (hx : extractN l E ratio fuel I = .ok (lc, some (.ok cut))) {area : Polygon → ℚ} {v : View}
    {m : PModel ℚ} {mesh : Mesh} {L : WireLib} (h : Made (readCut lc cut (fluidIds l) area) v m mesh lc.wires L)
    {k' : Nat → ℚ → Fin 3 → ℚ} {heat' rho' res' : Nat → ℚ → ℚ} (e1 : ById l k k') (e2 : ById l heat heat') (e3 : ById l rho rho')
    (e4 : ById l res res') (minR : ℚ) (iniT : List ℚ) :
    buildLib l minR m iniT = ({ m with k := k', heat := heat', rho := rho', resist := res' } : PModel ℚ).build minR iniT := by
  refine c142_network_partial hr (k := k') (heat := heat') (rho := rho') (res := res') ?_ ?_ minR iniT
  · intro p hp
    obtain ⟨i, hi⟩ := List.getElem?_of_mem hp
    obtain ⟨-, -, -, h4⟩ := extracted_prisms h.extracted
    obtain ⟨k0, t, c, hc, -, rfl⟩ := h4 i p hi
    unfold cellAt at hc
    split_ifs at hc with hlt
    obtain ⟨-, -, n, -, -, -, -, hu, hfl, ⟨x, hxf, hym⟩, -, -, -⟩ := c145_element hr N hx area h.hits k0 t c hc
    show Given ops l c.mat (k' c.mat) (heat' c.mat) (rho' c.mat)
    rw [hym]
    exact given_of hr hxf (P.rigid n hu hfl) e1 e2 e3
  · intro y hy
    have hl := h.extracted.lines
    rw [(extract_of hr N hx).2] at hl
    obtain ⟨w0, h1, h2, x, h3, h4⟩ := lines_of hr N hl y hy
    rw [h2, h4]
    obtain ⟨p1, p2⟩ := P.wires w0 h1
    refine ⟨given_of hr h3 p1 e1 e2 e3, fun hc => ?_⟩
    rw [e4 _ x h3]
    exact ⟨w0.mat, x, h3, rfl, p2 hc⟩

/-- **C145, networks** of stackup prism models. -/
theorem c145_stack_network (hr : Lib.empty.run ops = .ok l) {E : Env} {I : NLayout} {b : CutEx.Shape} {k : String → ℚ → Fin 3 → ℚ}
    {heat rho res : String → ℚ → ℚ} (N : NReady ops E I b res) (P : Known ops I k heat rho res)
    {ratio : ℚ} {fuel : Nat} {lc : Model} {cut : Geom.Cut} (hx : extractN l E ratio fuel I = .ok (lc, some (.ok cut))) {area : Polygon → ℚ} {v : View}
    {m : SModel ℚ} {g : Tris ℚ} {s : ℚ} {meshes : List Mesh} {L : WireLib} (h : MadeS (readCut lc cut (fluidIds l) area) v m g s meshes lc.wires L)
    {k' : Nat → ℚ → Fin 3 → ℚ} {heat' rho' res' : Nat → ℚ → ℚ} (e1 : ById l k k') (e2 : ById l heat heat') (e3 : ById l rho rho')
    (e4 : ById l res res') (minR : ℚ) (iniT : List ℚ) :
    buildLibS l minR m iniT = ({ m with k := k', heat := heat', rho := rho', resist := res' } : SModel ℚ).build minR iniT := by
  refine c142_stack_partial hr (k := k') (heat := heat') (rho := rho') (res := res') ?_ ?_ minR iniT
  · intro p hp
    obtain ⟨i, hi⟩ := List.getElem?_of_mem hp
    obtain ⟨-, hst, -⟩ := fromMeshes_facts h.made
    have hc := hst.cell i p hi
    have hc' : infoOf (readCut lc cut (fluidIds l) area) v p.base.layer p.base.elem.tri = some p.base.elem.cell := by
      unfold cellS at hc
      split at hc
      · split_ifs at hc
        exact hc
      · cases hc
    obtain ⟨-, -, n, -, -, -, -, hu, hfl, ⟨x, hxf, hym⟩, -, -, -⟩ := c145_element hr N hx area h.hits _ _ _ hc'
    rw [hym]
    exact given_of hr hxf (P.rigid n hu hfl) e1 e2 e3
  · intro y hy
    have hl := h.made.lines
    rw [(extract_of hr N hx).2] at hl
    obtain ⟨w0, h1, h2, x, h3, h4⟩ := lines_of hr N hl y hy
    rw [h2, h4]
    obtain ⟨p1, p2⟩ := P.wires w0 h1
    refine ⟨given_of hr h3 p1 e1 e2 e3, fun hc => ?_⟩
    rw [e4 _ x h3]
    exact ⟨w0.mat, x, h3, rfl, p2 hc⟩

/-! ## power -/

theorem power_eq (hr : Lib.empty.run ops = .ok l) {E : Env} {I : NLayout} {b : CutEx.Shape} {r : String → ℚ}
    (N : NReady ops E I b fun n _ => r n) (L : WireLib) {p : NComp → ℚ} {p' : CompIn → ℚ} (hp : ∀ c ∈ I.comps, c.power ≠ [] → p' (c.resolve l) = p c)
    {r' : Nat → ℚ} (e : ById l r r') : LayoutPrism.power E (I.resolve l) L p' r' = power E I L p r := by
  unfold LayoutPrism.power power
  congr 1
  · congr 1
    · unfold sources
      show (((I.comps.map (NComp.resolve l)).filter _).map p').sum = _
      rw [List.filter_map, List.map_map]
      congr 1
      refine List.map_congr_left fun c hc => ?_
      obtain ⟨h1, h2⟩ := List.mem_filter.1 hc
      exact hp c h1 (by simpa [NComp.resolve] using h2)
    · congr 1
      unfold joints joules
      show (I.prims.map (NPrim.resolve l)).filterMap _ = _
      rw [List.filterMap_map]
      refine List.filterMap_congr fun q hq => ?_
      cases q with
      | other => rfl
      | geom s n y => rfl
      | wire w =>
        show jointHeat E (w.resolve l) = _
        unfold jointHeat
        show (if 0 < w.current then _ else _) = if 0 < w.current then _ else _
        by_cases hc : 0 < w.current
        · rw [if_pos hc, if_pos hc]
          show ((w.top.map (NJoint.resolve l)).bind Joint.place).bind _ = _
          cases hj : w.top with
          | none => rfl
          | some j =>
            have hv := jointRes_eq hr (N.made _ (.joint w j hq (.inl hj))) (N.joints w hq hc j hj)
            simp only [Option.map_some, Option.bind_some, NJoint.resolve, hv, valueOf]
            cases j.place with
            | none => rfl
            | some q => simp [NWire.resolve, hj, NJoint.resolve, hv, valueOf]
        · rw [if_neg hc, if_neg hc]
  · show ((wiresOf (I.prims.map (NPrim.resolve l))).map _).sum = _
    have key : ∀ ps : List NPrim, (∀ w, NPrim.wire w ∈ ps → NPrim.wire w ∈ I.prims) → ((wiresOf (ps.map (NPrim.resolve l))).map fun w => ∑ s ∈ range (w.points.length - 1),
        w.current ^ 2 * (r' (matNo w.mat) * L.len (w.radius, w.points) s / L.cross (w.radius, w.points))).sum = (ps.map fun
      | .wire w => ∑ s ∈ range (w.points.length - 1), w.current ^ 2 * (r w.mat * L.len (w.radius, w.points) s / L.cross (w.radius, w.points))
      | _ => 0).sum := by
      intro ps
      induction ps with
      | nil => intro _; rfl
      | cons q ps ih =>
        intro hsub
        have ih' := ih fun w hw => hsub w (by simp [hw])
        rw [List.map_cons, List.map_cons, List.sum_cons, ← ih']
        cases q with
        | other => simp [wiresOf, NPrim.resolve]
        | geom s n y => simp [wiresOf, NPrim.resolve]
        | wire w =>
          obtain ⟨x, hx, hid⟩ := found hr (N.made _ (.wire w (hsub w (by simp))))
          have hno := (matNo_nat (lt_trans (id_lt hr hx) N.few)).1
          have : wiresOf (NPrim.resolve l (.wire w) :: ps.map (NPrim.resolve l)) =
              ⟨w.net, w.radius, (x.matId : Int), w.current, w.scen, w.points⟩ :: wiresOf (ps.map (NPrim.resolve l)) := by
            unfold wiresOf
            rw [List.filterMap_cons]
            simp only [NPrim.resolve, NWire.resolve, hid, Option.map_some]
          rw [this, List.map_cons, List.sum_cons]
          dsimp only
          rw [hno, e _ x hx]
    exact key I.prims fun w hw => hw

/-- the loss power of a component with a table of one value -/
def lone (c : CompIn) : ℚ := ((c.power.head?).map Prod.snd).getD 0

theorem lone_eq {I : NLayout} {p : NComp → ℚ} (hp : ∀ c ∈ I.comps, ∀ e ∈ c.power, e.2 = p c) :
    (∀ c ∈ sources (I.resolve l), ∀ e ∈ c.power, e.2 = lone c) ∧ ∀ c ∈ I.comps, c.power ≠ [] → lone (c.resolve l) = p c := by
  constructor
  · intro c hc e he
    obtain ⟨c0, hc0, rfl⟩ := List.mem_map.1 (show c ∈ I.comps.map (NComp.resolve l) from (List.mem_filter.1 hc).1)
    rw [hp c0 hc0 e he]
    cases hpw : c0.power with
    | nil => rw [show (c0.resolve l).power = c0.power from rfl, hpw] at he; cases he
    | cons a as => simp [lone, NComp.resolve, hpw, hp c0 hc0 a (by rw [hpw]; simp)]
  · intro c hc hne
    cases hpw : c.power with
    | nil => exact absurd hpw hne
    | cons a as => simp [lone, NComp.resolve, hpw, hp c hc a (by rw [hpw]; simp)]

/-- properties by id -/
theorem ids_of (hr : Lib.empty.run ops = .ok l) (k : String → ℚ → Fin 3 → ℚ) (heat rho : String → ℚ → ℚ) {r : String → ℚ} (h0 : ∀ n, 0 ≤ r n) :
    ∃ k' heat' rho', ∃ r' : Nat → ℚ, ById l k k' ∧ ById l heat heat' ∧ ById l rho rho' ∧ ById l r r' ∧
      ById l (fun n (_ : ℚ) => r n) (fun i (_ : ℚ) => r' i) ∧ ∀ i, 0 ≤ r' i := by
  obtain ⟨k', ek, -⟩ := byId hr k fun _ _ => 0
  obtain ⟨heat', eh, -⟩ := byId hr heat fun _ => 0
  obtain ⟨rho', er, -⟩ := byId hr rho fun _ => 0
  obtain ⟨r', es, hd⟩ := byId hr r 0
  refine ⟨k', heat', rho', r', ek, eh, er, es, fun n x hx => by funext T; exact es n x hx, fun i => ?_⟩
  by_cases hi : ∃ n x, findByName l.db .materialDef n = some x ∧ x.matId = i
  · obtain ⟨n, x, hx, rfl⟩ := hi
    rw [es n x hx]
    exact h0 n
  · rw [hd i fun n x hx he => hi ⟨n, x, hx, he⟩]

theorem made_of {c : CutM} {v : View} {m : PModel ℚ} {mesh : Mesh} {ws : List WireOut} {L : WireLib} (h : Made c v m mesh ws L)
    (k' : Nat → ℚ → Fin 3 → ℚ) (heat' rho' res' : Nat → ℚ → ℚ) : Made c v { m with k := k', heat := heat', rho := rho', resist := res' } mesh ws L :=
  ⟨h.hits, h.seen, ⟨h.extracted.prisms, h.extracted.lines, h.extracted.ends⟩, h.nbs, h.areas, ⟨h.cooled.area, h.cooled.positive, h.cooled.uniform⟩,
    h.noFlux, h.wires⟩

theorem madeS_of {c : CutM} {v : View} {m : SModel ℚ} {g : Tris ℚ} {s : ℚ} {meshes : List Mesh} {ws : List WireOut} {L : WireLib}
    (h : MadeS c v m g s meshes ws L) (k' : Nat → ℚ → Fin 3 → ℚ) (heat' rho' res' : Nat → ℚ → ℚ) :
    MadeS c v { m with k := k', heat := heat', rho := rho', resist := res' } g s meshes ws L :=
  ⟨h.hits, h.seen, h.layers, ⟨h.made.prisms, h.made.lines, h.made.ends⟩, ⟨h.geometry.1, h.geometry.2, h.geometry.3, h.geometry.4, h.geometry.5, h.geometry.6⟩,
    h.nbs, h.areas, ⟨h.cooled.1, h.cooled.2⟩, h.noFlux, h.wires⟩

/-- **C145** for prism models, with loss powers and resistivities that do not depend on the temperature: the network built with the materials of the
database has exactly one steady state, in which the heat given off is the power that follows from the names. -/
theorem c145_power (hr : Lib.empty.run ops = .ok l) {E : Env} {I : NLayout} {b : CutEx.Shape} {k : String → ℚ → Fin 3 → ℚ}
    {heat rho : String → ℚ → ℚ} {r : String → ℚ} (N : NReady ops E I b fun n _ => r n) (P : Known ops I k heat rho fun n _ => r n)
    (h0 : ∀ n, 0 ≤ r n) {ratio : ℚ} {fuel : Nat} {lc : Model} {cut : Geom.Cut} (hx : extractN l E ratio fuel I = .ok (lc, some (.ok cut)))
    {area : Polygon → ℚ} {v : View} {m : PModel ℚ} {mesh : Mesh} {L : WireLib} (h : Made (readCut lc cut (fluidIds l) area) v m mesh lc.wires L)
    {p : NComp → ℚ} (hp : ∀ c ∈ I.comps, ∀ e ∈ c.power, e.2 = p c) {minR : ℚ} (hm : 0 < minR) (refT : ℚ) (iniT : List ℚ) (hl : iniT.length = m.total) :
    ∃ net x, buildLib l minR m iniT = .ok (some net) ∧ Solves net refT x ∧ (∀ y, Solves net refT y → ∀ i < m.total, y i = x i) ∧
      PrismBal.given m refT x = power E I L p r := by
  obtain ⟨k', heat', rho', r', ek, eh, er, es, er', h0'⟩ := ids_of hr k heat rho h0
  have hb := c145_network hr N P hx h ek eh er er' minR iniT
  obtain ⟨hw, hlone⟩ := lone_eq (l := l) hp
  obtain ⟨net, x, n1, n2, n3, n4, n5, -⟩ := c143_steady (ready_of hr N) (extract_of hr N hx).1 (made_of h k' heat' rho' fun i _ => r' i) (lo := lone) (hi := lone)
    (fun c hc e he => ⟨(hw c hc e he).ge, (hw c hc e he).le⟩) (rlo := r') (rhi := r') (fun i T => ⟨h0' i, le_refl _, le_refl _⟩) hm refT iniT hl
  refine ⟨net, x, hb.trans n1, n2, n3, ?_⟩
  rw [← power_eq hr N L hlone es]
  exact le_antisymm n5 n4

/-- **C145** for stackup prism models. -/
theorem c145_stack_power (hr : Lib.empty.run ops = .ok l) {E : Env} {I : NLayout} {b : CutEx.Shape} {k : String → ℚ → Fin 3 → ℚ}
    {heat rho : String → ℚ → ℚ} {r : String → ℚ} (N : NReady ops E I b fun n _ => r n) (P : Known ops I k heat rho fun n _ => r n)
    (h0 : ∀ n, 0 ≤ r n) {ratio : ℚ} {fuel : Nat} {lc : Model} {cut : Geom.Cut} (hx : extractN l E ratio fuel I = .ok (lc, some (.ok cut)))
    {area : Polygon → ℚ} {v : View} {m : SModel ℚ} {g : Tris ℚ} {s : ℚ} {meshes : List Mesh} {L : WireLib}
    (h : MadeS (readCut lc cut (fluidIds l) area) v m g s meshes lc.wires L)
    {p : NComp → ℚ} (hp : ∀ c ∈ I.comps, ∀ e ∈ c.power, e.2 = p c) {minR : ℚ} (hm : 0 < minR) (refT : ℚ) (iniT : List ℚ) (hl : iniT.length = m.total) :
    ∃ net x, buildLibS l minR m iniT = .ok (some net) ∧ Solves net refT x ∧ (∀ y, Solves net refT y → ∀ i < m.total, y i = x i) ∧
      StackBal.given g m s refT x = power E I L p r := by
  obtain ⟨k', heat', rho', r', ek, eh, er, es, er', h0'⟩ := ids_of hr k heat rho h0
  have hb := c145_stack_network hr N P hx h ek eh er er' minR iniT
  obtain ⟨hw, hlone⟩ := lone_eq (l := l) hp
  obtain ⟨net, x, n1, n2, n3, n4, n5, -⟩ := c143_stack (ready_of hr N) (extract_of hr N hx).1 (madeS_of h k' heat' rho' fun i _ => r' i) (lo := lone) (hi := lone)
    (fun c hc e he => ⟨(hw c hc e he).ge, (hw c hc e he).le⟩) (rlo := r') (rhi := r') (fun i T => ⟨h0' i, le_refl _, le_refl _⟩) hm refT iniT hl
  refine ⟨net, x, hb.trans n1, n2, n3, ?_⟩
  rw [← power_eq hr N L hlone es]
  exact le_antisymm n5 n4

/-- **C145** for the whole run of the static solver on a prism model with the materials of the database, with a linear solver that solves the systems
given to it. -/
theorem c145_static (hr : Lib.empty.run ops = .ok l) {E : Env} {I : NLayout} {b : CutEx.Shape} {k : String → ℚ → Fin 3 → ℚ}
    {heat rho : String → ℚ → ℚ} {r : String → ℚ} (N : NReady ops E I b fun n _ => r n) (P : Known ops I k heat rho fun n _ => r n)
    (h0 : ∀ n, 0 ≤ r n) {ratio : ℚ} {fuel : Nat} {lc : Model} {cut : Geom.Cut} (hx : extractN l E ratio fuel I = .ok (lc, some (.ok cut)))
    {area : Polygon → ℚ} {v : View} {m : PModel ℚ} {mesh : Mesh} {L : WireLib} (h : Made (readCut lc cut (fluidIds l) area) v m mesh lc.wires L)
    {p : NComp → ℚ} (hp : ∀ c ∈ I.comps, ∀ e ∈ c.power, e.2 = p c) {minR : ℚ} (hm : 0 < minR)
    (envT limit : ℚ) (maximum celsius : Bool) (iteration : Nat) (hit : 1 ≤ iteration)
    (solve : Network ℚ → List ℚ) (hlen : ∀ net, (solve net).length = net.length)
    (hsol : ∀ net, Grounded net → Solves net envT fun i => (solve net)[i]?.getD 0) (fuel' : Nat) (hf : iteration ≤ fuel') :
    ∃ t, Static.solveStatic (buildLib l minR m) solve m.total envT limit maximum iteration celsius fuel' = some (.ok (some t)) ∧ t.length = m.total ∧
      PrismBal.given m envT (fun k => t[k]?.getD 0 + if celsius then (27315 / 100 : ℚ) else 0) = power E I L p r := by
  obtain ⟨k', heat', rho', r', ek, eh, er, es, er', h0'⟩ := ids_of hr k heat rho h0
  have hb : buildLib l minR m = ({ m with k := k', heat := heat', rho := rho', resist := fun i _ => r' i } : PModel ℚ).build minR :=
    funext (c145_network hr N P hx h ek eh er er' minR)
  obtain ⟨hw, hlone⟩ := lone_eq (l := l) hp
  obtain ⟨t, n1, n2, n4, n5, -⟩ := c143_static (ready_of hr N) (extract_of hr N hx).1 (made_of h k' heat' rho' fun i _ => r' i) (lo := lone) (hi := lone)
    (fun c hc e he => ⟨(hw c hc e he).ge, (hw c hc e he).le⟩) (rlo := r') (rhi := r') (fun i T => ⟨h0' i, le_refl _, le_refl _⟩) hm
    envT limit maximum celsius iteration hit solve hlen hsol fuel' hf
  refine ⟨t, by rw [hb]; exact n1, n2, ?_⟩
  rw [← power_eq hr N L hlone es]
  exact le_antisymm n5 n4

/-- **C145** for the whole run of the static solver on a stackup prism model. -/
theorem c145_stack_static (hr : Lib.empty.run ops = .ok l) {E : Env} {I : NLayout} {b : CutEx.Shape} {k : String → ℚ → Fin 3 → ℚ}
    {heat rho : String → ℚ → ℚ} {r : String → ℚ} (N : NReady ops E I b fun n _ => r n) (P : Known ops I k heat rho fun n _ => r n)
    (h0 : ∀ n, 0 ≤ r n) {ratio : ℚ} {fuel : Nat} {lc : Model} {cut : Geom.Cut} (hx : extractN l E ratio fuel I = .ok (lc, some (.ok cut)))
    {area : Polygon → ℚ} {v : View} {m : SModel ℚ} {g : Tris ℚ} {s : ℚ} {meshes : List Mesh} {L : WireLib}
    (h : MadeS (readCut lc cut (fluidIds l) area) v m g s meshes lc.wires L)
    {p : NComp → ℚ} (hp : ∀ c ∈ I.comps, ∀ e ∈ c.power, e.2 = p c) {minR : ℚ} (hm : 0 < minR)
    (envT limit : ℚ) (maximum celsius : Bool) (iteration : Nat) (hit : 1 ≤ iteration)
    (solve : Network ℚ → List ℚ) (hlen : ∀ net, (solve net).length = net.length)
    (hsol : ∀ net, Grounded net → Solves net envT fun i => (solve net)[i]?.getD 0) (fuel' : Nat) (hf : iteration ≤ fuel') :
    ∃ t, Static.solveStatic (buildLibS l minR m) solve m.total envT limit maximum iteration celsius fuel' = some (.ok (some t)) ∧ t.length = m.total ∧
      StackBal.given g m s envT (fun k => t[k]?.getD 0 + if celsius then (27315 / 100 : ℚ) else 0) = power E I L p r := by
  obtain ⟨k', heat', rho', r', ek, eh, er, es, er', h0'⟩ := ids_of hr k heat rho h0
  have hb : buildLibS l minR m = ({ m with k := k', heat := heat', rho := rho', resist := fun i _ => r' i } : SModel ℚ).build minR :=
    funext (c145_stack_network hr N P hx h ek eh er er' minR)
  obtain ⟨hw, hlone⟩ := lone_eq (l := l) hp
  obtain ⟨t, n1, n2, n4, n5, -⟩ := c143_stack_static (ready_of hr N) (extract_of hr N hx).1 (madeS_of h k' heat' rho' fun i _ => r' i) (lo := lone)
    (hi := lone) (fun c hc e he => ⟨(hw c hc e he).ge, (hw c hc e he).le⟩) (rlo := r') (rhi := r') (fun i T => ⟨h0' i, le_refl _, le_refl _⟩) hm
    envT limit maximum celsius iteration hit solve hlen hsol fuel' hf
  refine ⟨t, by rw [hb]; exact n1, n2, ?_⟩
  rw [← power_eq hr N L hlone es]
  exact le_antisymm n5 n4

/-- **C145 fails** for resistivities that depend on the temperature: the heat of a solder joint, which its table gives at 298.15 K, is that of the
resistivity at the number 25, while the network evaluates the resistivity of the same material at kelvins. -/
theorem c145_joint_refuted (hr : Lib.empty.run ops = .ok l) (E : Env) {w : NWire} {j : NJoint} (hj : w.top = some j) {s : CutEx.Shape} {e t : ℚ}
    (hpl : j.place = some (s, (e, t))) (hc : 0 < w.current) (ht : 0 < t) (ha : 0 < E.area s.outline) (hmk : ∃ o ∈ ops, makes j.mat o = true)
    {f : ℚ → ℚ} (hf : HasRes ops j.mat f) (hne : f 25 ≠ f (29815 / 100)) (st : St) :
    (∃ x, findByName l.db .materialDef j.mat = some x ∧ l.scalar 8 x.matId (29815 / 100) = .ok (f (29815 / 100)) ∧
      addTop E st (w.resolve l) = .ok { st with
        m := addPowerBlock E st.m x.matId s.outline w.scen [(29815 / 100, w.current * w.current * (f 25 * t / E.area s.outline))] e t (1 / 2) (1 / 10)
        cur := some (e, t) }) ∧
      w.current * w.current * (f 25 * t / E.area s.outline) ≠ w.current * w.current * (f (29815 / 100) * t / E.area s.outline) := by
  obtain ⟨x, hx, hid⟩ := found hr hmk
  have hv := jointRes_eq hr hmk hf
  refine ⟨⟨x, hx, ?_, ?_⟩, ?_⟩
  · obtain ⟨p, hp, hs⟩ := hf
    exact c142_scalar_partial hr hx hp hs _
  · unfold addTop
    have h1 : (w.resolve l).top = some (j.resolve l) := by simp [NWire.resolve, hj]
    have h2 : (j.resolve l).place = some (s, (e, t)) := hpl
    have h3 : (j.resolve l).mat = some (x.matId : Int) := hid
    have h4 : (w.resolve l).current > 0 := hc
    simp only [h1, h2, h3, if_pos h4]
    congr 2
    unfold jointTable
    simp only [NJoint.resolve, hv, valueOf]
    rfl
  · intro h
    apply hne
    have hcc : w.current * w.current ≠ 0 := (mul_pos hc hc).ne'
    have h5 := mul_left_cancel₀ hcc h
    rw [div_left_inj' ha.ne'] at h5
    exact mul_right_cancel₀ ht.ne' h5

end

/-! ## example -/

/-- ten materials, one of which is a fluid; what the board of the example of C143 uses has properties -/
def exOps : List (MOp ℚ) :=
  [.mat "a", .mat "b", .mat "c", .mat "d", .mat "Air", .mat "Cu", .mat "FR4", .mat "Si", .mat "e", .mat "Al", .type "Air" true,
    .prop "Cu" 14 (.one 400), .prop "Cu" 38 (.one 380), .prop "Cu" 34 (.one 8900),
    .prop "FR4" 14 (.three 1 1 (1 / 2)), .prop "FR4" 38 (.one 1300), .prop "FR4" 34 (.one 1900),
    .prop "Si" 14 (.poly [[200, -1 / 10]]), .prop "Si" 38 (.one 700), .prop "Si" 34 (.one 2300),
    .prop "Al" 14 (.one 200), .prop "Al" 38 (.one 900), .prop "Al" 34 (.one 2700), .prop "Al" 8 (.one 3)]

/-- a board with a die of 4 W and an aluminium wire with 2 A -/
def exLayout : NLayout where
  layers := [⟨⟨"top", 0, true, 4, 4⟩, "Cu", "FR4"⟩]
  boundary := some ⟨sq 0 0 10, [], none⟩
  comps := [⟨⟨0, false, 4, 0⟩, some (sq 0 0 10), "Si", "", [(300, 4)], 0⟩]
  prims := [.other, .wire ⟨"Al", 3, 1 / 10, 2, 1, [((1, 1), 8), ((9, 9), 4)], none, none⟩]
  pads := []
  imprints := []

/-- its properties by name -/
def exCond (n : String) (T : ℚ) (i : Fin 3) : ℚ :=
  if n = "Cu" then 400 else if n = "FR4" then (if i = 2 then 1 / 2 else 1) else if n = "Si" then evalAt [200, -1 / 10] T else 200

def exHeat (n : String) (_ : ℚ) : ℚ := if n = "Cu" then 380 else if n = "FR4" then 1300 else if n = "Si" then 700 else 900

def exRho (n : String) (_ : ℚ) : ℚ := if n = "Cu" then 8900 else if n = "FR4" then 1900 else if n = "Si" then 2300 else 2700

theorem ex_uses {n : String} (h : Uses exLayout n) : n = "Cu" ∨ n = "FR4" ∨ n = "Si" ∨ n = "Al" := by
  cases h with
  | cond l h hs => simp only [exLayout, List.mem_singleton] at h; subst h; simp
  | diel l h hs => simp only [exLayout, List.mem_singleton] at h; subst h; simp
  | comp c h => simp only [exLayout, List.mem_singleton] at h; subst h; simp
  | solder c h hs => simp only [exLayout, List.mem_singleton] at h; subst h; simp at hs
  | wire w h => simp [exLayout] at h; subst h; simp
  | joint w j h hj => simp [exLayout] at h; subst h; simp at hj
  | pad p h hd => simp [exLayout] at h

theorem ex_has {n : String} (h : n = "Cu" ∨ n = "FR4" ∨ n = "Si" ∨ n = "Al") : Has exOps n (exCond n) (exHeat n) (exRho n) := by
  rcases h with rfl | rfl | rfl | rfl
  · exact ⟨⟨.one 400, rfl, .one _, fun _ _ => rfl⟩, ⟨.one 380, rfl, .one _⟩, ⟨.one 8900, rfl, .one _⟩⟩
  · refine ⟨⟨.three 1 1 (1 / 2), rfl, .three _ _ _, fun _ i => ?_⟩, ⟨.one 1300, rfl, .one _⟩, ⟨.one 1900, rfl, .one _⟩⟩
    fin_cases i <;> rfl
  · exact ⟨⟨.poly [[200, -1 / 10]], rfl, .poly1 _ (by simp), fun _ _ => rfl⟩, ⟨.one 700, rfl, .one _⟩, ⟨.one 2300, rfl, .one _⟩⟩
  · exact ⟨⟨.one 200, rfl, .one _, fun _ _ => rfl⟩, ⟨.one 900, rfl, .one _⟩, ⟨.one 2700, rfl, .one _⟩⟩

theorem ex_known : Known exOps exLayout exCond exHeat exRho fun _ _ => 3 := by
  refine ⟨fun n h _ => ex_has (ex_uses h), fun w h => ?_⟩
  have h' := ex_uses (.wire w h)
  refine ⟨ex_has h', fun _ => ?_⟩
  simp [exLayout] at h
  subst h
  exact ⟨.one 3, rfl, .one _⟩

theorem ex_nready : NReady exOps exEnv exLayout ⟨sq 0 0 10, [], none⟩ fun _ _ => 3 := by
  have hall : allP exLayout ⟨sq 0 0 10, [], none⟩ =
      [⟨some "FR4", -1, sq 0 0 10, false, 4, 4, false⟩, ⟨some "Si", -1, sq 0 0 10, false, 4 + 0 + 4, 4, true⟩] := rfl
  refine ⟨rfl, ?_, ?_, ?_, ?_, ?_, ?_, by decide, ?_, ?_, ?_⟩
  · intro k l h
    match k, h with
    | 0, h => simp only [exLayout, List.getElem?_cons_zero, Option.some.injEq] at h; subst h; rfl
    | k + 1, h => simp [exLayout] at h
  · simp only [exLayout, List.mem_singleton, forall_eq, Option.isSome_some, true_and]
    exact ⟨0, _, rfl, rfl, rfl⟩
  · intro w h
    simp [exLayout] at h
    subst h
    simp
  · intro s net lyr h
    simp [exLayout] at h
  · intro p h
    simp [exLayout] at h
  · intro n h
    rcases ex_uses h with rfl | rfl | rfl | rfl
    · exact ⟨.mat "Cu", by simp [exOps], rfl⟩
    · exact ⟨.mat "FR4", by simp [exOps], rfl⟩
    · exact ⟨.mat "Si", by simp [exOps], rfl⟩
    · exact ⟨.mat "Al", by simp [exOps], rfl⟩
  · rw [hall]
    intro q hq hh
    simp only [List.mem_cons, List.not_mem_nil, or_false] at hq
    rcases hq with rfl | rfl
    · cases hh
    · norm_num [exEnv]
  · rw [hall]
    intro q hq hh n hn
    simp only [List.mem_cons, List.not_mem_nil, or_false] at hq
    rcases hq with rfl | rfl
    · cases hh
    · cases hn
      rfl
  · intro w h _ j hj
    simp [exLayout] at h
    subst h
    simp at hj

theorem ex_lib : ∃ l, Lib.empty.run exOps = .ok l ∧ exLayout.resolve l = LayoutPrism.exIn ∧ fluidIds l = [4] ∧
    extractN l exEnv 0 1 exLayout = .ok (exLc, some (.ok exLay)) := by
  obtain ⟨l, hl⟩ : ∃ l, Lib.empty.run exOps = .ok l := ⟨_, rfl⟩
  have hid : (Lib.empty.run exOps).bind (fun l => .ok ([idOf l "Cu", idOf l "FR4", idOf l "Si", idOf l "", idOf l "Al"], fluidIds l)) =
      .ok ([some 5, some 6, some 7, none, some 9], [4]) := by decide +kernel
  rw [hl, Res.bind_ok, Res.ok.injEq] at hid
  simp only [Prod.mk.injEq, List.cons.injEq, and_true] at hid
  obtain ⟨⟨h1, h2, h3, h4, h5⟩, h6⟩ := hid
  have hres : exLayout.resolve l = LayoutPrism.exIn := by
    simp [NLayout.resolve, exLayout, LayoutPrism.exIn, NLayer.resolve, NComp.resolve, NPrim.resolve, NWire.resolve, h1, h2, h3, h4, h5]
  refine ⟨l, hl, hres, h6, ?_⟩
  have hrd : exLayout.prims.flatMap (NPrim.reads l) = [] := by simp [exLayout, NPrim.reads]
  unfold extractN
  rw [hrd, hres]
  exact ex_extract

/-- the hypotheses are met; the layout has 4 W of the die and 2² · 3 · 5 / (1/2) = 120 W of the wire -/
example : ∃ l, Lib.empty.run exOps = .ok l ∧ NReady exOps exEnv exLayout ⟨sq 0 0 10, [], none⟩ (fun _ _ => 3) ∧
    Known exOps exLayout exCond exHeat exRho (fun _ _ => 3) ∧ extractN l exEnv 0 1 exLayout = .ok (exLc, some (.ok exLay)) ∧
    (∃ m, Made (readCut exLc exLay (fluidIds l) fun p => (area2 p : ℚ) / 2) exView m exPowerMesh exLc.wires exWires) ∧
    (∃ m, MadeS (readCut exLc exLay (fluidIds l) fun p => (area2 p : ℚ) / 2) exView m StackBal.exTri 1
      [exPowerMesh, exPowerMesh, exPowerMesh, exPowerMesh] exLc.wires exWires) ∧
    (∀ c ∈ exLayout.comps, ∀ e ∈ c.power, e.2 = 4) ∧ power exEnv exLayout exWires (fun _ => 4) (fun _ => 3) = 124 := by
  obtain ⟨l, h1, -, h2, h3⟩ := ex_lib
  obtain ⟨m, hm, -⟩ := ex_model
  obtain ⟨m', hm', -⟩ := ex_model_stack
  rw [← h2] at hm hm'
  refine ⟨l, h1, ex_nready, ex_known, h3, ⟨m, hm⟩, ⟨m', hm'⟩, ?_, by decide +kernel⟩
  intro c hc e he
  simp only [exLayout, List.mem_singleton] at hc
  subst hc
  simp only [List.mem_singleton] at he
  rw [he]

/-- solder whose resistivity grows with the temperature: 2² · 26 / 100 W at the number 25, not 2² · 299.15 / 100 W -/
example : ∃ w : NWire, ∃ j : NJoint, w.top = some j ∧ j.place = some (⟨sq 0 0 10, [], none⟩, (4, 1)) ∧ 0 < w.current ∧
    0 < exEnv.area (sq 0 0 10) ∧ HasRes [.mat "Sn", .prop "Sn" 8 (.poly [[1, 1]])] j.mat (evalAt [1, 1]) ∧
    evalAt [1, (1 : ℚ)] 25 ≠ evalAt [1, 1] (29815 / 100) := by
  refine ⟨⟨"Al", 3, 1 / 10, 2, 1, [], some ⟨some (⟨sq 0 0 10, [], none⟩, (4, 1)), "Sn"⟩, none⟩, _, rfl, rfl, by norm_num, by decide +kernel,
    ⟨.poly [[1, 1]], rfl, .poly _ (by simp)⟩, ?_⟩
  simp [evalAt, Finset.sum_range_succ]
  norm_num

end Ecad.Named
