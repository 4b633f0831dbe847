import Verif.Shape.Props
import Verif.Basic.PadProps
import Verif.Layer.MapModel
/-!
The shape of a padstack instance on a layer (src/design/EPadstackInst.cpp:88-121), C84.
-/
namespace Ecad.Shp

variable {K : Type} [Field K] [LinearOrder K]

/-- `makeETransform2D(1.0, rotation, offset)` as a matrix (src/basic/ETransform.h:25-34, 122-130): turned,
then shifted.  `R` gives cosine and sine of an angle; no turn is made for the angle 0. -/
def place (R : Int → K × K) (rot : Int) (off : Int × Int) : Aff K :=
  if rot = 0 then ⟨1, 0, 0, 1, off.1, off.2⟩
  else ⟨(R rot).1, -(R rot).2, (R rot).2, (R rot).1, off.1, off.2⟩

/-- `EPadstackInst` (src/design/EPadstackInst.h): layer range, layer map (null: `none`), the data of the
definition (`none`: no definition or no data) and the transform. -/
structure PInst (K : Type) where
  top : Int
  bot : Int
  lmap : Option LayerMap.BiMap
  data : Option (Pad.Data (Shape K))
  trans : Aff K

/-- `EPadstackInst::GetLayerShape` (src/design/EPadstackInst.cpp:88-121).  `Append` applies the appended
transform after the one of the instance (src/basic/ETransform.h:93-102). -/
def PInst.layerShape (R : Int → K × K) (i : PInst K) (lyr : Int) : Res (Option (Shape K)) :=
  if lyr < min i.top i.bot ∨ lyr > max i.top i.bot then .ok none
  else match i.lmap with
  | none => .ok none
  | some lm =>
    match i.data with
    | none => .ok none
    | some d =>
      (Pad.getPad d (LayerMap.forward lm lyr)).bind fun r =>
      let v : Pad.Par (Shape K) := match r with
        | some p => if p.shape.isNone then d.via else p
        | none => d.via
      match v.shape with
      | none => .ok none
      | some s => .ok (some (s.transform ((place R v.rotation v.offset).comp i.trans)))

/-! ### specification -/

/-- what belongs on layout layer `lyr`: the pad to which the layer map sends the layer, if there is one
with a shape, else the via -/
def Wanted (d : Pad.Data (Shape K)) (lm : LayerMap.BiMap) (lyr : Int) (v : Pad.Par (Shape K)) : Prop :=
  (∃ (k : Nat) (p : Pad.Pad (Shape K)), LayerMap.forward lm lyr = k ∧ d.pads[k]? = some p ∧ p.par.shape.isSome ∧ v = p.par) ∨
  ((∀ (k : Nat) (p : Pad.Pad (Shape K)), LayerMap.forward lm lyr = k → d.pads[k]? = some p → p.par.shape = none) ∧ v = d.via)

/-- which parameters the code uses -/
theorem layerShape_eq (R : Int → K × K) (i : PInst K) (lyr : Int) (lm : LayerMap.BiMap) (d : Pad.Data (Shape K))
    (hlm : i.lmap = some lm) (hd : i.data = some d) (hr : min i.top i.bot ≤ lyr ∧ lyr ≤ max i.top i.bot)
    (hf : -1 ≤ LayerMap.forward lm lyr) (v : Pad.Par (Shape K)) (hv : Wanted d lm lyr v) :
    i.layerShape R lyr = .ok (v.shape.map fun s => s.transform ((place R v.rotation v.offset).comp i.trans)) := by
  have h0 : ¬ (lyr < min i.top i.bot ∨ lyr > max i.top i.bot) := by omega
  have hu : ∀ u : Pad.Par (Shape K),
      (match u.shape with
        | none => (.ok none : Res (Option (Shape K)))
        | some s => .ok (some (s.transform ((place R u.rotation u.offset).comp i.trans)))) =
      .ok (u.shape.map fun s => s.transform ((place R u.rotation u.offset).comp i.trans)) := by
    intro u
    cases u.shape <;> rfl
  simp only [PInst.layerShape, if_neg h0, hlm, hd]
  by_cases hn : LayerMap.forward lm lyr = -1
  · rw [hn]
    have hg : Pad.getPad d (-1) = .ok none := by simp [Pad.getPad, Pad.noLayer]
    have hv' : v = d.via := by
      rcases hv with ⟨k, p, hk, _⟩ | h
      · omega
      · exact h.2
    rw [hg, Res.bind_ok, hv']
    exact hu _
  · obtain ⟨k, hk⟩ : ∃ k : Nat, LayerMap.forward lm lyr = k := ⟨(LayerMap.forward lm lyr).toNat, by omega⟩
    rw [hk]
    cases hp : d.pads[k]? with
    | none =>
      have hlen : d.pads.length ≤ k := List.getElem?_eq_none_iff.1 hp
      have hg : Pad.getPad d (k : Int) = .ok none := Pad.getPad_out d k (Or.inr (by omega))
      have hv' : v = d.via := by
        rcases hv with ⟨k', p, hk', hp', _⟩ | h
        · have : k' = k := by omega
          subst this
          rw [hp] at hp'; exact absurd hp' (by simp)
        · exact h.2
      rw [hg, Res.bind_ok, hv']
      exact hu _
    | some p =>
      have hlen : k < d.pads.length := (List.getElem?_eq_some_iff.1 hp).1
      have hg : Pad.getPad d (k : Int) = .ok (some p.par) := Pad.getPad_in d k p hp
      rw [hg, Res.bind_ok]
      have hv' : v = if p.par.shape.isNone then d.via else p.par := by
        rcases hv with ⟨k', p', hk', hp', hs, he⟩ | h
        · have : k' = k := by omega
          subst this
          rw [hp] at hp'
          obtain rfl := Option.some.inj hp'
          rw [he, if_neg (by rw [Option.isSome_iff_ne_none] at hs; simpa using hs)]
        · rw [if_pos (by simp [h.1 k p hk hp]), h.2]
      simp only [← hv']
      exact hu _

/-- C84: on a layer in its range a padstack instance has the shape of the pad the layer maps to (else of
the via), and off its range none; the shape is first moved by the transform of the instance and then by
the rotation and offset of the pad. -/
theorem c84_layers (R : Int → K × K) (i : PInst K) (lyr : Int) :
    ((lyr < min i.top i.bot ∨ max i.top i.bot < lyr) → i.layerShape R lyr = .ok none) ∧
    ∀ lm d v, i.lmap = some lm → i.data = some d → min i.top i.bot ≤ lyr → lyr ≤ max i.top i.bot →
      -1 ≤ LayerMap.forward lm lyr → Wanted d lm lyr v →
      i.layerShape R lyr = .ok (v.shape.map fun s => s.transform ((place R v.rotation v.offset).comp i.trans)) := by
  refine ⟨fun h => ?_, fun lm d v h1 h2 h3 h4 h5 h6 => layerShape_eq R i lyr lm d h1 h2 ⟨h3, h4⟩ h5 v h6⟩
  simp only [PInst.layerShape]
  rw [if_pos (by omega)]

/-- Where the rotation and offset of a pad put a point: turned about the origin of the padstack, then
shifted by the offset. -/
theorem c84_place_act (R : Int → K × K) (rot : Int) (off : Int × Int) (p : K × K)
    (h0 : R 0 = (1, 0)) :
    (place R rot off).act p = ((R rot).1 * p.1 - (R rot).2 * p.2 + (off.1 : K),
      (R rot).2 * p.1 + (R rot).1 * p.2 + (off.2 : K)) := by
  unfold place
  split
  · rename_i h
    subst h
    simp [Aff.act, h0]
  · simp [Aff.act, sub_eq_add_neg]

/-- C84: a pad that is a polygon (with holes, or made from a template) is drawn where its own rotation and
offset put it in the padstack and the transform of the instance puts the padstack.  Missing: pads with a
rotation or offset of their own, unless they are only offset and the instance only shifted
(`c84_order_refuted`). -/
theorem c84_place_partial (L : Lib K) (R : Int → K × K) (i : PInst K) (lyr : Int) (lm : LayerMap.BiMap) (d : Pad.Data (Shape K))
    (v : Pad.Par (Shape K)) (s : Shape K) (hlm : i.lmap = some lm) (hd : i.data = some d)
    (hr : min i.top i.bot ≤ lyr ∧ lyr ≤ max i.top i.bot) (hf : -1 ≤ LayerMap.forward lm lyr) (hv : Wanted d lm lyr v)
    (hs : v.shape = some s) (h1 : ∀ b, s ≠ .rect b) (h2 : ∀ l w, s ≠ .path l w) (h3 : ∀ o r n, s ≠ .circle o r n)
    (hc : v.rotation = 0) (hc' : v.offset = (0, 0) ∨ ∃ x y, i.trans = ⟨1, 0, 0, 1, x, y⟩) :
    ∃ t, i.layerShape R lyr = .ok (some t) ∧
      t.pwh L = (s.pwh L).map (fun p => i.trans.act ((place R v.rotation v.offset).act p)) := by
  refine ⟨s.transform ((place R v.rotation v.offset).comp i.trans), ?_, ?_⟩
  · rw [layerShape_eq R i lyr lm d hlm hd hr hf v hv, hs]; rfl
  · have hfun : ((place R v.rotation v.offset).comp i.trans).act = fun p => i.trans.act ((place R v.rotation v.offset).act p) := by
      funext p
      rw [comp_act]
      rcases hc' with h | ⟨x, y, h⟩
      · simp [place, hc, h, Aff.act]
      · simp only [place, hc, h, Aff.act, if_true]
        ext <;> simp only <;> ring
    cases s with
    | rect b => exact absurd rfl (h1 b)
    | path l w => exact absurd rfl (h2 l w)
    | circle o r n => exact absurd rfl (h3 o r n)
    | polygon pts => simp [Shape.transform, Shape.pwh, Shape.contour, Pwh.map, hfun]
    | holes o hs => simp [Shape.transform, Shape.pwh, Pwh.map, hfun]
    | templ m0 s =>
      have hm : ((place R v.rotation v.offset).comp i.trans |>.comp m0).act =
          (fun p => i.trans.act ((place R v.rotation v.offset).act p)) ∘ m0.act := by
        funext p; rw [comp_act, hfun]; rfl
      by_cases hv : s.isValid = true
      · simp [Shape.transform, Shape.pwh, Pwh.map, hv, hm]
      · simp [Shape.transform, Shape.pwh, Pwh.map, hv]
    | noTempl m0 => simp [Shape.transform, Shape.pwh, Pwh.map]

variable [IsStrictOrderedRing K]

/-- Full statement of C84, false: a pad that is turned in its padstack, of an instance that is shifted,
is turned about the origin of the layout instead of the origin of the padstack; no point of its outline is
where it belongs. -/
theorem c84_order_refuted (L : Lib K) (R : Int → K × K) (i : PInst K) (lyr : Int) (lm : LayerMap.BiMap) (d : Pad.Data (Shape K))
    (rot : Int) (hrot : rot ≠ 0) (hR : (R rot).1 ≠ 1) (pts : List (K × K)) (x y : K) (hxy : (x, y) ≠ (0, 0))
    (hlm : i.lmap = some lm) (hd : i.data = some d) (hr : min i.top i.bot ≤ lyr ∧ lyr ≤ max i.top i.bot)
    (hf : -1 ≤ LayerMap.forward lm lyr) (hv : Wanted d lm lyr ⟨some (.polygon pts), (0, 0), rot⟩)
    (ht : i.trans = ⟨1, 0, 0, 1, x, y⟩) :
    ∃ t, i.layerShape R lyr = .ok (some t) ∧ (t.contour L).length = pts.length ∧
      ∀ (k : Nat) p q, pts[k]? = some p → (t.contour L)[k]? = some q → q ≠ i.trans.act ((place R rot (0, 0)).act p) := by
  refine ⟨_, (layerShape_eq R i lyr lm d hlm hd hr hf _ hv).trans rfl, ?_, ?_⟩
  · simp [Shape.transform, Shape.contour]
  · intro k p q hp hq hqe
    simp only [Shape.transform, Shape.contour, List.getElem?_map, hp, Option.map_some, Option.some.injEq] at hq
    rw [← hq, comp_act] at hqe
    simp only [place, hrot, if_false, ht, Aff.act, Prod.mk.injEq, Int.cast_zero] at hqe
    obtain ⟨e1, e2⟩ := hqe
    set c := (R rot).1 with hcdef
    set s := (R rot).2
    have f1 : (c - 1) * x - s * y = 0 := by linear_combination e1
    have f2 : s * x + (c - 1) * y = 0 := by linear_combination e2
    have g : ((c - 1) ^ 2 + s ^ 2) * x = 0 := by linear_combination (c - 1) * f1 + s * f2
    have g' : ((c - 1) ^ 2 + s ^ 2) * y = 0 := by linear_combination (c - 1) * f2 - s * f1
    have hc : c - 1 ≠ 0 := sub_ne_zero.2 hR
    have hpos : (c - 1) ^ 2 + s ^ 2 ≠ 0 := by
      have : 0 < (c - 1) ^ 2 := by positivity
      nlinarith [sq_nonneg s]
    exact hxy (by rw [(mul_eq_zero.1 g).resolve_left hpos, (mul_eq_zero.1 g').resolve_left hpos])

/-- an instance with two pads: on layer 0 its first pad, on layer 2 its second pad, which is turned by 90
degrees; on layer 1 (which maps to nothing) the via -/
def exPInst : PInst ℚ :=
  { top := 0, bot := 2, lmap := some [(0, 0), (2, 1)],
    data := some ⟨"", [⟨"a", ⟨some (.polygon [(0, 0), (2, 0), (2, 1)]), (0, 0), 0⟩⟩, ⟨"b", ⟨some (.polygon [(0, 0), (2, 0), (2, 1)]), (0, 0), 90⟩⟩],
      ⟨some (.circle (0, 0) 1 8), (0, 0), 0⟩, Pad.Bump.init, Pad.Bump.init⟩,
    trans := ⟨1, 0, 0, 1, 10, 20⟩ }

def exR : Int → ℚ × ℚ := fun r => if r = 90 then (0, 1) else (1, 0)

example : exPInst.layerShape exR 0 = .ok (some (.polygon [(10, 20), (12, 20), (12, 21)])) := by decide +kernel
example : exPInst.layerShape exR 1 = .ok (some (.circle (10, 20) 1 8)) := by decide +kernel
/-- expected `[(10, 20), (10, 22), (9, 22)]` -/
example : exPInst.layerShape exR 2 = .ok (some (.polygon [(-20, 10), (-20, 12), (-21, 12)])) := by decide +kernel
example : exPInst.layerShape exR 3 = .ok none := by decide +kernel

example (d : Pad.Data (Shape ℚ)) (hd : exPInst.data = some d) :
    Wanted d [(0, 0), (2, 1)] 2 ⟨some (.polygon [(0, 0), (2, 0), (2, 1)]), (0, 0), 90⟩ ∧
    Wanted d [(0, 0), (2, 1)] 1 ⟨some (.circle (0, 0) 1 8), (0, 0), 0⟩ := by
  obtain rfl := (Option.some.inj hd).symm
  refine ⟨Or.inl ⟨1, _, by decide, rfl, rfl, rfl⟩, Or.inr ⟨?_, rfl⟩⟩
  intro k p hk
  have : LayerMap.forward [(0, 0), (2, 1)] 1 = -1 := by decide
  omega

end Ecad.Shp
