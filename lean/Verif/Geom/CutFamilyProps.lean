import Verif.Geom.CutExModel
/-!
Layer cut models of layouts that differ in loss powers and currents only: they differ in the tables of the power blocks and the currents of the wires.
Used for C144.
-/
namespace Ecad.CutEx
open Geom Util

/-- loss power tables of the components and currents of the bond wires, by the positions of the objects among components and primitives -/
structure Setting where
  tables : Nat → List (ℚ × ℚ)
  currents : Nat → ℚ

/-- a primitive with another current -/
def Prim.carry (c : ℚ) : Prim → Prim
  | .wire w => .wire { w with current := c }
  | .geom s net lyr => .geom s net lyr
  | .other => .other

/-- a layout with other loss powers and currents -/
def Input.under (I : Input) (s : Setting) : Input :=
  { I with
    comps := I.comps.zipIdx.map fun x => { x.1 with power := s.tables x.2 }
    prims := I.prims.zipIdx.map fun x => x.1.carry (s.currents x.2) }

section
variable {ι : Type}

/-- a family of layer cut models with the same geometry -/
structure Base (ι : Type) where
  ranges : List Range
  polygons : List Polygon
  mats : List Int
  nets : List Int
  blocks : List (Nat × Block × (ι → List (ℚ × ℚ)))
  steiner : List (Int × Int)
  wires : List (WireOut × (ι → ℚ))

/-- a block of it -/
def blockAt (i : ι) (e : Nat × Block × (ι → List (ℚ × ℚ))) : Nat × Block := (e.1, { e.2.1 with power := e.2.2 i })

/-- a model of it -/
def Base.at_ (B : Base ι) (i : ι) : Model :=
  ⟨B.ranges, B.polygons, B.mats, B.nets, B.blocks.map (blockAt i), B.steiner, B.wires.map fun w => { w.1 with current := w.2 i }⟩

/-- tables and currents of a family -/
def Base.Good (G : (ι → List (ℚ × ℚ)) → Prop) (H : (ι → ℚ) → Prop) (B : Base ι) : Prop := (∀ e ∈ B.blocks, G e.2.2) ∧ ∀ w ∈ B.wires, H w.2

/-- results that come of one family -/
def Uni {A M : Type} (ok : A → Prop) (pick : A → ι → M) (f : ι → Res M) : Prop :=
  ∃ r : Res A, (∀ a, r = .ok a → ok a) ∧ ∀ i, f i = r.bind fun a => .ok (pick a i)

theorem uni_ok {A M : Type} {ok : A → Prop} {pick : A → ι → M} {f : ι → Res M} (a : A) (ha : ok a) (h : ∀ i, f i = .ok (pick a i)) : Uni ok pick f :=
  ⟨.ok a, fun b hb => by cases hb; exact ha, h⟩

theorem uni_ub {A M : Type} {ok : A → Prop} {pick : A → ι → M} {f : ι → Res M} (h : ∀ i, f i = .ub) : Uni ok pick f :=
  ⟨.ub, ⟨fun _ hb => by simp at hb, h⟩⟩

theorem uni_bind {A B M N : Type} {ok : A → Prop} {pick : A → ι → M} {ok' : B → Prop} {pick' : B → ι → N} {f : ι → Res M} {g : ι → M → Res N}
    (hf : Uni ok pick f) (hg : ∀ a, ok a → Uni ok' pick' fun i => g i (pick a i)) : Uni ok' pick' fun i => (f i).bind (g i) := by
  obtain ⟨r, h1, h2⟩ := hf
  cases r with
  | ub => exact uni_ub fun i => (congrArg (Res.bind · (g i)) (h2 i) :)
  | exn => exact ⟨.exn, ⟨fun _ hb => by simp at hb, fun i => (congrArg (Res.bind · (g i)) (h2 i) :)⟩⟩
  | ok a =>
    obtain ⟨r', h3, h4⟩ := hg a (h1 a rfl)
    refine ⟨r', h3, fun i => ?_⟩
    show (f i).bind (g i) = _
    rw [h2 i]
    exact h4 i

variable {G : (ι → List (ℚ × ℚ)) → Prop} {H : (ι → ℚ) → Prop}

theorem fam_polygon (E : Env) {B : Base ι} (hB : B.Good G H) (net mat : Int) (p : Polygon) (hole : Bool) (elev thick : ℚ) :
    ∃ B' : Base ι, ∃ o, B'.Good G H ∧ ∀ i, addPolygon E (B.at_ i) net mat p hole elev thick = (B'.at_ i, o) := by
  unfold addPolygon
  dsimp only
  by_cases h : (layerRange E.scale elev thick).isValid
  · refine ⟨{ B with ranges := B.ranges ++ [layerRange E.scale elev thick],
                     polygons := B.polygons ++ [if hole = E.ccw p then p.reverse else p], mats := B.mats ++ [mat], nets := B.nets ++ [net] },
      some B.polygons.length, hB, fun i => ?_⟩
    rw [if_pos h]
    rfl
  · exact ⟨B, none, hB, fun i => by rw [if_neg h]⟩

theorem fam_holes (E : Env) (net mat : Int) (elev thick : ℚ) (hs : List Polygon) :
    ∀ {B : Base ι}, B.Good G H → ∃ B' : Base ι, B'.Good G H ∧ ∀ i, addHoles E net mat elev thick (B.at_ i) hs = B'.at_ i := by
  induction hs with
  | nil => intro B hB; exact ⟨B, hB, fun i => rfl⟩
  | cons h hs ih =>
    intro B hB
    obtain ⟨B1, o, h1, h2⟩ := fam_polygon E hB net mat h true elev thick
    obtain ⟨B2, h3, h4⟩ := ih h1
    refine ⟨B2, h3, fun i => ?_⟩
    rw [addHoles, h2 i]
    exact h4 i

theorem fam_shape (E : Env) {B : Base ι} (hB : B.Good G H) (net solid hole : Int) (s : Option Shape) (elev thick : ℚ) :
    Uni (Base.Good G H) Base.at_ fun i => addShape E (B.at_ i) net solid hole s elev thick := by
  cases s with
  | none => exact uni_ub fun i => rfl
  | some s =>
    have key : ∀ B : Base ι, B.Good G H → ∃ B' : Base ι, B'.Good G H ∧
        ∀ i, addHoles E net hole elev thick (addPolygon E (B.at_ i) net solid s.outline false elev thick).1 s.holes = B'.at_ i := by
      intro B hB
      obtain ⟨B1, o, h1, h2⟩ := fam_polygon E hB net solid s.outline false elev thick
      obtain ⟨B2, h3, h4⟩ := fam_holes E net hole elev thick s.holes h1
      exact ⟨B2, h3, fun i => by rw [h2 i]; exact h4 i⟩
    cases hc : E.circles with
    | false =>
      obtain ⟨B', h1, h2⟩ := key B hB
      exact uni_ok B' h1 fun i => by rw [← h2 i]; simp only [addShape, hc]
    | true =>
      cases ho : s.centre with
      | none =>
        obtain ⟨B', h1, h2⟩ := key B hB
        exact uni_ok B' h1 fun i => by rw [← h2 i]; simp only [addShape, hc, ho]
      | some o =>
        obtain ⟨B', h1, h2⟩ := key { B with steiner := B.steiner ++ [o] } hB
        exact uni_ok B' h1 fun i => by rw [← h2 i]; simp only [addShape, hc, ho]; rfl

theorem count_blocks (i : ι) (l : List (Nat × Block × (ι → List (ℚ × ℚ)))) (k : Nat) : UMap.count (l.map (blockAt i)) k = UMap.count l k := by
  unfold UMap.count
  rw [List.any_map]
  rfl

theorem fam_power (E : Env) {B : Base ι} (hB : B.Good G H) (mat : Int) (p : Polygon) (scen : Nat) {t : ι → List (ℚ × ℚ)} (ht : G t) (elev thick pos pt : ℚ) :
    ∃ B' : Base ι, B'.Good G H ∧ ∀ i, addPowerBlock E (B.at_ i) mat p scen (t i) elev thick pos pt = B'.at_ i := by
  obtain ⟨B1, o, h1, h2⟩ := fam_polygon E hB noId mat p false elev thick
  unfold addPowerBlock
  cases o with
  | none => exact ⟨B1, h1, fun i => by rw [h2 i]⟩
  | some k =>
    by_cases hc : UMap.count B1.blocks k
    · refine ⟨B1, h1, fun i => ?_⟩
      rw [h2 i]
      dsimp only
      unfold UMap.emplace
      rw [if_pos (by exact (count_blocks i B1.blocks k).trans hc)]
    · refine ⟨{ B1 with blocks := B1.blocks ++ [(k, ⟨k, powerRange E.scale elev thick pos pt, scen, []⟩, t)] }, ⟨?_, h1.2⟩, fun i => ?_⟩
      · intro e he
        rcases List.mem_append.1 he with he | he
        · exact h1.1 e he
        · rw [List.mem_singleton] at he
          subst he
          exact ht
      · rw [h2 i]
        dsimp only
        unfold UMap.emplace
        rw [if_neg (by rw [show (B1.at_ i).blocks = B1.blocks.map (blockAt i) from rfl, count_blocks]; exact hc)]
        unfold Base.at_
        dsimp only
        rw [List.map_append]
        rfl

/-- tables of one object: none anywhere, or proper ones everywhere -/
def Even (G : (ι → List (ℚ × ℚ)) → Prop) (t : ι → List (ℚ × ℚ)) : Prop := (∀ i, t i = []) ∨ (∀ i, t i ≠ []) ∧ G t

theorem fam_component (E : Env) (layers : List (Slab ℚ)) {B : Base ι} (hB : B.Good G H) (c : CompIn) {t : ι → List (ℚ × ℚ)} (ht : Even G t) :
    Uni (Base.Good G H) Base.at_ fun i => addComponent E layers (B.at_ i) { c with power := t i } := by
  unfold addComponent
  dsimp only
  cases c.outline with
  | none => exact uni_ub fun i => rfl
  | some b =>
    cases c.mat with
    | none => exact uni_ub fun i => rfl
    | some mat =>
      cases partHeight layers c.part with
      | none => exact uni_ub fun i => rfl
      | some et =>
        obtain ⟨elev, thick⟩ := et
        dsimp only
        have step : ∃ B' : Base ι, B'.Good G H ∧ ∀ i, (if !(t i).isEmpty then addPowerBlock E (B.at_ i) mat b c.scen (t i) elev thick (1 / 10) (1 / 10)
            else (addPolygon E (B.at_ i) noId mat b false elev thick).1) = B'.at_ i := by
          rcases ht with h | ⟨h, hg⟩
          · obtain ⟨B', o, h1, h2⟩ := fam_polygon E hB noId mat b false elev thick
            refine ⟨B', h1, fun i => ?_⟩
            rw [h i, h2 i]
            rfl
          · obtain ⟨B', h1, h2⟩ := fam_power E hB mat b c.scen hg elev thick (1 / 10) (1 / 10)
            refine ⟨B', h1, fun i => ?_⟩
            rw [if_pos (by simpa using h i), h2 i]
        obtain ⟨B1, h1, h2⟩ := step
        cases solderHeight layers c.part with
        | none => exact uni_ub fun i => rfl
        | some et2 =>
          obtain ⟨e2, t2⟩ := et2
          dsimp only
          by_cases hp : t2 > 0
          · simp only [if_pos hp]
            cases c.solderMat with
            | none => exact uni_ub fun i => rfl
            | some sm =>
              obtain ⟨B2, o, h3, h4⟩ := fam_polygon E h1 noId sm b false e2 t2
              refine uni_ok B2 h3 fun i => ?_
              dsimp only
              rw [h2 i, h4 i]
          · simp only [if_neg hp]
            exact uni_ok B1 h1 fun i => by rw [h2 i]

theorem fam_components (E : Env) (layers : List (Slab ℚ)) (s : ι → Setting) (cs : List (CompIn × Nat))
    (h : ∀ x ∈ cs, Even G fun i => (s i).tables x.2) : ∀ {B : Base ι}, B.Good G H →
    Uni (Base.Good G H) Base.at_ fun i => addComponents E layers (B.at_ i) (cs.map fun x => { x.1 with power := (s i).tables x.2 }) := by
  induction cs with
  | nil => intro B hB; exact uni_ok B hB fun i => rfl
  | cons x cs ih =>
    intro B hB
    simp only [List.map_cons, addComponents]
    exact uni_bind (fam_component E layers hB x.1 (h x (by simp))) fun a ha => ih (fun y hy => h y (by simp [hy])) ha

/-! ## states -/

/-- a family of states -/
structure SBase (ι : Type) where
  m : Base ι
  cur : Option (ℚ × ℚ)
  heights : List (Int × (ℚ × ℚ))
  mats : List (Int × (Int × Int))

/-- a state of it -/
def SBase.at_ (B : SBase ι) (i : ι) : St := ⟨B.m.at_ i, B.cur, B.heights, B.mats⟩

/-- tables and currents of a family -/
def SBase.Good (G : (ι → List (ℚ × ℚ)) → Prop) (H : (ι → ℚ) → Prop) (B : SBase ι) : Prop := B.m.Good G H

theorem fam_then {f : ι → Res Model} (hf : Uni (Base.Good G H) Base.at_ f) (cur : Option (ℚ × ℚ)) (heights : List (Int × (ℚ × ℚ)))
    (mats : List (Int × (Int × Int))) :
    Uni (SBase.Good G H) SBase.at_ fun i => (f i).bind fun m => .ok (⟨m, cur, heights, mats⟩ : St) :=
  uni_bind (g := fun _ m => .ok (⟨m, cur, heights, mats⟩ : St)) hf fun a ha => uni_ok ⟨a, cur, heights, mats⟩ ha fun _ => rfl

/-- currents of one wire: none positive, or all positive with proper heat of the joints -/
def Steer (E : Env) (G : (ι → List (ℚ × ℚ)) → Prop) (H : (ι → ℚ) → Prop) (w : WireIn) (c : ι → ℚ) : Prop :=
  H c ∧ ((∀ i, ¬ c i > 0) ∨ (∀ i, c i > 0) ∧ ∀ j s elev thick, (w.top = some j ∨ w.bot = some j) → j.place = some (s, (elev, thick)) →
    G fun i => jointTable E { w with current := c i } j s thick)

theorem fam_top (E : Env) {B : SBase ι} (hB : B.Good G H) (w : WireIn) {c : ι → ℚ} (hc : Steer E G H w c) :
    Uni (SBase.Good G H) SBase.at_ fun i => addTop E (B.at_ i) { w with current := c i } := by
  unfold addTop
  dsimp only
  cases ht : w.top with
  | none => exact uni_ok B hB fun i => rfl
  | some j =>
    dsimp only
    cases hp : j.place with
    | none => exact uni_ub fun i => rfl
    | some pl =>
      obtain ⟨s, elev, thick⟩ := pl
      cases hm : j.mat with
      | none => exact uni_ub fun i => rfl
      | some mat =>
        dsimp only
        rcases hc.2 with h | ⟨h, hg⟩
        · simp only [if_neg (h _)]
          exact fam_then (fam_shape E hB w.net mat noId (some s) elev thick) _ _ _
        · simp only [if_pos (h _)]
          obtain ⟨B', h1, h2⟩ := fam_power E hB mat s.outline w.scen (hg j s elev thick (.inl ht) hp) elev thick (1 / 2) (1 / 10)
          refine uni_ok ⟨B', some (elev, thick), B.heights, B.mats⟩ h1 fun i => ?_
          show _ = Res.ok (⟨B'.at_ i, some (elev, thick), B.heights, B.mats⟩ : St)
          rw [← h2 i]
          rfl

theorem fam_bot (E : Env) {B : SBase ι} (hB : B.Good G H) (w : WireIn) {c : ι → ℚ} (hc : Steer E G H w c) :
    Uni (SBase.Good G H) SBase.at_ fun i => addBot E (B.at_ i) { w with current := c i } := by
  unfold addBot
  dsimp only
  cases ht : w.bot with
  | none => exact uni_ok B hB fun i => rfl
  | some j =>
    dsimp only
    cases hp : j.place with
    | none => exact uni_ub fun i => rfl
    | some pl =>
      obtain ⟨s, elev, thick⟩ := pl
      cases hm : j.mat with
      | none => exact uni_ub fun i => rfl
      | some mat =>
        dsimp only
        rcases hc.2 with h | ⟨h, hg⟩
        · simp only [if_neg (h _)]
          exact fam_then (fam_shape E hB w.net mat noId (some s) elev thick) _ _ _
        · simp only [if_pos (h _)]
          obtain ⟨B', h1, h2⟩ := fam_power E hB mat s.outline w.scen (hg j s elev thick (.inr ht) hp) elev thick (1 / 2) (1 / 10)
          have : ∀ i, addPowerBlock E (B.at_ i).m mat s.outline w.scen (jointTable E { w with current := c i } j s thick) elev thick (1 / 2) (1 / 10) = B'.at_ i := h2
          show Uni _ _ fun i => (addShape E (addPowerBlock E (B.at_ i).m mat s.outline w.scen (jointTable E { w with current := c i } j s thick)
            elev thick (1 / 2) (1 / 10)) w.net mat noId (some s) elev thick).bind fun m => .ok (⟨m, some (elev, thick), B.heights, B.mats⟩ : St)
          simp only [this]
          exact fam_then (fam_shape E h1 w.net mat noId (some s) elev thick) _ _ _

theorem fam_wire (E : Env) {B : SBase ι} (hB : B.Good G H) (w : WireIn) {c : ι → ℚ} (hc : Steer E G H w c) :
    Uni (SBase.Good G H) SBase.at_ fun i => addWire E (B.at_ i) { w with current := c i } := by
  unfold addWire
  dsimp only
  cases w.mat with
  | none => exact uni_ub fun i => rfl
  | some mat =>
    dsimp only
    let B1 : SBase ι := { B with m := { B.m with wires := B.m.wires ++ [(⟨w.net, w.radius, mat, 0, w.scen, w.points⟩, c)] } }
    have g1 : B1.Good G H := by
      refine ⟨hB.1, fun x hx => ?_⟩
      rcases List.mem_append.1 hx with hx | hx
      · exact hB.2 x hx
      · rw [List.mem_singleton] at hx
        subst hx
        exact hc.1
    have e1 : ∀ i, ({ B.at_ i with m := { (B.at_ i).m with wires := (B.at_ i).m.wires ++ [⟨w.net, w.radius, mat, c i, w.scen, w.points⟩] } } : St) = B1.at_ i := by
      intro i
      simp [B1, SBase.at_, Base.at_]
    simp only [e1]
    exact uni_bind (g := fun i st => addBot E st { w with current := c i }) (fam_top E g1 w hc) fun a ha => fam_bot E ha w hc

/-- states with what was read -/
def SBase.with_ {X : Type} (a : SBase ι × X) (i : ι) : St × X := (a.1.at_ i, a.2)

theorem fam_height (layers : List LayerIn) {B : SBase ι} (hB : B.Good G H) (lyr : Int) :
    Uni (fun a : SBase ι × (ℚ × ℚ) => a.1.Good G H) SBase.with_ fun i => readHeight layers (B.at_ i) lyr := by
  unfold readHeight
  have e1 : ∀ i, (B.at_ i).heights = B.heights := fun i => rfl
  have e2 : ∀ i, (B.at_ i).cur = B.cur := fun i => rfl
  simp only [e1, e2]
  cases UMap.find? B.heights lyr with
  | some e => exact uni_ok ({ B with cur := some e }, e) hB fun i => rfl
  | none =>
    dsimp only
    cases layerHeight (layers.map LayerIn.slab) lyr with
    | some e => exact uni_ok ({ B with cur := some e, heights := (UMap.emplace B.heights lyr e).1 }, e) hB fun i => rfl
    | none =>
      cases hb : B.cur with
      | some e =>
        refine uni_ok ({ B with heights := (UMap.emplace B.heights lyr e).1 }, e) hB fun i => ?_
        show Res.ok _ = Res.ok _
        rw [← hb]
        rfl
      | none => exact uni_ub fun i => rfl

theorem fam_prim (E : Env) (layers : List LayerIn) {B : SBase ι} (hB : B.Good G H) (x : Prim) {c : ι → ℚ} (hc : ∀ w, x = .wire w → Steer E G H w c) :
    Uni (SBase.Good G H) SBase.at_ fun i => addPrim E layers (B.at_ i) (x.carry (c i)) := by
  cases x with
  | other => exact uni_ok B hB fun i => rfl
  | wire w => exact fam_wire E hB w (hc w rfl)
  | geom s net lyr =>
    show Uni (SBase.Good G H) SBase.at_ fun i => addPrim E layers (B.at_ i) (.geom s net lyr)
    unfold addPrim readMats
    have e1 : ∀ i, (B.at_ i).mats = B.mats := fun i => rfl
    simp only [e1]
    have rest : ∀ (B : SBase ι), B.Good G H → ∀ c d : Int, Uni (SBase.Good G H) SBase.at_ fun i => (readHeight layers (B.at_ i) lyr).bind fun (st, (elev, thick)) =>
        (addShape E st.m net c d s elev thick).bind fun m => .ok { st with m := m } := by
      intro B hB c d
      exact uni_bind (g := fun _ (p : St × (ℚ × ℚ)) => (addShape E p.1.m net c d s p.2.1 p.2.2).bind fun m => .ok { p.1 with m := m })
        (fam_height layers hB lyr) fun a ha => fam_then (fam_shape E ha net c d s a.2.1 a.2.2) _ _ _
    cases UMap.find? B.mats lyr with
    | some e => exact rest B hB e.1 e.2
    | none =>
      dsimp only
      cases findLayer layers lyr with
      | none => exact uni_ok B hB fun i => rfl
      | some l =>
        dsimp only
        cases l.slab.stackup with
        | false => exact uni_ub fun i => rfl
        | true =>
          cases l.cond with
          | none => exact uni_ub fun i => rfl
          | some c =>
            cases l.diel with
            | none => exact uni_ub fun i => rfl
            | some d => exact rest { B with mats := (UMap.emplace B.mats lyr (c, d)).1 } hB c d

theorem fam_prims (E : Env) (layers : List LayerIn) (s : ι → Setting) (ps : List (Prim × Nat))
    (h : ∀ x ∈ ps, ∀ w, x.1 = .wire w → Steer E G H w fun i => (s i).currents x.2) : ∀ {B : SBase ι}, B.Good G H →
    Uni (SBase.Good G H) SBase.at_ fun i => addPrims E layers (B.at_ i) (ps.map fun x => x.1.carry ((s i).currents x.2)) := by
  induction ps with
  | nil => intro B hB; exact uni_ok B hB fun i => rfl
  | cons x ps ih =>
    intro B hB
    simp only [List.map_cons, addPrims]
    exact uni_bind (fam_prim E layers hB x.1 (h x (by simp))) fun a ha => ih (fun y hy => h y (by simp [hy])) ha

theorem fam_pad_layers (E : Env) (layers : List LayerIn) (net mat : Int) (shape : Int → Option Shape) (n : Nat) : ∀ (lyr : Int) {B : SBase ι}, B.Good G H →
    Uni (SBase.Good G H) SBase.at_ fun i => addPadLayers E layers net mat shape (B.at_ i) lyr n := by
  induction n with
  | zero => intro lyr B hB; exact uni_ok B hB fun i => rfl
  | succ n ih =>
    intro lyr B hB
    simp only [addPadLayers]
    refine uni_bind (pick := SBase.at_) (ok := SBase.Good G H) (g := fun _ st => addPadLayers E layers net mat shape st (lyr + 1) n) ?_ fun a ha => ih (lyr + 1) ha
    unfold addPadLayer
    exact uni_bind (g := fun _ (p : St × (ℚ × ℚ)) => (addShape E p.1.m net mat mat (shape lyr) p.2.1 p.2.2).bind fun m => .ok { p.1 with m := m })
      (fam_height layers hB lyr) fun a ha => fam_then (fam_shape E ha net mat mat (shape lyr) a.2.1 a.2.2) _ _ _

theorem fam_pads (E : Env) (layers : List LayerIn) (ps : List PadIn) : ∀ {B : SBase ι}, B.Good G H →
    Uni (SBase.Good G H) SBase.at_ fun i => addPads E layers (B.at_ i) ps := by
  induction ps with
  | nil => intro B hB; exact uni_ok B hB fun i => rfl
  | cons p ps ih =>
    intro B hB
    simp only [addPads]
    refine uni_bind (pick := SBase.at_) (ok := SBase.Good G H) (g := fun _ st => addPads E layers st ps) ?_ fun a ha => ih ha
    unfold addPad
    cases p.data with
    | false => exact uni_ok B hB fun i => rfl
    | true =>
      cases p.mat with
      | none => exact uni_ub fun i => rfl
      | some mat => exact fam_pad_layers E layers p.net mat p.shape _ _ hB

theorem fam_stack (E : Env) (all : List LayerIn) (boundary : Option Shape) (ls : List LayerIn) : ∀ {B : SBase ι}, B.Good G H →
    Uni (SBase.Good G H) SBase.at_ fun i => addStack E all boundary (B.at_ i) ls := by
  induction ls with
  | nil => intro B hB; exact uni_ok B hB fun i => rfl
  | cons l ls ih =>
    intro B hB
    simp only [addStack]
    cases l.diel with
    | none => exact uni_ub fun i => rfl
    | some mat =>
      dsimp only
      cases layerHeight (all.map LayerIn.slab) l.slab.id with
      | none => exact uni_ub fun i => rfl
      | some et =>
        obtain ⟨elev, thick⟩ := et
        exact uni_bind (g := fun i m => addStack E all boundary ⟨m, some (elev, thick), B.heights, B.mats⟩ ls)
          (fam_shape E hB noId mat noId boundary elev thick) fun a ha => ih (B := ⟨a, some (elev, thick), B.heights, B.mats⟩) ha

theorem fam_imprints (l : List Polygon) : ∀ {B : Base ι}, B.Good G H → ∃ B' : Base ι, B'.Good G H ∧ ∀ i, l.foldl addImprint (B.at_ i) = B'.at_ i := by
  induction l with
  | nil => intro B hB; exact ⟨B, hB, fun i => rfl⟩
  | cons p l ih =>
    intro B hB
    obtain ⟨B', h1, h2⟩ := ih (B := { B with ranges := B.ranges ++ [⟨-2147483647, 2147483647⟩], polygons := B.polygons ++ [p], mats := B.mats ++ [noId], nets := B.nets ++ [noId] }) hB
    exact ⟨B', h1, fun i => h2 i⟩

/-- the layer cut models of a layout under several settings are one family -/
theorem fam_generate (E : Env) (I : Input) (s : ι → Setting) (hc : ∀ x ∈ I.comps.zipIdx, Even G fun i => (s i).tables x.2)
    (hw : ∀ x ∈ I.prims.zipIdx, ∀ w, x.1 = .wire w → Steer E G H w fun i => (s i).currents x.2) :
    Uni (Base.Good G H) Base.at_ fun i => generate E (I.under (s i)) := by
  unfold generate
  have e0 : ∀ i : ι, (⟨Model.new, none, [], []⟩ : St) = SBase.at_ ⟨⟨[], [], [], [], [], [], []⟩, none, [], []⟩ i := fun i => rfl
  have g0 : SBase.Good (ι := ι) G H ⟨⟨[], [], [], [], [], [], []⟩, none, [], []⟩ := ⟨by simp, by simp⟩
  refine uni_bind (pick := SBase.at_) (ok := SBase.Good G H)
    (g := fun i st => (addComponents E (I.layers.map LayerIn.slab) st.m (I.under (s i)).comps).bind fun m =>
      (addPrims E I.layers { st with m := m } (I.under (s i)).prims).bind fun st => (addPads E I.layers st I.pads).bind fun st =>
      .ok (I.imprints.foldl addImprint st.m)) (by exact fam_stack E I.layers I.boundary (I.layers.filter fun x => x.slab.stackup) g0) fun a ha => ?_
  refine uni_bind (pick := Base.at_) (ok := Base.Good G H)
    (g := fun i m => (addPrims E I.layers (⟨m, a.cur, a.heights, a.mats⟩ : St) (I.under (s i)).prims).bind fun st => (addPads E I.layers st I.pads).bind fun st =>
      .ok (I.imprints.foldl addImprint st.m)) (fam_components E _ s I.comps.zipIdx hc ha) fun b hb => ?_
  refine uni_bind (pick := SBase.at_) (ok := SBase.Good G H)
    (g := fun i st => (addPads E I.layers st I.pads).bind fun st => .ok (I.imprints.foldl addImprint st.m))
    (fam_prims E I.layers s I.prims.zipIdx hw (B := ⟨b, a.cur, a.heights, a.mats⟩) hb) fun d hd => ?_
  refine uni_bind (pick := SBase.at_) (ok := SBase.Good G H)
    (g := fun i st => .ok (I.imprints.foldl addImprint st.m)) (fam_pads E I.layers I.pads hd) fun e he => ?_
  obtain ⟨B', h1, h2⟩ := fam_imprints I.imprints he
  exact uni_ok B' h1 fun i => by rw [← h2 i]; rfl

theorem find_blocks (i : ι) (l : List (Nat × Block × (ι → List (ℚ × ℚ)))) (k : Nat) :
    UMap.find? (l.map (blockAt i)) k = (UMap.find? l k).map fun e => { e.1 with power := e.2 i } := by
  induction l with
  | nil => rfl
  | cons e l ih =>
    rw [List.map_cons, UMap.find?_cons, UMap.find?_cons, ih]
    show (if e.1 = k then _ else _) = _
    split_ifs <;> rfl

/-- polygons and heights do not depend on loss powers and currents -/
theorem fam_polys (B : Base ι) (i j : ι) : (B.at_ i).polys = (B.at_ j).polys := by
  unfold Model.polys
  show (List.range B.polygons.length).filterMap _ = (List.range B.polygons.length).filterMap _
  apply List.filterMap_congr
  intro k _
  unfold Model.polyAt
  show (match B.ranges[k]?, B.mats[k]? with | _, _ => _) = _
  have : ∀ i, (UMap.find? (B.at_ i).blocks k).map Block.range = (UMap.find? B.blocks k).map fun e => e.1.range := by
    intro i
    show (UMap.find? (B.blocks.map (blockAt i)) k).map Block.range = _
    rw [find_blocks, Option.map_map]
    rfl
  rw [this i, this j]
  rfl

end

end Ecad.CutEx
