import Verif.Xfl.ImportEndProps
/-!
The database made of an XFL file (C131): when the import ends, which files are refused, the order of the sections.
-/
namespace Ecad.XflI
open Ecad.Xfl Ecad.XflP
open Shp (Aff Shape)

variable {ang : ℚ → Int} {lib : Lib ℚ} {div : Nat} {R : Int → ℚ × ℚ}

/-- The library gives at least one point for each arc and half circle. -/
structure LibOk (lib : Lib ℚ) (div : Nat) : Prop where
  arc : ∀ t s m e, lib.arc t s m e div ≠ []
  half : ∀ a b, lib.half a b div ≠ []

/-! ### shapes -/

theorem composite_ok (hl : LibOk lib div) (u : ℚ) (l : List (Seg ℚ)) (h : GoodComp l) : ∃ ps, Getter.composite ⟨lib, u, div⟩ l = .ok ps := by
  match l, h with
  | .pt p :: l, h =>
    have := c87_composite_partial ⟨lib, u, div⟩ p l (by
      intro t e m hm
      exact h _ hm) (fun t s m e => hl.arc t s m e)
    simp only [Getter.get, bind_ok_iff] at this
    obtain ⟨ps, h1, _⟩ := this
    exact ⟨ps, h1⟩

theorem skipFirst_ok {ps : List (ℚ × ℚ)} (h : ps ≠ []) : ∃ r, Getter.skipFirst ps = .ok r := by
  cases ps with
  | nil => exact absurd rfl h
  | cons p ps => exact ⟨ps, rfl⟩

theorem good_of_wf {l : List (Seg ℚ)} (h : WfComp l ∧ ∀ e m, Seg.arc 2 e m ∉ l) : GoodComp l := by
  obtain ⟨h1, h2⟩ := h
  match l, h1 with
  | .pt p :: l, h1 =>
    intro x hx
    have := h1 x hx
    cases x with
    | pt _ => trivial
    | arc t e m =>
      rcases this with h | h | h
      · exact .inl h
      · exact .inr h
      · subst h; exact absurd (List.mem_cons_of_mem _ hx) (h2 e m)

theorem get_ok (hl : LibOk lib div) (u : ℚ) (g : Geo ℚ) (h : WfGeo g) : ∃ s, Getter.get ⟨lib, u, div⟩ g = .ok s := by
  cases g with
  | composite l =>
    obtain ⟨ps, hp⟩ := composite_ok hl u l (good_of_wf h)
    exact ⟨.polygon ps, by simp only [Getter.get, hp, Res.bind_ok]⟩
  | bullet w a b =>
    obtain ⟨x, hx⟩ := skipFirst_ok (hl.half (b * u - 1 / 2 * w * u, 0) (b * u - 1 / 2 * w * u, -(1 / 2 * w * u)))
    simp only [Getter.get, hx, Res.bind_ok]
    exact ⟨_, rfl⟩
  | finger w a b =>
    obtain ⟨x, hx⟩ := skipFirst_ok (hl.half (b * u - 1 / 2 * w * u, 0) (b * u - 1 / 2 * w * u, -(1 / 2 * w * u)))
    obtain ⟨y, hy⟩ := skipFirst_ok (hl.half (-a * u + 1 / 2 * w * u, 0) (-a * u + 1 / 2 * w * u, 1 / 2 * w * u))
    simp only [Getter.get, hx, hy, Res.bind_ok]
    exact ⟨_, rfl⟩
  | _ => exact ⟨_, rfl⟩

theorem templates_ok (hl : LibOk lib div) (u : ℚ) (l : List (Int × Geo ℚ)) (h : ∀ x ∈ l, WfGeo x.2) (acc : List (Int × Shape ℚ)) :
    ∃ t, Getter.buildTemplates ⟨lib, u, div⟩ acc l = .ok t := by
  induction l generalizing acc with
  | nil => exact ⟨acc, rfl⟩
  | cons e l ih =>
    obtain ⟨i, g⟩ := e
    obtain ⟨s, hs⟩ := get_ok hl u g (h _ List.mem_cons_self)
    obtain ⟨t, ht⟩ := ih (fun x hx => h x (List.mem_cons_of_mem _ hx)) (UMap.emplace acc i s).1
    exact ⟨t, by simp only [Getter.buildTemplates, hs, Res.bind_ok, ht]⟩

/-! ### routes -/

/-- objects whose outlines can be made -/
def Makes (E : Env ℚ) (o : Obj ℚ) : Prop :=
  (∃ x, E.mkShape o = .ok x) ∧ (∀ l w p, o = .path l w p → ∃ ps, E.G.composite p = .ok ps)

theorem holes_ok (E : Env ℚ) (l : Int) (r : List (Obj ℚ)) (h : ∀ o ∈ r, Makes E o) : ∃ y, E.holes l r = .ok y := by
  induction r with
  | nil => exact ⟨_, rfl⟩
  | cons o r ih =>
    obtain ⟨x, hx⟩ := (h o List.mem_cons_self).1
    obtain ⟨y, hy⟩ := ih fun o ho => h o (List.mem_cons_of_mem _ ho)
    simp only [Env.holes, hx, Res.bind_ok, hy]
    split
    · exact ⟨_, rfl⟩
    · cases x.2 with
      | none => exact ⟨_, rfl⟩
      | some s =>
        simp only
        split
        · exact ⟨_, rfl⟩
        · exact ⟨_, rfl⟩

theorem holes_rest (E : Env ℚ) (l : Int) (r : List (Obj ℚ)) (y : List (Shape ℚ) × List (Obj ℚ)) (h : E.holes l r = .ok y) : ∀ o ∈ y.2, o ∈ r := by
  intro o ho
  rw [(holes_spec E l r y h).2.1] at ho
  exact (List.dropWhile_suffix _).subset ho

theorem step_ok (E : Env ℚ) (net : Int) (used : List String) (o : Obj ℚ) (r : List (Obj ℚ)) (ho : Makes E o) (hr : ∀ o ∈ r, Makes E o) :
    ∃ x, E.step net used o r = .ok x ∧ ∀ q ∈ x.2.2, q ∈ r := by
  obtain ⟨x, hx⟩ := ho.1
  obtain ⟨y, hy⟩ := holes_ok E x.1 r hr
  have hrest := holes_rest E x.1 r y hy
  cases o with
  | path l w p =>
    simp only [Env.step]
    cases UMap.find? E.metal l with
    | none => exact ⟨_, rfl, fun _ h => h⟩
    | some i =>
      obtain ⟨ps, hp⟩ := ho.2 l w p rfl
      simp only [hp, Res.bind_ok]
      split <;> exact ⟨_, rfl, fun _ h => h⟩
  | via a b n loc rot mir =>
    simp only [Env.step]
    cases UMap.find? E.metal a with
    | none => exact ⟨_, rfl, fun _ h => h⟩
    | some i =>
      cases UMap.find? E.metal b with
      | none => exact ⟨_, rfl, fun _ h => h⟩
      | some j =>
        simp only
        split
        · exact ⟨_, rfl, fun _ h => h⟩
        · split
          · exact ⟨_, rfl, fun _ h => h⟩
          · exact ⟨_, rfl, fun _ h => h⟩
  | bondwire => exact ⟨_, rfl, fun _ h => h⟩
  | annular l a b p =>
    simp only [Env.step]
    cases UMap.find? E.metal l with
    | none => exact ⟨_, rfl, fun _ h => h⟩
    | some i =>
      simp only [Getter.get, Res.bind_ok]
      split <;> exact ⟨_, rfl, fun _ h => h⟩
  | _ =>
    simp only [Env.step, hx, Res.bind_ok]
    split
    · exact ⟨_, rfl, fun _ h => h⟩
    · cases UMap.find? E.metal x.1 with
      | none => exact ⟨_, rfl, fun _ h => h⟩
      | some l =>
        cases hx2 : x.2 with
        | none => exact ⟨_, rfl, fun _ h => h⟩
        | some s =>
          simp only [hy, Res.bind_ok]
          split
          · split <;> exact ⟨_, rfl, hrest⟩
          · split <;> exact ⟨_, rfl, hrest⟩

theorem route_ok (E : Env ℚ) (net : Int) (n : Nat) (used : List String) (l : List (Obj ℚ)) (h : ∀ o ∈ l, Makes E o) : ∃ x, E.route net n used l = .ok x := by
  induction n generalizing used l with
  | zero => cases l <;> exact ⟨_, rfl⟩
  | succ n ih =>
    cases l with
    | nil => exact ⟨_, rfl⟩
    | cons o l =>
      obtain ⟨x, hx, hsub⟩ := step_ok E net used o l (h o List.mem_cons_self) fun o ho => h o (List.mem_cons_of_mem _ ho)
      obtain ⟨y, hy⟩ := ih x.1 x.2.2 fun o ho => h o (List.mem_cons_of_mem _ (hsub o ho))
      simp only [Env.route, hx, Res.bind_ok, hy]
      exact ⟨_, rfl⟩

theorem routes_ok (E : Env ℚ) (netId : String → Option Int) (used : List String) (rs : List (String × List (Obj ℚ))) (h : ∀ r ∈ rs, ∀ o ∈ r.2, Makes E o) :
    ∃ x, E.routes netId used rs = .ok x := by
  induction rs generalizing used with
  | nil => exact ⟨_, rfl⟩
  | cons r rs ih =>
    obtain ⟨n, objs⟩ := r
    simp only [Env.routes]
    cases netId n with
    | none => exact ih used fun r hr => h r (List.mem_cons_of_mem _ hr)
    | some i =>
      obtain ⟨x, hx⟩ := route_ok E i objs.length used objs (h (n, objs) List.mem_cons_self)
      obtain ⟨y, hy⟩ := ih x.1 fun r hr => h r (List.mem_cons_of_mem _ hr)
      exact ⟨_, by simp only [hx, Res.bind_ok, hy]; rfl⟩

theorem makes_of_wf (hl : LibOk lib div) (E : Env ℚ) (u : ℚ) (hE : E.G = ⟨lib, u, div⟩) (e : Extra) (o : PObj ℚ) (hw : WfObj e o) (hb : ¬ BadObj o) :
    Makes E (toObj ang o) := by
  have comp : ∀ c, WfComp c → ¬ BadComp c → ∃ ps, E.G.composite c = .ok ps := by
    intro c h1 h2
    rw [hE]
    exact composite_ok hl u c ((wf_comp c h1).resolve_right h2)
  cases o with
  | path l w p =>
    refine ⟨⟨_, rfl⟩, ?_⟩
    rintro l' w' p' h
    simp only [toObj, Obj.path.injEq] at h
    rw [← h.2.2]
    exact comp p hw hb
  | composite v l c =>
    obtain ⟨ps, hp⟩ := comp c hw hb
    exact ⟨⟨_, by simp only [toObj, Env.mkShape, Getter.get, hp, Res.bind_ok]; rfl⟩, by intro _ _ _ h; exact absurd h (by simp [toObj])⟩
  | shape v l i p q m t =>
    refine ⟨?_, by intro _ _ _ h; exact absurd h (by simp [toObj])⟩
    simp only [toObj, Env.mkShape]
    cases UMap.find? E.tmpl i with
    | none => exact ⟨_, rfl⟩
    | some s => simp only; split <;> exact ⟨_, rfl⟩
  | _ => exact ⟨⟨_, rfl⟩, by intro _ _ _ h; exact absurd h (by simp [toObj])⟩

/-! ### the import -/

/-- **C131** (exactly which files are imported): a file of sections of the format is imported without undefined behaviour if it gives
units and a scale, if its vias that can be used have different names and if its outline is not a template shape it has; and else the
behaviour is undefined. -/
theorem c131_ends_partial (hl : LibOk lib div) {F : List PSec} (hF : ∀ x ∈ F, WfSec x) {s g : Str} (hs : Writes true (F.flatMap secToks) s) (hg : Gap g) :
    (Complete F → ∃ r, create ang lib div R false (some (s ++ g)) = .ok (some r)) ∧
    (¬ Complete F → create ang lib div R false (some (s ++ g)) = .ub) := by
  have hfile := create_file ang lib div R F hF s g hs hg
  cases hi : inchOf F with
  | none =>
    rw [hi] at hfile
    exact ⟨fun h => absurd hi h.unit, fun _ => hfile⟩
  | some inch =>
    cases hc : scaleOf F with
    | none =>
      rw [hi, hc] at hfile
      exact ⟨fun h => absurd hc h.scale, fun _ => hfile⟩
    | some sc =>
      rw [hi, hc] at hfile
      simp only at hfile
      have hgeo : ∀ x ∈ templatesOf F, WfGeo x.2 := by
        intro v hv
        simp only [templatesOf, List.mem_flatMap] at hv
        obtain ⟨x, hx, hv⟩ := hv
        have := hF x hx
        cases x with
        | shape l => exact this v hv
        | _ => simp at hv
      obtain ⟨tmpl, ht⟩ := templates_ok hl (nm inch / sc) (templatesOf F) hgeo []
      obtain ⟨d1, d2⟩ := defs_iff (ang := ang) hF (nm inch / sc) tmpl ht (laysI (dbOf F) (nm inch / sc)).metalMap
      have hroute : ∀ pads, ∃ outs, (envI lib div R (dbOf F) (nm inch / sc) tmpl pads).routes (netIdI (dbOf F)) []
          ((dbOf F).routes.map fun r => (str r.1, r.2.map (toObj ang))) = .ok outs := by
        intro pads
        refine routes_ok _ _ _ _ ?_
        intro r hr o ho
        obtain ⟨q, hq, rfl⟩ := List.mem_map.1 hr
        obtain ⟨po, hpo, rfl⟩ := List.mem_map.1 ho
        simp only [dbOf, routesOf, List.mem_flatMap] at hq
        obtain ⟨x, hx, hq⟩ := hq
        have hwx := hF x hx
        cases x with
        | route l =>
          simp only [List.mem_map] at hq
          obtain ⟨y, hy, rfl⟩ := hq
          obtain ⟨_, hw, hb, _⟩ := hwx y hy
          simp only [List.mem_map] at hpo
          obtain ⟨a, ha, rfl⟩ := hpo
          exact makes_of_wf hl _ (nm inch / sc) rfl a.1 a.2 (hw a ha) (hb a ha)
        | _ => simp at hq
      have htk : ∀ i, (UMap.find? tmpl i).isSome = true ↔ ∃ e ∈ templatesOf F, e.1 = i := by
        intro i
        rw [UMap.find?_isSome_eq_count, templates_keys _ _ _ _ ht]
        simp [UMap.count]
      have hboard : ∀ pads, ((∀ i p q m t, boardOf F = some (.shape i p q m t) → ∀ e ∈ templatesOf F, e.1 ≠ i) →
          ∃ b, (envI lib div R (dbOf F) (nm inch / sc) tmpl pads).board ((dbOf F).board.map (toBoard ang)) = .ok b) ∧
          (¬ (∀ i p q m t, boardOf F = some (.shape i p q m t) → ∀ e ∈ templatesOf F, e.1 ≠ i) →
          (envI lib div R (dbOf F) (nm inch / sc) tmpl pads).board ((dbOf F).board.map (toBoard ang)) = .ub) := by
        intro pads
        have hwb : ∀ b, boardOf F = some b → WfBoard b := by
          intro b hb
          have hm := List.mem_of_getLast? hb
          obtain ⟨x, hx, hxe⟩ := List.mem_filterMap.1 hm
          have := hF x hx
          cases x with
          | board gg => exact this b hxe
          | _ => simp at hxe
        simp only [dbOf]
        cases hb : boardOf F with
        | none => exact ⟨fun _ => ⟨_, rfl⟩, fun h => absurd (by simp) h⟩
        | some b =>
          cases b with
          | polygon l => exact ⟨fun _ => ⟨_, rfl⟩, fun h => absurd (by simp) h⟩
          | composite l =>
            refine ⟨fun _ => ?_, fun h => absurd (by simp) h⟩
            obtain ⟨ps, hp⟩ := composite_ok hl (nm inch / sc) l (good_of_wf (hwb _ hb))
            refine ⟨some ps, ?_⟩
            rw [Option.map_some, toBoard, (c90_outline_partial _ [] 0 (0, 0) 0 'N' true).2.2.1]
            have hp' : Getter.composite (envI lib div R (dbOf F) (nm inch / sc) tmpl pads).G l = .ok ps := hp
            show Res.bind (Getter.composite ⟨lib, nm inch / sc, div⟩ l) _ = _
            rw [hp]
            rfl
          | shape i p q m t =>
            simp only [Option.map_some, toBoard]
            constructor
            · intro h
              have hn : UMap.find? tmpl i = none := by
                rw [← Option.not_isSome_iff_eq_none, htk]
                rintro ⟨e, he, hei⟩
                exact h i p q m t rfl e he hei
              exact ⟨none, (c90_outline_partial _ [] i p (ang q) m t).2.2.2 hn⟩
            · intro h
              push Not at h
              obtain ⟨i', p', q', m', t', heq, e, he, hei⟩ := h
              simp only [Option.some.injEq, PBoard.shape.injEq] at heq
              obtain ⟨ts, hts⟩ := Option.isSome_iff_exists.1 ((htk i).2 ⟨e, he, by rw [hei, heq.1]⟩)
              exact c90_template_refuted _ i ts hts p (ang q) m t
      by_cases hv : (viasOf F).Pairwise fun v w => Usable F v → Usable F w → v.name ≠ w.name
      · obtain ⟨pads, e1, _, _⟩ := d1 hv
        obtain ⟨outs, e2⟩ := hroute pads
        by_cases hbd : ∀ i p q m t, boardOf F = some (.shape i p q m t) → ∀ e ∈ templatesOf F, e.1 ≠ i
        · obtain ⟨b, e3⟩ := (hboard pads).1 hbd
          refine ⟨fun _ => ⟨⟨inch, (matsI (dbOf F)).1, (laysI (dbOf F) (nm inch / sc)).layers, pads, netsI (dbOf F), outs.2, b⟩, ?_⟩, fun h => absurd ⟨by simp [hi], by simp [hc], hv, hbd⟩ h⟩
          have e1' : importVias tmpl (laysI (dbOf F) (nm inch / sc)).metalMap (matsI (dbOf F)).2 (pstkLut ((dbOf F).padstacks.map (toPstk ang)))
              ⟨[], []⟩ ((dbOf F).vias.map (toVia ang)) = .ok pads := e1
          rw [hfile, bind_ok_iff]
          refine ⟨_, (build_iff ang lib div R (dbOf F) inch sc _).2 ⟨tmpl, outs, ht, e1', e2, e3, rfl, rfl, rfl, rfl, rfl⟩, rfl⟩
        · have e3 := (hboard pads).2 hbd
          refine ⟨fun h => absurd h.board hbd, fun _ => ?_⟩
          rw [hfile]
          have : build ang lib div R (dbOf F) inch sc = .ub := by
            unfold build
            simp only [coordScale_eq]
            have ht' : Getter.buildTemplates ⟨lib, nm inch / sc, div⟩ [] (dbOf F).templates = .ok tmpl := ht
            rw [ht', Res.bind_ok]
            have e1' : importVias tmpl (importLayers (importMats [] [] ((dbOf F).materials.map toMat)).2 (nm inch / sc) ((dbOf F).layers.map toLay)).metalMap
                (importMats [] [] ((dbOf F).materials.map toMat)).2 (pstkLut ((dbOf F).padstacks.map (toPstk ang))) ⟨[], []⟩ ((dbOf F).vias.map (toVia ang)) = .ok pads := e1
            rw [e1', Res.bind_ok]
            have e2' : (env lib div R (nm inch / sc) tmpl (importLayers (importMats [] [] ((dbOf F).materials.map toMat)).2 (nm inch / sc) ((dbOf F).layers.map toLay)).metalMap pads).routes
                (fun n => (Net.findByName (importNets ((dbOf F).nets.map fun n => str n.name)) n).map Net.Net.id) []
                ((dbOf F).routes.map fun r => (str r.1, r.2.map (toObj ang))) = .ok outs := e2
            rw [e2', Res.bind_ok]
            have e3' : (env lib div R (nm inch / sc) tmpl (importLayers (importMats [] [] ((dbOf F).materials.map toMat)).2 (nm inch / sc) ((dbOf F).layers.map toLay)).metalMap pads).board
                ((dbOf F).board.map (toBoard ang)) = .ub := e3
            rw [e3']
            rfl
          rw [this]
          rfl
      · refine ⟨fun h => absurd h.vias hv, fun _ => ?_⟩
        have e1 := d2 hv
        rw [hfile]
        have : build ang lib div R (dbOf F) inch sc = .ub := by
          unfold build
          simp only [coordScale_eq]
          have ht' : Getter.buildTemplates ⟨lib, nm inch / sc, div⟩ [] (dbOf F).templates = .ok tmpl := ht
          rw [ht', Res.bind_ok]
          have e1' : importVias tmpl (importLayers (importMats [] [] ((dbOf F).materials.map toMat)).2 (nm inch / sc) ((dbOf F).layers.map toLay)).metalMap
              (importMats [] [] ((dbOf F).materials.map toMat)).2 (pstkLut ((dbOf F).padstacks.map (toPstk ang))) ⟨[], []⟩ ((dbOf F).vias.map (toVia ang)) = .ub := e1
          rw [e1']
          rfl
        rw [this]
        rfl

end Ecad.XflI
