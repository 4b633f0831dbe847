import Verif.Xfl.ImportProps
/-!
The database made of an XFL file (C131): instances of vias, what is not there, the order of the sections, when the import ends.
-/
namespace Ecad.XflI
open Ecad.Xfl Ecad.XflP
open Shp (Aff Shape)

variable {ang : ℚ → Int} {lib : Lib ℚ} {div : Nat} {R : Int → ℚ × ℚ}

/-! ### vias -/

/-- a via is taken by the import exactly if it can be used -/
theorem taken_iff (F : List PSec) (u : ℚ) (tmpl : List (Int × Shape ℚ)) (ht : Getter.buildTemplates ⟨lib, u, div⟩ [] (templatesOf F) = .ok tmpl)
    (v : PVia ℚ) (hv : WfVia v) :
    (∃ ps ts, Taken tmpl (matsI (dbOf F)).2 (pstkLut ((padstacksOf F).map (toPstk ang))) (toVia ang v) ps ts) ↔ Usable F v := by
  have hp : (UMap.find? (pstkLut ((padstacksOf F).map (toPstk ang))) v.pstk).isSome = true ↔ ∃ p ∈ padstacksOf F, p.1 = v.pstk := by
    rw [UMap.find?_isSome_eq_count, pstk_keys]
    constructor
    · rintro ⟨e, he, h⟩
      obtain ⟨p, hp, rfl⟩ := List.mem_map.1 he
      exact ⟨p, hp, h⟩
    · rintro ⟨p, hp, h⟩
      exact ⟨_, List.mem_map.2 ⟨p, hp, rfl⟩, h⟩
  have htm : (UMap.find? tmpl v.id).isSome = true ↔ ∃ t ∈ templatesOf F, t.1 = v.id := by
    rw [UMap.find?_isSome_eq_count, templates_keys _ _ _ _ ht]
    simp [UMap.count]
  have hm : ((toVia ang v).material = "" ∨ UMap.count (matsI (dbOf F)).2 (toVia ang v).material = true) ↔
      ∀ b, v.barrel = some b → ∃ m ∈ materialsOf F, m.name = b.2 := by
    cases hb : v.barrel with
    | none => simp [toVia, hb]
    | some b =>
      have hne : str b.2 ≠ "" := by
        intro h
        have := str_inj (a := b.2) (b := []) (by rw [h]; rfl)
        exact (hv.2 b hb).1 this
      simp only [toVia, hb, Option.map_some, Option.getD_some, hne, false_or, Option.some.injEq, forall_eq']
      unfold matsI
      rw [mats_keys]
      constructor
      · rintro (h | ⟨e, he, h⟩)
        · simp [UMap.count] at h
        · obtain ⟨m, hm, rfl⟩ := List.mem_map.1 he
          exact ⟨m, hm, str_inj h⟩
      · rintro ⟨m, hm, h⟩
        exact .inr ⟨_, List.mem_map.2 ⟨m, hm, rfl⟩, by rw [← h]; rfl⟩
  unfold Taken Usable
  rw [← hp, ← htm, ← hm]
  constructor
  · rintro ⟨ps, ts, h1, h2, h3⟩
    exact ⟨by rw [show v.pstk = (toVia ang v).padstackId from rfl, h1]; rfl, by rw [show v.id = (toVia ang v).shapeId from rfl, h2]; rfl, h3⟩
  · rintro ⟨h1, h2, h3⟩
    obtain ⟨ps, h1⟩ := Option.isSome_iff_exists.1 h1
    obtain ⟨ts, h2⟩ := Option.isSome_iff_exists.1 h2
    exact ⟨ps, ts, h1, h2, h3⟩

section
variable (tmpl : List (Int × Shape ℚ)) (metal : List (Int × Int)) (mats : List (String × String)) (pstks : List (Int × XPadstack))

/-- One turn: undefined behaviour for a via that is taken under a name in use, else the names are the old ones and, if the via is taken, its own. -/
theorem viaStep_cases (db : PDb ℚ) (hk : ∀ n, UMap.count db.maps n = UMap.count db.defs n) (v : XVia) :
    ((∃ ps ts, Taken tmpl mats pstks v ps ts) ∧ UMap.count db.defs v.name = true ∧ viaStep tmpl metal mats pstks db v = .ub) ∨
    (((∃ ps ts, Taken tmpl mats pstks v ps ts) → UMap.count db.defs v.name = false) ∧
      ∃ db', viaStep tmpl metal mats pstks db v = .ok db' ∧ (∀ n, UMap.count db'.maps n = UMap.count db'.defs n) ∧
        ∀ n, UMap.count db'.defs n = true ↔ UMap.count db.defs n = true ∨ ((∃ ps ts, Taken tmpl mats pstks v ps ts) ∧ v.name = n)) := by
  by_cases ht : ∃ ps ts, Taken tmpl mats pstks v ps ts
  · obtain ⟨ps, ts, ht'⟩ := ht
    by_cases hc : UMap.count db.defs v.name = true
    · exact .inl ⟨⟨ps, ts, ht'⟩, hc, c89_duplicate_refuted tmpl metal mats pstks db v ps ts ht' hc⟩
    · have hc' : UMap.count db.defs v.name = false := by simpa using hc
      obtain ⟨d, m, e, _⟩ := viaStep_new tmpl metal mats pstks db v ps ts ht' (by rw [hk]; exact hc') hc'
      have key : ∀ {α : Type} (l : List (String × α)) (a : α) (n : String), UMap.count (l ++ [(v.name, a)]) n = (UMap.count l n || decide (v.name = n)) := by
        intro α l a n
        simp [UMap.count, List.any_append]
      refine .inr ⟨fun _ => hc', _, e, ?_, ?_⟩
      · intro n; simp only [key, hk]
      · intro n
        simp only [key, Bool.or_eq_true, decide_eq_true_eq]
        constructor
        · rintro (h | h)
          · exact .inl h
          · exact .inr ⟨⟨ps, ts, ht'⟩, h⟩
        · rintro (h | h)
          · exact .inl h
          · exact .inr h.2
  · refine .inr ⟨fun h => absurd h ht, db, viaStep_not tmpl metal mats pstks db v (fun ps ts h => ht ⟨ps, ts, h⟩), hk, ?_⟩
    intro n
    constructor
    · exact .inl
    · rintro (h | h)
      · exact h
      · exact absurd h.1 ht

/-- The loop ends exactly if vias that are taken have new and different names, and then these are the new names; else it is undefined behaviour. -/
theorem vias_cases (vs : List XVia) (db : PDb ℚ) (hk : ∀ n, UMap.count db.maps n = UMap.count db.defs n) :
    let T := fun v => ∃ ps ts, Taken tmpl mats pstks v ps ts
    let C := (∀ v ∈ vs, T v → UMap.count db.defs v.name = false) ∧ vs.Pairwise fun v w => T v → T w → v.name ≠ w.name
    (C → ∃ db', importVias tmpl metal mats pstks db vs = .ok db' ∧ (∀ n, UMap.count db'.maps n = UMap.count db'.defs n) ∧
      ∀ n, UMap.count db'.defs n = true ↔ UMap.count db.defs n = true ∨ ∃ v ∈ vs, T v ∧ v.name = n) ∧
    (¬ C → importVias tmpl metal mats pstks db vs = .ub) := by
  intro T C
  induction vs generalizing db with
  | nil => exact ⟨fun _ => ⟨db, rfl, hk, by simp⟩, fun h => absurd ⟨by simp, List.Pairwise.nil⟩ h⟩
  | cons v vs ih =>
    rcases viaStep_cases tmpl metal mats pstks db hk v with ⟨ht, hc, e⟩ | ⟨hn, db1, e, hk1, hd1⟩
    · refine ⟨fun hC => ?_, fun _ => by rw [importVias, e]; rfl⟩
      have := hC.1 v List.mem_cons_self ht
      rw [hc] at this
      exact absurd this (by simp)
    · obtain ⟨i1, i2⟩ := ih db1 hk1
      have hiff : ((∀ w ∈ vs, T w → UMap.count db1.defs w.name = false) ∧ vs.Pairwise fun v w => T v → T w → v.name ≠ w.name) ↔ C := by
        have hx : ∀ w : XVia, UMap.count db1.defs w.name = false ↔ (UMap.count db.defs w.name = false ∧ (T v → v.name ≠ w.name)) := by
          intro w
          rw [← Bool.not_eq_true, ← Bool.not_eq_true, hd1]
          simp only [not_or, not_and]
          exact Iff.rfl
        simp only [hx, C, List.pairwise_cons, List.mem_cons, forall_eq_or_imp]
        constructor
        · rintro ⟨a, b⟩
          exact ⟨⟨hn, fun w hw hT => (a w hw hT).1⟩, fun w hw hTv hTw => (a w hw hTw).2 hTv, b⟩
        · rintro ⟨⟨_, a⟩, b, c⟩
          exact ⟨fun w hw hT => ⟨a w hw hT, fun hTv => b w hw hTv hT⟩, c⟩
      refine ⟨fun hC => ?_, fun hC => ?_⟩
      · obtain ⟨db', e', hk', hd'⟩ := i1 (hiff.2 hC)
        refine ⟨db', by rw [importVias, e, Res.bind_ok, e'], hk', fun n => ?_⟩
        rw [hd', hd1]
        simp only [List.mem_cons, exists_eq_or_imp, or_assoc]
        exact Iff.rfl
      · rw [importVias, e, Res.bind_ok]
        exact i2 (fun h => hC (hiff.1 h))
end

/-- the names of definitions in the database are those of the vias that can be used -/
theorem defs_iff {F : List PSec} (hF : ∀ x ∈ F, WfSec x) (u : ℚ) (tmpl : List (Int × Shape ℚ))
    (ht : Getter.buildTemplates ⟨lib, u, div⟩ [] (templatesOf F) = .ok tmpl) (metal : List (Int × Int)) :
    let C := (viasOf F).Pairwise fun v w => Usable F v → Usable F w → v.name ≠ w.name
    let P := importVias tmpl metal (matsI (dbOf F)).2 (pstkLut ((padstacksOf F).map (toPstk ang))) ⟨[], []⟩ ((viasOf F).map (toVia ang))
    (C → ∃ pads, P = .ok pads ∧ (∀ n, UMap.count pads.maps n = UMap.count pads.defs n) ∧
      ∀ n, UMap.count pads.defs n = true ↔ ∃ v ∈ viasOf F, Usable F v ∧ str v.name = n) ∧ (¬ C → P = .ub) := by
  intro C P
  have hwf : ∀ v ∈ viasOf F, WfVia v := by
    intro v hv
    simp only [viasOf, List.mem_flatMap] at hv
    obtain ⟨x, hx, hv⟩ := hv
    have := hF x hx
    cases x with
    | via l => exact this v hv
    | _ => simp at hv
  obtain ⟨k1, k2⟩ := vias_cases tmpl metal (matsI (dbOf F)).2 (pstkLut ((padstacksOf F).map (toPstk ang))) ((viasOf F).map (toVia ang)) ⟨[], []⟩ (by intro n; rfl)
  have hC : C ↔ ((∀ v ∈ (viasOf F).map (toVia ang), (∃ ps ts, Taken tmpl (matsI (dbOf F)).2 (pstkLut ((padstacksOf F).map (toPstk ang))) v ps ts) →
      UMap.count ([] : List (String × Pad.Data (Shape ℚ))) v.name = false) ∧ ((viasOf F).map (toVia ang)).Pairwise fun v w =>
        (∃ ps ts, Taken tmpl (matsI (dbOf F)).2 (pstkLut ((padstacksOf F).map (toPstk ang))) v ps ts) →
        (∃ ps ts, Taken tmpl (matsI (dbOf F)).2 (pstkLut ((padstacksOf F).map (toPstk ang))) w ps ts) → v.name ≠ w.name) := by
    have h0 : (∀ v ∈ (viasOf F).map (toVia ang), (∃ ps ts, Taken tmpl (matsI (dbOf F)).2 (pstkLut ((padstacksOf F).map (toPstk ang))) v ps ts) →
      UMap.count ([] : List (String × Pad.Data (Shape ℚ))) v.name = false) := fun _ _ _ => rfl
    refine Iff.trans ?_ (and_iff_right h0).symm
    rw [List.pairwise_map]
    have hx : ∀ v ∈ viasOf F, ∀ w ∈ viasOf F, ((Usable F v → Usable F w → v.name ≠ w.name) ↔
        ((∃ ps ts, Taken tmpl (matsI (dbOf F)).2 (pstkLut ((padstacksOf F).map (toPstk ang))) (toVia ang v) ps ts) →
        (∃ ps ts, Taken tmpl (matsI (dbOf F)).2 (pstkLut ((padstacksOf F).map (toPstk ang))) (toVia ang w) ps ts) → (toVia ang v).name ≠ (toVia ang w).name)) := by
      intro v hv w hw
      rw [taken_iff F u tmpl ht v (hwf v hv), taken_iff F u tmpl ht w (hwf w hw)]
      have : v.name ≠ w.name ↔ (toVia ang v).name ≠ (toVia ang w).name :=
        not_congr ⟨fun h => congrArg str h, fun h => str_inj h⟩
      rw [this]
    exact List.Pairwise.iff_of_mem (fun {v w} hv hw => hx v hv w hw)
  refine ⟨fun h => ?_, fun h => k2 (fun h' => h (hC.2 h'))⟩
  obtain ⟨pads, e, hk, hd⟩ := k1 (hC.1 h)
  refine ⟨pads, e, hk, fun n => ?_⟩
  rw [hd]
  constructor
  · rintro (h | ⟨v, hv, h1, h2⟩)
    · simp [UMap.count] at h
    · obtain ⟨w, hw, rfl⟩ := List.mem_map.1 hv
      exact ⟨w, hw, (taken_iff F u tmpl ht w (hwf w hw)).1 h1, h2⟩
  · rintro ⟨w, hw, h1, h2⟩
    exact .inr ⟨toVia ang w, List.mem_map.2 ⟨w, hw, rfl⟩, (taken_iff F u tmpl ht w (hwf w hw)).2 h1, h2⟩

/-- **C131** (vias): a via in a route of a listed net, between layers of the file and with a definition that can be used, becomes an
instance of this definition in this net between these layers, turned, mirrored at the y axis if asked for, and at the place of the
file times the nanometres of the unit and divided by the scale; its name is that of the definition with `_inst_` and a number. -/
theorem c131_via {F : List PSec} (hF : ∀ x ∈ F, WfSec x) {s g : Str} (hs : Writes true (F.flatMap secToks) s) (hg : Gap g) {r : Result}
    (h : create ang lib div R false (some (s ++ g)) = .ok (some r)) (hR : R 0 = (1, 0)) (n : Str) (objs : List (PObj ℚ)) (hr : (n, objs) ∈ routesOf F)
    (hn : ∃ x ∈ netsOf F, x.name = n) (a b : Int) (v : Str) (loc : ℚ × ℚ) (rot : ℚ) (mir : Char) (ho : PObj.via a b v loc rot mir ∈ objs)
    (i j : Nat) (ha : MetalNo F a i) (hb : MetalNo F b j) (hv : ∃ w ∈ viasOf F, w.name = v ∧ Usable F w) :
    ∃ inch sc net name m, inchOf F = some inch ∧ scaleOf F = some sc ∧ Net.findByName r.nets (str n) = some net ∧
      Out.inst name (str v) net.id i j m ∈ r.outs ∧ (∃ k : Nat, 1 ≤ k ∧ name = str v ++ "_inst_" ++ toString k) ∧
      (∃ d, UMap.find? r.pads.defs (str v) = some d) ∧
      ∀ p, m.act p = ((if mir = 'Y' ∨ mir = '1' then -1 else 1) * ((R (ang rot)).1 * p.1 - (R (ang rot)).2 * p.2) + loc.1 * (nm inch / sc),
        (R (ang rot)).2 * p.1 + (R (ang rot)).1 * p.2 + loc.2 * (nm inch / sc)) := by
  obtain ⟨inch, sc, hi, hc, hbu⟩ := create_ok hF hs hg h
  obtain ⟨tmpl, outs, h1, h2, h3, h4, h5, h6, h7, h8, h9⟩ := (build_iff ang lib div R (dbOf F) inch sc r).1 hbu
  obtain ⟨z, hz, hzn⟩ := hn
  obtain ⟨net, hnet⟩ := Option.isSome_iff_exists.1 (((c131_nets hF hs hg h).1 (str n)).2 ⟨z, hz, by rw [hzn]⟩)
  obtain ⟨d1, d2⟩ := defs_iff (ang := ang) hF (nm inch / sc) tmpl h1 (laysI (dbOf F) (nm inch / sc)).metalMap
  have hC : (viasOf F).Pairwise fun v w => Usable F v → Usable F w → v.name ≠ w.name := by
    by_contra hC
    have := d2 hC
    have h2' := h2.symm.trans this
    exact absurd h2' (by simp)
  obtain ⟨pads, e1, e2, e3⟩ := d1 hC
  have hpads : pads = r.pads := Res.ok.inj (e1.symm.trans h2)
  rw [hpads] at e2 e3
  obtain ⟨w, hw, rfl, hu⟩ := hv
  have hdef : UMap.count r.pads.defs (str w.name) = true := (e3 _).2 ⟨w, hw, hu, rfl⟩
  have hmap : UMap.count r.pads.maps (str w.name) = true := by rw [e2]; exact hdef
  have hma : UMap.find? (envI lib div R (dbOf F) (nm inch / sc) tmpl r.pads).metal a = some (i : Int) :=
    (metal_iff (matsI (dbOf F)).2 (nm inch / sc) F a i).2 ⟨i, rfl, ha⟩
  have hmb : UMap.find? (envI lib div R (dbOf F) (nm inch / sc) tmpl r.pads).metal b = some (j : Int) :=
    (metal_iff (matsI (dbOf F)).2 (nm inch / sc) F b j).2 ⟨j, rfl, hb⟩
  obtain ⟨i1, _, i3⟩ := c88_instances _ (netIdI (dbOf F)) _ outs h3
  have hask : (envI lib div R (dbOf F) (nm inch / sc) tmpl r.pads).asked net.id (toObj ang (.via a b w.name loc rot mir)) =
      some ⟨str w.name, net.id, i, j, mat R (ang rot) (mkPt (nm inch / sc) loc) (if mir = 'Y' ∨ mir = '1' then .y else .no)⟩ := by
    simp only [toObj, Env.asked, hma, hmb]
    have : ((envI lib div R (dbOf F) (nm inch / sc) tmpl r.pads).hasMap (str w.name) && (envI lib div R (dbOf F) (nm inch / sc) tmpl r.pads).hasDef (str w.name)) = true := by
      simp only [envI, env, hdef, hmap, Bool.and_self]
    rw [if_pos this]
    rfl
  have hmem : (⟨str w.name, net.id, i, j, mat R (ang rot) (mkPt (nm inch / sc) loc) (if mir = 'Y' ∨ mir = '1' then .y else .no)⟩ : IData ℚ) ∈ outs.2.filterMap instData := by
    rw [i1, List.mem_flatMap]
    refine ⟨(str n, objs.map (toObj ang)), List.mem_map.2 ⟨_, hr, rfl⟩, ?_⟩
    have hid : netIdI (dbOf F) (str n) = some net.id := by
      unfold netIdI
      rw [← h8, hnet]; rfl
    simp only [hid]
    exact List.mem_filterMap.2 ⟨_, List.mem_map.2 ⟨_, ho, rfl⟩, hask⟩
  obtain ⟨o, hom, hod⟩ := List.mem_filterMap.1 hmem
  cases o with
  | geom l n s => simp [instData] at hod
  | inst name dn n' t bt m =>
    simp only [instData, Option.some.injEq, IData.mk.injEq] at hod
    obtain ⟨rfl, rfl, rfl, rfl, rfl⟩ := hod
    obtain ⟨k, hk1, hk2⟩ := i3 _ hom
    have hd : (UMap.find? r.pads.defs (str w.name)).isSome = true := by rw [UMap.find?_isSome_eq_count]; exact hdef
    refine ⟨inch, sc, net, name, _, hi, hc, hnet, by rw [h9]; exact hom, ⟨k, hk1, hk2⟩, Option.isSome_iff_exists.1 hd, ?_⟩
    intro p
    obtain ⟨p1, p2, _⟩ := c88_place R hR (ang rot) (mkPt (nm inch / sc) loc) p
    by_cases hm : mir = 'Y' ∨ mir = '1'
    · simp only [if_pos hm]
      rw [p2]
      simp only [mkPt]
      refine Prod.ext ?_ ?_ <;> dsimp only <;> ring
    · simp only [if_neg hm]
      rw [p1]
      simp only [mkPt]
      refine Prod.ext ?_ ?_ <;> dsimp only <;> ring

/-! ### nothing else -/

theorem drawn_geom (E : Env ℚ) (net : Int) (o : Obj ℚ) (post : List (Obj ℚ)) (x : Out ℚ) (hx : x ∈ E.drawn net o post) :
    ∃ l sh, x = .geom l net sh ∧ UMap.find? E.metal o.layer = some l ∧ o ≠ .bondwire := by
  unfold Env.drawn at hx
  cases hm : UMap.find? E.metal o.layer with
  | none => simp only [hm] at hx; simp at hx
  | some l =>
    simp only [hm] at hx
    split at hx
    · split at hx
      · exact ⟨l, _, List.mem_singleton.1 hx, rfl, by simp⟩
      · simp at hx
    · split at hx
      · split_ifs at hx
        · exact ⟨l, _, List.mem_singleton.1 hx, rfl, by simp⟩
        · simp at hx
      · simp at hx
    · split_ifs at hx with hs
      · split at hx
        · simp at hx
        · split_ifs at hx
          · refine ⟨l, _, List.mem_singleton.1 hx, rfl, ?_⟩
            rintro rfl
            simp [Obj.isShape] at hs
          · simp at hx
      · simp at hx

/-- **C131** (nothing else): each shape of the layout is there for an object of a route of a listed net, in this net and on the layer
the number of the object means; each instance for a via of such a route, in this net, between the layers its numbers mean and with a
definition that can be used. -/
theorem c131_only {F : List PSec} (hF : ∀ x ∈ F, WfSec x) {s g : Str} (hs : Writes true (F.flatMap secToks) s) (hg : Gap g) {r : Result}
    (h : create ang lib div R false (some (s ++ g)) = .ok (some r)) :
    (∀ l id sh, Out.geom l id sh ∈ r.outs → ∃ n objs net o k, ∃ i : Nat, (n, objs) ∈ routesOf F ∧ o ∈ objs ∧ (∃ x ∈ netsOf F, x.name = n) ∧
      Net.findByName r.nets (str n) = some net ∧ id = net.id ∧ layerNo o = some k ∧ MetalNo F k i ∧ l = i) ∧
    (∀ name dn id t b m, Out.inst name dn id t b m ∈ r.outs → ∃ n objs net a c v loc rot mir, ∃ i j : Nat, (n, objs) ∈ routesOf F ∧
      PObj.via a c v loc rot mir ∈ objs ∧ (∃ x ∈ netsOf F, x.name = n) ∧ Net.findByName r.nets (str n) = some net ∧ id = net.id ∧ dn = str v ∧
      MetalNo F a i ∧ MetalNo F c j ∧ t = i ∧ b = j ∧ ∃ w ∈ viasOf F, w.name = v ∧ Usable F w) := by
  obtain ⟨inch, sc, hi, hc, hbu⟩ := create_ok hF hs hg h
  obtain ⟨tmpl, outs, h1, h2, h3, h4, h5, h6, h7, h8, h9⟩ := (build_iff ang lib div R (dbOf F) inch sc r).1 hbu
  have hnets := (c131_nets hF hs hg h).1
  have hroute : ∀ (e : String × List (Obj ℚ)) (id : Int), e ∈ (dbOf F).routes.map (fun r => (str r.1, r.2.map (toObj ang))) → netIdI (dbOf F) e.1 = some id →
      ∃ n objs net, (n, objs) ∈ routesOf F ∧ e = (str n, objs.map (toObj ang)) ∧ (∃ x ∈ netsOf F, x.name = n) ∧ Net.findByName r.nets (str n) = some net ∧ id = net.id := by
    intro e id he hid
    obtain ⟨⟨n, objs⟩, hr, rfl⟩ := List.mem_map.1 he
    unfold netIdI at hid
    rw [← h8] at hid
    simp only [Option.map_eq_some_iff] at hid
    obtain ⟨net, hnet, rfl⟩ := hid
    obtain ⟨x, hx, hxn⟩ := (hnets (str n)).1 (by rw [hnet]; rfl)
    exact ⟨n, objs, net, hr, rfl, ⟨x, hx, str_inj hxn⟩, hnet, rfl⟩
  constructor
  · intro l id sh hm
    rw [h9] at hm
    have hgm : Out.geom l id sh ∈ geoms outs.2 := List.mem_filter.2 ⟨hm, rfl⟩
    rw [c86_routes _ (netIdI (dbOf F)) _ [] outs h3, List.mem_flatMap] at hgm
    obtain ⟨e, he, hx⟩ := hgm
    cases hid : netIdI (dbOf F) e.1 with
    | none => rw [hid] at hx; simp at hx
    | some id' =>
      rw [hid] at hx
      obtain ⟨n, objs, net, hr, rfl, hn, hnet, hidn⟩ := hroute e id' he hid
      obtain ⟨pre, o, post, hsp, hd⟩ := drawnAll_mem _ _ _ _ hx
      obtain ⟨l', sh', e1, e2, e3⟩ := drawn_geom _ _ _ _ _ hd
      simp only [Out.geom.injEq] at e1
      obtain ⟨rfl, rfl, rfl⟩ := e1
      have hmem : o ∈ objs.map (toObj ang) := by
        have : o ∈ pre ++ o :: post := by simp
        rw [← hsp] at this; exact this
      obtain ⟨po, hpo, rfl⟩ := List.mem_map.1 hmem
      obtain ⟨i, hl, hmet⟩ := (metal_iff (matsI (dbOf F)).2 (nm inch / sc) F _ l).1 e2
      refine ⟨n, objs, net, po, (toObj ang po).layer, i, hr, hpo, hn, hnet, hidn, ?_, hmet, hl⟩
      cases po <;> first | rfl | exact absurd rfl e3
  · intro name dn id t b m hm
    rw [h9] at hm
    obtain ⟨i1, _, _⟩ := c88_instances _ (netIdI (dbOf F)) _ outs h3
    have hmem : (⟨dn, id, t, b, m⟩ : IData ℚ) ∈ outs.2.filterMap instData := List.mem_filterMap.2 ⟨_, hm, rfl⟩
    rw [i1, List.mem_flatMap] at hmem
    obtain ⟨e, he, hx⟩ := hmem
    cases hid : netIdI (dbOf F) e.1 with
    | none => rw [hid] at hx; simp at hx
    | some id' =>
      rw [hid] at hx
      obtain ⟨n, objs, net, hr, rfl, hn, hnet, hidn⟩ := hroute e id' he hid
      obtain ⟨o, ho, hask⟩ := List.mem_filterMap.1 hx
      obtain ⟨po, hpo, rfl⟩ := List.mem_map.1 ho
      cases po with
      | via a c v loc rot mir =>
        simp only [toObj, Env.asked] at hask
        cases hma : UMap.find? (envI lib div R (dbOf F) (nm inch / sc) tmpl r.pads).metal a with
        | none => rw [hma] at hask; simp at hask
        | some la =>
          cases hmc : UMap.find? (envI lib div R (dbOf F) (nm inch / sc) tmpl r.pads).metal c with
          | none => rw [hma, hmc] at hask; simp at hask
          | some lc =>
            rw [hma, hmc] at hask
            simp only at hask
            split at hask
            case isFalse => simp at hask
            next hdd =>
            simp only [Option.some.injEq, IData.mk.injEq] at hask
            obtain ⟨q1, q2, q3, q4, q5⟩ := hask
            obtain ⟨i, hia, hmi⟩ := (metal_iff (matsI (dbOf F)).2 (nm inch / sc) F _ la).1 hma
            obtain ⟨j, hjc, hmj⟩ := (metal_iff (matsI (dbOf F)).2 (nm inch / sc) F _ lc).1 hmc
            obtain ⟨d1, d2⟩ := defs_iff (ang := ang) hF (nm inch / sc) tmpl h1 (laysI (dbOf F) (nm inch / sc)).metalMap
            have hC : (viasOf F).Pairwise fun v w => Usable F v → Usable F w → v.name ≠ w.name := by
              by_contra hC
              exact absurd (h2.symm.trans (d2 hC)) (by simp)
            obtain ⟨pads, p1, p2, p3⟩ := d1 hC
            have hpads : pads = r.pads := Res.ok.inj (p1.symm.trans h2)
            rw [hpads] at p3
            have hdef : UMap.count r.pads.defs (str v) = true := ((Bool.and_eq_true_iff).1 hdd).2
            obtain ⟨w, hw, hu, hwn⟩ := (p3 _).1 hdef
            exact ⟨n, objs, net, a, c, v, loc, rot, mir, i, j, hr, hpo, hn, hnet, q2.symm.trans hidn, q1.symm, hmi, hmj, q3.symm.trans hia, q4.symm.trans hjc,
              w, hw, str_inj hwn, hu⟩
      | _ => simp [toObj, Env.asked] at hask

/-- **C131** (outline): without an outline the layout has no boundary; a polygon given last is the boundary. -/
theorem c131_boundary {F : List PSec} (hF : ∀ x ∈ F, WfSec x) {s g : Str} (hs : Writes true (F.flatMap secToks) s) (hg : Gap g) {r : Result}
    (h : create ang lib div R false (some (s ++ g)) = .ok (some r)) :
    ∃ inch sc, inchOf F = some inch ∧ scaleOf F = some sc ∧ (boardOf F = none → r.boundary = none) ∧
      ∀ ps, boardOf F = some (.polygon ps) → r.boundary = some (ps.map (times (nm inch / sc))) := by
  obtain ⟨inch, sc, hi, hc, hbu⟩ := create_ok hF hs hg h
  obtain ⟨tmpl, outs, h1, h2, h3, h4, h5, h6, h7, h8, h9⟩ := (build_iff ang lib div R (dbOf F) inch sc r).1 hbu
  refine ⟨inch, sc, hi, hc, ?_, ?_⟩
  · intro hb
    simp only [dbOf, hb, Option.map_none, Env.board, Res.ok.injEq] at h4
    exact h4.symm
  · intro ps hb
    simp only [dbOf, hb, Option.map_some, toBoard] at h4
    rw [(c90_outline_partial _ ps 0 (0, 0) 0 'N' true).2.1] at h4
    exact (Res.ok.inj h4).symm

end Ecad.XflI
