import Verif.Geom.CutFamilyProps
import Verif.Thermal.LayoutPrismProps
import Verif.Thermal.PrismCourseProps
import Verif.Thermal.StackCourseProps
/-!
C144: How the temperatures of the prism models of a layout respond to the loss powers of its components and the currents of its bond wires: these do not change the
geometry, more of them make no element colder, and the rises superpose, in the steady state and over time.
-/
namespace Ecad.LayoutPrism
open Ecad.Thermal Ecad.GridT Ecad.PrismT Ecad.CutEx Finset
open Ecad.PrismResp (tabled driven)

/-! ## specification -/

/-- Loss powers and currents of a layout, and greater ones: the same components have a loss power, and the same wires a positive current. -/
structure More (I : Input) (s s' : Setting) : Prop where
  sources : ∀ n < I.comps.length, (s.tables n = [] ↔ s'.tables n = []) ∧ ∀ e ∈ s.tables n, ∀ e' ∈ s'.tables n, e.2 ≤ e'.2
  wires : ∀ n < I.prims.length, (0 < s.currents n ↔ 0 < s'.currents n) ∧ |s.currents n| ≤ |s'.currents n|

/-- no loss power is negative -/
def Heats (I : Input) (s : Setting) : Prop := ∀ n < I.comps.length, ∀ e ∈ s.tables n, 0 ≤ e.2

/-- the resistances of the solder joints are not negative -/
def Joints (E : Env) (I : Input) : Prop :=
  ∀ w, Prim.wire w ∈ I.prims → ∀ j, (w.top = some j ∨ w.bot = some j) → ∀ q, j.place = some q → 0 ≤ j.resist * q.2.2 / E.area q.1.outline

/-- Loss powers that do not depend on the temperature are combinations of those in two other cases, and so are the squares of the currents. -/
structure Combines (I : Input) (p q : ℚ) (sa sb s : Setting) : Prop where
  sources : ∀ n < I.comps.length, sa.tables n = [] ∧ sb.tables n = [] ∧ s.tables n = [] ∨
    sa.tables n ≠ [] ∧ sb.tables n ≠ [] ∧ s.tables n ≠ [] ∧ ∃ wa wb, (∀ e ∈ sa.tables n, e.2 = wa) ∧ (∀ e ∈ sb.tables n, e.2 = wb) ∧
      ∀ e ∈ s.tables n, e.2 = p * wa + q * wb
  wires : ∀ n < I.prims.length, (0 < s.currents n ↔ 0 < sa.currents n) ∧ (0 < s.currents n ↔ 0 < sb.currents n) ∧
    s.currents n ^ 2 = p * sa.currents n ^ 2 + q * sb.currents n ^ 2

/-! ## families -/

section
variable {ι : Type} {G : (ι → List (ℚ × ℚ)) → Prop} {H : (ι → ℚ) → Prop}

/-- what is read of a family, but for powers -/
def plain (B : Base ι) (cut : Geom.Cut) (fluid : List Int) (area : Polygon → ℚ) : CutM :=
  { readCut ⟨B.ranges, B.polygons, B.mats, B.nets, [], B.steiner, []⟩ cut fluid area with
    blocks := B.blocks.map fun e => (e.1, ⟨e.2.1.range, e.2.1.scen, fun _ => 0⟩) }

/-- the table of a block -/
def tableOf (B : Base ι) (i : ι) (k : Nat) : List (ℚ × ℚ) := ((UMap.find? B.blocks k).map fun e => e.2 i).getD []

/-- the current of a wire -/
def currentOf (B : Base ι) (i : ι) (j : Nat) : ℚ := ((B.wires[j]?).map fun w => w.2 i).getD 0

theorem find_mem {β : Type} {m : List (Nat × β)} (wf : UMap.WF m) {e : Nat × β} (he : e ∈ m) : UMap.find? m e.1 = some e.2 :=
  (UMap.find?_eq_some_iff wf _ _).2 he

theorem read_family (B : Base ι) (i : ι) (wf : UMap.WF (B.at_ i).blocks) (cut : Geom.Cut) (fluid : List Int) (area : Polygon → ℚ) :
    readCut (B.at_ i) cut fluid area = tabled (plain B cut fluid area) fun k => lossOf (tableOf B i k) := by
  have hwf : UMap.WF B.blocks := by
    have : UMap.keys (B.at_ i).blocks = UMap.keys B.blocks := by
      unfold UMap.keys Base.at_
      dsimp only
      rw [List.map_map]
      rfl
    unfold UMap.WF at wf ⊢
    rw [← this]
    exact wf
  have hb : (readCut (B.at_ i) cut fluid area).blocks = (tabled (plain B cut fluid area) fun k => lossOf (tableOf B i k)).blocks := by
    show List.map _ (B.blocks.map (blockAt i)) = List.map _ (List.map _ B.blocks)
    rw [List.map_map, List.map_map]
    apply List.map_congr_left
    intro e he
    show (e.1, (⟨e.2.1.range, e.2.1.scen, lossOf (e.2.2 i)⟩ : PrismT.Block)) = (e.1, ⟨e.2.1.range, e.2.1.scen, lossOf (tableOf B i e.1)⟩)
    unfold tableOf
    rw [find_mem hwf he]
    rfl
  unfold tabled at hb ⊢
  dsimp only at hb
  rw [← hb]
  rfl

theorem wires_family (B : Base ι) (i : ι) (L : WireLib) :
    (B.at_ i).wires.map (readWire L) = driven (B.wires.map fun w => readWire L w.1) (currentOf B i) := by
  apply List.ext_getElem?
  intro j
  unfold driven
  rw [List.getElem?_map, List.getElem?_map, List.getElem?_zipIdx, List.getElem?_map]
  show Option.map _ ((B.wires.map fun w => ({ w.1 with current := w.2 i } : WireOut))[j]?) = _
  rw [List.getElem?_map]
  cases h : B.wires[j]? with
  | none => rfl
  | some w =>
    simp only [Option.map_some, Option.some.injEq, currentOf, Nat.zero_add, h, Option.getD_some]
    rfl

theorem family {E : Env} {I : Input} {s : ι → Setting} (hc : ∀ x ∈ I.comps.zipIdx, Even G fun i => (s i).tables x.2)
    (hw : ∀ x ∈ I.prims.zipIdx, ∀ w, x.1 = .wire w → Steer E G H w fun i => (s i).currents x.2) {ratio : ℚ} {fuel : Nat} {i : ι} {lc : Model} {cut : Geom.Cut}
    (hx : CutEx.extract E ratio fuel (I.under (s i)) = .ok (lc, some (.ok cut))) :
    ∃ B : Base ι, B.Good G H ∧ ∀ j, CutEx.extract E ratio fuel (I.under (s j)) = .ok (B.at_ j, some (.ok cut)) := by
  obtain ⟨r, h1, h2⟩ := fam_generate E I s hc hw
  dsimp only at h2
  unfold CutEx.extract at hx
  rw [h2 i] at hx
  cases r with
  | ub => simp at hx
  | exn => simp at hx
  | ok B =>
    simp only [Res.bind_ok, Res.ok.injEq, Prod.mk.injEq] at hx
    refine ⟨B, h1 B rfl, fun j => ?_⟩
    unfold CutEx.extract
    rw [h2 j]
    simp only [Res.bind_ok]
    rw [fam_polys B j i, hx.2]

/-- what is true of the tables and currents of a family -/
theorem table_good {B : Base ι} (hB : B.Good G H) {cut : Geom.Cut} {fluid : List Int} {area : Polygon → ℚ} {e : Nat × PrismT.Block}
    (he : e ∈ (plain B cut fluid area).blocks) : G fun i => tableOf B i e.1 := by
  obtain ⟨x, hx, rfl⟩ := List.mem_map.1 he
  dsimp only
  cases h : UMap.find? B.blocks x.1 with
  | none => exact absurd (List.mem_map.2 ⟨x, hx, rfl⟩) ((UMap.find?_eq_none_iff _ _).1 h)
  | some y =>
    have : (fun i => tableOf B i x.1) = y.2 := by
      funext i
      unfold tableOf
      rw [h]
      rfl
    rw [this]
    exact hB.1 _ (UMap.find?_mem h)

theorem current_good {B : Base ι} (hB : B.Good G H) (h0 : H fun _ => 0) (j : Nat) : H fun i => currentOf B i j := by
  unfold currentOf
  cases h : B.wires[j]? with
  | none => exact h0
  | some w => exact hB.2 w (List.mem_of_getElem? h)

end

/-! ## two settings -/

/-- the two settings -/
def two (s s' : Setting) : Bool → Setting
  | false => s
  | true => s'

/-- tables of two settings -/
def Rises (z : Prop) (t : Bool → List (ℚ × ℚ)) : Prop :=
  (∀ i, t i ≠ []) ∧ (∀ e ∈ t false, ∀ e' ∈ t true, e.2 ≤ e'.2) ∧ (z → ∀ e ∈ t false, 0 ≤ e.2)

theorem two_even {I : Input} {s s' : Setting} (h : More I s s') {z : Prop} (hz : z → Heats I s) :
    ∀ x ∈ I.comps.zipIdx, Even (Rises z) fun i => (two s s' i).tables x.2 := by
  intro x hx
  have hn : x.2 < I.comps.length := by
    have := List.snd_lt_of_mem_zipIdx hx
    omega
  obtain ⟨h1, h2⟩ := h.sources x.2 hn
  by_cases he : s.tables x.2 = []
  · left
    intro i
    cases i with
    | false => exact he
    | true => exact h1.1 he
  · right
    have hne : ∀ i, (two s s' i).tables x.2 ≠ [] := by
      intro i
      cases i with
      | false => exact he
      | true => exact fun h3 => he (h1.2 h3)
    exact ⟨hne, hne, h2, fun z => hz z x.2 hn⟩

theorem two_steer {E : Env} {I : Input} {s s' : Setting} (h : More I s s') (hj : Joints E I) (z : Prop) :
    ∀ x ∈ I.prims.zipIdx, ∀ w, x.1 = .wire w → Steer E (Rises z) (fun c => |c false| ≤ |c true|) w fun i => (two s s' i).currents x.2 := by
  intro x hx w hw
  have hn : x.2 < I.prims.length := by
    have := List.snd_lt_of_mem_zipIdx hx
    omega
  have hm : Prim.wire w ∈ I.prims := by
    have := List.fst_mem_of_mem_zipIdx hx
    rwa [hw] at this
  obtain ⟨h1, h2⟩ := h.wires x.2 hn
  refine ⟨h2, ?_⟩
  by_cases hp : 0 < s.currents x.2
  · right
    refine ⟨fun i => ?_, fun j sh elev thick hj' hpl => ⟨fun i => by simp [jointTable], ?_, fun _ => ?_⟩⟩
    · cases i with
      | false => exact hp
      | true => exact h1.1 hp
    · have hr := hj w hm j hj' _ hpl
      intro e he e' he'
      simp only [jointTable, List.mem_singleton] at he he'
      subst he
      subst he'
      refine mul_le_mul_of_nonneg_right ?_ hr
      show s.currents x.2 * s.currents x.2 ≤ s'.currents x.2 * s'.currents x.2
      rw [← abs_mul_abs_self (s.currents x.2), ← abs_mul_abs_self (s'.currents x.2)]
      exact mul_self_le_mul_self (abs_nonneg _) h2
    · have hr := hj w hm j hj' _ hpl
      intro e he
      simp only [jointTable, List.mem_singleton] at he
      subst he
      exact mul_nonneg (mul_self_nonneg _) hr
  · left
    intro i
    cases i with
    | false => exact hp
    | true => exact fun h3 => hp (h1.2 h3)

/-- powers of two tables with ordered entries are ordered -/
theorem loss_le {t t' : List (ℚ × ℚ)} (ht : t ≠ []) (ht' : t' ≠ []) (h : ∀ e ∈ t, ∀ e' ∈ t', e.2 ≤ e'.2) (T T' : ℚ) : lossOf t T ≤ lossOf t' T' := by
  obtain ⟨v, hv, -, -, -, -, hb⟩ := Lookup.c10_lookup t ht T
  obtain ⟨v', hv', -, -, -, -, hb'⟩ := Lookup.c10_lookup t' ht' T'
  have h1 : ∀ e' ∈ t', v ≤ e'.2 := by
    intro e' he'
    obtain ⟨lo, hlo⟩ : ∃ lo : ℚ, ∀ e ∈ t, lo ≤ e.2 := by
      clear hv hb h ht
      induction t with
      | nil => exact ⟨0, by simp⟩
      | cons a t ih =>
        obtain ⟨lo, hlo⟩ := ih
        refine ⟨min lo a.2, fun e he => ?_⟩
        rcases List.mem_cons.1 he with rfl | he
        · exact min_le_right _ _
        · exact (min_le_left _ _).trans (hlo e he)
    exact (hb lo e'.2 fun e he => ⟨hlo e (List.mem_of_find?_eq_some he), h e (List.mem_of_find?_eq_some he) e' he'⟩).2
  unfold lossOf
  rw [hv, hv']
  obtain ⟨hi, hhi⟩ : ∃ hi : ℚ, ∀ e ∈ t', e.2 ≤ hi := by
    clear hv' hb' h ht' h1
    induction t' with
    | nil => exact ⟨0, by simp⟩
    | cons a t ih =>
      obtain ⟨hi, hhi⟩ := ih
      refine ⟨max hi a.2, fun e he => ?_⟩
      rcases List.mem_cons.1 he with rfl | he
      · exact le_max_right _ _
      · exact (hhi e he).trans (le_max_left _ _)
  exact (hb' v hi fun e he => ⟨h1 e (List.mem_of_find?_eq_some he), hhi e (List.mem_of_find?_eq_some he)⟩).1

/-- what is read of a layout under two settings -/
theorem two_read {E : Env} {I : Input} {s s' : Setting} {b : CutEx.Shape} {fluid : List Int} (R : Ready E (I.under s) b fluid) (R' : Ready E (I.under s') b fluid)
    (h : More I s s') (hj : Joints E I) {z : Prop} (hz : z → Heats I s) {ratio : ℚ} {fuel : Nat} {lc lc' : Model} {cut cut' : Geom.Cut}
    (hx : CutEx.extract E ratio fuel (I.under s) = .ok (lc, some (.ok cut))) (hx' : CutEx.extract E ratio fuel (I.under s') = .ok (lc', some (.ok cut')))
    (area : Polygon → ℚ) (W : WireLib) :
    ∃ (c : CutM) (ws : List (Wire ℚ)) (L L' : Nat → ℚ → ℚ) (J J' : Nat → ℚ), cut' = cut ∧ readCut lc cut fluid area = tabled c L ∧
      readCut lc' cut fluid area = tabled c L' ∧ lc.wires.map (readWire W) = driven ws J ∧ lc'.wires.map (readWire W) = driven ws J' ∧
      (∀ e ∈ c.blocks, ∀ T T', (z → 0 ≤ L e.1 T) ∧ L e.1 T ≤ L' e.1 T') ∧ (∀ j, |J j| ≤ |J' j|) ∧
      ∀ w ∈ ws, ∃ w' ∈ lc.wires.map (readWire W), w'.area = w.area ∧ w'.length = w.length := by
  obtain ⟨B, hB, he⟩ := family (i := false) (two_even h hz) (two_steer h hj z) hx
  have e0 := he false
  have e1 := he true
  change CutEx.extract E ratio fuel (I.under s) = _ at e0
  change CutEx.extract E ratio fuel (I.under s') = _ at e1
  rw [hx, Res.ok.injEq, Prod.mk.injEq] at e0
  rw [hx', Res.ok.injEq, Prod.mk.injEq, Option.some.injEq, Res.ok.injEq] at e1
  obtain ⟨rfl, -⟩ := e0
  obtain ⟨rfl, rfl⟩ := e1
  refine ⟨plain B cut' fluid area, B.wires.map fun w => readWire W w.1, _, _, _, _, rfl, read_family B false (blocks_of R hx).1 cut' fluid area,
    read_family B true (blocks_of R' hx').1 cut' fluid area, wires_family B false W, wires_family B true W, fun e he T T' => ?_, fun j => ?_, fun w hw => ?_⟩
  · obtain ⟨g1, g2, g3⟩ := table_good hB he
    refine ⟨fun hz' => ?_, loss_le (g1 false) (g1 true) g2 T T'⟩
    have := loss_le (t := [(0, 0)]) (by simp) (g1 false) (fun a ha e' he' => by
      rw [List.mem_singleton] at ha
      subst ha
      exact g3 hz' e' he') T T
    have h0 := loss_bounds (s := [(0, 0)]) (by simp) (lo := 0) (hi := 0) (by simp) T
    linarith [h0.1]
  · exact current_good hB (by simp) j
  · obtain ⟨x, hx, rfl⟩ := List.mem_map.1 hw
    exact ⟨readWire W { x.1 with current := x.2 false }, List.mem_map.2 ⟨_, List.mem_map.2 ⟨x, hx, rfl⟩, rfl⟩, rfl, rfl⟩

/-! ## three settings -/

/-- three cases -/
inductive Case where
  | a | b | c

/-- the three settings -/
def three (sa sb s : Setting) : Case → Setting
  | .a => sa
  | .b => sb
  | .c => s

/-- tables of three settings -/
def Adds (p q : ℚ) (t : Case → List (ℚ × ℚ)) : Prop :=
  (∀ i, t i ≠ []) ∧ ∃ wa wb, (∀ e ∈ t .a, e.2 = wa) ∧ (∀ e ∈ t .b, e.2 = wb) ∧ ∀ e ∈ t .c, e.2 = p * wa + q * wb

theorem loss_const {t : List (ℚ × ℚ)} (ht : t ≠ []) {w : ℚ} (h : ∀ e ∈ t, e.2 = w) (T : ℚ) : lossOf t T = w := by
  obtain ⟨h1, h2⟩ := loss_bounds ht (lo := w) (hi := w) (fun e he => by rw [h e he]; exact ⟨le_refl _, le_refl _⟩) T
  exact le_antisymm h2 h1

theorem three_even {I : Input} {p q : ℚ} {sa sb s : Setting} (h : Combines I p q sa sb s) :
    ∀ x ∈ I.comps.zipIdx, Even (Adds p q) fun i => (three sa sb s i).tables x.2 := by
  intro x hx
  have hn : x.2 < I.comps.length := by
    have := List.snd_lt_of_mem_zipIdx hx
    omega
  rcases h.sources x.2 hn with ⟨h1, h2, h3⟩ | ⟨h1, h2, h3, h4⟩
  · exact .inl fun i => by cases i <;> assumption
  · have hne : ∀ i, (three sa sb s i).tables x.2 ≠ [] := by intro i; cases i <;> assumption
    exact .inr ⟨hne, hne, h4⟩

theorem three_steer {E : Env} {I : Input} {p q : ℚ} {sa sb s : Setting} (h : Combines I p q sa sb s) :
    ∀ x ∈ I.prims.zipIdx, ∀ w, x.1 = .wire w →
      Steer E (Adds p q) (fun c => c .c ^ 2 = p * c .a ^ 2 + q * c .b ^ 2) w fun i => (three sa sb s i).currents x.2 := by
  intro x hx w hw
  have hn : x.2 < I.prims.length := by
    have := List.snd_lt_of_mem_zipIdx hx
    omega
  obtain ⟨h1, h2, h3⟩ := h.wires x.2 hn
  refine ⟨h3, ?_⟩
  by_cases hp : 0 < s.currents x.2
  · right
    refine ⟨fun i => ?_, fun j sh elev thick hj' hpl => ⟨fun i => by simp [jointTable],
      sa.currents x.2 * sa.currents x.2 * (j.resist * thick / E.area sh.outline), sb.currents x.2 * sb.currents x.2 * (j.resist * thick / E.area sh.outline),
      ?_, ?_, ?_⟩⟩
    · cases i with
      | a => exact h1.1 hp
      | b => exact h2.1 hp
      | c => exact hp
    · intro e he
      simp only [jointTable, List.mem_singleton] at he
      subst he
      rfl
    · intro e he
      simp only [jointTable, List.mem_singleton] at he
      subst he
      rfl
    · intro e he
      simp only [jointTable, List.mem_singleton] at he
      subst he
      show s.currents x.2 * s.currents x.2 * _ = _
      rw [← pow_two, h3]
      ring
  · left
    intro i
    cases i with
    | a => exact fun h => hp (h1.2 h)
    | b => exact fun h => hp (h2.2 h)
    | c => exact hp

/-- what is read of a layout under three settings -/
theorem three_read {E : Env} {I : Input} {p q : ℚ} {sa sb s : Setting} {b : CutEx.Shape} {fluid : List Int} (Ra : Ready E (I.under sa) b fluid)
    (Rb : Ready E (I.under sb) b fluid) (R : Ready E (I.under s) b fluid) (h : Combines I p q sa sb s) {ratio : ℚ} {fuel : Nat} {la lb lc : Model}
    {ca cb cut : Geom.Cut} (ha : CutEx.extract E ratio fuel (I.under sa) = .ok (la, some (.ok ca)))
    (hb : CutEx.extract E ratio fuel (I.under sb) = .ok (lb, some (.ok cb))) (hx : CutEx.extract E ratio fuel (I.under s) = .ok (lc, some (.ok cut)))
    (area : Polygon → ℚ) (W : WireLib) :
    ∃ (c : CutM) (ws : List (Wire ℚ)) (Pa Pb P Ja Jb J : Nat → ℚ), ca = cut ∧ cb = cut ∧ readCut la cut fluid area = tabled c (fun k _ => Pa k) ∧
      readCut lb cut fluid area = tabled c (fun k _ => Pb k) ∧ readCut lc cut fluid area = tabled c (fun k _ => P k) ∧
      la.wires.map (readWire W) = driven ws Ja ∧ lb.wires.map (readWire W) = driven ws Jb ∧ lc.wires.map (readWire W) = driven ws J ∧
      (∀ e ∈ c.blocks, P e.1 = p * Pa e.1 + q * Pb e.1) ∧ (∀ j, J j ^ 2 = p * Ja j ^ 2 + q * Jb j ^ 2) ∧
      ∀ w ∈ ws, ∃ w' ∈ lc.wires.map (readWire W), w'.area = w.area ∧ w'.length = w.length := by
  obtain ⟨B, hB, he⟩ := family (i := Case.c) (three_even h) (three_steer (E := E) h) hx
  have e0 := he .a
  have e1 := he .b
  have e2 := he .c
  change CutEx.extract E ratio fuel (I.under sa) = _ at e0
  change CutEx.extract E ratio fuel (I.under sb) = _ at e1
  change CutEx.extract E ratio fuel (I.under s) = _ at e2
  rw [ha, Res.ok.injEq, Prod.mk.injEq, Option.some.injEq, Res.ok.injEq] at e0
  rw [hb, Res.ok.injEq, Prod.mk.injEq, Option.some.injEq, Res.ok.injEq] at e1
  rw [hx, Res.ok.injEq, Prod.mk.injEq] at e2
  obtain ⟨rfl, rfl⟩ := e0
  obtain ⟨rfl, rfl⟩ := e1
  obtain ⟨rfl, -⟩ := e2
  have hconst : ∀ i, (tabled (plain B cb fluid area) fun k => lossOf (tableOf B i k)) = tabled (plain B cb fluid area) fun k _ => lossOf (tableOf B i k) 0 := by
    intro i
    unfold tabled
    have : ((plain B cb fluid area).blocks.map fun e => (e.1, ({ e.2 with lut := lossOf (tableOf B i e.1) } : PrismT.Block))) =
        (plain B cb fluid area).blocks.map fun e => (e.1, ({ e.2 with lut := fun _ => lossOf (tableOf B i e.1) 0 } : PrismT.Block)) := by
      apply List.map_congr_left
      intro e he
      obtain ⟨g1, wa, wb, g2, g3, g4⟩ := table_good hB he
      have : lossOf (tableOf B i e.1) = fun _ => lossOf (tableOf B i e.1) 0 := by
        funext T
        cases i with
        | a => rw [loss_const (g1 .a) g2, loss_const (g1 .a) g2]
        | b => rw [loss_const (g1 .b) g3, loss_const (g1 .b) g3]
        | c => rw [loss_const (g1 .c) g4, loss_const (g1 .c) g4]
      rw [← this]
    rw [this]
  refine ⟨plain B cb fluid area, B.wires.map fun w => readWire W w.1, fun k => lossOf (tableOf B .a k) 0, fun k => lossOf (tableOf B .b k) 0,
    fun k => lossOf (tableOf B .c k) 0, _, _, _, rfl, rfl, ?_, ?_, ?_, wires_family B .a W, wires_family B .b W, wires_family B .c W, fun e he => ?_,
    fun j => ?_, fun w hw => ?_⟩
  · exact (read_family B .a (blocks_of Ra ha).1 cb fluid area).trans (hconst .a)
  · exact (read_family B .b (blocks_of Rb hb).1 cb fluid area).trans (hconst .b)
  · exact (read_family B .c (blocks_of R hx).1 cb fluid area).trans (hconst .c)
  · obtain ⟨g1, wa, wb, g2, g3, g4⟩ := table_good hB he
    dsimp only
    rw [loss_const (g1 .a) g2, loss_const (g1 .b) g3, loss_const (g1 .c) g4]
  · exact current_good hB (by simp) j
  · obtain ⟨x, hx, rfl⟩ := List.mem_map.1 hw
    exact ⟨readWire W { x.1 with current := x.2 .c }, List.mem_map.2 ⟨_, List.mem_map.2 ⟨x, hx, rfl⟩, rfl⟩, rfl, rfl⟩

/-! ## the claims -/

section
variable {E : Env} {I : Input} {s s' : Setting} {b : CutEx.Shape} {fluid : List Int} {ratio : ℚ} {fuel : Nat} {lc lc' : Model} {cut cut' : Geom.Cut}
  {area : Polygon → ℚ} {v : View} {W : WireLib} {r : Nat → ℚ} {minR : ℚ} {envT : ℚ}

/-- C144, geometry: other loss powers and currents of the same components and wires change neither layers nor polygons, their heights, materials and nets. -/
theorem c144_geometry (hp : ∀ n < I.comps.length, s.tables n = [] ↔ s'.tables n = []) (hc : ∀ n < I.prims.length, 0 < s.currents n ↔ 0 < s'.currents n)
    (hx : CutEx.extract E ratio fuel (I.under s) = .ok (lc, some (.ok cut))) :
    ∃ lc', CutEx.extract E ratio fuel (I.under s') = .ok (lc', some (.ok cut)) ∧ lc'.ranges = lc.ranges ∧ lc'.polygons = lc.polygons ∧ lc'.mats = lc.mats ∧
      lc'.nets = lc.nets ∧ lc'.steiner = lc.steiner ∧ lc'.blocks.map (fun e => (e.1, e.2.range, e.2.scen)) = lc.blocks.map (fun e => (e.1, e.2.range, e.2.scen)) ∧
      lc'.wires.map (fun w => (w.net, w.radius, w.mat, w.scen, w.points)) = lc.wires.map (fun w => (w.net, w.radius, w.mat, w.scen, w.points)) := by
  obtain ⟨B, -, he⟩ := family (i := false) (G := fun _ => True) (H := fun _ => True) (s := two s s')
    (by
      intro x hx
      have := hp x.2 (by have := List.snd_lt_of_mem_zipIdx hx; omega)
      by_cases he : s.tables x.2 = []
      · exact .inl fun i => by cases i with | false => exact he | true => exact this.1 he
      · exact .inr ⟨fun i => by cases i with | false => exact he | true => exact fun h3 => he (this.2 h3), trivial⟩)
    (by
      intro x hx w hw
      have := hc x.2 (by have := List.snd_lt_of_mem_zipIdx hx; omega)
      refine ⟨trivial, ?_⟩
      by_cases he : 0 < s.currents x.2
      · exact .inr ⟨fun i => by cases i with | false => exact he | true => exact this.1 he, fun _ _ _ _ _ _ => trivial⟩
      · exact .inl fun i => by cases i with | false => exact he | true => exact fun h3 => he (this.2 h3)) hx
  have e0 := he false
  change CutEx.extract E ratio fuel (I.under s) = _ at e0
  rw [hx, Res.ok.injEq, Prod.mk.injEq] at e0
  obtain ⟨rfl, -⟩ := e0
  refine ⟨B.at_ true, he true, rfl, rfl, rfl, rfl, rfl, ?_, ?_⟩
  · unfold Base.at_
    dsimp only
    rw [List.map_map, List.map_map]
    rfl
  · unfold Base.at_
    dsimp only
    rw [List.map_map, List.map_map]
    rfl

/-- C144, power and current, steady state of prism models: under greater loss powers and currents no element is colder. -/
theorem c144_power {m m' : PModel ℚ} {mesh : Mesh} (R : Ready E (I.under s) b fluid) (R' : Ready E (I.under s') b fluid) (h : More I s s') (hj : Joints E I)
    (hx : CutEx.extract E ratio fuel (I.under s) = .ok (lc, some (.ok cut))) (hx' : CutEx.extract E ratio fuel (I.under s') = .ok (lc', some (.ok cut')))
    (M : Made (readCut lc cut fluid area) v m mesh lc.wires W) (M' : Made (readCut lc' cut' fluid area) v m' mesh lc'.wires W) (hs : PrismResp.Shape m m')
    (hk : PrismResp.SameK m m') (hbc : PrismResp.SameBC m m') (hr : ∀ k T, 0 ≤ r k ∧ m.resist k T = r k ∧ m'.resist k T = r k) (hm : 0 < minR)
    {x y : Nat → ℚ} (hX : PrismResp.Steady minR envT m x) (hY : PrismResp.Steady minR envT m' y) : ∀ i < m.total, x i ≤ y i := by
  obtain ⟨c, ws, L, L', J, J', rfl, e1, e2, e3, e4, hL, hJ, -⟩ := two_read R R' h hj (z := False) (fun z => z.elim) hx hx' area W
  have P := proper_of R hx M
  have P' := proper_of R' hx' M'
  rw [e1, e3] at P
  rw [e2, e4] at P'
  have := PrismResp.c138_power P P' hs hk hbc (fun e he T T' => (hL e he T T').2) hJ hr hm hX hY
  rwa [PrismCourse.count_prisms P, ← PrismCourse.count_total P] at this

/-- C144, the same for stackup prism models -/
theorem c144_stack_power {m m' : SModel ℚ} {g : Tris ℚ} {sc : ℚ} {meshes : List Mesh} (R : Ready E (I.under s) b fluid) (R' : Ready E (I.under s') b fluid)
    (h : More I s s') (hj : Joints E I) (hx : CutEx.extract E ratio fuel (I.under s) = .ok (lc, some (.ok cut)))
    (hx' : CutEx.extract E ratio fuel (I.under s') = .ok (lc', some (.ok cut'))) (M : MadeS (readCut lc cut fluid area) v m g sc meshes lc.wires W)
    (M' : MadeS (readCut lc' cut' fluid area) v m' g sc meshes lc'.wires W) (hs : StackResp.Shape m m') (hk : StackResp.SameK m m')
    (hbc : StackResp.SameBC m m') (hr : ∀ k T, 0 ≤ r k ∧ m.resist k T = r k ∧ m'.resist k T = r k) (hm : 0 < minR)
    {x y : Nat → ℚ} (hX : StackResp.Steady minR envT m x) (hY : StackResp.Steady minR envT m' y) : ∀ i < m.total, x i ≤ y i := by
  obtain ⟨c, ws, L, L', J, J', rfl, e1, e2, e3, e4, hL, hJ, -⟩ := two_read R R' h hj (z := False) (fun z => z.elim) hx hx' area W
  have P := properS_of R hx M
  have P' := properS_of R' hx' M'
  rw [e1, e3] at P
  rw [e2, e4] at P'
  exact StackResp.c139_power P P' hs hk hbc (fun e he T T' => (hL e he T T').2) hJ hr hm hX hY

/-- C144, power, current and excitation over time: if no loss power is negative, then under greater loss powers, currents and excitations no element is ever colder. -/
theorem c144_course {m m' : PModel ℚ} {mesh : Mesh} (R : Ready E (I.under s) b fluid) (R' : Ready E (I.under s') b fluid) (h : More I s s') (h0 : Heats I s)
    (hj : Joints E I) (hx : CutEx.extract E ratio fuel (I.under s) = .ok (lc, some (.ok cut)))
    (hx' : CutEx.extract E ratio fuel (I.under s') = .ok (lc', some (.ok cut'))) (M : Made (readCut lc cut fluid area) v m mesh lc.wires W)
    (M' : Made (readCut lc' cut' fluid area) v m' mesh lc'.wires W) (hc : PrismCourse.Heavy m (lc.wires.map (readWire W))) (hc' : PrismCourse.SameC m m')
    (hs : PrismResp.Shape m m') (hk : PrismResp.SameK m m') (hbc : PrismResp.SameBC m m')
    (hr : ∀ k T, 0 ≤ r k ∧ m.resist k T = r k ∧ m'.resist k T = r k) (hm : 0 < minR) {exc exc' : ℝ → Nat → ℝ}
    (he : ∀ t, 0 < t → ∀ i, 0 ≤ exc t i ∧ exc t i ≤ exc' t i) {x y : ℝ → Nat → ℝ} (hX : PrismCourse.Course minR envT exc m x)
    (hY : PrismCourse.Course minR envT exc' m' y) : ∀ t, 0 ≤ t → ∀ k < m.total, x t k ≤ y t k := by
  obtain ⟨c, ws, L, L', J, J', rfl, e1, e2, e3, e4, hL, hJ, hw⟩ := two_read R R' h hj (z := True) (fun _ => h0) hx hx' area W
  have P := proper_of R hx M
  have P' := proper_of R' hx' M'
  rw [e1, e3] at P
  rw [e2, e4] at P'
  have hc2 : PrismCourse.Heavy m ws := ⟨hc.heat, hc.rho, hc.height, fun w hw' => by
    obtain ⟨w', h1, h2, h3⟩ := hw w hw'
    rw [← h2, ← h3]
    exact hc.wires w' h1⟩
  exact PrismCourse.c140_power P P' hc2 hc' hs hk hbc (fun e he T T' => ⟨(hL e he T T').1 trivial, (hL e he T T').2⟩) hJ hr hm he hX hY

/-- C144, the same for stackup prism models -/
theorem c144_stack_course {m m' : SModel ℚ} {g : Tris ℚ} {sc : ℚ} {meshes : List Mesh} (R : Ready E (I.under s) b fluid) (R' : Ready E (I.under s') b fluid)
    (h : More I s s') (h0 : Heats I s) (hj : Joints E I) (hx : CutEx.extract E ratio fuel (I.under s) = .ok (lc, some (.ok cut)))
    (hx' : CutEx.extract E ratio fuel (I.under s') = .ok (lc', some (.ok cut'))) (M : MadeS (readCut lc cut fluid area) v m g sc meshes lc.wires W)
    (M' : MadeS (readCut lc' cut' fluid area) v m' g sc meshes lc'.wires W) (hc : StackCourse.Heavy m (lc.wires.map (readWire W)))
    (hc' : StackCourse.SameC m m') (hs : StackResp.Shape m m') (hk : StackResp.SameK m m') (hbc : StackResp.SameBC m m')
    (hr : ∀ k T, 0 ≤ r k ∧ m.resist k T = r k ∧ m'.resist k T = r k) (hm : 0 < minR) {exc exc' : ℝ → Nat → ℝ}
    (he : ∀ t, 0 < t → ∀ i, 0 ≤ exc t i ∧ exc t i ≤ exc' t i) {x y : ℝ → Nat → ℝ} (hX : StackCourse.Course minR envT exc m x)
    (hY : StackCourse.Course minR envT exc' m' y) : ∀ t, 0 ≤ t → ∀ k < m.total, x t k ≤ y t k := by
  obtain ⟨c, ws, L, L', J, J', rfl, e1, e2, e3, e4, hL, hJ, hw⟩ := two_read R R' h hj (z := True) (fun _ => h0) hx hx' area W
  have P := properS_of R hx M
  have P' := properS_of R' hx' M'
  rw [e1, e3] at P
  rw [e2, e4] at P'
  have hc2 : StackCourse.Heavy m ws := ⟨hc.heat, hc.rho, hc.height, fun w hw' => by
    obtain ⟨w', h1, h2, h3⟩ := hw w hw'
    rw [← h2, ← h3]
    exact hc.wires w' h1⟩
  exact StackCourse.c141_power P P' hc2 hc' hs hk hbc (fun e he T T' => ⟨(hL e he T T').1 trivial, (hL e he T T').2⟩) hJ hr hm he hX hY

variable {sa sb : Setting} {la lb : Model} {ca cb : Geom.Cut} {p q : ℚ}

/-- C144, superposition: if the loss powers of the components are combinations of those in two other cases, and so are the squares of the currents, then the rises of
the temperatures of a prism model over the surroundings are the same combinations, in the steady state and, under the same excitation, at all times. -/
theorem c144_superposition {ma mb m : PModel ℚ} {mesh : Mesh} (Ra : Ready E (I.under sa) b fluid) (Rb : Ready E (I.under sb) b fluid)
    (R : Ready E (I.under s) b fluid) (h : Combines I p q sa sb s) (ha : CutEx.extract E ratio fuel (I.under sa) = .ok (la, some (.ok ca)))
    (hb : CutEx.extract E ratio fuel (I.under sb) = .ok (lb, some (.ok cb))) (hx : CutEx.extract E ratio fuel (I.under s) = .ok (lc, some (.ok cut)))
    (Ma : Made (readCut la ca fluid area) v ma mesh la.wires W) (Mb : Made (readCut lb cb fluid area) v mb mesh lb.wires W)
    (M : Made (readCut lc cut fluid area) v m mesh lc.wires W) (hsa : PrismResp.Shape m ma) (hsb : PrismResp.Shape m mb) (hka : PrismResp.SameK m ma)
    (hkb : PrismResp.SameK m mb) (hca : PrismResp.SameBC m ma) (hcb : PrismResp.SameBC m mb)
    (hr : ∀ k T, 0 ≤ r k ∧ ma.resist k T = r k ∧ mb.resist k T = r k ∧ m.resist k T = r k) (hm : 0 < minR) :
    (∀ {x y z : Nat → ℚ}, PrismResp.Steady minR envT ma x → PrismResp.Steady minR envT mb y → PrismResp.Steady minR envT m z →
      ∀ i < m.total, z i - envT = p * (x i - envT) + q * (y i - envT)) ∧
    (PrismCourse.Heavy m (lc.wires.map (readWire W)) → PrismCourse.SameC m ma → PrismCourse.SameC m mb → ∀ {exc x y z : ℝ → Nat → ℝ},
      PrismCourse.Course minR envT exc ma x → PrismCourse.Course minR envT exc mb y → PrismCourse.Course minR envT exc m z →
      ∀ t, 0 ≤ t → ∀ k < m.total, z t k - envT = p * (x t k - envT) + q * (y t k - envT)) := by
  obtain ⟨c, ws, Pa, Pb, P, Ja, Jb, J, rfl, rfl, e1, e2, e3, e4, e5, e6, hP, hJ, hw⟩ := three_read Ra Rb R h ha hb hx area W
  have Qa := proper_of Ra ha Ma
  have Qb := proper_of Rb hb Mb
  have Q := proper_of R hx M
  rw [e1, e4] at Qa
  rw [e2, e5] at Qb
  rw [e3, e6] at Q
  constructor
  · intro x y z hX hY hZ
    have := PrismResp.c138_superposition Qa Qb Q hsa hsb hka hkb hca hcb hr hP hJ hm hX hY hZ
    rwa [PrismCourse.count_prisms Q, ← PrismCourse.count_total Q] at this
  · intro hc hda hdb exc x y z hX hY hZ
    have hc2 : PrismCourse.Heavy m ws := ⟨hc.heat, hc.rho, hc.height, fun w hw' => by
      obtain ⟨w', h1, h2, h3⟩ := hw w hw'
      rw [← h2, ← h3]
      exact hc.wires w' h1⟩
    exact PrismCourse.c140_superposition Qa Qb Q hc2 hda hdb hsa hsb hka hkb hca hcb hr hP hJ hm hX hY hZ

/-- C144, the same for stackup prism models -/
theorem c144_stack_superposition {ma mb m : SModel ℚ} {g : Tris ℚ} {sc : ℚ} {meshes : List Mesh} (Ra : Ready E (I.under sa) b fluid)
    (Rb : Ready E (I.under sb) b fluid) (R : Ready E (I.under s) b fluid) (h : Combines I p q sa sb s)
    (ha : CutEx.extract E ratio fuel (I.under sa) = .ok (la, some (.ok ca))) (hb : CutEx.extract E ratio fuel (I.under sb) = .ok (lb, some (.ok cb)))
    (hx : CutEx.extract E ratio fuel (I.under s) = .ok (lc, some (.ok cut))) (Ma : MadeS (readCut la ca fluid area) v ma g sc meshes la.wires W)
    (Mb : MadeS (readCut lb cb fluid area) v mb g sc meshes lb.wires W) (M : MadeS (readCut lc cut fluid area) v m g sc meshes lc.wires W)
    (hsa : StackResp.Shape m ma) (hsb : StackResp.Shape m mb) (hka : StackResp.SameK m ma) (hkb : StackResp.SameK m mb) (hca : StackResp.SameBC m ma)
    (hcb : StackResp.SameBC m mb) (hr : ∀ k T, 0 ≤ r k ∧ ma.resist k T = r k ∧ mb.resist k T = r k ∧ m.resist k T = r k) (hm : 0 < minR) :
    (∀ {x y z : Nat → ℚ}, StackResp.Steady minR envT ma x → StackResp.Steady minR envT mb y → StackResp.Steady minR envT m z →
      ∀ i < m.total, z i - envT = p * (x i - envT) + q * (y i - envT)) ∧
    (StackCourse.Heavy m (lc.wires.map (readWire W)) → StackCourse.SameC m ma → StackCourse.SameC m mb → ∀ {exc x y z : ℝ → Nat → ℝ},
      StackCourse.Course minR envT exc ma x → StackCourse.Course minR envT exc mb y → StackCourse.Course minR envT exc m z →
      ∀ t, 0 ≤ t → ∀ k < m.total, z t k - envT = p * (x t k - envT) + q * (y t k - envT)) := by
  obtain ⟨c, ws, Pa, Pb, P, Ja, Jb, J, rfl, rfl, e1, e2, e3, e4, e5, e6, hP, hJ, hw⟩ := three_read Ra Rb R h ha hb hx area W
  have Qa := properS_of Ra ha Ma
  have Qb := properS_of Rb hb Mb
  have Q := properS_of R hx M
  rw [e1, e4] at Qa
  rw [e2, e5] at Qb
  rw [e3, e6] at Q
  constructor
  · intro x y z hX hY hZ
    exact StackResp.c139_superposition Qa Qb Q hsa hsb hka hkb hca hcb hr hP hJ hm hX hY hZ
  · intro hc hda hdb exc x y z hX hY hZ
    have hc2 : StackCourse.Heavy m ws := ⟨hc.heat, hc.rho, hc.height, fun w hw' => by
      obtain ⟨w', h1, h2, h3⟩ := hw w hw'
      rw [← h2, ← h3]
      exact hc.wires w' h1⟩
    exact StackCourse.c141_superposition Qa Qb Q hc2 hda hdb hsa hsb hka hkb hca hcb hr hP hJ hm hX hY hZ

end

/-! ## example -/

/-- the die of the example with `p` W and its wire with `c` A -/
def exSet (p c : ℚ) : Setting := ⟨fun _ => [(300, p)], fun _ => c⟩

/-- its layer cut model -/
def exAt (p c : ℚ) : Model :=
  { exLc with blocks := [(1, ⟨1, ⟨7600, 7200⟩, 0, [(300, p)]⟩)], wires := [⟨3, 1 / 10, 9, c, 1, [((1, 1), 8), ((9, 9), 4)]⟩] }

theorem ex_extract_at {p c : ℚ} (hg : generate exEnv (exIn.under (exSet p c)) = .ok (exAt p c)) :
    CutEx.extract exEnv 0 1 (exIn.under (exSet p c)) = .ok (exAt p c, some (.ok exLay)) := by
  have h := ex_extract
  unfold CutEx.extract at h ⊢
  have hp : (exAt p c).polys = exLc.polys := rfl
  have hg0 : generate exEnv exIn = .ok exLc := by decide +kernel
  rw [hg0, Res.bind_ok, Res.ok.injEq, Prod.mk.injEq] at h
  rw [hg, Res.bind_ok, hp, h.2]

theorem ex_a : CutEx.extract exEnv 0 1 (exIn.under (exSet 4 3)) = .ok (exAt 4 3, some (.ok exLay)) := ex_extract_at (by decide +kernel)

theorem ex_b : CutEx.extract exEnv 0 1 (exIn.under (exSet 2 4)) = .ok (exAt 2 4, some (.ok exLay)) := ex_extract_at (by decide +kernel)

theorem ex_c : CutEx.extract exEnv 0 1 (exIn.under (exSet 6 5)) = .ok (exAt 6 5, some (.ok exLay)) := ex_extract_at (by decide +kernel)

theorem ex_ready_at (p c : ℚ) : Ready exEnv (exIn.under (exSet p c)) ⟨sq 0 0 10, [], none⟩ [4] := by
  have hits : items exEnv (exIn.under (exSet p c)) ⟨sq 0 0 10, [], none⟩ = [.shape (-1) 6 (-1) ⟨sq 0 0 10, [], none⟩ 4 4, .heat 7 (sq 0 0 10) (4 + 0 + 4) 4 0 [(300, p)] (1 / 10)] := by
    rfl
  have hq : ∀ x ∈ items exEnv (exIn.under (exSet p c)) ⟨sq 0 0 10, [], none⟩, ∀ q ∈ x.pieces, q.heat ≠ none → q.thick = 4 ∧ q.mat = 7 := by
    rw [hits]
    intro x hx q hq hne
    rcases List.mem_cons.1 hx with rfl | hx
    · simp only [Item.pieces, List.map_nil, List.mem_singleton] at hq
      subst hq
      exact absurd rfl hne
    · rw [List.mem_singleton] at hx
      subst hx
      simp only [Item.pieces, List.mem_singleton] at hq
      subst hq
      exact ⟨rfl, rfl⟩
  refine ⟨⟨?_, ?_, ?_, ?_, ?_, ?_⟩, ⟨?_, ?_, ?_, ?_⟩, rfl, ?_, ?_⟩
  · intro k l h
    match k, h with
    | 0, h => simp only [exIn, Input.under, exSet, Prim.carry, List.zipIdx_cons, List.zipIdx_nil, List.map_cons, List.map_nil, List.getElem?_cons_zero, Option.some.injEq] at h; subst h; rfl
    | k + 1, h => simp [exIn, Input.under, exSet, Prim.carry] at h
  · simp [exIn, Input.under, exSet, Prim.carry]
  · simp only [exIn, Input.under, exSet, Prim.carry, List.zipIdx_cons, List.zipIdx_nil, List.map_cons, List.map_nil, List.mem_singleton, forall_eq, Option.isSome_some, true_and]
    exact ⟨⟨0, _, rfl, rfl, rfl⟩, by simp⟩
  · intro w hw
    simp only [exIn, Input.under, exSet, Prim.carry, List.zipIdx_cons, List.zipIdx_nil, List.map_cons, List.map_nil, List.mem_cons, List.not_mem_nil, or_false, reduceCtorEq, false_or, Prim.wire.injEq] at hw
    subst hw
    simp [JointOk]
  · intro s net lyr h
    simp [exIn, Input.under, exSet, Prim.carry] at h
  · simp [exIn, Input.under, exSet, Prim.carry]
  · simp [exIn, Input.under, exSet, Prim.carry]
  · simp [exIn, Input.under, exSet, Prim.carry]
  · intro w hw j hj
    simp only [exIn, Input.under, exSet, Prim.carry, List.zipIdx_cons, List.zipIdx_nil, List.map_cons, List.map_nil, List.mem_cons, List.not_mem_nil, or_false, reduceCtorEq, false_or, Prim.wire.injEq] at hw
    subst hw
    simp at hj
  · simp [exIn, Input.under, exSet, Prim.carry]
  · intro x hx q hxq hne
    rw [(hq x hx q hxq hne).1]
    norm_num [exEnv]
  · intro x hx q hxq hne
    rw [(hq x hx q hxq hne).2]
    decide

theorem ex_seen_at (p c : ℚ) : Seen (readCut (exAt p c) exLay [4] fun x => (area2 x : ℚ) / 2) exView fun _ => exPowerMesh.length := by
  intro e he k qs hk hl
  have : e = (1, ⟨⟨7600, 7200⟩, 0, lossOf [(300, p)]⟩) := by simpa [readCut, exAt] using he
  subst this
  exact ex_seen (1, ⟨⟨7600, 7200⟩, 0, lossOf [(300, 4)]⟩) (by simp [readCut, exLc]) k qs hk hl

theorem ex_info (p c : ℚ) : PrismResp.SameInfo (infoOf (readCut exLc exLay [4] fun x => (area2 x : ℚ) / 2) exView)
    (infoOf (readCut (exAt p c) exLay [4] fun x => (area2 x : ℚ) / 2) exView) :=
  PrismResp.tabled_info (readCut exLc exLay [4] fun x => (area2 x : ℚ) / 2) exView fun _ => lossOf [(300, p)]

theorem ex_hits_at (p c : ℚ) : Hits (readCut (exAt p c) exLay [4] fun x => (area2 x : ℚ) / 2) exView := ex_hits

theorem ex_made (p c : ℚ) : ∃ off ps ls, Made (readCut (exAt p c) exLay [4] fun x => (area2 x : ℚ) / 2) exView (PrismBal.exModel off ps ls) exPowerMesh
    (exAt p c).wires exWires := by
  obtain ⟨off, ps, h, ho, -⟩ := buildPrisms_eq exPowerMesh 4 (infoOf (readCut (exAt p c) exLay [4] fun x => (area2 x : ℚ) / 2) exView)
  have ht : totalPrisms off = 8 := by
    rw [ho, ← PrismResp.before_same (ex_info p c)]
    decide +kernel
  obtain ⟨ls, hls⟩ : ∃ ls, addWires off [] ((exAt p c).wires.map (readWire exWires)) = .ok ls := ⟨_, rfl⟩
  refine ⟨off, ps, ls, ⟨?_, ?_, ⟨h, hls, ?_⟩, ?_, ?_, ?_, ?_, ?_⟩⟩
  · exact ex_hits_at p c
  · exact ex_seen_at p c
  · intro w hw
    simp only [exAt, List.map_cons, List.map_nil, List.mem_singleton] at hw
    subst hw
    show _ ∧ (∀ x ∈ [0], x < totalPrisms off) ∧ ∀ x ∈ [3], x < totalPrisms off
    rw [ht]
    exact ⟨by simp [readWire, exWires], by simp, by simp⟩
  · exact ex_mutual
  · intro l t
    norm_num [exView]
  · refine ⟨fun t => by simp [PrismBal.exModel, exPowerModel], ?_, .inl ⟨4, rfl⟩⟩
    intro bc hbc _ x hx
    simp only [PrismBal.exModel, exPowerModel, List.not_mem_nil, false_and, exists_false, or_false, reduceCtorEq] at hbc
    rw [Option.some.injEq] at hbc
    subst hbc
    simp at hx
    rw [← hx]
    norm_num
  · intro bc hbc
    simp [PrismBal.exModel, exPowerModel] at hbc
    subst hbc
    simp
  · intro p
    norm_num [exWires]

theorem ex_madeS (p c : ℚ) : ∃ off ps ls, MadeS (readCut (exAt p c) exLay [4] fun x => (area2 x : ℚ) / 2) exView (StackBal.exSModel off ps ls) StackBal.exTri 1
    [exPowerMesh, exPowerMesh, exPowerMesh, exPowerMesh] (exAt p c).wires exWires := by
  obtain ⟨off, ps, h, hl1, hs1⟩ := stack_built StackBal.exTri [exPowerMesh, exPowerMesh, exPowerMesh, exPowerMesh]
    (infoOf (readCut (exAt p c) exLay [4] fun x => (area2 x : ℚ) / 2) exView) 4
  obtain ⟨off0, ps0, h0, hl0, hs0⟩ := stack_built StackBal.exTri [exPowerMesh, exPowerMesh, exPowerMesh, exPowerMesh]
    (infoOf (readCut exLc exLay [4] fun x => (area2 x : ℚ) / 2) exView) 4
  have hoff : ((stackLayers [exPowerMesh, exPowerMesh, exPowerMesh, exPowerMesh]
      (infoOf (readCut exLc exLay [4] fun x => (area2 x : ℚ) / 2) exView)).bind fun ls => buildStack StackBal.exTri ls 4).bind
      (fun r => .ok r.1) = .ok [0, 2, 4, 6, 8] := by decide +kernel
  rw [h0, Res.bind_ok, Res.ok.injEq] at hoff
  have ht : totalPrisms off = 8 := by
    rw [← hl1, ← (StackResp.stacked_alike (ex_info p c) hs0 hs1).length_eq, hl0, show off0 = [0, 2, 4, 6, 8] from hoff]
    rfl
  obtain ⟨ls, hls⟩ : ∃ ls, addWires off [] ((exAt p c).wires.map (readWire exWires)) = .ok ls := ⟨_, rfl⟩
  refine ⟨off, ps, ls, ⟨ex_hits_at p c, ?_, (rfl : 4 = exLay.total), ⟨⟨4, h⟩, hls, ?_⟩, ?_, ?_, ?_, ?_, ?_, ?_⟩⟩
  · intro e he k qs hk hl
    have hk4 : k < 4 := by
      by_contra h
      have : exLay.lut k = none := by
        unfold exLay
        dsimp only
        rw [if_neg (by omega), if_neg (by omega), if_neg (by omega), if_neg (by omega)]
      rw [show exLay.lut k = some qs from hl] at this
      cases this
    have := ex_seen_at p c e he k qs hk hl
    interval_cases k <;> exact this
  · intro w hw
    simp only [exAt, List.map_cons, List.map_nil, List.mem_singleton] at hw
    subst hw
    show _ ∧ (∀ x ∈ [0], x < totalPrisms off) ∧ ∀ x ∈ [3], x < totalPrisms off
    rw [ht]
    exact ⟨by simp [readWire, exWires], by simp, by simp⟩
  · refine ⟨fun _ _ => by norm_num [StackBal.exTri], fun _ _ _ _ _ => rfl, ?_, ?_, by norm_num,
      fun _ _ => by norm_num [StackBal.exTri, StackBal.exSModel]⟩
    · intro l t l' t'
      simp only [StackBal.exTri, eq_comm]
    · intro l t l' t'
      simp only [StackBal.exTri]
      split_ifs <;> norm_num
  · intro mesh hmesh
    have : mesh = exPowerMesh := by simpa using hmesh
    subst this
    exact ex_mutual
  · intro l t
    norm_num [exView]
  · refine ⟨?_, .inl ⟨4, rfl⟩⟩
    rintro bc (hbc | hbc) _ x hx
    · simp only [StackBal.exSModel, Option.some.injEq] at hbc
      subst hbc
      simp at hx
      rw [← hx]
      norm_num
    · simp [StackBal.exSModel] at hbc
  · rintro bc (hbc | hbc)
    · simp only [StackBal.exSModel, Option.some.injEq] at hbc
      subst hbc
      simp
    · simp [StackBal.exSModel] at hbc
  · intro p
    norm_num [exWires]

theorem ex_more : More exIn (exSet 4 3) (exSet 6 5) := by
  refine ⟨fun n _ => ⟨by simp [exSet], fun e he e' he' => ?_⟩, fun n _ => ⟨by norm_num [exSet], by norm_num [exSet, abs_of_pos]⟩⟩
  simp only [exSet, List.mem_singleton] at he he'
  subst he
  subst he'
  norm_num

theorem ex_joints : Joints exEnv exIn := by
  intro w hw j hj
  simp only [exIn, List.mem_cons, List.not_mem_nil, or_false, reduceCtorEq, false_or, Prim.wire.injEq] at hw
  subst hw
  simp at hj

theorem ex_combines : Combines exIn 1 1 (exSet 4 3) (exSet 2 4) (exSet 6 5) := by
  refine ⟨fun n _ => .inr ⟨by simp [exSet], by simp [exSet], by simp [exSet], 4, 2, ?_, ?_, ?_⟩, fun n _ => by norm_num [exSet]⟩
  · intro e he
    simp only [exSet, List.mem_singleton] at he
    rw [he]
  · intro e he
    simp only [exSet, List.mem_singleton] at he
    rw [he]
  · intro e he
    simp only [exSet, List.mem_singleton] at he
    rw [he]
    norm_num

/-- the hypotheses are met: with 6 W and 5 A the board is hotter than with 4 W and 3 A, and its rise is the sum of that and the rise with 2 W and 4 A -/
example : ∃ ma mb m : PModel ℚ, ∃ x y z, PrismResp.Steady 1 25 ma x ∧ PrismResp.Steady 1 25 mb y ∧ PrismResp.Steady 1 25 m z ∧
    (∀ i < ma.total, x i ≤ z i) ∧ ∀ i < m.total, z i - 25 = 1 * (x i - 25) + 1 * (y i - 25) := by
  obtain ⟨oa, pa, la, Ma⟩ := ex_made 4 3
  obtain ⟨ob, pb, lb, Mb⟩ := ex_made 2 4
  obtain ⟨oc, pc, lc, Mc⟩ := ex_made 6 5
  obtain ⟨x, hx⟩ := PrismResp.c138_exists (proper_of (ex_ready_at 4 3) ex_a Ma) (minR := 1) (by norm_num) 25
  obtain ⟨y, hy⟩ := PrismResp.c138_exists (proper_of (ex_ready_at 2 4) ex_b Mb) (minR := 1) (by norm_num) 25
  obtain ⟨z, hz⟩ := PrismResp.c138_exists (proper_of (ex_ready_at 6 5) ex_c Mc) (minR := 1) (by norm_num) 25
  refine ⟨_, _, _, x, y, z, hx, hy, hz, ?_, ?_⟩
  · exact c144_power (r := fun _ => 1) (ex_ready_at 4 3) (ex_ready_at 6 5) ex_more ex_joints ex_a ex_c Ma Mc ⟨rfl, rfl, rfl, rfl, rfl⟩ (fun _ _ _ => rfl)
      ⟨rfl, rfl, rfl, rfl⟩ (fun _ _ => ⟨by norm_num, rfl, rfl⟩) (by norm_num) hx hz
  · exact (c144_superposition (r := fun _ => 1) (ex_ready_at 4 3) (ex_ready_at 2 4) (ex_ready_at 6 5) ex_combines ex_a ex_b ex_c Ma Mb Mc
      ⟨rfl, rfl, rfl, rfl, rfl⟩ ⟨rfl, rfl, rfl, rfl, rfl⟩ (fun _ _ _ => rfl) (fun _ _ _ => rfl) ⟨rfl, rfl, rfl, rfl⟩ ⟨rfl, rfl, rfl, rfl⟩
      (fun _ _ => ⟨by norm_num, rfl, rfl, rfl⟩) (by norm_num)).1 hx hy hz

/-- the same as stackup models -/
example : ∃ ma mb m : SModel ℚ, ∃ x y z, StackResp.Steady 1 25 ma x ∧ StackResp.Steady 1 25 mb y ∧ StackResp.Steady 1 25 m z ∧
    (∀ i < ma.total, x i ≤ z i) ∧ ∀ i < m.total, z i - 25 = 1 * (x i - 25) + 1 * (y i - 25) := by
  obtain ⟨oa, pa, la, Ma⟩ := ex_madeS 4 3
  obtain ⟨ob, pb, lb, Mb⟩ := ex_madeS 2 4
  obtain ⟨oc, pc, lc, Mc⟩ := ex_madeS 6 5
  obtain ⟨x, hx⟩ := StackResp.c139_exists (properS_of (ex_ready_at 4 3) ex_a Ma) (minR := 1) (by norm_num) 25
  obtain ⟨y, hy⟩ := StackResp.c139_exists (properS_of (ex_ready_at 2 4) ex_b Mb) (minR := 1) (by norm_num) 25
  obtain ⟨z, hz⟩ := StackResp.c139_exists (properS_of (ex_ready_at 6 5) ex_c Mc) (minR := 1) (by norm_num) 25
  refine ⟨_, _, _, x, y, z, hx, hy, hz, ?_, ?_⟩
  · exact c144_stack_power (r := fun _ => 1) (ex_ready_at 4 3) (ex_ready_at 6 5) ex_more ex_joints ex_a ex_c Ma Mc ⟨rfl, rfl, rfl, rfl, rfl⟩ (fun _ _ _ => rfl)
      ⟨rfl, rfl⟩ (fun _ _ => ⟨by norm_num, rfl, rfl⟩) (by norm_num) hx hz
  · exact (c144_stack_superposition (r := fun _ => 1) (ex_ready_at 4 3) (ex_ready_at 2 4) (ex_ready_at 6 5) ex_combines ex_a ex_b ex_c Ma Mb Mc
      ⟨rfl, rfl, rfl, rfl, rfl⟩ ⟨rfl, rfl, rfl, rfl, rfl⟩ (fun _ _ _ => rfl) (fun _ _ _ => rfl) ⟨rfl, rfl⟩ ⟨rfl, rfl⟩
      (fun _ _ => ⟨by norm_num, rfl, rfl, rfl⟩) (by norm_num)).1 hx hy hz

/-- and those for temperatures over time -/
example (off : List Nat) (ps : List (Prism ℚ)) (ls : List (Line ℚ)) : Heats exIn (exSet 4 3) ∧
    PrismCourse.Heavy (PrismBal.exModel off ps ls) ((exAt 4 3).wires.map (readWire exWires)) ∧
    PrismCourse.SameC (PrismBal.exModel off ps ls) (PrismBal.exModel off ps ls) := by
  refine ⟨fun n _ e he => ?_, ⟨fun _ _ => ?_, fun _ _ => ?_, fun _ => ?_, fun w hw => ?_⟩, rfl, rfl⟩
  · simp only [exSet, List.mem_singleton] at he
    rw [he]
    norm_num
  · norm_num [PrismBal.exModel, exPowerModel]
  · norm_num [PrismBal.exModel, exPowerModel]
  · norm_num [PrismBal.exModel, exPowerModel]
  · simp only [exAt, List.map_cons, List.map_nil, List.mem_singleton] at hw
    subst hw
    norm_num [readWire, exWires]

/-- the hypothesis on tables is needed: a die without loss power makes other layers -/
example : (generate exEnv (exIn.under ⟨fun _ => [], fun _ => 3⟩)).bind (fun m => .ok (Geom.layerOrder m.polys)) = .ok [8000, 4000, 0] ∧
    Geom.layerOrder (exAt 4 3).polys = [8000, 7600, 7200, 4000, 0] := by decide +kernel

end Ecad.LayoutPrism
