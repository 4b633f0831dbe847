import Verif.Thermal.StepLimitProps
import Verif.Thermal.ConvergeStackProps
import Verif.Thermal.PrismCapProps
import Verif.Thermal.GridSolveProps
/-!
C147 for the thermal models of the library: prism, stackup prism and grid models.
-/
namespace Ecad.Step
open Ecad.Thermal Ecad.Response Ecad.Decay Ecad.Course Ecad.Converge Ecad.GridT Ecad.PrismT

/-! ## specification -/

/-- materials with positive heat capacities and elements with positive volumes -/
structure Bulky (m : PModel ℝ) : Prop where
  heat : ∀ mat t, 0 < m.heat mat t
  rho : ∀ mat t, 0 < m.rho mat t
  height : ∀ l, 0 < m.height l
  area : ∀ t, 0 < m.area t
  lines : ∀ l ∈ m.lines, 0 < l.area ∧ 0 < l.length

/-- the same for stackup prism models -/
structure BulkyS (m : SModel ℝ) : Prop where
  heat : ∀ mat t, 0 < m.heat mat t
  rho : ∀ mat t, 0 < m.rho mat t
  height : ∀ l, 0 < m.height l
  area : ∀ l t, 0 < m.area l t
  lines : ∀ l ∈ m.lines, 0 < l.area ∧ 0 < l.length

/-- specific heat and density that do not depend on the temperature -/
def FixedC (heat rho : Nat → ℝ → ℝ) : Prop := ∀ mat t t', heat mat t = heat mat t' ∧ rho mat t = rho mat t'

/-- heat flows into the elements that are not negative, do not shrink when their temperatures grow and change without jumps -/
def Feeds (n : Nat) (p : ℝ → Nat → ℝ) : Prop :=
  ∀ i < n, (∀ t, 0 ≤ p t i) ∧ Monotone (fun t => p t i) ∧ Continuous fun t => p t i

/-! ## heat flows -/

theorem vec_get (n : Nat) (T : Nat → ℝ) {i : Nat} (hi : i < n) : (vec n T).getD i 0 = T i := by
  unfold vec
  rw [List.getD_eq_getElem?_getD, List.getElem?_map, List.getElem?_range hi]
  rfl

theorem feeds_grows {n : Nat} {p : ℝ → Nat → ℝ} (h : Feeds n p) : Grows n (fun T i => p (T.getD i 0) i) := by
  intro T T' hT i hi
  beta_reduce
  rw [vec_get n T hi, vec_get n T' hi]
  exact ⟨(h i hi).1 _, (h i hi).2.1 (hT i hi)⟩

theorem feeds_smooth {n : Nat} {p : ℝ → Nat → ℝ} (h : Feeds n p) : Smooth n (fun T i => p (T.getD i 0) i) := by
  intro u L hu i hi
  simp only [vec_get n _ hi]
  exact ((h i hi).2.2.tendsto _).comp (hu i hi)

/-! ## prism models -/

theorem get_at {T : List ℝ} {n i : Nat} (hT : T.length = n) (hi : i < n) : T[i]? = some (T.getD i 0) := by
  rw [List.getD_eq_getElem?_getD, List.getElem?_eq_getElem (by omega)]
  rfl

/-- the capacity of an element of a prism model -/
theorem prism_at {m : PModel ℝ} {mesh : Mesh} {layers : Nat} {info : Nat → Nat → Option (Cell ℝ)} {wires : List (Wire ℝ)}
    (hx : Extracted m mesh layers info wires) {minR : ℝ} {i : Nat} (hi : i < m.total) :
    (∃ p, m.prisms[i]? = some p ∧ ∀ T net, T.length = m.total → m.build minR T = .ok (some net) →
      cOf net i = m.heat p.elem.cell.mat (T.getD i 0) * m.rho p.elem.cell.mat (T.getD i 0) * (m.area p.elem.tri * m.height p.layer)) ∨
    ∃ l ∈ m.lines, l.id = i ∧ ∀ T net, T.length = m.total → m.build minR T = .ok (some net) →
      cOf net i = m.heat l.mat (T.getD i 0) * m.rho l.mat (T.getD i 0) * (l.area * l.length) := by
  obtain ⟨wf, _⟩ := extracted_wf hx
  cases hp : m.prisms[i]? with
  | some p => exact .inl ⟨p, rfl, fun T net hT hb => c81_prism hx hb hp (get_at hT hi)⟩
  | none =>
    have hge := List.getElem?_eq_none_iff.1 hp
    have hlt : i - m.prisms.length < m.lines.length := by
      have := wf.prisms
      unfold PModel.total at hi
      omega
    have hline := List.getElem?_eq_getElem hlt
    have hid := wf.lines _ _ hline
    rw [← wf.prisms] at hid
    have he : (m.lines[i - m.prisms.length]'hlt).id = i := by omega
    refine .inr ⟨_, List.getElem_mem hlt, he, fun T net hT hb => ?_⟩
    have := c81_prism_wire hx hb (List.getElem_mem hlt) (t := T.getD i 0) (by rw [he]; exact get_at hT hi)
    rw [he] at this
    exact this

/-- C147, prism models: a cooled prism model extracted from a mesh, of materials and elements with positive heat capacities, makes a grounded network of
nodes with capacities for all temperatures. -/
theorem c147_prism_builds {m : PModel ℝ} {mesh : Mesh} {layers : Nat} {info : Nat → Nat → Option (Cell ℝ)} {wires : List (Wire ℝ)}
    (hx : Extracted m mesh layers info wires) (hmut : Mutual mesh) (hc : m.Cooled) (hv : Bulky m) {minR : ℝ} (hm : 0 < minR) :
    Builds (m.build minR) m.total := by
  intro T hT
  obtain ⟨net, hb, hg, _⟩ := c64_solvable hx hmut hc hm hT 0
  obtain ⟨net', b1, b2⟩ := c63_builds hx minR hT
  rw [hb] at b1
  injection b1 with b1
  injection b1 with b1
  subst b1
  refine ⟨net, hb, b2, hg, fun i hi => ?_⟩
  rw [b2] at hi
  rcases prism_at hx hi (minR := minR) with ⟨p, hp, hcap⟩ | ⟨l, hl, hid, hcap⟩
  · rw [hcap T net hT hb]
    exact mul_pos (mul_pos (hv.heat _ _) (hv.rho _ _)) (mul_pos (hv.area _) (hv.height _))
  · rw [hcap T net hT hb]
    exact mul_pos (mul_pos (hv.heat _ _) (hv.rho _ _)) (mul_pos (hv.lines l hl).1 (hv.lines l hl).2)

/-- C147, prism models: with conductivities, specific heats and densities that do not depend on the temperature, only the heat flows do. -/
theorem c147_prism {m : PModel ℝ} {mesh : Mesh} {layers : Nat} {info : Nat → Nat → Option (Cell ℝ)} {wires : List (Wire ℝ)}
    (hx : Extracted m mesh layers info wires) (hmut : Mutual mesh) (hc : m.Cooled) (hv : Bulky m) (hk : FixedK m) (hC : FixedC m.heat m.rho) {minR : ℝ}
    (hm : 0 < minR) : ∃ net, net.length = m.total ∧ Powered (m.build minR) net (fun T i => elemPower m (T.getD i 0) i) := by
  obtain ⟨net, hb, hlen, hg, hall⟩ := prism_fed hx hmut hc hk hm (List.replicate m.total 0) (by simp)
  obtain ⟨net', g1, g2, g3⟩ := c147_prism_builds hx hmut hc hv hm (List.replicate m.total 0) (by simp)
  rw [hb] at g1
  injection g1 with g1
  injection g1 with g1
  subst g1
  refine ⟨net, hlen, g3, fun T hT => ?_⟩
  obtain ⟨net', a1, a2, a3⟩ := hall T hT
  refine ⟨net', a1, a2, fun i hi => ?_, a3⟩
  rw [hlen] at hT hi
  rcases prism_at hx hi (minR := minR) with ⟨p, hp, hcap⟩ | ⟨l, hl, hid, hcap⟩
  · rw [hcap T net' hT a1, hcap _ net (by simp) hb, (hC _ (T.getD i 0) ((List.replicate m.total 0).getD i 0)).1,
      (hC _ (T.getD i 0) ((List.replicate m.total 0).getD i 0)).2]
  · rw [hcap T net' hT a1, hcap _ net (by simp) hb, (hC _ (T.getD i 0) ((List.replicate m.total 0).getD i 0)).1,
      (hC _ (T.getD i 0) ((List.replicate m.total 0).getD i 0)).2]

/-! ## stackup prism models -/

/-- the capacity of an element of a stackup prism model -/
theorem stack_at {m : SModel ℝ} {g : Tris ℝ} {meshes : List Mesh} {info : Nat → Nat → Option (Cell ℝ)} {wires : List (Wire ℝ)}
    (hx : FromMeshes m g meshes info wires) {minR : ℝ} {i : Nat} (hi : i < m.total) :
    (∃ p, m.prisms[i]? = some p ∧ ∀ T net, T.length = m.total → m.build minR T = .ok (some net) →
      cOf net i = m.heat p.base.elem.cell.mat (T.getD i 0) * m.rho p.base.elem.cell.mat (T.getD i 0) *
        (m.area p.base.layer p.base.elem.tri * m.height p.base.layer)) ∨
    ∃ l ∈ m.lines, l.id = i ∧ ∀ T net, T.length = m.total → m.build minR T = .ok (some net) →
      cOf net i = m.heat l.mat (T.getD i 0) * m.rho l.mat (T.getD i 0) * (l.area * l.length) := by
  obtain ⟨hlen', _, hlines⟩ := fromMeshes_facts hx
  cases hp : m.prisms[i]? with
  | some p => exact .inl ⟨p, rfl, fun T net hT hb => c81_stack hx hb hp (get_at hT hi)⟩
  | none =>
    have hge := List.getElem?_eq_none_iff.1 hp
    have hlt : i - m.prisms.length < m.lines.length := by
      unfold SModel.total at hi
      omega
    have hline := List.getElem?_eq_getElem hlt
    have hid := hlines.id _ _ hline
    have he : (m.lines[i - m.prisms.length]'hlt).id = i := by omega
    refine .inr ⟨_, List.getElem_mem hlt, he, fun T net hT hb => ?_⟩
    have := (c81_stack_wire hx hb (List.getElem_mem hlt) (t := T.getD i 0) (by rw [he]; exact get_at hT hi)).1
    rw [he] at this
    exact this

/-- C147, stackup prism models: a cooled stackup prism model made from meshes, of materials and elements with positive heat capacities, makes a
grounded network of nodes with capacities for all temperatures. -/
theorem c147_stack_builds {m : SModel ℝ} {g : Tris ℝ} {s : ℝ} {meshes : List Mesh} {info : Nat → Nat → Option (Cell ℝ)} {wires : List (Wire ℝ)}
    (hx : FromMeshes m g meshes info wires) (hg : g.Geometry m s) (hmut : ∀ mesh ∈ meshes, Mutual mesh) (hc : m.Cooled) (hv : BulkyS m) {minR : ℝ}
    (hm : 0 < minR) : Builds (m.build minR) m.total := by
  intro T hT
  obtain ⟨net, hb, hgr, _⟩ := c78_solvable hx hg hmut hc hm hT 0
  obtain ⟨net', b1, b2⟩ := c78_builds hx minR hT
  rw [hb] at b1
  injection b1 with b1
  injection b1 with b1
  subst b1
  refine ⟨net, hb, b2, hgr, fun i hi => ?_⟩
  rw [b2] at hi
  rcases stack_at hx hi (minR := minR) with ⟨p, hp, hcap⟩ | ⟨l, hl, hid, hcap⟩
  · rw [hcap T net hT hb]
    exact mul_pos (mul_pos (hv.heat _ _) (hv.rho _ _)) (mul_pos (hv.area _ _) (hv.height _))
  · rw [hcap T net hT hb]
    exact mul_pos (mul_pos (hv.heat _ _) (hv.rho _ _)) (mul_pos (hv.lines l hl).1 (hv.lines l hl).2)

/-- C147, stackup prism models: with conductivities, specific heats and densities that do not depend on the temperature, only the heat flows do. -/
theorem c147_stack {m : SModel ℝ} {g : Tris ℝ} {s : ℝ} {meshes : List Mesh} {info : Nat → Nat → Option (Cell ℝ)} {wires : List (Wire ℝ)}
    (hx : FromMeshes m g meshes info wires) (hg : g.Geometry m s) (hmut : ∀ mesh ∈ meshes, Mutual mesh) (hc : m.Cooled) (hv : BulkyS m)
    (hk : FixedKS m) (hC : FixedC m.heat m.rho) {minR : ℝ} (hm : 0 < minR) :
    ∃ net, net.length = m.total ∧ Powered (m.build minR) net (fun T i => stackPower m (T.getD i 0) i) := by
  obtain ⟨net, hb, hlen, hgr, hall⟩ := stack_fed hx hg hmut hc hk hm (List.replicate m.total 0) (by simp)
  obtain ⟨net', g1, g2, g3⟩ := c147_stack_builds hx hg hmut hc hv hm (List.replicate m.total 0) (by simp)
  rw [hb] at g1
  injection g1 with g1
  injection g1 with g1
  subst g1
  refine ⟨net, hlen, g3, fun T hT => ?_⟩
  obtain ⟨net', a1, a2, a3⟩ := hall T hT
  refine ⟨net', a1, a2, fun i hi => ?_, a3⟩
  rw [hlen] at hT hi
  rcases stack_at hx hi (minR := minR) with ⟨p, hp, hcap⟩ | ⟨l, hl, hid, hcap⟩
  · rw [hcap T net' hT a1, hcap _ net (by simp) hb, (hC _ (T.getD i 0) ((List.replicate m.total 0).getD i 0)).1,
      (hC _ (T.getD i 0) ((List.replicate m.total 0).getD i 0)).2]
  · rw [hcap T net' hT a1, hcap _ net (by simp) hb, (hC _ (T.getD i 0) ((List.replicate m.total 0).getD i 0)).1,
      (hC _ (T.getD i 0) ((List.replicate m.total 0).getD i 0)).2]

/-! ## grid models -/

/-- C147, grid models: in a sound, cooled grid model without block powers only the heat flows depend on the temperatures. -/
theorem c147_grid {ip : List (ℝ × ℝ) → ℝ → Res ℝ} {m : GModel ℝ} (hs : m.Sound ip) (hp : m.Physical) (hc : m.Cooled) (hno : m.blockTotals = [])
    {minR : ℝ} (hm : 0 < minR) : ∃ net, net.length = m.total ∧ Powered (m.build minR ip) net (fun T i => cellPower ip m (T.getD i 0) i) := by
  obtain ⟨net, hb, hlen, hg, hall⟩ := grid_fed hs hp hc hno hm (List.replicate m.total 0) (by simp)
  have hcap : ∀ (T : List ℝ) (a : Network ℝ), m.build minR ip T = .ok (some a) → ∀ i < m.total,
      cOf a i = m.cellC (cellOf m.size i) (m.lenZ (cellOf m.size i).z) m.areaZ := by
    intro T a ha i hi
    obtain ⟨c1, c2⟩ := cellOf_spec m hi
    have := build_capacity ha c1
    rwa [c2] at this
  refine ⟨net, hlen, ⟨hg, fun i hi => ?_⟩, fun T hT => ?_⟩
  · rw [hlen] at hi
    rw [hcap _ net hb i hi]
    obtain ⟨c1, c2⟩ := cellOf_spec m hi
    have hx : 0 < m.lenX := mul_pos hp.resX hp.scaleH
    have hy : 0 < m.lenY := mul_pos hp.resY hp.scaleH
    have hz := lenZ_pos hp c1.2.2
    have hf : 0 ≤ m.fraction (cellOf m.size i) ∧ m.fraction (cellOf m.size i) ≤ 1 := by
      have := hp.fraction _ (List.getElem_mem c1.2.2) (cellOf m.size i).x (cellOf m.size i).y
      unfold GModel.fraction
      rw [List.getElem?_eq_getElem c1.2.2]
      exact this
    have hv : 0 < m.lenZ (cellOf m.size i).z * (m.lenX * m.lenY) := by positivity
    simp only [GModel.cellC, cap, GModel.areaZ, metalC, metalRho, dielC]
    nlinarith [hf.1, hf.2, mul_nonneg hf.1 hv.le]
  · obtain ⟨net', a1, a2, a3⟩ := hall T hT
    refine ⟨net', a1, a2, fun i hi => ?_, a3⟩
    rw [hlen] at hi
    rw [hcap _ net' a1 i hi, hcap _ net hb i hi]

/-! ## what becomes of the models -/

/-- C147, fate: of a model in which only the heat flows depend on the temperatures, those of each element on its own temperature without shrinking
when it grows, there is exactly one course from the temperature of the surroundings; no element ever cools; it stays bounded if and only if there are
temperatures steady in the network built for themselves, and then it tends to the lowest of them. -/
theorem c147_fate {build : List ℝ → Res (Option (Network ℝ))} {net : Network ℝ} {p : ℝ → Nat → ℝ}
    (h : Powered build net (fun T i => p (T.getD i 0) i)) (hp : Feeds net.length p) {step : ℝ} (hs : 0 < step) (refT : ℝ) :
    ∃ x, Stepped build net.length refT step (fun _ _ => 1) (fun _ => refT) x ∧
      (∀ y, Stepped build net.length refT step (fun _ _ => 1) (fun _ => refT) y → ∀ t, 0 ≤ t → ∀ i < net.length, y t i = x t i) ∧
      (∀ t t', 0 ≤ t → t ≤ t' → ∀ i < net.length, x t i ≤ x t' i) ∧
      ((∃ M, ∀ t, 0 ≤ t → ∀ i < net.length, x t i ≤ M) ↔ ∃ S, Steady build net.length refT S) ∧
      ((∃ S, Steady build net.length refT S) → ∃ L, Steady build net.length refT L ∧ (∀ S, Steady build net.length refT S → ∀ i < net.length, L i ≤ S i) ∧
        ∀ i < net.length, Filter.Tendsto (fun t => x t i) Filter.atTop (nhds (L i))) := by
  have hg := feeds_grows hp
  have hc := feeds_smooth hp
  obtain ⟨⟨x, hx⟩, hu⟩ := c147_course (refT := refT) (exc := fun _ _ => 1) (powered_builds h) hs (fun _ => continuous_const) fun _ => refT
  have hr := c147_runaway h hs hg hc hx
  refine ⟨x, hx, fun y hy => hu y x hy hx, c147_heating h hs hg hx, hr, fun hS => ?_⟩
  obtain ⟨L, l1, l2, l3⟩ := c147_limit h hs hg hc hx (hr.2 hS)
  exact ⟨L, l2, l3, l1⟩

/-! ## example -/

/-- what one triangle of a layer is made of: at `t` degrees it takes up `1 + q t` watts, and one watt below zero -/
noncomputable def exCell (q : ℝ) : Cell ℝ := ⟨0, some (1, 0, fun t => 1 + q * max 0 t)⟩

/-- a mesh of one triangle -/
def oneMesh : Mesh := [fun _ => none]

/-- one layer of it -/
noncomputable def oneInfo (q : ℝ) (_ _ : Nat) : Option (Cell ℝ) := some (exCell q)

/-- a prism of 1 m² by 1 m that is cooled on top with 2 W/K -/
noncomputable def exOne (q : ℝ) : PModel ℝ :=
  { off := [0, 1], prisms := [prismAt oneMesh 1 (oneInfo q) 0 0 (exCell q)], lines := [],
    area := fun _ => 1, edgeLen := fun _ _ => 1, toSide := fun _ _ => 1, dist := fun _ _ => 1, height := fun _ => 1,
    k := fun _ _ _ => 1, heat := fun _ _ => 1, rho := fun _ _ => 1, resist := fun _ _ => 1,
    topBC := some ⟨.htc, some 2⟩, botBC := none, topBlocks := [], botBlocks := [] }

theorem exOne_extracted (q : ℝ) : Extracted (exOne q) oneMesh 1 (oneInfo q) [] := by
  refine ⟨?_, rfl, fun w hw => by simp at hw⟩
  obtain ⟨off, ps, he, h1, h2, h3⟩ := buildPrisms_eq oneMesh 1 (oneInfo q)
  rw [he]
  have hoff : off = [0, 1] := by
    rw [extract_eq, Res.bind_ok] at he
    unfold buildPrisms at he
    simp only at he
    cases hm : mapRes (makePrism (offsets 0 (((List.range 1).map fun l => layerOf oneMesh.length
        (cellAt oneMesh.length 1 (oneInfo q) l) (elemAt oneMesh 1 (oneInfo q) l)).map List.length))
        ((List.range 1).map fun l => layerOf oneMesh.length
        (cellAt oneMesh.length 1 (oneInfo q) l) (elemAt oneMesh 1 (oneInfo q) l)))
      (List.range (totalPrisms (offsets 0 (((List.range 1).map fun l => layerOf oneMesh.length
        (cellAt oneMesh.length 1 (oneInfo q) l) (elemAt oneMesh 1 (oneInfo q) l)).map List.length)))) with
    | ok x =>
      rw [hm, Res.bind_ok] at he
      simp only [Res.ok.injEq, Prod.mk.injEq] at he
      rw [← he.1]
      rfl
    | ub => rw [hm] at he; simp at he
    | exn => rw [hm] at he; simp at he
  have hps : ps = (exOne q).prisms := by
    apply List.ext_getElem?
    intro i
    match i with
    | 0 => exact h3 0 0 (exCell q) rfl
    | i + 1 =>
      have h2' : ps.length = 1 := h2
      rw [List.getElem?_eq_none (by omega), List.getElem?_eq_none (by show 1 ≤ i + 1; omega)]
  rw [hoff, hps]
  rfl

theorem exOne_cooled (q : ℝ) : (exOne q).Cooled := by
  refine ⟨fun _ => by norm_num [exOne], ?_, .inl ⟨2, rfl⟩⟩
  rintro bc (h | h | ⟨b, hb, _⟩ | ⟨b, hb, _⟩) _ v hv
  · simp only [exOne, Option.some.injEq] at h
    subst h
    simp only [Option.some.injEq] at hv
    subst hv
    norm_num
  · simp [exOne] at h
  · simp [exOne] at hb
  · simp [exOne] at hb

theorem exOne_bulky (q : ℝ) : Bulky (exOne q) :=
  ⟨fun _ _ => one_pos, fun _ _ => one_pos, fun _ => one_pos, fun _ => one_pos, fun l hl => by simp [exOne] at hl⟩

theorem exOne_mutual : Mutual oneMesh := by
  intro t n t' h
  unfold nbOf oneMesh at h
  match t, h with
  | 0, h => simp at h
  | t + 1, h => simp at h

theorem exOne_power (q t : ℝ) : elemPower (exOne q) t 0 = 1 + q * max 0 t := by
  simp [elemPower, exOne, PModel.sources, prismAt, elemAt, exCell, PModel.faces, onFace, gslotAbove]

theorem exOne_feeds {q : ℝ} (hq : 0 ≤ q) : Feeds 1 (elemPower (exOne q)) := by
  intro i hi
  obtain rfl : i = 0 := by omega
  simp only [exOne_power]
  refine ⟨fun t => ?_, fun t t' htt => ?_, by fun_prop⟩
  · have := le_max_left 0 t
    positivity
  · have : max 0 t ≤ max 0 t' := max_le_max_left 0 htt
    show 1 + q * max 0 t ≤ 1 + q * max 0 t'
    nlinarith

theorem exOne_build (q minR : ℝ) (t : ℝ) : (exOne q).build minR [t] = .ok (some [⟨0, none, 1 * 1 * (1 * 1), 0 + (1 + q * max 0 t) * 1, 2 * 1, []⟩]) := by
  rfl

/-- in surroundings of zero degrees there are steady temperatures below 2 W per degree only -/
theorem exOne_steady {q : ℝ} (hq : 0 ≤ q) (minR : ℝ) : (∃ S, Steady ((exOne q).build minR) 1 0 S) ↔ q < 2 := by
  have key : ∀ S : Nat → ℝ, Steady ((exOne q).build minR) 1 0 S ↔ 2 * S 0 = 1 + q * max 0 (S 0) := by
    intro S
    unfold Steady
    have e : vec 1 S = [S 0] := rfl
    rw [e, exOne_build]
    constructor
    · rintro ⟨net, h1, h2⟩
      injection h1 with h1
      injection h1 with h1
      subst h1
      have := (solves_iff _ _).1 h2 0 (by simp)
      simpa [mulVec, gTriplets, hfOf, htcOf, nodeG, stamp1] using this
    · intro h
      refine ⟨_, rfl, (solves_iff _ _).2 fun i hi => ?_⟩
      obtain rfl : i = 0 := by simpa using hi
      simpa [mulVec, gTriplets, hfOf, htcOf, nodeG, stamp1] using h
  constructor
  · rintro ⟨S, hS⟩
    rw [key] at hS
    by_contra hc
    rcases le_total (S 0) 0 with h | h
    · rw [max_eq_left h] at hS
      linarith
    · rw [max_eq_right h] at hS
      nlinarith
  · intro h
    refine ⟨fun _ => 1 / (2 - q), (key _).2 ?_⟩
    have h2 : 0 < 2 - q := by linarith
    rw [max_eq_right (by positivity)]
    field_simp
    ring

/-- the prism stays bounded below 2 W per degree and runs away from there on -/
theorem exOne_fate {q : ℝ} (hq : 0 ≤ q) : ∃ x, Stepped ((exOne q).build (1 / 1000)) 1 0 1 (fun _ _ => 1) (fun _ => 0) x ∧
    ((∃ M, ∀ t, 0 ≤ t → x t 0 ≤ M) ↔ q < 2) := by
  obtain ⟨net, hl, hn⟩ := c147_prism (exOne_extracted q) exOne_mutual (exOne_cooled q) (exOne_bulky q) (fun _ _ _ => rfl) (fun _ _ _ => ⟨rfl, rfl⟩)
    (minR := 1 / 1000) (by norm_num)
  have ht : (exOne q).total = 1 := rfl
  rw [ht] at hl
  obtain ⟨x, h1, _, _, h4, _⟩ := c147_fate hn (by rw [hl]; exact exOne_feeds hq) one_pos 0
  rw [hl] at h1 h4
  rw [exOne_steady hq] at h4
  refine ⟨x, h1, Iff.trans ⟨?_, ?_⟩ h4⟩
  · rintro ⟨M, hM⟩
    refine ⟨M, fun t ht i hi => ?_⟩
    obtain rfl : i = 0 := by omega
    exact hM t ht
  · rintro ⟨M, hM⟩
    exact ⟨M, fun t ht => hM t ht 0 (by omega)⟩

/-- the hypotheses for stackup prism models: two layers of the triangle -/
example : ∃ m : SModel ℝ, ∃ g : Tris ℝ, FromMeshes m g [oneMesh, oneMesh] (oneInfo 1) [] ∧ g.Geometry m 1 ∧ (∀ mesh ∈ [oneMesh, oneMesh], Mutual mesh) ∧
    m.Cooled ∧ BulkyS m ∧ FixedKS m ∧ FixedC m.heat m.rho := by
  let g : Tris ℝ := ⟨fun _ _ => 1, fun _ _ _ _ => true, fun _ _ _ _ => 1⟩
  obtain ⟨off, ps, he, _⟩ := stack_built g [oneMesh, oneMesh] (oneInfo 1) 4
  let m : SModel ℝ :=
    { off := off, prisms := ps, lines := [], area := fun _ _ => 1, edgeLen := fun _ _ _ => 1, toSide := fun _ _ _ => 1, dist := fun _ _ _ => 2,
      height := fun _ => 1, k := fun _ _ _ => 1, heat := fun _ _ => 1, rho := fun _ _ => 1, resist := fun _ _ => 1,
      topBC := some ⟨.htc, some 3⟩, botBC := none, topBlocks := [], botBlocks := [] }
  refine ⟨m, g, ⟨⟨4, he⟩, rfl, fun w hw => by simp at hw⟩, ?_, ?_, ?_, ?_, fun _ _ _ => rfl, fun _ _ _ => ⟨rfl, rfl⟩⟩
  · exact ⟨fun _ _ => one_pos, fun _ _ _ _ _ => rfl, fun _ _ _ _ => rfl, fun _ _ _ _ => zero_le_one, one_pos, fun _ _ => by simp [g, m]⟩
  · intro mesh h
    simp at h
    subst h
    exact exOne_mutual
  · refine ⟨?_, .inl ⟨3, rfl⟩⟩
    rintro bc (h | h) ht v hv
    · simp only [m, Option.some.injEq] at h
      subst h
      simp only [Option.some.injEq] at hv
      subst hv
      norm_num
    · simp [m] at h
  · exact ⟨fun _ _ => one_pos, fun _ _ => one_pos, fun _ => one_pos, fun _ _ => one_pos, fun l hl => by simp [m] at hl⟩

/-- one cell of 1 m cooled on top with 2 W/K, heated with 3 W at 300 K and 4 W at 302 K -/
noncomputable def gridOne : GModel ℝ :=
  { size := ⟨1, 1⟩, resX := 1, resY := 1, scaleH := 1,
    layers := [⟨1, fun _ _ => 1, [.grid ⟨⟨1, 1⟩, [(300, ⟨1, 1, fun _ _ => 3⟩), (302, ⟨1, 1, fun _ _ => 4⟩)]⟩]⟩],
    jumps := [], topBC := some ⟨.htc, some 2⟩, botBC := none, topBlocks := [], botBlocks := [] }

/-- the hypotheses for grid models -/
example : gridOne.Sound (fun _ t => .ok (3 + (t - 300) / 2)) ∧ gridOne.Physical ∧ gridOne.Cooled ∧ gridOne.blockTotals = [] := by
  refine ⟨⟨by unfold Fits; decide, by decide, ?_, by simp [gridOne], ?_, ?_⟩, ⟨by norm_num [gridOne], by norm_num [gridOne], by norm_num [gridOne], ?_, ?_⟩,
    ⟨?_, .inl ⟨_, rfl, rfl, by simp⟩⟩, rfl⟩
  · constructor <;> intro b hb <;> simp [gridOne] at hb
  · intro l hl ll ur total h
    simp only [gridOne, List.mem_singleton] at hl
    subst hl
    simp at h
  · intro l hl t h key x y
    simp only [gridOne, List.mem_singleton] at hl
    subst hl
    simp at h
    subst h
    unfold query
    split_ifs
    · exact ⟨_, rfl⟩
    · simp only
      split_ifs
      · exact ⟨_, rfl⟩
      · exact ⟨_, rfl⟩
      · exact ⟨_, rfl⟩
  · intro l hl
    simp only [gridOne, List.mem_singleton] at hl
    subst hl
    norm_num
  · intro l hl x y
    simp only [gridOne, List.mem_singleton] at hl
    subst hl
    norm_num
  · intro b hb _ v hv
    simp [GModel.allBCs, gridOne] at hb
    subst hb
    simp at hv
    subst hv
    norm_num

end Ecad.Step
