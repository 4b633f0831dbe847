import Verif.Thermal.NetCourseProps
import Verif.Thermal.StackResponseProps
import Verif.Thermal.PrismCourseProps
/-!
C141: how the temperatures of stackup prism models go over time, from the layer cut model over the meshes of the layers with their contacts and the network
to the derivative the transient solver integrates.
-/
namespace Ecad.StackCourse
open Ecad.Thermal Ecad.Response Ecad.GridT Ecad.PrismT Ecad.StackBal Ecad.StackResp Ecad.Course Finset
open Ecad.PrismResp (tabled driven segments part More exTwo exBond)
open Ecad.PrismBal (Line.data list_sum_le)
open Ecad.PrismCourse (power segment_wire sum_flat)

/-! ## specification -/

/-- materials and lengths with which all elements store heat -/
structure Heavy (m : SModel ℚ) (ws : List (Wire ℚ)) : Prop where
  heat : ∀ mat t, 0 < m.heat mat t
  rho : ∀ mat t, 0 < m.rho mat t
  height : ∀ l, 0 < m.height l
  wires : ∀ w ∈ ws, 0 < w.area ∧ ∀ s, 0 < w.length s

/-- the same heat capacities of materials -/
structure SameC (m m' : SModel ℚ) : Prop where
  heat : m.heat = m'.heat
  rho : m.rho = m'.rho

/-- `x` are the temperatures of the elements of a model over time, from the temperature of the surroundings, for which its network is built -/
def Course (minR envT : ℚ) (exc : ℝ → Nat → ℝ) (m : SModel ℚ) (x : ℝ → Nat → ℝ) : Prop :=
  ∃ net, m.build minR (List.replicate m.total envT) = .ok (some net) ∧ Warms net envT exc x

/-- the heat stored in the elements above the temperature of the surroundings: specific heat times density times volume times rise -/
noncomputable def stored (m : SModel ℚ) (ws : List (Wire ℚ)) (envT : ℚ) (x : Nat → ℝ) : ℝ :=
  ∑ i ∈ range m.prisms.length, ((m.prisms[i]?.map fun p =>
      m.heat p.base.elem.cell.mat envT * m.rho p.base.elem.cell.mat envT * (m.area p.base.layer p.base.elem.tri * m.height p.base.layer)).getD 0 : ℚ) * (x i - envT) +
    ∑ n ∈ range (segments ws).length, (((segments ws)[n]?.map fun g => m.heat g.2.1 envT * m.rho g.2.1 envT * (g.2.2.2 * g.2.2.1)).getD 0 : ℚ) *
      (x (m.prisms.length + n) - envT)

/-- the heat given off: of each prism over its exposed faces, by the last of top and bottom with a transfer coefficient -/
noncomputable def gives (g : Tris ℚ) (m : SModel ℚ) (s envT : ℚ) (x : Nat → ℝ) : ℝ :=
  ∑ i ∈ range m.prisms.length, (((m.prisms[i]?.map (lost g m s)).getD 0 : ℚ) : ℝ) * (x i - envT)

section
variable {c : CutM} {v : View} {m m' : SModel ℚ} {g : Tris ℚ} {s : ℚ} {meshes : List Mesh} {ws : List (Wire ℚ)} {L L' : Nat → ℚ → ℚ} {I I' : Nat → ℚ} {minR envT : ℚ}

theorem prism_cap (h : StackBal.Proper (tabled c L) v m g s meshes (driven ws I)) {net : Network ℚ}
    (hb : m.build minR (List.replicate m.total envT) = .ok (some net)) {i : Nat} {p : SPrism ℚ} (hp : m.prisms[i]? = some p) :
    cOf net i = m.heat p.base.elem.cell.mat envT * m.rho p.base.elem.cell.mat envT * (m.area p.base.layer p.base.elem.tri * m.height p.base.layer) := by
  refine c81_stack h.made hb hp ?_
  have := (List.getElem?_eq_some_iff.1 hp).1
  have := total_eq h
  rw [List.getElem?_replicate, if_pos (by omega)]

theorem wire_cap (h : StackBal.Proper (tabled c L) v m g s meshes (driven ws I)) {net : Network ℚ}
    (hb : m.build minR (List.replicate m.total envT) = .ok (some net)) {n : Nat} {w : Nat × Nat × ℚ × ℚ} (hg : (segments ws)[n]? = some w) :
    cOf net (m.prisms.length + n) = m.heat w.2.1 envT * m.rho w.2.1 envT * (w.2.2.2 * w.2.2.1) := by
  have hn : n < m.lines.length := by rw [lines_count h]; exact (List.getElem?_eq_some_iff.1 hg).1
  have hline := List.getElem?_eq_getElem hn
  have hid := (fromMeshes_facts h.made).2.2.id n _ hline
  have hwf := (fromMeshes_facts h.made).1
  have htot := total_eq h
  have hcnt := lines_count h
  have hid' : m.lines[n].id = m.prisms.length + n := by omega
  have := (c81_stack_wire h.made hb (List.getElem_mem hn) (t := envT) (by rw [List.getElem?_replicate, if_pos (by omega)])).1
  rw [hid'] at this
  rw [this]
  have hd := congrArg (fun l => l[n]?) (line_segments h)
  simp only [List.getElem?_map, hg, Option.map_some, hline, Option.some.injEq] at hd
  unfold Line.data at hd
  simp only [Prod.mk.injEq] at hd
  rw [hd.1, hd.2.2.1, hd.2.2.2]

theorem body (h : StackBal.Proper (tabled c L) v m g s meshes (driven ws I)) (hc : Heavy m ws) (hm : 0 < minR) {net : Network ℚ}
    (hb : m.build minR (List.replicate m.total envT) = .ok (some net)) : Body net := by
  refine ⟨ground h hm hb, fun i hi => ?_⟩
  rw [net_length h hb, total_eq h] at hi
  by_cases hp : i < m.prisms.length
  · rw [prism_cap h hb (List.getElem?_eq_getElem hp)]
    exact mul_pos (mul_pos (hc.heat _ _) (hc.rho _ _)) (mul_pos (by rw [h.geometry.metre]; exact mul_pos h.geometry.scale (h.geometry.area _ _)) (hc.height _))
  · have hn : i - m.prisms.length < (segments ws).length := by omega
    have hg := List.getElem?_eq_getElem hn
    have := wire_cap h hb hg
    rw [show m.prisms.length + (i - m.prisms.length) = i by omega] at this
    rw [this]
    obtain ⟨w, hw, n, e1, e2⟩ := segment_wire hg
    rw [e1, e2]
    exact mul_pos (mul_pos (hc.heat _ _) (hc.rho _ _)) (mul_pos (hc.wires w hw).1 ((hc.wires w hw).2 n))

theorem net_exists (h : StackBal.Proper (tabled c L) v m g s meshes (driven ws I)) (hm : 0 < minR) (envT : ℚ) :
    ∃ net, m.build minR (List.replicate m.total envT) = .ok (some net) := by
  obtain ⟨net, hb, -⟩ := c78_solvable h.made h.geometry h.nbs h.cooled hm (iniT := List.replicate m.total envT) (by simp) envT
  exact ⟨net, hb⟩

theorem caps_same (h : StackBal.Proper (tabled c L) v m g s meshes (driven ws I)) (h' : StackBal.Proper (tabled c L') v m' g s meshes (driven ws I'))
    (hs : Shape m m') (hc : SameC m m') {a b : Network ℚ} (ha : m.build minR (List.replicate m.total envT) = .ok (some a))
    (hb : m'.build minR (List.replicate m'.total envT) = .ok (some b)) : ∀ i < a.length, cOf a i = cOf b i := by
  intro i hi
  have hpair := StackResp.pair h h'
  have hl := hpair.prisms.length_eq
  rw [net_length h ha, total_eq h] at hi
  rcases get_alike hpair i with ⟨h1, -⟩ | ⟨p, p', h1, h2, h3⟩
  · rw [List.getElem?_eq_none_iff] at h1
    have hn : i - m.prisms.length < (segments ws).length := by omega
    have hg := List.getElem?_eq_getElem hn
    have e1 := wire_cap h ha hg
    have e2 := wire_cap h' hb hg
    rw [show m.prisms.length + (i - m.prisms.length) = i by omega] at e1
    rw [← hl, show m.prisms.length + (i - m.prisms.length) = i by omega] at e2
    rw [e1, e2, hc.heat, hc.rho]
  · rw [prism_cap h ha h1, prism_cap h' hb h2, hc.heat, hc.rho, hs.area, hs.height, h3.mat, h3.tri, h3.layer]

theorem segment_nonneg (h : StackBal.Proper (tabled c L) v m g s meshes (driven ws I)) {r : ℚ} (hr : 0 ≤ r) {n : Nat} {w : Nat × Nat × ℚ × ℚ}
    (hg : (segments ws)[n]? = some w) : 0 ≤ r * w.2.2.1 / w.2.2.2 := by
  have hmem := List.mem_of_getElem? hg
  unfold segments at hmem
  rw [List.mem_flatMap] at hmem
  obtain ⟨⟨w', j⟩, hw, hgw⟩ := hmem
  rw [List.mem_map] at hgw
  obtain ⟨s', -, rfl⟩ := hgw
  have hwires := h.wires { w' with current := I j } (List.mem_map_of_mem (f := fun p : Wire ℚ × Nat => { p.1 with current := I p.2 }) hw)
  exact div_nonneg (mul_nonneg hr (hwires.2 s')) hwires.1

theorem hf_nonneg (h : StackBal.Proper (tabled c L) v m g s meshes (driven ws I)) (hL : ∀ e ∈ c.blocks, ∀ T, 0 ≤ L e.1 T) {r : Nat → ℚ}
    (hr : ∀ k T, 0 ≤ r k ∧ m.resist k T = r k) {T : List ℚ} {net : Network ℚ} (hb : m.build minR T = .ok (some net)) (i : Nat) : 0 ≤ hfOf net i := by
  by_cases hi : i < net.length
  · rw [net_length h hb] at hi
    rcases elem_cases h hi with ⟨l, t, hc, rfl⟩ | ⟨n, w, hg, rfl⟩
    · rw [prism_heat h hb hc]
      apply List.sum_nonneg
      intro w hw
      rw [List.mem_map] at hw
      obtain ⟨e, he, rfl⟩ := hw
      exact mul_nonneg (part_nonneg h he l t) (hL e he _)
    · rw [line_heat h hb hr hg]
      exact mul_nonneg (sq_nonneg _) (segment_nonneg h (hr _ 0).1 hg)
  · rw [(PrismResp.beyond net (by omega)).2]

/-! ## the claims -/

/-- C141, course: every proper stackup prism model has, under every continuous excitation of its elements, exactly one course of temperatures. -/
theorem c141_course (h : StackBal.Proper (tabled c L) v m g s meshes (driven ws I)) (hc : Heavy m ws) (hm : 0 < minR) (envT : ℚ) {exc : ℝ → Nat → ℝ}
    (he : ∀ i, Continuous fun t => exc t i) : ∃ x, Course minR envT exc m x ∧ ∀ y, Course minR envT exc m y → ∀ t, 0 ≤ t → ∀ k < m.total, y t k = x t k := by
  obtain ⟨net, hb⟩ := net_exists h hm envT
  obtain ⟨x, hx, hu⟩ := warms_exists (body h hc hm hb) envT he
  have hl := net_length h hb
  refine ⟨x, ⟨net, hb, hx⟩, fun y hy => ?_⟩
  obtain ⟨net', hb', hy'⟩ := hy
  rw [hb, Res.ok.injEq, Option.some.injEq] at hb'
  subst hb'
  rw [← hl]
  exact hu y hy'

/-- C141, steady state: with conductivities, powers and resistivities that do not depend on the temperature the temperatures tend to the steady ones under full
excitation. -/
theorem c141_steady (h : StackBal.Proper (tabled c L) v m g s meshes (driven ws I)) (hc : Heavy m ws) (hk : SameK m m)
    (hL : ∀ e ∈ c.blocks, ∀ T T', L e.1 T = L e.1 T') {r : Nat → ℚ} (hr : ∀ k T, 0 ≤ r k ∧ m.resist k T = r k) (hm : 0 < minR) {x : ℝ → Nat → ℝ}
    (hx : Course minR envT (fun _ _ => 1) m x) {s : Nat → ℚ} (hs : Steady minR envT m s) :
    ∀ k < m.total, Filter.Tendsto (fun t => x t k) Filter.atTop (nhds (s k : ℝ)) := by
  obtain ⟨net, hb, hx'⟩ := hx
  obtain ⟨u, hu⟩ := c30_exists (ground h hm hb) envT
  have huniq := c139_unique h hk hL hr hm hs ⟨_, net, hb, hu⟩
  have hl := net_length h hb
  intro k hk'
  rw [huniq k hk']
  exact warms_steady (body h hc hm hb) hx' hu k (by omega)

/-- C141, warming up: no block cools: at any excitation between none and full no element is ever colder than the surroundings nor, for conductivities and powers
that do not depend on the temperature, hotter than in the steady state; under full excitation no element ever gets colder. -/
theorem c141_rise (h : StackBal.Proper (tabled c L) v m g s meshes (driven ws I)) (hc : Heavy m ws) (hpos : ∀ e ∈ c.blocks, ∀ T, 0 ≤ L e.1 T) {r : Nat → ℚ}
    (hr : ∀ k T, 0 ≤ r k ∧ m.resist k T = r k) (hm : 0 < minR) {exc : ℝ → Nat → ℝ} (he : ∀ t, 0 < t → ∀ i, 0 ≤ exc t i ∧ exc t i ≤ 1) {x : ℝ → Nat → ℝ}
    (hx : Course minR envT exc m x) :
    (∀ t, 0 ≤ t → ∀ k < m.total, (envT : ℝ) ≤ x t k) ∧
    (∀ s, SameK m m → (∀ e ∈ c.blocks, ∀ T T', L e.1 T = L e.1 T') → Steady minR envT m s → ∀ t, 0 ≤ t → ∀ k < m.total, x t k ≤ s k) ∧
    ((∀ t i, exc t i = 1) → ∀ t t', 0 ≤ t → t ≤ t' → ∀ k < m.total, x t k ≤ x t' k) := by
  obtain ⟨net, hb, hx'⟩ := hx
  obtain ⟨u, hu⟩ := c30_exists (ground h hm hb) envT
  obtain ⟨q1, q2⟩ := warms_rise (body h hc hm hb) (hf_nonneg h hpos hr hb) he hx' hu
  have hl := net_length h hb
  rw [hl] at q1 q2
  refine ⟨fun t ht k hk => (q1 t ht k hk).1, fun s hk hL hs t ht k hk' => ?_, q2⟩
  rw [c139_unique h hk hL hr hm hs ⟨_, net, hb, hu⟩ k (by omega)]
  exact (q1 t ht k hk').2

/-- C141, power, current and excitation: if no block has less power, whatever the temperatures, no wire carries less current, and no element that heats has less
excitation, then no element is ever colder. -/
theorem c141_power (h : StackBal.Proper (tabled c L) v m g s meshes (driven ws I)) (h' : StackBal.Proper (tabled c L') v m' g s meshes (driven ws I'))
    (hc : Heavy m ws) (hc' : SameC m m') (hs : Shape m m') (hk : SameK m m') (hbc : SameBC m m')
    (hL : ∀ e ∈ c.blocks, ∀ T T', 0 ≤ L e.1 T ∧ L e.1 T ≤ L' e.1 T') (hI : ∀ j, |I j| ≤ |I' j|) {r : Nat → ℚ}
    (hr : ∀ k T, 0 ≤ r k ∧ m.resist k T = r k ∧ m'.resist k T = r k) (hm : 0 < minR) {exc exc' : ℝ → Nat → ℝ}
    (he : ∀ t, 0 < t → ∀ i, 0 ≤ exc t i ∧ exc t i ≤ exc' t i) {x y : ℝ → Nat → ℝ} (hx : Course minR envT exc m x) (hy : Course minR envT exc' m' y) :
    ∀ t, 0 ≤ t → ∀ k < m.total, x t k ≤ y t k := by
  obtain ⟨a, ha, hx'⟩ := hx
  obtain ⟨b, hb, hy'⟩ := hy
  have hl := net_length h ha
  have hheavy : Heavy m' ws := ⟨hc'.heat ▸ hc.heat, hc'.rho ▸ hc.rho, hs.height ▸ hc.height, hc.wires⟩
  rw [← hl]
  refine warms_power (body h hc hm ha) (body h' hheavy hm hb) (same_net h h' hs hk hbc hm ha hb) (caps_same h h' hs hc' ha hb) hx' hy' fun t ht i hi => ?_
  obtain ⟨hn, hnum⟩ := num_pair h h'
  have hle : hfOf a i ≤ hfOf b i := by
    rw [hl] at hi
    rcases elem_cases h hi with ⟨l, q, hcell, rfl⟩ | ⟨n, w, hg, rfl⟩
    · rw [prism_heat h ha hcell, hnum, prism_heat h' hb hcell]
      exact list_sum_le fun e he => mul_le_mul_of_nonneg_left (hL e he _ _).2 (part_nonneg h he l q)
    · rw [line_heat h ha (fun k T => ⟨(hr k T).1, (hr k T).2.1⟩) hg, hn, line_heat h' hb (fun k T => ⟨(hr k T).1, (hr k T).2.2⟩) hg]
      exact mul_le_mul_of_nonneg_right (sq_le_sq.2 (hI _)) (segment_nonneg h (hr _ 0).1 hg)
  have h0 := hf_nonneg h (fun e he T => (hL e he T T).1) (fun k T => ⟨(hr k T).1, (hr k T).2.1⟩) ha i
  have h1 : ((hfOf a i : ℚ) : ℝ) ≤ ((hfOf b i : ℚ) : ℝ) := by exact_mod_cast hle
  have h2 : (0 : ℝ) ≤ ((hfOf a i : ℚ) : ℝ) := by exact_mod_cast h0
  exact mul_le_mul h1 (he t ht i).2 (he t ht i).1 (h2.trans h1)

/-- C141, cooling: with the same powers, none of which cools, and transfer coefficients that are not smaller no element is ever hotter. -/
theorem c141_cooling {P : Nat → ℚ} (h : StackBal.Proper (tabled c fun k _ => P k) v m g s meshes (driven ws I))
    (h' : StackBal.Proper (tabled c fun k _ => P k) v m' g s meshes (driven ws I)) (hc : Heavy m ws) (hc' : SameC m m') (hs : Shape m m') (hk : SameK m m')
    (hbc : MoreBC m m') (hP : ∀ e ∈ c.blocks, 0 ≤ P e.1) {r : Nat → ℚ} (hr : ∀ k T, 0 ≤ r k ∧ m.resist k T = r k ∧ m'.resist k T = r k) (hm : 0 < minR)
    {exc : ℝ → Nat → ℝ} (he : ∀ t, 0 < t → ∀ i, 0 ≤ exc t i) {x y : ℝ → Nat → ℝ} (hx : Course minR envT exc m x) (hy : Course minR envT exc m' y) :
    ∀ t, 0 ≤ t → ∀ k < m.total, y t k ≤ x t k := by
  obtain ⟨a, ha, hx'⟩ := hx
  obtain ⟨b, hb, hy'⟩ := hy
  have hl := net_length h ha
  have hheavy : Heavy m' ws := ⟨hc'.heat ▸ hc.heat, hc'.rho ▸ hc.rho, hs.height ▸ hc.height, hc.wires⟩
  obtain ⟨n1, n2⟩ := same_ns h h' hs hk hm ha hb
  rw [← hl]
  exact warms_cooling (body h hc hm ha) (body h' hheavy hm hb) ⟨n1, n2, htc_le h h' hbc ha hb, same_heat h h' hr ha hb n1⟩ (caps_same h h' hs hc' ha hb)
    (hf_nonneg h (fun e he _ => hP e he) (fun k T => ⟨(hr k T).1, (hr k T).2.1⟩) ha) he hx' hy'

/-- C141, superposition: if the powers of the blocks are combinations of the powers in two other cases, and so are the squares of the currents, then under the same
excitation the rises of the temperatures are the same combinations at all times. -/
theorem c141_superposition {ma mb : SModel ℚ} {Pa Pb P : Nat → ℚ} {Ia Ib : Nat → ℚ}
    (ha : StackBal.Proper (tabled c fun k _ => Pa k) v ma g s meshes (driven ws Ia))
    (hb : StackBal.Proper (tabled c fun k _ => Pb k) v mb g s meshes (driven ws Ib)) (h : StackBal.Proper (tabled c fun k _ => P k) v m g s meshes (driven ws I))
    (hc : Heavy m ws) (hda : SameC m ma) (hdb : SameC m mb) (hsa : Shape m ma) (hsb : Shape m mb) (hka : SameK m ma) (hkb : SameK m mb) (hca : SameBC m ma)
    (hcb : SameBC m mb) {r : Nat → ℚ} (hr : ∀ k T, 0 ≤ r k ∧ ma.resist k T = r k ∧ mb.resist k T = r k ∧ m.resist k T = r k) {p q : ℚ}
    (hP : ∀ e ∈ c.blocks, P e.1 = p * Pa e.1 + q * Pb e.1) (hI : ∀ j, I j ^ 2 = p * Ia j ^ 2 + q * Ib j ^ 2) (hm : 0 < minR) {exc x y z : ℝ → Nat → ℝ}
    (hx : Course minR envT exc ma x) (hy : Course minR envT exc mb y) (hz : Course minR envT exc m z) :
    ∀ t, 0 ≤ t → ∀ k < m.total, z t k - envT = p * (x t k - envT) + q * (y t k - envT) := by
  obtain ⟨na, ba, hx'⟩ := hx
  obtain ⟨nb, bb, hy'⟩ := hy
  obtain ⟨n, bn, hz'⟩ := hz
  have hl := net_length h bn
  have hha : Heavy ma ws := ⟨hda.heat ▸ hc.heat, hda.rho ▸ hc.rho, hsa.height ▸ hc.height, hc.wires⟩
  have hhb : Heavy mb ws := ⟨hdb.heat ▸ hc.heat, hdb.rho ▸ hc.rho, hsb.height ▸ hc.height, hc.wires⟩
  rw [← hl]
  refine warms_combine (body ha hha hm ba) (body hb hhb hm bb) (body h hc hm bn) (same_net h ha hsa hka hca hm bn ba) (same_net h hb hsb hkb hcb hm bn bb)
    (caps_same h ha hsa hda bn ba) (caps_same h hb hsb hdb bn bb) (fun i hi => ?_) hx' hy' hz'
  rw [hl] at hi
  obtain ⟨a1, a2⟩ := num_pair h ha
  obtain ⟨b1, b2⟩ := num_pair h hb
  rcases elem_cases h hi with ⟨l, t, hcell, rfl⟩ | ⟨k, w, hw, rfl⟩
  · have e1 := prism_heat h bn hcell
    have e2 := prism_heat ha ba hcell
    have e3 := prism_heat hb bb hcell
    rw [← a2] at e2
    rw [← b2] at e3
    rw [e1, e2, e3, ← List.sum_map_mul_left, ← List.sum_map_mul_left, ← List.sum_map_add]
    congr 1
    apply List.map_congr_left
    intro e he
    rw [hP e he]
    ring
  · have e1 := line_heat h bn (fun k T => ⟨(hr k T).1, (hr k T).2.2.2⟩) hw
    have e2 := line_heat ha ba (fun k T => ⟨(hr k T).1, (hr k T).2.1⟩) hw
    have e3 := line_heat hb bb (fun k T => ⟨(hr k T).1, (hr k T).2.2.1⟩) hw
    rw [← a1] at e2
    rw [← b1] at e3
    rw [e1, e2, e3, hI]
    ring

theorem net_htc (h : StackBal.Proper (tabled c L) v m g s meshes (driven ws I)) {T : List ℚ} {net : Network ℚ} (hb : m.build minR T = .ok (some net)) :
    (∀ i < m.prisms.length, htcOf net i = (m.prisms[i]?.map (lost g m s)).getD 0) ∧ ∀ i, m.prisms.length ≤ i → htcOf net i = 0 := by
  refine ⟨fun i hi => ?_, fun i hi => ?_⟩
  · rw [prism_htc h hb (List.getElem?_eq_getElem hi), List.getElem?_eq_getElem hi]
    rfl
  · exact stack_line_htc h.made hb (by rw [← (fromMeshes_facts h.made).1]; exact hi)

theorem heat_total {P : Nat → ℚ} (h : StackBal.Proper (tabled c fun k _ => P k) v m g s meshes (driven ws I)) {r : Nat → ℚ}
    (hr : ∀ k T, 0 ≤ r k ∧ m.resist k T = r k) (hm : 0 < minR) {T : List ℚ} {net : Network ℚ} (hb : m.build minR T = .ok (some net)) :
    ∑ i ∈ range net.length, hfOf net i = power c ws P I r := by
  have hg := ground h hm hb
  obtain ⟨u, hu⟩ := c30_exists hg 0
  have hlut : ∀ e ∈ (tabled c fun k _ => P k).blocks, ∀ T, e.2.lut 0 ≤ e.2.lut T ∧ e.2.lut T ≤ e.2.lut 0 := by
    intro e he T
    unfold tabled at he
    rw [List.mem_map] at he
    obtain ⟨d, -, rfl⟩ := he
    exact ⟨le_refl _, le_refl _⟩
  obtain ⟨-, b1, b2, -⟩ := stack_balance h hb hg (lo := fun b => b.lut 0) (hi := fun b => b.lut 0) hlut (rlo := r) (rhi := r) (fun k T => ⟨(hr k T).1, (hr k T).2.ge, (hr k T).2.le⟩) hu
  have hpow := le_antisymm b2 b1
  have hen := (c29_energy hg.inRange).2.2 0 u (fun i hi => by
    rw [← mulVec_eq_entries net.length u i _ (fun t ht => (mem_gTriplets hg.inRange ht).2)]
    exact hu i hi)
  rw [Balance.totalHF_eq] at hen
  rw [← hen]
  obtain ⟨t1, t2⟩ := net_htc h hb
  have hl := net_length h hb
  rw [total_eq h] at hl
  have hgiven : given g m s 0 u = ∑ i ∈ range net.length, htcOf net i * (u i - 0) := by
    rw [hl, Finset.sum_range_add, Finset.sum_eq_zero (s := range (segments ws).length), add_zero]
    · unfold given
      refine Finset.sum_congr rfl fun i hi => ?_
      rw [t1 i (Finset.mem_range.1 hi)]
    · intro n _
      rw [t2 _ (by omega), zero_mul]
  rw [← hgiven, hpow]
  unfold PrismBal.power PrismCourse.power
  congr 1
  · unfold tabled
    rw [List.map_map]
    rfl
  · unfold driven segments
    rw [List.map_map, sum_flat]
    congr 1
    apply List.map_congr_left
    intro w _
    rw [List.map_map]
    rfl

/-- C141, energy: powers and resistivities that do not depend on the temperature: the heat stored in the elements grows by the power of the blocks and wires, times
the excitation, less what the model gives off. -/
theorem c141_energy {P : Nat → ℚ} (h : StackBal.Proper (tabled c fun k _ => P k) v m g s meshes (driven ws I)) (hc : Heavy m ws) {r : Nat → ℚ}
    (hr : ∀ k T, 0 ≤ r k ∧ m.resist k T = r k) (hm : 0 < minR) {exc : ℝ → ℝ} {x : ℝ → Nat → ℝ} (hx : Course minR envT (fun t _ => exc t) m x) {t : ℝ} (ht : 0 < t) :
    HasDerivAt (fun q => stored m ws envT (x q)) (power c ws P I r * exc t - gives g m s envT (x t)) t := by
  obtain ⟨net, hb, hx'⟩ := hx
  have he := warms_energy (body h hc hm hb) hx' ht
  have hl := net_length h hb
  rw [total_eq h] at hl
  have e1 : ∀ y : Nat → ℝ, ∑ i ∈ range net.length, ((cOf net i : ℚ) : ℝ) * (y i - envT) = stored m ws envT y := by
    intro y
    rw [hl, Finset.sum_range_add]
    unfold stored
    congr 1
    · refine Finset.sum_congr rfl fun i hi => ?_
      have hp := List.getElem?_eq_getElem (Finset.mem_range.1 hi)
      rw [prism_cap h hb hp, hp]
      rfl
    · refine Finset.sum_congr rfl fun n hn => ?_
      have hg := List.getElem?_eq_getElem (Finset.mem_range.1 hn)
      rw [wire_cap h hb hg, hg]
      rfl
  obtain ⟨t1, t2⟩ := net_htc h hb
  have e2 : ∑ i ∈ range net.length, ((htcOf net i : ℚ) : ℝ) * (x t i - envT) = gives g m s envT (x t) := by
    rw [hl, Finset.sum_range_add, Finset.sum_eq_zero (s := range (segments ws).length), add_zero]
    · unfold gives
      refine Finset.sum_congr rfl fun i hi => ?_
      rw [t1 i (Finset.mem_range.1 hi)]
    · intro n _
      rw [t2 _ (by omega), Rat.cast_zero, zero_mul]
  simp only [e1] at he
  rw [e2, heat_total h hr hm hb] at he
  exact he

end

/-! ## example -/

/-- the hypotheses of the claims: the models of C139, with specific heat and density 1 and height 5, under a switched excitation -/
example : ∃ m m' n : SModel ℚ, StackBal.Proper (tabled exTwo fun k _ => if k = 0 then 1 else 0) exPowerView m exTri 1 [exPowerMesh, exPowerMesh] (driven [exBond] fun _ => 1) ∧
      StackBal.Proper (tabled exTwo fun k _ => if k = 0 then 2 else 1) exPowerView m' exTri 1 [exPowerMesh, exPowerMesh] (driven [exBond] fun _ => 2) ∧
      StackBal.Proper (tabled exTwo fun k _ => if k = 0 then 1 else 0) exPowerView n exTri 1 [exPowerMesh, exPowerMesh] (driven [exBond] fun _ => 1) ∧ Shape m m' ∧ SameK m m' ∧
      SameBC m m' ∧ SameC m m' ∧ Heavy m [exBond] ∧ (∀ k T, (0 : ℚ) ≤ 1 ∧ m.resist k T = 1 ∧ m'.resist k T = 1) ∧ Shape m n ∧ SameK m n ∧ MoreBC m n ∧ SameC m n ∧
      SameK m m ∧ (∀ i : Nat, Continuous fun t : ℝ => (1 + Real.cos (t * i)) / 2) ∧ ∀ t (i : Nat), 0 ≤ (1 + Real.cos (t * i)) / 2 ∧ (1 + Real.cos (t * i)) / 2 ≤ 1 := by
  obtain ⟨m, h1, -, o1, p1, l1, rfl⟩ := exTwo_proper (fun k _ => if k = 0 then 1 else 0) (fun _ => 1) 1 4 (by norm_num)
  obtain ⟨m', h2, -, o2, p2, l2, rfl⟩ := exTwo_proper (fun k _ => if k = 0 then 2 else 1) (fun _ => 2) 1 4 (by norm_num)
  obtain ⟨n, h3, -, o3, p3, l3, rfl⟩ := exTwo_proper (fun k _ => if k = 0 then 1 else 0) (fun _ => 1) 1 5 (by norm_num)
  refine ⟨_, _, _, h1, h2, h3, ⟨rfl, rfl, rfl, rfl, rfl⟩, fun _ _ _ => rfl, ⟨rfl, rfl⟩, ⟨rfl, rfl⟩, ⟨?_, ?_, ?_, ?_⟩, fun _ _ => ⟨by norm_num, rfl, rfl⟩,
    ⟨rfl, rfl, rfl, rfl, rfl⟩, fun _ _ _ => rfl, ⟨.some ⟨rfl, .some (by norm_num)⟩, .none⟩, ⟨rfl, rfl⟩, fun _ _ _ => rfl, fun i => by fun_prop,
    fun t i => ⟨?_, ?_⟩⟩
  · simp [exSModel]
  · simp [exSModel]
  · simp [exSModel]
  · intro w hw
    simp only [List.mem_singleton] at hw
    subst hw
    refine ⟨by norm_num [exBond, PrismBal.exWire], fun s => ?_⟩
    show 0 < (if s = 0 then (1 : ℚ) else 4)
    split_ifs <;> norm_num
  · linarith [Real.neg_one_le_cos (t * i)]
  · linarith [Real.cos_le_one (t * i)]

end Ecad.StackCourse
