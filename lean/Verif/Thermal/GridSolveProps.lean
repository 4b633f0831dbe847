import Verif.Thermal.GridNetProps
import Verif.Thermal.OpsGround
/-!
C61, C62.
-/
namespace Ecad.GridT
open Ecad.Thermal

variable {K : Type} [Field K] [LinearOrder K] [IsStrictOrderedRing K]

/-! ### C61 -/

/-- the thermal resistance of half a cell: half its length over conductivity and cross section -/
def halfRes (len k area : K) : K := len / 2 / (k * area)

omit [LinearOrder K] [IsStrictOrderedRing K] in
theorem getRes_half (k1 l1 k2 l2 area : K) :
    getRes k1 (1 / 2 * l1) k2 (1 / 2 * l2) area = halfRes l1 k1 area + halfRes l2 k2 area := by
  unfold getRes halfRes
  rw [add_div, div_div, div_div, one_div, mul_comm (2 : K)⁻¹, mul_comm (2 : K)⁻¹, ← div_eq_mul_inv, ← div_eq_mul_inv]

/-- positive dimensions and volume fractions -/
structure GModel.Physical (m : GModel K) : Prop where
  resX : 0 < m.resX
  resY : 0 < m.resY
  scaleH : 0 < m.scaleH
  thickness : ∀ l ∈ m.layers, 0 < l.thickness
  fraction : ∀ l ∈ m.layers, ∀ x y, 0 ≤ l.fraction x y ∧ l.fraction x y ≤ 1

theorem k_pos {m : GModel K} (h : m.Physical) {g : Size3} (hz : g.z < m.layers.length) : 0 < m.k g := by
  have := h.fraction _ (List.getElem_mem hz) g.x g.y
  unfold GModel.k GModel.fraction metalK dielK
  rw [List.getElem?_eq_getElem hz]
  simp only [Option.map_some, Option.getD_some]
  nlinarith [this.1, this.2]

theorem lenZ_pos {m : GModel K} (h : m.Physical) {z : Nat} (hz : z < m.layers.length) : 0 < m.lenZ z := by
  have := h.thickness _ (List.getElem_mem hz)
  unfold GModel.lenZ
  rw [List.getElem?_eq_getElem hz]
  exact this

omit [IsStrictOrderedRing K] in
theorem jumpG_nil (minR : K) {m : GModel K} (h : m.jumps = []) (a b : Nat) : m.jumpG minR a b = 0 := by
  simp [GModel.jumpG, h]

/-- **C61, partial.** Between cells adjacent in y or z direction the network has the resistance of the two
half cells in series (limited from below by the least resistance of the network); cells of pure metal have
the heat capacity of their volume. Missing: cells adjacent in x direction, bond wires, and the capacity of
mixed cells, for which the claim is false (the three theorems below). -/
theorem c61_values_partial {minR : K} {ip : List (K × K) → K → Res K} {m : GModel K} {iniT : List K} {net : Network K}
    (h : m.build minR ip iniT = .ok (some net)) (hm : Fits m.size3) (hj : m.jumps = []) {g k : Size3}
    (hg : InGrid m.size3 g) (hk : InGrid m.size3 k) :
    (StepsTo g k .end_ → conductance net (flatten m.size g) (flatten m.size k) =
      1 / max (halfRes m.lenY (m.k g) (m.lenZ g.z * m.lenX) + halfRes m.lenY (m.k k) (m.lenZ g.z * m.lenX)) minR) ∧
    (StepsTo g k .bot → conductance net (flatten m.size g) (flatten m.size k) =
      1 / max (halfRes (m.lenZ g.z) (m.k g) (m.lenX * m.lenY) + halfRes (m.lenZ k.z) (m.k k) (m.lenX * m.lenY)) minR) ∧
    (g ≠ k → ¬ Adjacent g k → conductance net (flatten m.size g) (flatten m.size k) = 0) ∧
    (m.fraction g = 1 →
      cOf net (flatten m.size g) = metalC * metalRho * (m.lenX * m.lenY * m.lenZ g.z)) := by
  obtain ⟨c1, c2⟩ := build_conductance h hm hg hk
  refine ⟨fun hs => ?_, fun hs => ?_, fun hne hna => ?_, fun hf => ?_⟩
  · rw [c1 .end_ (by tauto) hs, jumpG_nil minR hj, add_zero]
    simp only [GModel.resTo, getRes_half, GModel.areaY]
  · rw [c1 .bot (by tauto) hs, jumpG_nil minR hj, add_zero]
    simp only [GModel.resTo, getRes_half, GModel.areaZ]
  · rw [c2 hne hna, jumpG_nil minR hj]
  · rw [build_capacity h hg]
    simp only [GModel.cellC, hf, cap, GModel.areaZ]
    ring

/-- **C61 is false in x direction**: whenever the resistance is not below the least one, cells adjacent in
x direction conduct less than their two half cells in series: the second cell is counted in full. -/
theorem c61_x_refuted {minR : K} {ip : List (K × K) → K → Res K} {m : GModel K} {iniT : List K} {net : Network K}
    (h : m.build minR ip iniT = .ok (some net)) (hm : Fits m.size3) (hp : m.Physical) (hj : m.jumps = []) {g k : Size3}
    (hg : InGrid m.size3 g) (hk : InGrid m.size3 k) (hs : StepsTo g k .right)
    (hmin : minR ≤ halfRes m.lenX (m.k g) (m.areaX g.z) + halfRes m.lenX (m.k k) (m.areaX g.z)) :
    conductance net (flatten m.size g) (flatten m.size k) =
      1 / (halfRes m.lenX (m.k g) (m.areaX g.z) + 2 * halfRes m.lenX (m.k k) (m.areaX g.z)) ∧
    conductance net (flatten m.size g) (flatten m.size k) <
      1 / (halfRes m.lenX (m.k g) (m.areaX g.z) + halfRes m.lenX (m.k k) (m.areaX g.z)) := by
  obtain ⟨c1, _⟩ := build_conductance h hm hg hk
  have hx : 0 < m.lenX := mul_pos hp.resX hp.scaleH
  have hy : 0 < m.lenY := mul_pos hp.resY hp.scaleH
  have ha : 0 < m.areaX g.z := mul_pos (lenZ_pos hp hg.2.2) hy
  have kg := k_pos hp (g := g) hg.2.2
  have kk := k_pos hp (g := k) hk.2.2
  have p1 : 0 < halfRes m.lenX (m.k g) (m.areaX g.z) := by unfold halfRes; positivity
  have p2 : 0 < halfRes m.lenX (m.k k) (m.areaX g.z) := by unfold halfRes; positivity
  have e : m.resTo g k .right = halfRes m.lenX (m.k g) (m.areaX g.z) + 2 * halfRes m.lenX (m.k k) (m.areaX g.z) := by
    simp only [GModel.resTo, getRes, halfRes]
    field_simp
  rw [c1 .right (by tauto) hs, jumpG_nil minR hj, add_zero, e, max_eq_left (by linarith)]
  refine ⟨rfl, ?_⟩
  apply one_div_lt_one_div_of_lt <;> linarith

/-- **C61 is false for the capacity of mixed cells**: the density of the metal is used for both parts, so that
the capacity exceeds that of the two parts whenever there is any dielectric. -/
theorem c61_capacity_refuted {minR : K} {ip : List (K × K) → K → Res K} {m : GModel K} {iniT : List K} {net : Network K}
    (h : m.build minR ip iniT = .ok (some net)) (hp : m.Physical) {g : Size3} (hg : InGrid m.size3 g)
    (hf : m.fraction g < 1) :
    m.lenX * m.lenY * m.lenZ g.z * (m.fraction g * (metalC * metalRho) + (1 - m.fraction g) * (dielC * dielRho)) <
      cOf net (flatten m.size g) := by
  have hx : 0 < m.lenX := mul_pos hp.resX hp.scaleH
  have hy : 0 < m.lenY := mul_pos hp.resY hp.scaleH
  have hz := lenZ_pos hp hg.2.2
  rw [build_capacity h hg]
  simp only [GModel.cellC, cap, GModel.areaZ, metalC, metalRho, dielC, dielRho]
  have hv : 0 < m.lenX * m.lenY * m.lenZ g.z := by positivity
  have h1 : 0 < 1 - m.fraction g := by linarith
  nlinarith [mul_pos hv h1]

/-- **C61 is false for bond wires**: the jump connection between two cells not adjacent is given with
`alpha = pi r^2 / L` (src/model/thermal/EGridThermalModel.h:87), so that its conductance is `k alpha`; the network has
the conductance `1 / (k alpha)`. The two agree only if `k alpha` is one. -/
theorem c61_wire_refuted {minR : K} {ip : List (K × K) → K → Res K} {m : GModel K} {iniT : List K} {net : Network K}
    (h : m.build minR ip iniT = .ok (some net)) (hm : Fits m.size3) {g k : Size3} {alpha : K} (hj : m.jumps = [(g, k, alpha)])
    (hg : InGrid m.size3 g) (hk : InGrid m.size3 k) (hne : g ≠ k) (hna : ¬ Adjacent g k) (ha : 0 < alpha)
    (hmin : minR ≤ metalK * alpha) :
    conductance net (flatten m.size g) (flatten m.size k) = 1 / (metalK * alpha) ∧
    (conductance net (flatten m.size g) (flatten m.size k) = metalK * alpha ↔ metalK * alpha = 1) := by
  obtain ⟨_, c2⟩ := build_conductance h hm hg hk
  have e : conductance net (flatten m.size g) (flatten m.size k) = 1 / (metalK * alpha) := by
    rw [c2 hne hna]
    unfold GModel.jumpG
    rw [hj]
    simp only [List.map_cons, List.map_nil, List.sum_cons, List.sum_nil, add_zero]
    rw [if_pos (by tauto), max_eq_left hmin]
  refine ⟨e, ?_⟩
  have hp : 0 < metalK * alpha := mul_pos (by unfold metalK; norm_num) ha
  rw [e]
  constructor
  · intro h1
    rw [div_eq_iff hp.ne'] at h1
    nlinarith [h1, hp]
  · intro h1
    rw [h1]; norm_num

/-- eight cells in two layers, half metal, half dielectric below -/
def exCool (jumps : List (Size3 × Size3 × ℚ)) : GModel ℚ :=
  { size := ⟨2, 2⟩, resX := 1, resY := 1, scaleH := 1,
    layers := [⟨1, fun _ _ => 1, [.block ⟨0, 0⟩ ⟨1, 0⟩ 7]⟩, ⟨2, fun _ _ => 1 / 2, [.grid (exTable 3)]⟩],
    jumps := jumps, topBC := some ⟨.htc, some 5⟩, botBC := none, topBlocks := [((⟨0, 0⟩, ⟨0, 1⟩), ⟨.htc, some 9⟩)],
    botBlocks := [] }

theorem exCool_physical (j) : (exCool j).Physical := by
  refine ⟨by norm_num [exCool], by norm_num [exCool], by norm_num [exCool], ?_, ?_⟩
  · intro l hl
    simp only [exCool, List.mem_cons, List.not_mem_nil, or_false] at hl
    rcases hl with rfl | rfl <;> norm_num
  · intro l hl x y
    simp only [exCool, List.mem_cons, List.not_mem_nil, or_false] at hl
    rcases hl with rfl | rfl <;> norm_num

/-- hypotheses of the four theorems on values -/
example : ∃ net, (exCool []).build (1 / 1000) (fun _ _ => .exn) [25, 25, 25, 25, 25, 25, 25, 25] = .ok (some net) ∧
    Fits (exCool []).size3 ∧ (exCool []).Physical ∧ InGrid (exCool []).size3 ⟨0, 0, 0⟩ ∧ InGrid (exCool []).size3 ⟨1, 0, 0⟩ ∧
    StepsTo ⟨0, 0, 0⟩ ⟨1, 0, 0⟩ .right ∧ StepsTo ⟨0, 0, 0⟩ ⟨0, 1, 0⟩ .end_ ∧ StepsTo ⟨0, 0, 0⟩ ⟨0, 0, 1⟩ .bot ∧
    (1 / 1000 : ℚ) ≤ halfRes (exCool []).lenX ((exCool []).k ⟨0, 0, 0⟩) ((exCool []).areaX 0) +
      halfRes (exCool []).lenX ((exCool []).k ⟨1, 0, 0⟩) ((exCool []).areaX 0) ∧
    (exCool []).fraction ⟨0, 0, 1⟩ < 1 := by
  refine ⟨_, rfl, by unfold Fits; decide, exCool_physical _, by unfold InGrid; decide, by unfold InGrid; decide,
    ⟨rfl, rfl, rfl⟩, ⟨rfl, rfl, rfl⟩, ⟨rfl, rfl, rfl⟩, ?_, ?_⟩
  · decide +kernel
  · decide +kernel

/-- hypotheses of the theorem on wires -/
example : ∃ net, (exCool [(⟨0, 0, 0⟩, ⟨1, 1, 0⟩, 2)]).build (1 / 1000) (fun _ _ => .exn) [25, 25, 25, 25, 25, 25, 25, 25] =
    .ok (some net) ∧ ¬ Adjacent ⟨0, 0, 0⟩ ⟨1, 1, 0⟩ ∧ (1 / 1000 : ℚ) ≤ metalK * 2 := by
  refine ⟨_, rfl, by decide, by norm_num [metalK]⟩

/-! ### C62 -/

/-- boundary conditions of the model -/
def GModel.allBCs (m : GModel K) : List (BC K) :=
  m.topBC.toList ++ m.botBC.toList ++ m.topBlocks.map Prod.snd ++ m.botBlocks.map Prod.snd

/-- one of the two faces is cooled uniformly, and all heat transfer coefficients are positive -/
structure GModel.Cooled (m : GModel K) : Prop where
  positive : ∀ b ∈ m.allBCs, b.type = .htc → ∀ v, b.value = some v → 0 < v
  face : (∃ b, m.topBC = some b ∧ b.type = .htc ∧ b.value ≠ none) ∨ (∃ b, m.botBC = some b ∧ b.type = .htc ∧ b.value ≠ none)

omit [LinearOrder K] [IsStrictOrderedRing K] in
theorem mem_bcs {m : GModel K} {b : BC K × Nat × List (Nat × Nat)} (h : b ∈ m.bcs) : b.1 ∈ m.allBCs := by
  unfold GModel.bcs at h
  unfold GModel.allBCs
  simp only [List.mem_append, List.mem_map] at h ⊢
  rcases h with ((⟨q, hq, rfl⟩ | ⟨q, hq, rfl⟩) | ⟨q, hq, rfl⟩) | ⟨q, hq, rfl⟩
  · exact .inl (.inl (.inl hq))
  · exact .inl (.inl (.inr hq))
  · exact .inl (.inr ⟨q, hq, rfl⟩)
  · exact .inr ⟨q, hq, rfl⟩

theorem getLastD_pos {l : List K} (h : ∀ v ∈ l, 0 < v) : 0 ≤ l.getLastD 0 ∧ (l ≠ [] → 0 < l.getLastD 0) := by
  cases l with
  | nil => simp
  | cons a l =>
    have : 0 < (a :: l).getLastD 0 := by
      rw [List.getLastD_eq_getLast?, List.getLast?_eq_some_getLast (by simp)]
      exact h _ (List.getLast_mem _)
    exact ⟨this.le, fun _ => this⟩

/-- what calls write transfer coefficients -/
theorem wHTC_ops {ip : List (K × K) → K → Res K} {m : GModel K} {iniT : List K} {i : Nat} {v : K}
    (h : v ∈ (m.ops ip iniT).filterMap (wHTC i)) : ∃ b ∈ m.allBCs, b.type = .htc ∧ ∃ u, b.value = some u ∧ v = m.areaZ * u := by
  rw [List.mem_filterMap] at h
  obtain ⟨o, ho, hw⟩ := h
  unfold GModel.ops at ho
  simp only [List.mem_append] at ho
  rcases ho with ((ho | ho) | ho) | ho
  · have := w_cellOps (wHTC i) (fun _ _ => rfl) (fun _ _ _ => rfl) rfl rfl m
    rw [List.mem_flatMap] at ho
    obtain ⟨k, _, ho⟩ := ho
    have h2 := List.filterMap_eq_nil_iff.1 (this k) o ho
    rw [h2] at hw; simp at hw
  · rw [List.mem_flatMap] at ho
    obtain ⟨k, _, ho⟩ := ho
    have h2 := List.filterMap_eq_nil_iff.1 (w_jumpOps (wHTC i) (fun _ _ _ => rfl) rfl m iniT k) o ho
    rw [h2] at hw; simp at hw
  · exfalso
    have : ∀ (ps : List (Nat × Power K)) (n : Nat), ∀ o ∈ m.powersOps ip iniT n ps, wHTC i o = none := by
      intro ps
      induction ps with
      | nil => intro n o ho; simp [GModel.powersOps] at ho
      | cons p ps ih =>
        intro n o ho
        obtain ⟨z, p⟩ := p
        rw [GModel.powersOps] at ho
        rcases List.mem_append.1 ho with ho | ho
        · cases p with
          | grid t =>
            rw [GModel.powerOps, List.mem_flatMap] at ho
            obtain ⟨c, _, ho⟩ := ho
            rcases heatOps_cases ip m iniT t z c ho with rfl | rfl | ⟨v, rfl⟩ <;> rfl
          | block ll ur total =>
            rw [GModel.powerOps] at ho
            simp only [List.mem_cons, List.mem_map] at ho
            rcases ho with rfl | rfl | ⟨c, _, rfl⟩ <;> rfl
        · exact ih _ o ho
    rw [this _ _ o ho] at hw; simp at hw
  · rw [List.mem_flatMap] at ho
    obtain ⟨b, hb, ho⟩ := ho
    obtain ⟨c, _, u, hu, h⟩ := bcOps_cases m _ _ _ ho
    rcases h with ⟨ht, rfl⟩ | ⟨_, rfl⟩
    · refine ⟨b.1, mem_bcs hb, ht, u, hu, ?_⟩
      simp only [wHTC] at hw
      split_ifs at hw
      · injection hw with hw; exact hw.symm
    · simp [wHTC] at hw

theorem upper_powers {ip : List (K × K) → K → Res K} {m : GModel K} (hs : m.Sound ip) {iniT : List K}
    (ps : List (Nat × Power K)) (hps : ∀ p ∈ ps, p ∈ m.powers) : ∀ n, m.total ≤ n → 0 < m.total →
    (∀ o ∈ m.powersOps ip iniT n ps, Op.upper o < n + nodesOf (m.powersOps ip iniT n ps)) ∧
    (∀ i, n ≤ i → i < n + nodesOf (m.powersOps ip iniT n ps) →
      ∃ g v, InGrid m.size3 g ∧ .ok (.r (flatten m.size g) i v) ∈ m.powersOps ip iniT n ps) := by
  induction ps with
  | nil => intro n _ _; exact ⟨by simp [GModel.powersOps], fun i h1 h2 => by simp [GModel.powersOps] at h2; omega⟩
  | cons p ps ih =>
    intro n hn h0
    have hp := hps p (by simp)
    have ih := ih fun q hq => hps q (by simp [hq])
    obtain ⟨z, p⟩ := p
    obtain ⟨hz, l, hlm, hpl⟩ := mem_powers hp
    simp only at hz hpl
    rw [GModel.powersOps, nodesOf_append]
    cases p with
    | grid t =>
      have hno : nodesOf ((allCells m.size).flatMap (m.heatOps ip iniT t z)) = 0 := by
        unfold nodesOf
        rw [List.sum_eq_zero]
        intro k hk
        rw [List.mem_map] at hk
        obtain ⟨o, ho, rfl⟩ := hk
        rw [List.mem_flatMap] at ho
        obtain ⟨c, _, ho⟩ := ho
        rcases heatOps_cases ip m iniT t z c ho with rfl | rfl | ⟨v, rfl⟩ <;> rfl
      obtain ⟨i1, i2⟩ := ih n hn h0
      simp only [GModel.powerOps, Power.appends, hno, Nat.add_zero, Nat.zero_add]
      refine ⟨fun o ho => ?_, fun i h1 h2 => ?_⟩
      · rcases List.mem_append.1 ho with ho | ho
        · rw [List.mem_flatMap] at ho
          obtain ⟨c, _, ho⟩ := ho
          rcases heatOps_cases ip m iniT t z c ho with rfl | rfl | ⟨v, rfl⟩ <;> simp only [Op.upper] <;> omega
        · exact i1 o ho
      · obtain ⟨g, v, hg, hm⟩ := i2 i h1 h2
        exact ⟨g, v, hg, List.mem_append_right _ hm⟩
    | block ll ur total =>
      obtain ⟨hb, hx, hy⟩ := hs.powers l hlm ll ur total hpl
      obtain ⟨i1, i2⟩ := ih (n + 1) (by omega) h0
      have hno : nodesOf (m.powerOps ip iniT n z (.block ll ur total)) = 1 := by
        rw [GModel.powerOps, nodesOf_cons, nodesOf_cons]
        have : nodesOf ((blockCells ll ur).map fun c => (.ok (.r (flatten m.size ⟨c.1, c.2, z⟩) n thermalRd) : Res (Op K))) = 0 := by
          unfold nodesOf
          rw [List.sum_eq_zero]
          intro k hk
          rw [List.mem_map] at hk
          obtain ⟨o, ho, rfl⟩ := hk
          rw [List.mem_map] at ho
          obtain ⟨c, _, rfl⟩ := ho
          rfl
        rw [this]; rfl
      rw [hno]
      simp only [Power.appends]
      refine ⟨fun o ho => ?_, fun i h1 h2 => ?_⟩
      · rcases List.mem_append.1 ho with ho | ho
        · rw [GModel.powerOps] at ho
          simp only [List.mem_cons, List.mem_map] at ho
          rcases ho with rfl | rfl | ⟨c, hc, rfl⟩
          · simp only [Op.upper]; omega
          · simp only [Op.upper]; omega
          · rw [mem_blockCells] at hc
            have hlt : flatten m.size ⟨c.1, c.2, z⟩ < m.total :=
              flatten_lt (m := m.size3) ⟨lt_of_le_of_lt hc.1.2 hb.1, lt_of_le_of_lt hc.2.2 hb.2, hz⟩
            simp only [Op.upper]; omega
        · have := i1 o ho; omega
      · by_cases hi : i = n
        · subst hi
          refine ⟨⟨ll.x, ll.y, z⟩, thermalRd, ⟨lt_of_le_of_lt hx hb.1, lt_of_le_of_lt hy hb.2, hz⟩, ?_⟩
          apply List.mem_append_left
          rw [GModel.powerOps]
          apply List.mem_cons_of_mem
          apply List.mem_cons_of_mem
          rw [List.mem_map]
          exact ⟨(ll.x, ll.y), mem_blockCells.2 ⟨⟨le_refl _, hx⟩, le_refl _, hy⟩, rfl⟩
        · obtain ⟨g, v, hg, hm⟩ := i2 i (by omega) (by omega)
          exact ⟨g, v, hg, List.mem_append_right _ hm⟩

/-- **C62.** From every sound model with positive dimensions and a uniformly cooled face, and every vector of
temperatures of the right size, a network is built in which every node is connected to the ambient; its steady
temperatures exist and are unique. -/
theorem c62_solvable {ip : List (K × K) → K → Res K} {m : GModel K} (hs : m.Sound ip) (hp : m.Physical) (hc : m.Cooled)
    {minR : K} (hm : 0 < minR) {iniT : List K} (hl : iniT.length = m.total) (refT : K) :
    ∃ net, m.build minR ip iniT = .ok (some net) ∧ Grounded net ∧
      ∃ x, Solves net refT x ∧ ∀ y, Solves net refT y → ∀ i < net.length, y i = x i := by
  obtain ⟨net, hb⟩ := build_succeeds hs minR hl
  obtain ⟨_, hr⟩ := build_run hb
  have harea : 0 < m.areaZ := mul_pos (mul_pos hp.resX hp.scaleH) (mul_pos hp.resY hp.scaleH)
  have hwpos : ∀ i, ∀ v ∈ (m.ops ip iniT).filterMap (wHTC i), 0 < v := by
    intro i v hv
    obtain ⟨b, hbm, ht, u, hu, rfl⟩ := wHTC_ops hv
    exact mul_pos harea (hc.positive b hbm ht u hu)
  have hhtc : ∀ i, htcOf net i = ((m.ops ip iniT).filterMap (wHTC i)).getLastD 0 := by
    intro i
    rw [(run_values hr).2.1, fold_htc _ _ (noAdd_ops ip m iniT), htcOf_new]
  have hnodes : nodesOf (m.ops ip iniT) = nodesOf (m.powersOps ip iniT m.total m.powers) := by
    unfold GModel.ops
    simp only [nodesOf_append, nodes_cells, nodes_jumps, nodes_bcs]
    omega
  have hg : Grounded net := by
    by_cases h0 : m.total = 0
    · -- no cells: no nodes at all
      have hlen0 : nodesOf (m.powersOps ip iniT m.total m.powers) = 0 := by
        rw [powersOps_nodes, List.length_eq_zero_iff, List.filterMap_eq_nil_iff]
        intro p hpm
        obtain ⟨z, p⟩ := p
        cases p with
        | grid t => rfl
        | block ll ur total =>
          obtain ⟨hz, l, hlm, hpl⟩ := mem_powers hpm
          obtain ⟨hbi, _, _⟩ := hs.powers l hlm ll ur total hpl
          have : flatten m.size ⟨ur.x, ur.y, z⟩ < m.total := flatten_lt (m := m.size3) ⟨hbi.1, hbi.2, hz⟩
          omega
      have hlen : net.length = 0 := by
        rw [run_length _ hr, length_new, hnodes, hlen0, h0]
      have hnil : net = [] := List.length_eq_zero_iff.1 hlen
      subst hnil
      exact ⟨by intro i n h; simp at h, by simp, by simp, by simp⟩
    · obtain ⟨u1, u2⟩ := upper_powers hs (iniT := iniT) m.powers (fun p h => h) m.total (le_refl _) (by omega)
      refine run_grounded hm hr ?_ (fun i => by rw [hhtc]; exact (getLastD_pos (hwpos i)).1) ?_
      · rw [hnodes]
        intro o ho
        unfold GModel.ops at ho
        simp only [List.mem_append] at ho
        rcases ho with ((ho | ho) | ho) | ho
        · obtain ⟨g, hg, h⟩ := cellOps_cases m hs.fits ho
          have hlt : flatten m.size g < m.total := flatten_lt (m := m.size3) hg
          rcases h with rfl | ⟨h, d, _, hh, _, rfl⟩
          · simp only [Op.upper]; omega
          · have hlt2 : flatten m.size h < m.total := flatten_lt (m := m.size3) hh
            simp only [Op.upper]; omega
        · obtain ⟨j, _, rfl, h1, h2, _⟩ := jumpOps_cases hs hl ho
          simp only [Op.upper]; omega
        · exact u1 o ho
        · rw [List.mem_flatMap] at ho
          obtain ⟨b, hbm, ho⟩ := ho
          obtain ⟨c, hc, v, _, h⟩ := bcOps_cases m _ _ _ ho
          rcases h with ⟨_, rfl⟩ | ⟨_, rfl⟩ <;> simp only [Op.upper] <;> omega
      · -- paths
        let R : Nat → Nat → Prop := fun a b => ∃ v, .ok (.r a b v) ∈ m.ops ip iniT ∨ .ok (.r b a v) ∈ m.ops ip iniT
        have hRsymm : ∀ {a b}, R a b → R b a := fun ⟨v, h⟩ => ⟨v, h.symm⟩
        have hstep : ∀ g h, InGrid m.size3 g → InGrid m.size3 h → StepsTo g h .bot → R (flatten m.size g) (flatten m.size h) := by
          intro g h hg hh hst
          have hmem := (mem_pairs m hs.fits hg hh).2 (.inr (.inr hst))
          unfold GModel.pairs at hmem
          rw [List.mem_filterMap] at hmem
          obtain ⟨o, ho, hpair⟩ := hmem
          rcases o with op | _ | _
          · cases op <;> simp [pair] at hpair
            case r a b v =>
              obtain ⟨rfl, rfl⟩ := hpair
              refine ⟨v, .inl ?_⟩
              unfold GModel.ops
              simp only [List.mem_append]
              exact .inl (.inl (.inl ho))
          · simp [pair] at hpair
          · simp [pair] at hpair
        have down : ∀ (x y : Nat), x < m.size.x → y < m.size.y → ∀ z, z < m.layers.length →
            Relation.ReflTransGen R (flatten m.size ⟨x, y, 0⟩) (flatten m.size ⟨x, y, z⟩) := by
          intro x y hx hy z
          induction z with
          | zero => intro _; exact .refl
          | succ z ih =>
            intro hz
            refine (ih (by omega)).tail (hstep _ _ ⟨hx, hy, by simp only [GModel.size3]; omega⟩ ⟨hx, hy, hz⟩ ?_)
            exact ⟨rfl, rfl, rfl⟩
        have symm : ∀ {a b}, Relation.ReflTransGen R a b → Relation.ReflTransGen R b a := by
          intro a b h
          induction h with
          | refl => exact .refl
          | tail _ h2 ih => exact Relation.ReflTransGen.head (hRsymm h2) ih
        have cell : ∀ g, InGrid m.size3 g → ∃ b, Relation.ReflTransGen R (flatten m.size g) b ∧ 0 < htcOf net b := by
          intro g hg
          have hup : Relation.ReflTransGen R (flatten m.size g) (flatten m.size ⟨g.x, g.y, 0⟩) :=
            symm (down g.x g.y hg.1 hg.2.1 g.z hg.2.2)
          have hT : ∀ z, z < m.layers.length → ∃ T, iniT[flatten m.size ⟨g.x, g.y, z⟩]? = some T := by
            intro z hz
            have : flatten m.size ⟨g.x, g.y, z⟩ < iniT.length := by
              rw [hl]; exact flatten_lt (m := m.size3) ⟨hg.1, hg.2.1, hz⟩
            exact ⟨_, List.getElem?_eq_getElem this⟩
          have fin : ∀ z, z < m.layers.length → (∃ b ∈ m.bcsAt ⟨g.x, g.y, z⟩, b.type = .htc ∧ b.value ≠ none) →
              0 < htcOf net (flatten m.size ⟨g.x, g.y, z⟩) := by
            intro z hz ⟨b, hbm, ht, hv⟩
            obtain ⟨T, hT⟩ := hT z hz
            have e := (build_last hb hs.fits hs.blocks (g := ⟨g.x, g.y, z⟩) ⟨hg.1, hg.2.1, hz⟩ hT).2
            have e2 := hhtc (flatten m.size ⟨g.x, g.y, z⟩)
            rw [e]
            refine (getLastD_pos ?_).2 ?_
            · intro v hv
              rw [List.mem_flatMap] at hv
              obtain ⟨b', hb', hv⟩ := hv
              have hall : b' ∈ m.allBCs := by
                unfold GModel.bcsAt at hb'
                unfold GModel.allBCs
                simp only [List.mem_append, List.mem_map, List.mem_filter] at hb' ⊢
                rcases hb' with ((hb' | hb') | ⟨q, hq, rfl⟩) | ⟨q, hq, rfl⟩
                · split_ifs at hb'
                  · exact .inl (.inl (.inl hb'))
                  · simp at hb'
                · split_ifs at hb'
                  · exact .inl (.inl (.inr hb'))
                  · simp at hb'
                · exact .inl (.inr ⟨q, hq.1, rfl⟩)
                · exact .inr ⟨q, hq.1, rfl⟩
              unfold BC.trans at hv
              split at hv
              · rename_i u ht' hu
                simp at hv
                subst hv
                exact mul_pos harea (hc.positive b' hall ht' u hu)
              · simp at hv
            · intro hnil
              rw [List.flatMap_eq_nil_iff] at hnil
              have := hnil b hbm
              unfold BC.trans at this
              rw [ht] at this
              cases hbv : b.value with
              | none => exact hv hbv
              | some u => rw [hbv] at this; simp at this
          have hz0 : 0 < m.layers.length := hs.layers
          rcases hc.face with ⟨b, hb1, hb2, hb3⟩ | ⟨b, hb1, hb2, hb3⟩
          · refine ⟨_, hup, fin 0 hz0 ⟨b, ?_, hb2, hb3⟩⟩
            simp [GModel.bcsAt, hb1]
          · refine ⟨_, hup.trans (down g.x g.y hg.1 hg.2.1 (m.layers.length - 1) (by omega)),
              fin _ (by omega) ⟨b, ?_, hb2, hb3⟩⟩
            unfold GModel.bcsAt
            simp only [List.mem_append]
            refine .inl (.inl (.inr ?_))
            rw [if_pos (by omega), hb1]; simp
        intro i hi
        rw [hnodes] at hi
        by_cases hit : i < m.total
        · obtain ⟨g, hg, _, e⟩ := (c33_numbering m.size3).2 i hit
          rw [size3_flat] at e
          rw [← e]
          exact cell g hg
        · obtain ⟨g, v, hg, hmem⟩ := u2 i (by omega) hi
          obtain ⟨b, hb1, hb2⟩ := cell g hg
          refine ⟨b, Relation.ReflTransGen.head ?_ hb1, hb2⟩
          refine ⟨v, .inr ?_⟩
          unfold GModel.ops
          simp only [List.mem_append]
          exact .inl (.inr hmem)
  obtain ⟨x, hx⟩ := c30_exists hg refT
  exact ⟨net, hb, hg, x, hx, fun y hy i hi => ((c30_maximum hg refT x hx).1 y hy i hi).symm⟩

/-- hypotheses of C62 -/
example : (exCool []).Sound (fun _ _ => .exn) ∧ (exCool []).Physical ∧ (exCool []).Cooled ∧ (0 : ℚ) < 1 / 1000 ∧
    [25, 25, 25, 25, 25, 25, 25, (25 : ℚ)].length = (exCool []).total := by
  refine ⟨⟨by unfold Fits; decide, by decide, ?_, by simp [exCool], ?_, ?_⟩, exCool_physical _, ⟨?_, ?_⟩, by norm_num, by decide⟩
  · constructor <;> intro b hb <;> simp [exCool] at hb
    subst hb; unfold BlockIn; decide
  · intro l hl ll ur total h
    simp only [exCool, List.mem_cons, List.not_mem_nil, or_false] at hl
    rcases hl with rfl | rfl <;> simp at h
    obtain ⟨rfl, rfl, _⟩ := h
    unfold BlockIn
    decide
  · intro l hl t h key x y
    simp only [exCool, List.mem_cons, List.not_mem_nil, or_false] at hl
    rcases hl with rfl | rfl <;> simp at h
    subst h
    unfold query exTable
    split_ifs
    · exact ⟨_, rfl⟩
    · exact ⟨_, rfl⟩
  · intro b hb ht v hv
    simp [GModel.allBCs, exCool] at hb
    rcases hb with rfl | rfl <;> simp at hv <;> subst hv <;> norm_num
  · exact .inl ⟨_, rfl, rfl, by simp⟩

end Ecad.GridT
