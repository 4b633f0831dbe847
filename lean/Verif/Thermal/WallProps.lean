import Verif.Thermal.WireHeatProps
import Verif.Thermal.GridSolveProps
/-!
C157: evenly heated stacks as plane walls.
-/
namespace Ecad.Wall
open Ecad.Thermal Ecad.GridT Finset

variable {K : Type} [Field K] [LinearOrder K]

/-! ## specification: a plane wall of layers -/

/-- heat per area that crosses the upper half of layer `z`, from sources `s` per area in the layers below and in itself -/
def flow (s : Nat → K) (N z : Nat) : K := ∑ l ∈ range N, if z ≤ l then s l else 0

/-- the rise of temperature from the middle of the first layer to the middle of layer `z`, for thicknesses `t` and conductivities `k` -/
def rise (s t k : Nat → K) (N z : Nat) : K := ∑ i ∈ range z, flow s N (i + 1) * (t i / 2 / k i + t (i + 1) / 2 / k (i + 1))

/-- the temperature in the middle of layer `z` of a wall that is cooled at its upper face with the coefficient `h` -/
def wall (s t k : Nat → K) (h refT : K) (N z : Nat) : K := refT + flow s N 0 / h + flow s N 0 * (t 0 / 2 / k 0) + rise s t k N z

/-! ## networks in layers -/

omit [LinearOrder K] in
theorem flow_step (s : Nat → K) {N z : Nat} (hz : z < N) : flow s N z = flow s N (z + 1) + s z := by
  have : s z = ∑ l ∈ range N, if l = z then s l else 0 := by
    rw [Finset.sum_ite_eq' (range N) z, if_pos (Finset.mem_range.2 hz)]
  rw [this, flow, flow, ← Finset.sum_add_distrib]
  apply Finset.sum_congr rfl
  intro l _
  rcases Nat.lt_trichotomy l z with h | h | h
  · rw [if_neg (by omega), if_neg (by omega), if_neg (by omega), add_zero]
  · rw [if_pos (by omega), if_neg (by omega), if_pos h, zero_add]
  · rw [if_pos (by omega), if_pos (by omega), if_neg (by omega), add_zero]

omit [LinearOrder K] in
theorem flow_end (s : Nat → K) (N : Nat) : flow s N N = 0 := by
  unfold flow
  apply Finset.sum_eq_zero
  intro l hl
  rw [Finset.mem_range] at hl
  rw [if_neg (by omega)]

/-- A network whose nodes lie in layers, with an area each, that exchange heat between neighbouring layers in proportion to their areas and are heated
and cooled so: temperatures that depend on the layer alone are a steady state. -/
theorem layered [IsStrictOrderedRing K] {net : Network K} (hin : InRange net) (hst : StoredOnce net) {lay : Nat → Nat} {a : Nat → K} {r s : Nat → K} {N : Nat} {h refT : K}
    (hN : ∀ i < net.length, lay i < N)
    (hfar : ∀ i < net.length, ∀ j < net.length, i ≠ j → conductance net i j ≠ 0 → lay j = lay i ∨ lay j = lay i + 1 ∨ lay i = lay j + 1)
    (hdown : ∀ i < net.length, lay i + 1 < N → (∑ j ∈ range net.length, if lay j = lay i + 1 then conductance net i j else 0) = a i / r (lay i))
    (hup : ∀ i < net.length, ∀ z, lay i = z + 1 → (∑ j ∈ range net.length, if lay j = z then conductance net i j else 0) = a i / r z)
    (htop : ∀ i < net.length, htcOf net i = if lay i = 0 then a i * h else 0) (hhf : ∀ i < net.length, hfOf net i = a i * s (lay i))
    (hh : h ≠ 0) (hr : ∀ z, z + 1 < N → r z ≠ 0) :
    Solves net refT (fun i => refT + flow s N 0 / h + ∑ z ∈ range (lay i), flow s N (z + 1) * r z) := by
  rw [solves_iff]
  intro i hi
  rw [WireHeat.kirchhoff hin hst _ hi]
  obtain ⟨W, hW⟩ : ∃ W : Nat → K, W = fun z => refT + flow s N 0 / h + ∑ l ∈ range z, flow s N (l + 1) * r l := ⟨_, rfl⟩
  have hW1 : ∀ z, W (z + 1) = W z + flow s N (z + 1) * r z := by
    intro z
    rw [hW]
    dsimp only
    rw [Finset.sum_range_succ]
    ring
  have hW0 : W 0 = refT + flow s N 0 / h := by rw [hW]; simp
  show ∑ j ∈ range net.length, conductance net i j * ((fun z => refT + flow s N 0 / h + ∑ l ∈ range z, flow s N (l + 1) * r l) (lay i) -
    (fun z => refT + flow s N 0 / h + ∑ l ∈ range z, flow s N (l + 1) * r l) (lay j)) + htcOf net i *
    (fun z => refT + flow s N 0 / h + ∑ l ∈ range z, flow s N (l + 1) * r l) (lay i) = _
  rw [← hW, htop i hi, hhf i hi]
  have hsplit : ∀ j ∈ range net.length, conductance net i j * (W (lay i) - W (lay j)) =
      (if lay j = lay i + 1 then conductance net i j else 0) * (W (lay i) - W (lay i + 1)) +
      (if lay j + 1 = lay i then conductance net i j else 0) * (W (lay i) - W (lay i - 1)) := by
    intro j hj
    rw [Finset.mem_range] at hj
    by_cases h1 : lay j = lay i + 1
    · rw [if_pos h1, if_neg (by omega), h1]; ring
    · by_cases h2 : lay j + 1 = lay i
      · rw [if_neg h1, if_pos h2, show lay i - 1 = lay j by omega]; ring
      · rw [if_neg h1, if_neg h2]
        by_cases hij : i = j
        · subst hij; ring
        · by_cases hc : conductance net i j = 0
          · rw [hc]; ring
          · rcases hfar i hi j hj hij hc with h3 | h3 | h3
            · rw [h3]; ring
            · exact absurd h3 h1
            · exact absurd h3.symm h2
  rw [Finset.sum_congr rfl hsplit, Finset.sum_add_distrib, ← Finset.sum_mul, ← Finset.sum_mul]
  have hdn : (∑ j ∈ range net.length, if lay j = lay i + 1 then conductance net i j else 0) * (W (lay i) - W (lay i + 1)) =
      - (a i * flow s N (lay i + 1)) := by
    by_cases hl : lay i + 1 < N
    · rw [hdown i hi hl, hW1]
      have := hr (lay i) hl
      field_simp
      ring
    · have he : lay i + 1 = N := by have := hN i hi; omega
      rw [he, flow_end, mul_zero, neg_zero]
      rw [Finset.sum_eq_zero, zero_mul]
      intro j hj
      rw [Finset.mem_range] at hj
      rw [if_neg (by have := hN j hj; omega)]
  have hfl := flow_step s (hN i hi)
  rw [hdn]
  cases hz : lay i with
  | zero =>
    rw [hz] at hfl
    rw [Finset.sum_eq_zero (fun j _ => by rw [if_neg (by omega)]), if_pos rfl, hW0, hfl]
    field_simp
    ring
  | succ z =>
    have e : (∑ j ∈ range net.length, if lay j + 1 = z + 1 then conductance net i j else 0) = a i / r z := by
      rw [← hup i hi z hz]
      apply Finset.sum_congr rfl
      intro j _
      by_cases hjz : lay j = z
      · rw [if_pos (by omega), if_pos hjz]
      · rw [if_neg (by omega), if_neg hjz]
    rw [hz] at hfl
    have := hr z (by have := hN i hi; omega)
    rw [e, if_neg (by omega), Nat.add_sub_cancel, hW1, hfl]
    field_simp
    ring

/-! ## grid models -/

/-- conductivity of metal and dielectric in the parts `c` and `1 - c` (400 and 70, the constants of the builder) -/
def mix (c : K) : K := c * 400 + (1 - c) * 70

/-- A stack heated evenly: without bond wires and powers of blocks, cooled at the top with the coefficient `h` and nowhere else; in layer `z` the part
`c z` of every cell is metal, the thickness is `t z`, and every cell has at most one source of heat, which gives the heat `s z` per area. -/
structure Even (ip : List (K × K) → K → Res K) (m : GModel K) (t c s : Nat → K) (h : K) : Prop where
  jumps : m.jumps = []
  blocks : ∀ l ∈ m.layers, ∀ ll ur total, Power.block ll ur total ∉ l.powers
  top : m.topBC = some ⟨.htc, some h⟩
  bot : ∀ b, m.botBC = some b → b.type = .heatFlux
  topBlocks : m.topBlocks = []
  botBlocks : m.botBlocks = []
  thick : ∀ z l, m.layers[z]? = some l → l.thickness = t z
  metal : ∀ z l, m.layers[z]? = some l → ∀ x < m.size.x, ∀ y < m.size.y, l.fraction x y = c z
  heat : ∀ g T, InGrid m.size3 g → (m.sources ip T g).length ≤ 1 ∧ (m.sources ip T g).sum = m.areaZ * s g.z

theorem even_k {ip : List (K × K) → K → Res K} {m : GModel K} {t c s : Nat → K} {h : K} (he : Even ip m t c s h) {g : Size3} (hg : InGrid m.size3 g) :
    m.k g = mix (c g.z) ∧ m.lenZ g.z = t g.z := by
  have hz : g.z < m.layers.length := hg.2.2
  have hl : m.layers[g.z]? = some m.layers[g.z] := List.getElem?_eq_getElem hz
  constructor
  · unfold GModel.k GModel.fraction mix metalK dielK
    rw [hl, Option.map_some, Option.getD_some, he.metal _ _ hl _ hg.1 _ hg.2.1]
  · unfold GModel.lenZ
    rw [hl, Option.map_some, Option.getD_some, he.thick _ _ hl]

/-- **C157.** The steady temperatures of a grid model that is heated evenly are the same in each layer, and rise from layer to layer by the heat that
crosses times the resistances of the halves of both layers. -/
theorem c157_grid_partial [IsStrictOrderedRing K] {ip : List (K × K) → K → Res K} {m : GModel K} (hs : m.Sound ip) (hp : m.Physical) {t c s : Nat → K} {h : K} (hh : 0 < h)
    (he : Even ip m t c s h) {minR : K} (hm : 0 < minR)
    (hr : ∀ z, z + 1 < m.layers.length → minR ≤ (t z / 2 / mix (c z) + t (z + 1) / 2 / mix (c (z + 1))) / m.areaZ) {iniT : List K} {net : Network K}
    (hb : m.build minR ip iniT = .ok (some net)) {refT : K} {X : Nat → K} (hX : Solves net refT X) {g : Size3} (hg : InGrid m.size3 g) :
    X (flatten m.size g) = refT + flow s m.layers.length 0 / h + rise s t (fun z => mix (c z)) m.layers.length g.z := by
  obtain ⟨hl, hrun⟩ := GridT.build_run hb
  have hcool : m.Cooled := by
    refine ⟨?_, .inl ⟨_, he.top, rfl, by simp⟩⟩
    intro b hbm ht v hv
    unfold GModel.allBCs at hbm
    rw [he.top, he.topBlocks, he.botBlocks] at hbm
    simp only [Option.toList_some, List.map_nil, List.append_nil, List.mem_append, List.mem_singleton, Option.mem_toList] at hbm
    rcases hbm with rfl | hbm
    · simp only [Option.some.injEq] at hv
      rw [← hv]
      exact hh
    · rw [he.bot b hbm] at ht
      cases ht
  obtain ⟨net', hb', hgr, x, hx, huniq⟩ := c62_solvable hs hp hcool hm hl refT
  rw [hb] at hb'
  have hnn : net = net' := by simpa using hb'
  subst hnn
  have hlen : net.length = m.total := by
    rw [(build_blocks hb hs.blocks hs.layers).1]
    have : m.blockTotals = [] := by
      unfold GModel.blockTotals
      rw [List.filterMap_eq_nil_iff]
      intro p hpm
      obtain ⟨_, l, hl', hq⟩ := mem_powers hpm
      cases hpp : p.2 with
      | grid _ => rfl
      | block ll ur total =>
        rw [hpp] at hq
        exact absurd hq (he.blocks l hl' ll ur total)
    rw [this]
    rfl
  have hso : StoredOnce net := run_stored hm _ hrun (c28_new noScen _)
  have harea : 0 < m.areaZ := mul_pos (mul_pos hp.resX hp.scaleH) (mul_pos hp.resY hp.scaleH)
  have hnum := c33_numbering m.size3
  have hcell : ∀ i < net.length, ∃ g, InGrid m.size3 g ∧ flatten m.size g = i := by
    intro i hi
    obtain ⟨g, h1, _, h3⟩ := hnum.2 i (by rw [hlen] at hi; exact hi)
    exact ⟨g, h1, h3⟩
  have hlay : ∀ g, InGrid m.size3 g → flatten m.size g / (m.size.x * m.size.y) = g.z := by
    intro g hg
    have := (hnum.1 g hg).2
    unfold gridIndex at this
    split at this
    · cases this
    · have h2 := congrArg Size3.z (Res.ok.inj this)
      exact h2
  have hlt : ∀ g, InGrid m.size3 g → flatten m.size g < net.length := by
    intro g hg
    rw [hlen]
    exact (hnum.1 g hg).1
  have hj : ∀ a b, m.jumpG minR a b = 0 := by
    intro a b
    unfold GModel.jumpG
    rw [he.jumps]
    rfl
  have hlink : ∀ g k, InGrid m.size3 g → InGrid m.size3 k → StepsTo g k .bot →
      conductance net (flatten m.size g) (flatten m.size k) = m.areaZ / (t g.z / 2 / mix (c g.z) + t (g.z + 1) / 2 / mix (c (g.z + 1))) := by
    intro g k hg hk hstep
    have := (build_conductance hb hs.fits hg hk).1 .bot (.inr (.inr rfl)) hstep
    have hz : k.z = g.z + 1 := hstep.2.2
    have hres : m.resTo g k .bot = (t g.z / 2 / mix (c g.z) + t (g.z + 1) / 2 / mix (c (g.z + 1))) / m.areaZ := by
      unfold GModel.resTo getRes
      simp only
      rw [(even_k he hg).1, (even_k he hg).2, (even_k he hk).1, (even_k he hk).2, hz]
      ring
    rw [this, hj, add_zero, hres, max_eq_left (hr g.z (by have : k.z < m.layers.length := hk.2.2; omega)), one_div_div]
  have hadj : ∀ g k, InGrid m.size3 g → InGrid m.size3 k → g ≠ k → conductance net (flatten m.size g) (flatten m.size k) ≠ 0 → Adjacent g k := by
    intro g k hg hk hne hc
    by_contra hna
    exact hc (by rw [(build_conductance hb hs.fits hg hk).2 hne hna, hj])
  have hval : ∀ g, InGrid m.size3 g → hfOf net (flatten m.size g) = m.areaZ * s g.z ∧ htcOf net (flatten m.size g) = if g.z = 0 then m.areaZ * h else 0 := by
    intro g hg
    have hget : iniT[flatten m.size g]? = some (iniT[flatten m.size g]'(by rw [hl, ← hlen]; exact hlt g hg)) := List.getElem?_eq_getElem _
    refine ⟨?_, ?_⟩
    · rw [(c47_grid_partial hb hs.fits hs.blocks).1 g _ hg hget (he.heat g _ hg).1, (he.heat g _ hg).2]
    · rw [(build_last hb hs.fits hs.blocks hg hget).2]
      have hbot : ((if g.z + 1 = m.layers.length then m.botBC.toList else []).flatMap fun b => b.trans m.areaZ) = [] := by
        rw [List.flatMap_eq_nil_iff]
        intro b hbm
        split at hbm
        · rw [Option.mem_toList] at hbm
          unfold BC.trans
          rw [he.bot b hbm]
        · cases hbm
      unfold GModel.bcsAt
      rw [he.topBlocks, he.botBlocks]
      simp only [List.filter_nil, List.map_nil, List.append_nil, List.flatMap_append, hbot]
      by_cases h0 : g.z = 0
      · rw [if_pos h0, if_pos h0, he.top]
        rfl
      · rw [if_neg h0, if_neg h0]
        rfl
  have hinj : ∀ g k, InGrid m.size3 g → InGrid m.size3 k → flatten m.size g = flatten m.size k → g = k := fun g k hg hk e => flatten_inj hg hk e
  have hrpos : ∀ z, z + 1 < m.layers.length → (t z / 2 / mix (c z) + t (z + 1) / 2 / mix (c (z + 1))) ≠ 0 := by
    intro z hz h0
    have := hr z hz
    rw [h0, zero_div] at this
    exact absurd this (not_le.2 hm)
  have hsol := layered (net := net) (refT := refT) hgr.inRange hso (lay := fun i => i / (m.size.x * m.size.y)) (a := fun _ => m.areaZ)
    (r := fun z => t z / 2 / mix (c z) + t (z + 1) / 2 / mix (c (z + 1))) (s := s) (N := m.layers.length) (h := h)
    (fun i hi => by
      obtain ⟨g, hg, rfl⟩ := hcell i hi
      beta_reduce
      rw [hlay g hg]
      exact hg.2.2)
    (fun i hi j hj hij hc => by
      obtain ⟨g, hg, rfl⟩ := hcell i hi
      obtain ⟨k, hk, rfl⟩ := hcell j hj
      beta_reduce
      rw [hlay g hg, hlay k hk]
      have := hadj g k hg hk (fun e => hij (by rw [e])) hc
      unfold Adjacent at this
      omega)
    (fun i hi hz => by
      obtain ⟨g, hg, rfl⟩ := hcell i hi
      beta_reduce at hz ⊢
      rw [hlay g hg] at hz ⊢
      have hk : InGrid m.size3 ⟨g.x, g.y, g.z + 1⟩ := ⟨hg.1, hg.2.1, hz⟩
      rw [Finset.sum_eq_single (flatten m.size ⟨g.x, g.y, g.z + 1⟩)]
      · rw [hlay _ hk, if_pos rfl]
        exact hlink g _ hg hk ⟨rfl, rfl, rfl⟩
      · intro j hjm hne
        obtain ⟨k, hk', rfl⟩ := hcell j (Finset.mem_range.1 hjm)
        rw [hlay k hk']
        split
        · rename_i hkz
          by_contra hc
          have := hadj g k hg hk' (fun e => by rw [e] at hkz; omega) hc
          unfold Adjacent at this
          apply hne
          have e1 : k.x = g.x := by omega
          have e2 : k.y = g.y := by omega
          rw [← e1, ← e2, ← hkz]
        · rfl
      · intro hn
        exact absurd (Finset.mem_range.2 (hlt _ hk)) hn)
    (fun i hi z hz => by
      obtain ⟨g, hg, rfl⟩ := hcell i hi
      beta_reduce at hz ⊢
      rw [hlay g hg] at hz
      have hgz : g.z < m.layers.length := hg.2.2
      have hk : InGrid m.size3 ⟨g.x, g.y, z⟩ := ⟨hg.1, hg.2.1, show z < m.layers.length by omega⟩
      rw [Finset.sum_eq_single (flatten m.size ⟨g.x, g.y, z⟩)]
      · rw [hlay _ hk, if_pos rfl, GridT.conductance_comm]
        exact hlink _ g hk hg ⟨rfl, rfl, hz⟩
      · intro j hjm hne
        obtain ⟨k, hk', rfl⟩ := hcell j (Finset.mem_range.1 hjm)
        rw [hlay k hk']
        split
        · rename_i hkz
          by_contra hc
          have := hadj g k hg hk' (fun e => by rw [e] at hz; omega) hc
          unfold Adjacent at this
          apply hne
          have e1 : k.x = g.x := by omega
          have e2 : k.y = g.y := by omega
          rw [← e1, ← e2, ← hkz]
        · rfl
      · intro hn
        exact absurd (Finset.mem_range.2 (hlt _ hk)) hn)
    (fun i hi => by
      obtain ⟨g, hg, rfl⟩ := hcell i hi
      beta_reduce
      rw [hlay g hg]
      exact (hval g hg).2)
    (fun i hi => by
      obtain ⟨g, hg, rfl⟩ := hcell i hi
      beta_reduce
      rw [hlay g hg]
      exact (hval g hg).1)
    hh.ne' hrpos
  have := (huniq X hX _ (hlt g hg)).trans (huniq _ hsol _ (hlt g hg)).symm
  rw [this]
  beta_reduce
  rw [hlay g hg]
  rfl

/-- The cooling acts on the middle of the first layer, not on its upper face: the temperatures are those of the wall only if no heat flows out. In all
other cases every layer is too cold by the drop in the upper half of the first layer. -/
theorem c157_surface_refuted [IsStrictOrderedRing K] {ip : List (K × K) → K → Res K} {m : GModel K} (hs : m.Sound ip) (hp : m.Physical) {t c s : Nat → K} {h : K} (hh : 0 < h)
    (he : Even ip m t c s h) {minR : K} (hm : 0 < minR)
    (hr : ∀ z, z + 1 < m.layers.length → minR ≤ (t z / 2 / mix (c z) + t (z + 1) / 2 / mix (c (z + 1))) / m.areaZ) {iniT : List K} {net : Network K}
    (hb : m.build minR ip iniT = .ok (some net)) {refT : K} {X : Nat → K} (hX : Solves net refT X) {g : Size3} (hg : InGrid m.size3 g) :
    (wall s t (fun z => mix (c z)) h refT m.layers.length g.z - X (flatten m.size g) = flow s m.layers.length 0 * (t 0 / 2 / mix (c 0))) ∧
    (X (flatten m.size g) = wall s t (fun z => mix (c z)) h refT m.layers.length g.z ↔ flow s m.layers.length 0 = 0) := by
  have e := c157_grid_partial hs hp hh he hm hr hb hX hg
  have h0 : InGrid m.size3 ⟨g.x, g.y, 0⟩ := ⟨hg.1, hg.2.1, hs.layers⟩
  have hl : m.layers[0]? = some (m.layers[0]'hs.layers) := List.getElem?_eq_getElem hs.layers
  have ht : 0 < t 0 := by
    rw [← he.thick 0 _ hl]
    exact hp.thickness _ (List.getElem_mem _)
  have hk : 0 < mix (c 0) := by
    rw [← (even_k he h0).1]
    exact k_pos hp h0.2.2
  have hd : wall s t (fun z => mix (c z)) h refT m.layers.length g.z - X (flatten m.size g) = flow s m.layers.length 0 * (t 0 / 2 / mix (c 0)) := by
    rw [e]
    unfold wall
    ring
  refine ⟨hd, ?_⟩
  have hpos : t 0 / 2 / mix (c 0) ≠ 0 := (div_pos (div_pos ht two_pos) hk).ne'
  constructor
  · intro h1
    rw [h1, sub_self] at hd
    exact (mul_eq_zero.1 hd.symm).resolve_right hpos
  · intro h1
    rw [h1, zero_mul, sub_eq_zero] at hd
    exact hd.symm

/-- A model without powers that takes heat flux at the bottom is heated evenly. -/
theorem even_flux (ip : List (K × K) → K → Res K) {m : GModel K} {t c : Nat → K} {h q : K} (hj : m.jumps = []) (hpow : ∀ l ∈ m.layers, l.powers = [])
    (htop : m.topBC = some ⟨.htc, some h⟩) (hbot : m.botBC = some ⟨.heatFlux, some q⟩) (ht : m.topBlocks = []) (hb : m.botBlocks = [])
    (hth : ∀ z l, m.layers[z]? = some l → l.thickness = t z)
    (hme : ∀ z l, m.layers[z]? = some l → ∀ x < m.size.x, ∀ y < m.size.y, l.fraction x y = c z) :
    Even ip m t c (fun z => if z + 1 = m.layers.length then q else 0) h := by
  refine ⟨hj, fun l hl ll ur total hm => ?_, htop, fun b e => ?_, ht, hb, hth, hme, fun g T hg => ?_⟩
  · rw [hpow l hl] at hm
    cases hm
  · rw [hbot] at e
    rw [← Option.some.inj e]
  · have hz : g.z < m.layers.length := hg.2.2
    have e : m.sources ip T g = if g.z + 1 = m.layers.length then [m.areaZ * q] else [] := by
      unfold GModel.sources GModel.bcsAt
      rw [List.getElem?_eq_getElem hz, Option.map_some, Option.getD_some, hpow _ (List.getElem_mem _), ht, hb, htop, hbot]
      simp only [List.flatMap_nil, List.filter_nil, List.map_nil, List.append_nil, List.nil_append, Option.toList_some, List.flatMap_append]
      by_cases h0 : g.z = 0
      · rw [if_pos h0]
        by_cases h1 : g.z + 1 = m.layers.length
        · rw [if_pos h1, if_pos h1]; rfl
        · rw [if_neg h1, if_neg h1]; rfl
      · rw [if_neg h0]
        by_cases h1 : g.z + 1 = m.layers.length
        · rw [if_pos h1, if_pos h1]; rfl
        · rw [if_neg h1, if_neg h1]; rfl
    rw [e]
    split <;> simp

/-- four cells in two layers, heated from below -/
def exWall : GModel ℚ :=
  { size := ⟨2, 1⟩, resX := 1, resY := 1, scaleH := 1, layers := [⟨2, fun _ _ => 1, []⟩, ⟨4, fun _ _ => 1 / 2, []⟩],
    jumps := [], topBC := some ⟨.htc, some 5⟩, botBC := some ⟨.heatFlux, some 40⟩, topBlocks := [], botBlocks := [] }

/-- hypotheses of the theorems on values, with heat that flows -/
example : ∃ net, exWall.Sound (fun _ _ => .exn) ∧ exWall.Physical ∧
    Even (fun _ _ => .exn) exWall (fun z => if z = 0 then 2 else 4) (fun z => if z = 0 then 1 else 1 / 2) (fun z => if z + 1 = 2 then 40 else 0) 5 ∧
    exWall.build (1 / 1000) (fun _ _ => .exn) [25, 25, 25, 25] = .ok (some net) ∧
    (1 / 1000 : ℚ) ≤ (2 / 2 / mix 1 + 4 / 2 / mix (1 / 2)) / exWall.areaZ ∧ InGrid exWall.size3 ⟨1, 0, 1⟩ ∧
    flow (fun z => if z + 1 = 2 then (40 : ℚ) else 0) 2 0 = 40 := by
  refine ⟨_, ⟨by unfold Fits; decide, by decide, ⟨?_, ?_⟩, ?_, ?_, ?_⟩, ⟨by norm_num [exWall], by norm_num [exWall], by norm_num [exWall], ?_, ?_⟩,
    even_flux _ rfl ?_ rfl rfl rfl rfl ?_ ?_, rfl, by norm_num [mix, exWall, GModel.areaZ, GModel.lenX, GModel.lenY], by unfold InGrid; decide, by decide +kernel⟩
  · intro b hb; cases hb
  · intro b hb; cases hb
  · intro b hb; cases hb
  · intro l hl ll ur total hm
    simp only [exWall, List.mem_cons, List.not_mem_nil, or_false] at hl
    rcases hl with rfl | rfl <;> cases hm
  · intro l hl tt hm
    simp only [exWall, List.mem_cons, List.not_mem_nil, or_false] at hl
    rcases hl with rfl | rfl <;> cases hm
  · intro l hl
    simp only [exWall, List.mem_cons, List.not_mem_nil, or_false] at hl
    rcases hl with rfl | rfl <;> norm_num
  · intro l hl x y
    simp only [exWall, List.mem_cons, List.not_mem_nil, or_false] at hl
    rcases hl with rfl | rfl <;> norm_num
  · intro l hl
    simp only [exWall, List.mem_cons, List.not_mem_nil, or_false] at hl
    rcases hl with rfl | rfl <;> rfl
  · intro z l hl
    match z, hl with
    | 0, hl => cases hl; rfl
    | 1, hl => cases hl; rfl
    | _ + 2, hl => cases hl
  · intro z l hl x _ y _
    match z, hl with
    | 0, hl => cases hl; rfl
    | 1, hl => cases hl; rfl
    | _ + 2, hl => cases hl

/-! ## prism models -/

open Ecad.PrismT

/-- A prism model heated evenly: every triangle of the mesh has an element in every layer, there are no bond wires, the top is cooled with the coefficient
`h` and nothing else is cooled; at the temperatures `iniT` all elements of layer `l` conduct heat with `k l` across the layer, and each has at most one source of heat,
which gives the heat `s l` per area. -/
structure EvenP (m : PModel K) (mesh : Mesh) (layers : Nat) (info : Nat → Nat → Option (Cell K)) (iniT : List K) (k s : Nat → K) (h : K) : Prop where
  full : ∀ l < layers, ∀ t < mesh.length, (info l t).isSome
  top : m.topBC = some ⟨.htc, some h⟩
  bot : ∀ b, m.botBC = some b → b.type = .heatFlux
  topBlocks : m.topBlocks = []
  botBlocks : m.botBlocks = []
  conducts : ∀ l t c T, cellAt mesh.length layers info l t = some c → iniT[gid mesh.length layers info l t]? = some T → m.k c.mat T 2 = k l
  heat : ∀ l t c T, cellAt mesh.length layers info l t = some c → iniT[gid mesh.length layers info l t]? = some T →
    (m.sources (prismAt mesh layers info l t c) T).length ≤ 1 ∧ (m.sources (prismAt mesh layers info l t c) T).sum = m.area t * s l

omit [LinearOrder K] in
theorem evenP_cell {m : PModel K} {mesh : Mesh} {layers : Nat} {info : Nat → Nat → Option (Cell K)} {iniT : List K} {k s : Nat → K} {h : K}
    (he : EvenP m mesh layers info iniT k s h) {l t : Nat} (hl : l < layers) (ht : t < mesh.length) : ∃ c, cellAt mesh.length layers info l t = some c := by
  obtain ⟨c, hc⟩ := Option.isSome_iff_exists.1 (he.full l hl t ht)
  exact ⟨c, by unfold cellAt; rw [if_pos ⟨hl, ht⟩, hc]⟩

/-- elements that exchange heat are in one layer, or of one triangle in layers next to each other -/
theorem prism_far {minR : K} {m : PModel K} {mesh : Mesh} {layers : Nat} {info : Nat → Nat → Option (Cell K)} {wires : List (Wire K)}
    (hx : Extracted m mesh layers info wires) {iniT : List K} {net : Network K} (hb : m.build minR iniT = .ok (some net)) {l t l' t' : Nat} {c c' : Cell K}
    (hc : cellAt mesh.length layers info l t = some c) (hc' : cellAt mesh.length layers info l' t' = some c')
    (hne : gid mesh.length layers info l t ≠ gid mesh.length layers info l' t')
    (hcond : conductance net (gid mesh.length layers info l t) (gid mesh.length layers info l' t') ≠ 0) :
    l = l' ∨ (t = t' ∧ (l' = l + 1 ∨ l = l' + 1)) := by
  obtain ⟨h1, h2, h3, h4⟩ := extracted_prisms hx
  have wf := (extracted_wf hx).1
  have hlen := (PrismT.build_run hb).1
  have key : ∀ l t l' t' c c', cellAt mesh.length layers info l t = some c → cellAt mesh.length layers info l' t' = some c' →
      gid mesh.length layers info l t < gid mesh.length layers info l' t' →
      conductance net (gid mesh.length layers info l t) (gid mesh.length layers info l' t') ≠ 0 → l = l' ∨ (t = t' ∧ (l' = l + 1 ∨ l = l' + 1)) := by
    intro l t l' t' c c' hc hc' hlt hcond
    have hg := gid_lt hc
    have hg' := gid_lt hc'
    rw [← h1] at hg hg'
    have htot : totalPrisms m.off ≤ m.total := by rw [PModel.total]; omega
    have hT := List.getElem?_eq_getElem (l := iniT) (i := gid mesh.length layers info l t) (by omega)
    have hT' := List.getElem?_eq_getElem (l := iniT) (i := gid mesh.length layers info l' t') (by omega)
    rw [conductance_links hb wf (h3 l t c hc) hT (h3 l' t' c' hc') hT' hlt] at hcond
    have hmem : some (gid mesh.length layers info l' t') ∈ (prismAt mesh layers info l t c).links := by
      by_contra hn
      unfold Prism.links at hn
      simp only [List.mem_cons, List.not_mem_nil, or_false, not_or] at hn
      apply hcond
      rw [if_neg (fun e => hn.1 e.symm), if_neg (fun e => hn.2.1 e.symm), if_neg (fun e => hn.2.2.1 e.symm), if_neg (fun e => hn.2.2.2.1 e.symm),
        if_neg (fun e => hn.2.2.2.2 e.symm)]
      simp
    obtain ⟨l2, t2, c2, hc2, he2, hcase⟩ := mem_links hmem
    obtain ⟨rfl, rfl⟩ := (gid_bijective mesh.length layers info).1 _ _ _ _ _ _ hc' hc2 he2
    rcases hcase with ⟨h5, _⟩ | h5
    · exact .inl h5
    · exact .inr h5
  rcases Nat.lt_or_gt_of_ne hne with hlt | hgt
  · exact key l t l' t' c c' hc hc' hlt hcond
  · have := key l' t' l t c' c hc' hc hgt (by rw [GridT.conductance_comm]; exact hcond)
    omega

/-- **C157, prism models.** -/
theorem c157_prism_partial [IsStrictOrderedRing K] {m : PModel K} {mesh : Mesh} {layers : Nat} {info : Nat → Nat → Option (Cell K)}
    (hx : Extracted m mesh layers info []) (hmut : Mutual mesh) (harea : ∀ t, 0 < m.area t) {iniT : List K} {k s : Nat → K} {h : K} (hh : 0 < h)
    (he : EvenP m mesh layers info iniT k s h) {minR : K} (hm : 0 < minR)
    (hr : ∀ l, l + 1 < layers → ∀ t < mesh.length, minR ≤ (m.height l / 2 / k l + m.height (l + 1) / 2 / k (l + 1)) / m.area t) {net : Network K}
    (hb : m.build minR iniT = .ok (some net)) {refT : K} {X : Nat → K} (hX : Solves net refT X) {l t : Nat} (hl : l < layers) (ht : t < mesh.length) :
    X (gid mesh.length layers info l t) = refT + flow s layers 0 / h + rise s m.height k layers l := by
  obtain ⟨hlen, hrun⟩ := PrismT.build_run hb
  obtain ⟨h1, h2, h3, h4⟩ := extracted_prisms hx
  have wf := (extracted_wf hx).1
  have hlines : m.lines = [] := by
    have := hx.lines
    unfold addWires at this
    exact (Res.ok.inj this).symm
  have hcool : m.Cooled := by
    refine ⟨harea, ?_, .inl ⟨h, he.top⟩⟩
    rintro bc (e | e | ⟨b, hbm, _⟩ | ⟨b, hbm, _⟩) hty v hv
    · rw [he.top] at e
      have e' := Option.some.inj e
      rw [← e'] at hv
      rw [← Option.some.inj hv]
      exact hh
    · rw [he.bot bc e] at hty
      cases hty
    · rw [he.topBlocks] at hbm
      cases hbm
    · rw [he.botBlocks] at hbm
      cases hbm
  obtain ⟨net', hb', hgr, x, hxs, huniq⟩ := c64_solvable hx hmut hcool hm hlen refT
  rw [hb] at hb'
  have hnn : net = net' := by simpa using hb'
  subst hnn
  have hnet : net.length = totalPrisms m.off := by
    obtain ⟨net', hb', hlen'⟩ := c63_builds hx minR hlen
    rw [hb] at hb'
    have hnn : net = net' := by simpa using hb'
    subst hnn
    rw [hlen', PModel.total, hlines]
    simp
  have htot : m.total = totalPrisms m.off := by rw [PModel.total, hlines]; simp
  have hcell : ∀ i < net.length, ∃ l t c, cellAt mesh.length layers info l t = some c ∧ gid mesh.length layers info l t = i :=
    fun i hi => (gid_bijective mesh.length layers info).2 i (by omega)
  have hlt : ∀ {l t c}, cellAt mesh.length layers info l t = some c → gid mesh.length layers info l t < net.length := by
    intro l t c hc
    rw [hnet, h1]
    exact gid_lt hc
  have hget : ∀ {l t c}, cellAt mesh.length layers info l t = some c → ∃ T, iniT[gid mesh.length layers info l t]? = some T :=
    fun hc => ⟨_, List.getElem?_eq_getElem (by have := hlt hc; omega)⟩
  have hlay : ∀ {l t c}, cellAt mesh.length layers info l t = some c → (m.prisms[gid mesh.length layers info l t]?.map Prism.layer).getD 0 = l := by
    intro l t c hc
    rw [h3 l t c hc]
    rfl
  have htri : ∀ {l t c}, cellAt mesh.length layers info l t = some c →
      (m.prisms[gid mesh.length layers info l t]?.map fun p => m.area p.elem.tri).getD 0 = m.area t := by
    intro l t c hc
    rw [h3 l t c hc]
    rfl
  have hlink : ∀ {l t c c'}, cellAt mesh.length layers info l t = some c → cellAt mesh.length layers info (l + 1) t = some c' →
      conductance net (gid mesh.length layers info l t) (gid mesh.length layers info (l + 1) t) =
        m.area t / (m.height l / 2 / k l + m.height (l + 1) / 2 / k (l + 1)) := by
    intro l t c c' hc hc'
    obtain ⟨T, hT⟩ := hget hc
    obtain ⟨T', hT'⟩ := hget hc'
    have hl2 := cellAt_lt hc'
    have e : m.height l / 2 / (k l * m.area t) + m.height (l + 1) / 2 / (k (l + 1) * m.area t) =
        (m.height l / 2 / k l + m.height (l + 1) / 2 / k (l + 1)) / m.area t := by
      rw [add_div, div_div (m.height l / 2), div_div (m.height (l + 1) / 2)]
    rw [c65_layers hx hb hc hc' hT hT', he.conducts _ _ _ _ hc hT, he.conducts _ _ _ _ hc' hT', e, max_eq_left (hr l hl2.1 t hl2.2), one_div_div]
  have hval : ∀ {l t c}, cellAt mesh.length layers info l t = some c → hfOf net (gid mesh.length layers info l t) = m.area t * s l ∧
      htcOf net (gid mesh.length layers info l t) = if l = 0 then m.area t * h else 0 := by
    intro l t c hc
    obtain ⟨T, hT⟩ := hget hc
    obtain ⟨e1, e2⟩ := PrismT.build_last hb wf (h3 l t c hc) hT
    obtain ⟨q1, q2⟩ := he.heat l t c T hc hT
    refine ⟨?_, ?_⟩
    · rw [e1, ← q2]
      match m.sources (prismAt mesh layers info l t c) T, q1 with
      | [], _ => rfl
      | [a], _ => simp
    · rw [e2]
      have hbot : (m.botBC.toList.flatMap fun bc => onFace .htc bc (m.area t)) = [] := by
        rw [List.flatMap_eq_nil_iff]
        intro b hbm
        rw [Option.mem_toList] at hbm
        unfold onFace
        rw [he.bot b hbm]
        cases b.value <;> rfl
      have htopn : (gslotAbove mesh.length layers info l t = none) ↔ l = 0 := by
        cases l with
        | zero => exact ⟨fun _ => rfl, fun _ => rfl⟩
        | succ j =>
          obtain ⟨c2, hc2⟩ := evenP_cell he (l := j) (t := t) (by have := cellAt_lt hc; omega) (cellAt_lt hc).2
          constructor
          · intro hn
            have hn' : gslot mesh.length layers info j t = none := hn
            unfold gslot at hn'
            rw [hc2] at hn'
            cases hn'
          · intro hn
            cases hn
      unfold PModel.faces
      rw [he.topBlocks, he.botBlocks]
      show (((if gslotAbove mesh.length layers info l t = none then m.topBC.toList.flatMap fun bc => onFace .htc bc (m.area t) else []) ++
        (if gslot mesh.length layers info (l + 1) t = none then m.botBC.toList.flatMap fun bc => onFace .htc bc (m.area t) else []) ++ []) ++ []).getLastD 0 = _
      rw [hbot, he.top, ite_self, List.append_nil, List.append_nil, List.append_nil]
      by_cases h0 : l = 0
      · rw [if_pos (htopn.2 h0), if_pos h0, mul_comm]
        rfl
      · rw [if_neg (fun hn => h0 (htopn.1 hn)), if_neg h0]
        rfl
  have hbij := (gid_bijective mesh.length layers info).1
  have hrpos : ∀ l, l + 1 < layers → (m.height l / 2 / k l + m.height (l + 1) / 2 / k (l + 1)) ≠ 0 := by
    intro z hz h0
    have := hr z hz t ht
    rw [h0, zero_div] at this
    exact absurd this (not_le.2 hm)
  have hsol := layered (net := net) (refT := refT) hgr.inRange (run_stored hm _ hrun (c28_new noScen _))
    (lay := fun i => (m.prisms[i]?.map Prism.layer).getD 0) (a := fun i => (m.prisms[i]?.map fun p => m.area p.elem.tri).getD 0)
    (r := fun z => m.height z / 2 / k z + m.height (z + 1) / 2 / k (z + 1)) (s := s) (N := layers) (h := h)
    (fun i hi => by
      obtain ⟨l, t, c, hc, rfl⟩ := hcell i hi
      beta_reduce
      rw [hlay hc]
      exact (cellAt_lt hc).1)
    (fun i hi j hj hij hcond => by
      obtain ⟨l, t, c, hc, rfl⟩ := hcell i hi
      obtain ⟨l', t', c', hc', rfl⟩ := hcell j hj
      beta_reduce
      rw [hlay hc, hlay hc']
      have := prism_far hx hb hc hc' hij hcond
      omega)
    (fun i hi hz => by
      obtain ⟨l, t, c, hc, rfl⟩ := hcell i hi
      beta_reduce at hz ⊢
      rw [hlay hc] at hz ⊢
      obtain ⟨c2, hc2⟩ := evenP_cell he hz (cellAt_lt hc).2
      rw [Finset.sum_eq_single (gid mesh.length layers info (l + 1) t)]
      · rw [hlay hc2, if_pos rfl, htri hc]
        exact hlink hc hc2
      · intro j hjm hne
        obtain ⟨l', t', c', hc', rfl⟩ := hcell j (Finset.mem_range.1 hjm)
        rw [hlay hc']
        split
        · rename_i hlz
          subst hlz
          by_contra hcond
          have := prism_far hx hb hc hc' (fun e => by have := (hbij _ _ _ _ _ _ hc hc' e).1; omega) hcond
          have e : t = t' := by omega
          exact hne (by rw [e])
        · rfl
      · intro hn
        exact absurd (Finset.mem_range.2 (hlt hc2)) hn)
    (fun i hi z hz => by
      obtain ⟨l, t, c, hc, rfl⟩ := hcell i hi
      beta_reduce at hz ⊢
      rw [hlay hc] at hz
      subst hz
      obtain ⟨c2, hc2⟩ := evenP_cell he (l := z) (t := t) (by have := cellAt_lt hc; omega) (cellAt_lt hc).2
      rw [Finset.sum_eq_single (gid mesh.length layers info z t)]
      · rw [hlay hc2, if_pos rfl, htri hc, GridT.conductance_comm]
        exact hlink hc2 hc
      · intro j hjm hne
        obtain ⟨l', t', c', hc', rfl⟩ := hcell j (Finset.mem_range.1 hjm)
        rw [hlay hc']
        split
        · rename_i hlz
          subst hlz
          by_contra hcond
          have := prism_far hx hb hc hc' (fun e => by have := (hbij _ _ _ _ _ _ hc hc' e).1; omega) hcond
          have e : t = t' := by omega
          exact hne (by rw [e])
        · rfl
      · intro hn
        exact absurd (Finset.mem_range.2 (hlt hc2)) hn)
    (fun i hi => by
      obtain ⟨l, t, c, hc, rfl⟩ := hcell i hi
      beta_reduce
      rw [hlay hc, htri hc]
      exact (hval hc).2)
    (fun i hi => by
      obtain ⟨l, t, c, hc, rfl⟩ := hcell i hi
      beta_reduce
      rw [hlay hc, htri hc]
      exact (hval hc).1)
    hh.ne' hrpos
  obtain ⟨c, hc⟩ := evenP_cell he hl ht
  rw [(huniq X hX _ (hlt hc)).trans (huniq _ hsol _ (hlt hc)).symm]
  beta_reduce
  rw [hlay hc]
  rfl

/-- In prism models, too, the cooling acts on the middle of the first layer: every layer is too cold by the drop in its upper half. -/
theorem c157_prism_surface_refuted [IsStrictOrderedRing K] {m : PModel K} {mesh : Mesh} {layers : Nat} {info : Nat → Nat → Option (Cell K)}
    (hx : Extracted m mesh layers info []) (hmut : Mutual mesh) (harea : ∀ t, 0 < m.area t) {iniT : List K} {k s : Nat → K} {h : K} (hh : 0 < h)
    (he : EvenP m mesh layers info iniT k s h) (hk : 0 < k 0) (hth : 0 < m.height 0) {minR : K} (hm : 0 < minR)
    (hr : ∀ l, l + 1 < layers → ∀ t < mesh.length, minR ≤ (m.height l / 2 / k l + m.height (l + 1) / 2 / k (l + 1)) / m.area t) {net : Network K}
    (hb : m.build minR iniT = .ok (some net)) {refT : K} {X : Nat → K} (hX : Solves net refT X) {l t : Nat} (hl : l < layers) (ht : t < mesh.length) :
    (wall s m.height k h refT layers l - X (gid mesh.length layers info l t) = flow s layers 0 * (m.height 0 / 2 / k 0)) ∧
    (X (gid mesh.length layers info l t) = wall s m.height k h refT layers l ↔ flow s layers 0 = 0) := by
  have e := c157_prism_partial hx hmut harea hh he hm hr hb hX hl ht
  have hd : wall s m.height k h refT layers l - X (gid mesh.length layers info l t) = flow s layers 0 * (m.height 0 / 2 / k 0) := by
    rw [e]
    unfold wall
    ring
  refine ⟨hd, ?_⟩
  have hpos : m.height 0 / 2 / k 0 ≠ 0 := (div_pos (div_pos hth two_pos) hk).ne'
  constructor
  · intro h1
    rw [h1, sub_self] at hd
    exact (mul_eq_zero.1 hd.symm).resolve_right hpos
  · intro h1
    rw [h1, zero_mul, sub_eq_zero] at hd
    exact hd.symm

/-- A prism model without powers that takes heat flux at the bottom is heated evenly. -/
theorem evenP_flux {m : PModel K} {mesh : Mesh} {layers : Nat} {info : Nat → Nat → Option (Cell K)} {iniT : List K} {k : Nat → K} {h q : K}
    (hfull : ∀ l < layers, ∀ t < mesh.length, (info l t).isSome) (hpow : ∀ l t c, info l t = some c → c.power = none)
    (htop : m.topBC = some ⟨.htc, some h⟩) (hbot : m.botBC = some ⟨.heatFlux, some q⟩) (ht : m.topBlocks = []) (hb : m.botBlocks = [])
    (hk : ∀ l t c, info l t = some c → ∀ T, m.k c.mat T 2 = k l) : EvenP m mesh layers info iniT k (fun l => if l + 1 = layers then q else 0) h := by
  have hinfo : ∀ {l t c}, cellAt mesh.length layers info l t = some c → info l t = some c := by
    intro l t c hc
    unfold cellAt at hc
    split at hc
    · exact hc
    · cases hc
  refine ⟨hfull, htop, fun b e => ?_, ht, hb, fun l t c T hc _ => hk l t c (hinfo hc) T, fun l t c T hc _ => ?_⟩
  · rw [hbot] at e
    rw [← Option.some.inj e]
  · have hlt := cellAt_lt hc
    have hnone : gslot mesh.length layers info (l + 1) t = none ↔ l + 1 = layers := by
      unfold gslot cellAt
      by_cases h1 : l + 1 = layers
      · rw [if_neg (by omega)]
        exact ⟨fun _ => h1, fun _ => rfl⟩
      · rw [if_pos (by omega)]
        obtain ⟨c2, hc2⟩ := Option.isSome_iff_exists.1 (hfull (l + 1) (by omega) t hlt.2)
        rw [hc2]
        exact ⟨(fun hn => by cases hn), fun hn => absurd hn h1⟩
    have e : m.sources (prismAt mesh layers info l t c) T = if l + 1 = layers then [q * m.area t] else [] := by
      unfold PModel.sources PModel.faces
      rw [ht, hb, htop, hbot]
      show (c.power.toList.map fun w => w.2.2 T * w.1) ++ ((((if gslotAbove mesh.length layers info l t = none then [] ++ [] else []) ++
        (if gslot mesh.length layers info (l + 1) t = none then [q * m.area t] ++ [] else [])) ++ []) ++ []) = _
      rw [hpow l t c (hinfo hc)]
      simp [hnone]
    rw [e]
    split <;> simp [mul_comm]

/-- the hypotheses of the theorems on prism models are met by a model of two triangles and two layers, with heat that flows -/
example : ∃ (m : PModel ℚ) (net : Network ℚ) (X : Nat → ℚ), Extracted m exMesh 2 (fun l _ => some ⟨l, none⟩) [] ∧ Mutual exMesh ∧ (∀ t, 0 < m.area t) ∧
    EvenP m exMesh 2 (fun l _ => some ⟨l, none⟩) (List.replicate m.total 25) (fun l => if l = 0 then 100 else 50) (fun l => if l + 1 = 2 then 40 else 0) 5 ∧
    (∀ l, l + 1 < 2 → ∀ t < exMesh.length, (1 / 1000 : ℚ) ≤
      (m.height l / 2 / (if l = 0 then 100 else 50) + m.height (l + 1) / 2 / (if l + 1 = 0 then 100 else 50)) / m.area t) ∧
    m.build (1 / 1000) (List.replicate m.total 25) = .ok (some net) ∧ Solves net 20 X ∧ flow (fun l => if l + 1 = 2 then (40 : ℚ) else 0) 2 0 = 40 := by
  obtain ⟨off, ps, he, h1, h2, h3⟩ := buildPrisms_eq (K := ℚ) exMesh 2 (fun l _ => some ⟨l, none⟩)
  obtain ⟨m, hm⟩ : ∃ m : PModel ℚ, m = ⟨off, ps, [], fun _ => 2, fun _ _ => 1, fun _ _ => 1, fun _ _ => 2, fun _ => 3, fun mat _ _ => if mat = 0 then 100 else 50,
    fun _ _ => 1, fun _ _ => 1, fun _ _ => 1, some ⟨.htc, some 5⟩, some ⟨.heatFlux, some 40⟩, [], []⟩ := ⟨_, rfl⟩
  have hx : Extracted m exMesh 2 (fun l _ => some ⟨l, none⟩) [] := by
    subst hm
    exact ⟨he, rfl, fun w hw => by cases hw⟩
  have ha : ∀ t, 0 < m.area t := by subst hm; intro t; norm_num
  have hc : m.Cooled := by
    subst hm
    refine ⟨fun t => by norm_num, ?_, .inl ⟨5, rfl⟩⟩
    rintro bc (e | e | ⟨b, hbm, _⟩ | ⟨b, hbm, _⟩) hty v hv
    · rw [← Option.some.inj e] at hv
      rw [← Option.some.inj hv]
      norm_num
    · rw [← Option.some.inj e] at hty
      cases hty
    · cases hbm
    · cases hbm
  obtain ⟨net, hb, _, X, hX, _⟩ := c64_solvable hx exMesh_mutual hc (minR := 1 / 1000) (by norm_num) (iniT := List.replicate m.total 25) (by simp) 20
  refine ⟨m, net, X, hx, exMesh_mutual, ha, ?_, ?_, hb, hX, by decide +kernel⟩
  · apply evenP_flux (fun _ _ _ _ => rfl)
    · intro l t c e; rw [← Option.some.inj e]
    · subst hm; rfl
    · subst hm; rfl
    · subst hm; rfl
    · subst hm; rfl
    · intro l t c e T
      rw [← Option.some.inj e]
      subst hm
      rfl
  · intro l hl t _
    have : l = 0 := by omega
    subst this
    subst hm
    norm_num

/-! ## stackup models -/

omit [LinearOrder K] in
theorem list_sum_range {α : Type} (f : α → K) (ps : List α) : (ps.map f).sum = ∑ j ∈ range ps.length, (ps[j]?.map f).getD 0 := by
  induction ps with
  | nil => rfl
  | cons a ps ih =>
    rw [List.map_cons, List.sum_cons, List.length_cons, Finset.sum_range_succ', ih, add_comm]
    rfl

/-- A stackup model heated evenly: every layer but the last lies with its whole area on the next one, and every layer but the first is covered by the one before; there are no bond
wires, the top is cooled with the coefficient `h`, the bottom has no boundary condition; at the temperatures `iniT` all elements of layer `l` conduct heat with `k l` across the layer and have
powers that give the heat `s l` per area. -/
structure EvenS (m : SModel K) (g : Tris K) (layers : Nat) (iniT : List K) (k s : Nat → K) (h : K) : Prop where
  below : ∀ p ∈ m.prisms, p.base.layer + 1 < layers → covered g m.prisms p (p.base.layer + 1) = g.area p.base.layer p.base.elem.tri
  above : ∀ p ∈ m.prisms, p.base.layer ≠ 0 → covered g m.prisms p (p.base.layer - 1) = g.area p.base.layer p.base.elem.tri
  top : m.topBC = some ⟨.htc, some h⟩
  bot : m.botBC = none
  conducts : ∀ (i : Nat) (p : SPrism K) (T : K), m.prisms[i]? = some p → iniT[i]? = some T → m.k p.base.elem.cell.mat T 2 = k p.base.layer
  heat : ∀ (i : Nat) (p : SPrism K) (T : K), m.prisms[i]? = some p → iniT[i]? = some T → powerOf p T = m.areaOf p * s p.base.layer

/-- **C157, stackup models.** The meshes of the layers need not fit each other. -/
theorem c157_stack_partial [IsStrictOrderedRing K] {m : SModel K} {g : Tris K} {sc : K} {meshes : List Mesh} {info : Nat → Nat → Option (Cell K)}
    (hx : FromMeshes m g meshes info []) (hg : g.Geometry m sc) (hmut : ∀ mesh ∈ meshes, Mutual mesh) {iniT : List K} {k s : Nat → K} {h : K} (hh : 0 < h)
    (he : EvenS m g meshes.length iniT k s h) {minR : K} (hm : 0 < minR) (hpos : ∀ l, l + 1 < meshes.length → m.height l / 2 / k l + m.height (l + 1) / 2 / k (l + 1) ≠ 0)
    (hr : ∀ p ∈ m.prisms, ∀ q ∈ m.prisms, q.base.layer = p.base.layer + 1 → 0 < g.overlap p.base.layer p.base.elem.tri q.base.layer q.base.elem.tri →
      minR ≤ (m.height p.base.layer / 2 / k p.base.layer + m.height q.base.layer / 2 / k q.base.layer) /
        (sc * g.overlap p.base.layer p.base.elem.tri q.base.layer q.base.elem.tri)) {net : Network K}
    (hb : m.build minR iniT = .ok (some net)) {refT : K} {X : Nat → K} (hX : Solves net refT X) {i : Nat} {p : SPrism K} (hp : m.prisms[i]? = some p) :
    X i = refT + flow s meshes.length 0 / h + rise s m.height k meshes.length p.base.layer := by
  obtain ⟨hlen, hrun⟩ := PrismT.stack_run hb
  obtain ⟨hps, hst, _⟩ := fromMeshes_facts hx
  have hlines : m.lines = [] := by
    have := hx.lines
    unfold addWires at this
    exact (Res.ok.inj this).symm
  have htot : m.total = totalPrisms m.off := by rw [SModel.total, hlines]; simp
  have hcool : m.Cooled := by
    refine ⟨?_, .inl ⟨h, he.top⟩⟩
    rintro bc (e | e) _ v hv
    · rw [he.top] at e
      have e' := Option.some.inj e
      rw [← e'] at hv
      rw [← Option.some.inj hv]
      exact hh
    · rw [he.bot] at e
      cases e
  obtain ⟨net', hb', hgr, x, hxs, huniq⟩ := c78_solvable hx hg hmut hcool hm hlen refT
  rw [hb] at hb'
  have hnn : net = net' := by simpa using hb'
  subst hnn
  have hnet : net.length = m.prisms.length := by
    obtain ⟨net', hb', hlen'⟩ := c78_builds hx minR hlen
    rw [hb] at hb'
    have hnn : net = net' := by simpa using hb'
    subst hnn
    rw [hlen', htot, hps]
  have hcell : ∀ i < net.length, ∃ p, m.prisms[i]? = some p := fun i hi => ⟨_, List.getElem?_eq_getElem (by omega)⟩
  have hlt : ∀ {i : Nat} {p : SPrism K}, m.prisms[i]? = some p → i < net.length := by
    intro i p hp
    rw [hnet]
    exact (List.getElem?_eq_some_iff.1 hp).1
  have hget : ∀ {i : Nat} {p : SPrism K}, m.prisms[i]? = some p → ∃ T, iniT[i]? = some T :=
    fun hp => ⟨_, List.getElem?_eq_getElem (by have := hlt hp; omega)⟩
  have hbound : ∀ {i : Nat} {p : SPrism K}, m.prisms[i]? = some p → p.base.layer < meshes.length := by
    intro i p hp
    obtain ⟨mesh, hmesh, _⟩ := cellS_some (hst.cell i p hp)
    exact (List.getElem?_eq_some_iff.1 hmesh).1
  have hlink : ∀ {i j : Nat} {p q : SPrism K}, m.prisms[i]? = some p → m.prisms[j]? = some q → q.base.layer = p.base.layer + 1 →
      conductance net i j = sc * g.overlap p.base.layer p.base.elem.tri q.base.layer q.base.elem.tri /
        (m.height p.base.layer / 2 / k p.base.layer + m.height (p.base.layer + 1) / 2 / k (p.base.layer + 1)) := by
    intro i j p q hp hq hl
    obtain ⟨T, hT⟩ := hget hp
    obtain ⟨T', hT'⟩ := hget hq
    rw [(c76_vertical hx hg hb hp hT hq hT').1 hl, he.conducts _ _ _ hp hT, he.conducts _ _ _ hq hT']
    by_cases ho : 0 < g.overlap p.base.layer p.base.elem.tri q.base.layer q.base.elem.tri
    · rw [if_pos ho, max_eq_left (hr p (List.mem_of_getElem? hp) q (List.mem_of_getElem? hq) hl ho), one_div_div, hl]
    · rw [if_neg ho, le_antisymm (not_lt.1 ho) (hg.nonneg _ _ _ _), mul_zero, zero_div]
  have hfar : ∀ {i j : Nat} {p q : SPrism K}, m.prisms[i]? = some p → m.prisms[j]? = some q → i ≠ j → conductance net i j ≠ 0 →
      q.base.layer = p.base.layer ∨ q.base.layer = p.base.layer + 1 ∨ p.base.layer = q.base.layer + 1 := by
    intro i j p q hp hq hne hc
    rcases (c76_connected hm hx hg hmut hb hp hq hne).1 hc with ⟨h1, _⟩ | ⟨h1, _⟩ <;> omega
  have hval : ∀ {i : Nat} {p : SPrism K}, m.prisms[i]? = some p → hfOf net i = m.areaOf p * s p.base.layer ∧
      htcOf net i = if p.base.layer = 0 then m.areaOf p * h else 0 := by
    intro i p hp
    obtain ⟨T, hT⟩ := hget hp
    have hnb : ∀ ty a, ¬ Acts ty m.botBC a := by
      rintro ty a ⟨_, v, hv⟩
      rw [he.bot] at hv
      cases hv
    have hnt : ∀ a, ¬ Acts .heatFlux m.topBC a := by
      rintro a ⟨_, v, hv⟩
      rw [he.top] at hv
      cases hv
    have sb : ∀ ty a, share ty m.botBC a = 0 := by
      intro ty a
      rw [he.bot]
      rfl
    have stf : ∀ a, share .heatFlux m.topBC a = 0 := by
      intro a
      rw [he.top]
      unfold share
      dsimp only
      rw [if_neg]
      rintro ⟨e, _⟩
      cases e
    refine ⟨?_, ?_⟩
    · rw [c77_flux_partial hx hg hb hp hT (fun e => hnt _ e.1) (.inr ⟨hnt _, hnb _ _⟩) (.inr (hnb _ _)), stf, sb, add_zero, add_zero, he.heat i p T hp hT]
    · rw [c77_htc_partial hx hg hb hp (fun e => hnb _ _ e.2), sb, add_zero]
      by_cases h0 : p.base.layer = 0
      · rw [if_pos h0]
        unfold bareTop
        rw [if_pos h0, sub_zero, he.top]
        unfold share
        dsimp only
        rw [if_pos ⟨rfl, mul_pos hg.scale (hg.area _ _)⟩]
        unfold SModel.areaOf
        rw [hg.metre, mul_comm]
      · rw [if_neg h0, share_neg]
        unfold bareTop
        rw [if_neg h0, he.above p (List.mem_of_getElem? hp) h0, sub_self, mul_zero]
        exact lt_irrefl _
  have hcov : ∀ (p : SPrism K) z, covered g m.prisms p z = ∑ j ∈ range net.length,
      (m.prisms[j]?.map fun q => if q.base.layer = z then g.overlap p.base.layer p.base.elem.tri z q.base.elem.tri else 0).getD 0 := by
    intro p z
    rw [hnet]
    exact list_sum_range _ _
  have hsol := layered (net := net) (refT := refT) hgr.inRange (run_stored hm _ hrun (c28_new noScen _))
    (lay := fun i => (m.prisms[i]?.map fun p => p.base.layer).getD 0) (a := fun i => (m.prisms[i]?.map m.areaOf).getD 0)
    (r := fun z => m.height z / 2 / k z + m.height (z + 1) / 2 / k (z + 1)) (s := s) (N := meshes.length) (h := h)
    (fun i hi => by
      obtain ⟨p, hp⟩ := hcell i hi
      beta_reduce
      rw [hp]
      exact hbound hp)
    (fun i hi j hj hij hcond => by
      obtain ⟨p, hp⟩ := hcell i hi
      obtain ⟨q, hq⟩ := hcell j hj
      beta_reduce
      rw [hp, hq]
      exact hfar hp hq hij hcond)
    (fun i hi hz => by
      obtain ⟨p, hp⟩ := hcell i hi
      beta_reduce at hz ⊢
      rw [hp] at hz ⊢
      simp only [Option.map_some, Option.getD_some] at hz ⊢
      have e := he.below p (List.mem_of_getElem? hp) hz
      rw [hcov] at e
      unfold SModel.areaOf
      rw [hg.metre, ← e, Finset.mul_sum, div_eq_mul_inv, Finset.sum_mul]
      apply Finset.sum_congr rfl
      intro j hj
      obtain ⟨q, hq⟩ := hcell j (Finset.mem_range.1 hj)
      rw [hq]
      simp only [Option.map_some, Option.getD_some]
      by_cases hl : q.base.layer = p.base.layer + 1
      · rw [if_pos hl, if_pos hl, hlink hp hq hl, hl, div_eq_mul_inv]
      · rw [if_neg hl, if_neg hl, mul_zero, zero_mul])
    (fun i hi z hz => by
      obtain ⟨p, hp⟩ := hcell i hi
      beta_reduce at hz ⊢
      rw [hp] at hz ⊢
      simp only [Option.map_some, Option.getD_some] at hz ⊢
      have e := he.above p (List.mem_of_getElem? hp) (by omega)
      rw [hcov, show p.base.layer - 1 = z by omega] at e
      unfold SModel.areaOf
      rw [hg.metre, ← e, Finset.mul_sum, div_eq_mul_inv, Finset.sum_mul]
      apply Finset.sum_congr rfl
      intro j hj
      obtain ⟨q, hq⟩ := hcell j (Finset.mem_range.1 hj)
      rw [hq]
      simp only [Option.map_some, Option.getD_some]
      by_cases hl : q.base.layer = z
      · rw [if_pos hl, if_pos hl, GridT.conductance_comm, hlink hq hp (by omega), hl, hg.symm, div_eq_mul_inv]
      · rw [if_neg hl, if_neg hl, mul_zero, zero_mul])
    (fun i hi => by
      obtain ⟨p, hp⟩ := hcell i hi
      beta_reduce
      rw [hp]
      exact (hval hp).2)
    (fun i hi => by
      obtain ⟨p, hp⟩ := hcell i hi
      beta_reduce
      rw [hp]
      exact (hval hp).1)
    hh.ne' hpos
  rw [(huniq X hX _ (hlt hp)).trans (huniq _ hsol _ (hlt hp)).symm]
  beta_reduce
  rw [hp]
  rfl

/-- In stackup models, too, every layer is too cold by the drop in the upper half of the first one. -/
theorem c157_stack_surface_refuted [IsStrictOrderedRing K] {m : SModel K} {g : Tris K} {sc : K} {meshes : List Mesh} {info : Nat → Nat → Option (Cell K)}
    (hx : FromMeshes m g meshes info []) (hg : g.Geometry m sc) (hmut : ∀ mesh ∈ meshes, Mutual mesh) {iniT : List K} {k s : Nat → K} {h : K} (hh : 0 < h)
    (he : EvenS m g meshes.length iniT k s h) (hk : 0 < k 0) (hth : 0 < m.height 0) {minR : K} (hm : 0 < minR)
    (hpos : ∀ l, l + 1 < meshes.length → m.height l / 2 / k l + m.height (l + 1) / 2 / k (l + 1) ≠ 0)
    (hr : ∀ p ∈ m.prisms, ∀ q ∈ m.prisms, q.base.layer = p.base.layer + 1 → 0 < g.overlap p.base.layer p.base.elem.tri q.base.layer q.base.elem.tri →
      minR ≤ (m.height p.base.layer / 2 / k p.base.layer + m.height q.base.layer / 2 / k q.base.layer) /
        (sc * g.overlap p.base.layer p.base.elem.tri q.base.layer q.base.elem.tri)) {net : Network K}
    (hb : m.build minR iniT = .ok (some net)) {refT : K} {X : Nat → K} (hX : Solves net refT X) {i : Nat} {p : SPrism K} (hp : m.prisms[i]? = some p) :
    (wall s m.height k h refT meshes.length p.base.layer - X i = flow s meshes.length 0 * (m.height 0 / 2 / k 0)) ∧
    (X i = wall s m.height k h refT meshes.length p.base.layer ↔ flow s meshes.length 0 = 0) := by
  have e := c157_stack_partial hx hg hmut hh he hm hpos hr hb hX hp
  have hd : wall s m.height k h refT meshes.length p.base.layer - X i = flow s meshes.length 0 * (m.height 0 / 2 / k 0) := by
    rw [e]
    unfold wall
    ring
  refine ⟨hd, ?_⟩
  have hpos : m.height 0 / 2 / k 0 ≠ 0 := (div_pos (div_pos hth two_pos) hk).ne'
  constructor
  · intro h1
    rw [h1, sub_self] at hd
    exact (mul_eq_zero.1 hd.symm).resolve_right hpos
  · intro h1
    rw [h1, zero_mul, sub_eq_zero] at hd
    exact hd.symm

/-- triangles that lie half on each of two others -/
def exTrisW : Tris ℚ := ⟨fun _ _ => 2, fun _ _ _ _ => true, fun _ _ _ _ => 1⟩

/-- power in the lower layer -/
def exInfoW (l _ : Nat) : Option (Cell ℚ) := some ⟨l, if l = 1 then some (1, 0, fun _ => 40) else none⟩

def exBuiltW : Res (List Nat × List (SPrism ℚ)) := (stackLayers [exMesh, exMesh] exInfoW).bind fun ls => buildStack exTrisW ls 4

def exPrismsW : List (SPrism ℚ) :=
  match exBuiltW with
  | .ok r => r.2
  | _ => []

def exStackW : SModel ℚ :=
  { off := [0, 2, 4], prisms := exPrismsW, lines := [],
    area := fun _ _ => 1, edgeLen := fun _ _ _ => 1, toSide := fun _ _ _ => 3 / 2, dist := fun _ _ _ => 5, height := fun _ => 1,
    k := fun mat _ _ => if mat = 1 then 4 else 1, heat := fun _ _ => 1, rho := fun _ _ => 1, resist := fun _ _ => 2,
    topBC := some ⟨.htc, some 5⟩, botBC := none, topBlocks := [], botBlocks := [] }

theorem exStackW_from : FromMeshes exStackW exTrisW [exMesh, exMesh] exInfoW [] := by
  refine ⟨⟨4, ?_⟩, rfl, fun w hw => by cases hw⟩
  obtain ⟨off, ps, he, _⟩ := stack_built exTrisW [exMesh, exMesh] exInfoW 4
  have hoff : exBuiltW.bind (fun r => .ok r.1) = .ok [0, 2, 4] := by decide +kernel
  have he' : exBuiltW = .ok (off, ps) := he
  rw [he'] at hoff
  simp only [Res.bind_ok, Res.ok.injEq] at hoff
  have hps : exPrismsW = ps := by unfold exPrismsW; rw [he']
  rw [he, hoff, ← hps]
  rfl

/-- the hypotheses of the theorems on stackup models are met, with heat that flows -/
example : ∃ net X, exTrisW.Geometry exStackW (1 / 2) ∧ EvenS exStackW exTrisW 2 [25, 25, 25, 25] (fun l => if l = 1 then 4 else 1) (fun l => if l = 1 then 40 else 0) 5 ∧
    (∀ p ∈ exStackW.prisms, ∀ q ∈ exStackW.prisms, q.base.layer = p.base.layer + 1 →
      (1 / 1000 : ℚ) ≤ (exStackW.height p.base.layer / 2 / (if p.base.layer = 1 then 4 else 1) + exStackW.height q.base.layer / 2 / (if q.base.layer = 1 then 4 else 1)) /
        (1 / 2 * exTrisW.overlap p.base.layer p.base.elem.tri q.base.layer q.base.elem.tri)) ∧
    exStackW.build (1 / 1000) [25, 25, 25, 25] = .ok (some net) ∧ Solves net 20 X ∧ flow (fun l => if l = 1 then (40 : ℚ) else 0) 2 0 = 40 ∧
    X 3 = 20 + 40 / 5 + 40 * (1 / 2 + 1 / 2 / 4) := by
  have hg : exTrisW.Geometry exStackW (1 / 2) := ⟨fun _ _ => by norm_num [exTrisW], fun _ _ _ _ _ => rfl, fun _ _ _ _ => rfl, fun _ _ _ _ => by norm_num [exTrisW],
    by norm_num, fun _ _ => by norm_num [exTrisW, exStackW]⟩
  have hmut : ∀ mesh ∈ [exMesh, exMesh], Mutual mesh := by
    intro mesh hmem
    simp only [List.mem_cons, List.not_mem_nil, or_false, or_self] at hmem
    subst hmem
    exact exMesh_mutual
  have hcell := (fromMeshes_facts exStackW_from).2.1.cell
  have hmat : ∀ (i : Nat) (p : SPrism ℚ), exStackW.prisms[i]? = some p → p.base.elem.cell = ⟨p.base.layer, if p.base.layer = 1 then some (1, 0, fun _ => 40) else none⟩ := by
    intro i p hp
    have := hcell i p hp
    unfold cellS at this
    split at this
    · split at this
      · exact (Option.some.inj this).symm
      · cases this
    · cases this
  have hev : EvenS exStackW exTrisW 2 [25, 25, 25, 25] (fun l => if l = 1 then 4 else 1) (fun l => if l = 1 then 40 else 0) 5 := by
    refine ⟨by decide +kernel, by decide +kernel, rfl, rfl, ?_, ?_⟩
    · intro i p T hp _
      rw [hmat i p hp]
      rfl
    · intro i p T hp _
      unfold powerOf
      rw [hmat i p hp]
      by_cases h1 : p.base.layer = 1
      · simp [h1, exStackW, SModel.areaOf]
      · simp [h1]
  have hres : ∀ p ∈ exStackW.prisms, ∀ q ∈ exStackW.prisms, q.base.layer = p.base.layer + 1 →
      (1 / 1000 : ℚ) ≤ (exStackW.height p.base.layer / 2 / (if p.base.layer = 1 then 4 else 1) + exStackW.height q.base.layer / 2 / (if q.base.layer = 1 then 4 else 1)) /
        (1 / 2 * exTrisW.overlap p.base.layer p.base.elem.tri q.base.layer q.base.elem.tri) := by decide +kernel
  have hc : exStackW.Cooled := by
    refine ⟨?_, .inl ⟨5, rfl⟩⟩
    rintro bc (e | e) _ v hv
    · rw [← Option.some.inj e] at hv
      rw [← Option.some.inj hv]
      norm_num
    · cases e
  obtain ⟨net, hb, _, X, hX, _⟩ := c78_solvable exStackW_from hg hmut hc (minR := 1 / 1000) (by norm_num) (iniT := [25, 25, 25, 25]) rfl 20
  refine ⟨net, X, hg, hev, hres, hb, hX, by decide +kernel, ?_⟩
  have h3 : (exStackW.prisms[3]?.map fun p => p.base.layer) = some 1 := by decide +kernel
  obtain ⟨p, hp, hlay⟩ := Option.map_eq_some_iff.1 h3
  rw [c157_stack_partial exStackW_from hg hmut (by norm_num) hev (by norm_num) ?_ (fun p hp q hq e _ => hres p hp q hq e) hb hX hp, hlay]
  · decide +kernel
  · intro l hl
    have : l = 0 := by simpa using hl
    subst this
    norm_num [exStackW]

end Ecad.Wall
