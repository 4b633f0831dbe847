import Verif.Thermal.CourseProps
/-!
C136 for layouts: the model extracted of a layout, its network and the derivative the transient solver integrates.
-/
namespace Ecad.Course
open Ecad.GridT Ecad.Geom Ecad.Units Ecad.L2C Ecad.Thermal Ecad.GridExt Ecad.Balance Ecad.Response Ecad.LayoutResponse Finset

/-! ## networks over the reals -/

/-- a network with its numbers as reals -/
noncomputable def real (net : Network ℚ) : Network ℝ :=
  net.map fun n => ⟨n.scen, n.t.map fun t => (t : ℝ), n.c, n.hf, n.htc, n.ns.map fun e => (e.1, (e.2 : ℝ))⟩

theorem real_length (net : Network ℚ) : (real net).length = net.length := by simp [real]

theorem real_c (net : Network ℚ) (i : Nat) : cOf (real net) i = ((cOf net i : ℚ) : ℝ) := by
  unfold cOf real
  rw [List.getElem?_map]
  cases net[i]? <;> simp

theorem real_hf (net : Network ℚ) (i : Nat) : hfOf (real net) i = ((hfOf net i : ℚ) : ℝ) := by
  unfold hfOf real
  rw [List.getElem?_map]
  cases net[i]? <;> simp

theorem real_htc (net : Network ℚ) (i : Nat) : htcOf (real net) i = ((htcOf net i : ℚ) : ℝ) := by
  unfold htcOf real
  rw [List.getElem?_map]
  cases net[i]? <;> simp

theorem real_ns {a b : Network ℚ} (h : a.map Node.ns = b.map Node.ns) : (real a).map Node.ns = (real b).map Node.ns := by
  have e : ∀ n : Network ℚ, (real n).map Node.ns = (n.map Node.ns).map (List.map fun e => (e.1, (e.2 : ℝ))) := by
    intro n
    simp [real, Function.comp_def]
  rw [e, e, h]

theorem real_edges (net : Network ℚ) : edges (real net) = (edges net).map fun e => (e.1, e.2.1, (e.2.2 : ℝ)) := by
  unfold edges real
  rw [List.zipIdx_map, List.flatMap_map, List.map_flatMap]
  refine List.flatMap_congr fun p _ => ?_
  simp [Function.comp_def]

theorem real_adj {net : Network ℚ} {i j : Nat} (h : Adj net i j) : Adj (real net) i j := by
  obtain ⟨g, hg⟩ := h
  refine ⟨(g : ℝ), ?_⟩
  rw [real_edges]
  simp only [List.mem_map]
  rcases hg with hg | hg
  · exact .inl ⟨_, hg, rfl⟩
  · exact .inr ⟨_, hg, rfl⟩

theorem real_grounded {net : Network ℚ} (h : Grounded net) : Grounded (real net) := by
  have hmem : ∀ n ∈ real net, ∃ n' ∈ net, (n.htc = n'.htc) ∧ n.ns = n'.ns.map fun e => (e.1, (e.2 : ℝ)) := by
    intro n hn
    rw [real, List.mem_map] at hn
    obtain ⟨n', h1, rfl⟩ := hn
    exact ⟨n', h1, rfl, rfl⟩
  refine ⟨fun i n hn e he => ?_, fun n hn e he => ?_, fun n hn => ?_, fun i hi => ?_⟩
  · rw [real, List.getElem?_map, Option.map_eq_some_iff] at hn
    obtain ⟨n', h1, rfl⟩ := hn
    rw [List.mem_map] at he
    obtain ⟨e', h2, rfl⟩ := he
    rw [real_length]
    exact h.inRange i n' h1 e' h2
  · obtain ⟨n', h1, -, h2⟩ := hmem n hn
    rw [h2, List.mem_map] at he
    obtain ⟨e', h3, rfl⟩ := he
    show (0 : ℝ) < ((e'.2 : ℚ) : ℝ)
    exact_mod_cast h.resistance n' h1 e' h3
  · obtain ⟨n', h1, h2, -⟩ := hmem n hn
    rw [h2]
    exact_mod_cast h.htc n' h1
  · rw [real_length] at hi
    obtain ⟨b, h1, h2⟩ := h.ground i hi
    refine ⟨b, Relation.ReflTransGen.mono (fun _ _ => real_adj) _ _ h1, ?_⟩
    rw [real_htc]
    exact_mod_cast h2

theorem real_delta (i k : Nat) : (delta i k : ℝ) = ((delta i k : ℚ) : ℝ) := by
  unfold delta
  split_ifs <;> simp

theorem real_mulVec (net : Network ℚ) (x : Nat → ℚ) {i : Nat} (hi : i < net.length) :
    mulVec (gTriplets (real net)) (fun k => (x k : ℝ)) i = ((mulVec (gTriplets net) x i : ℚ) : ℝ) := by
  rw [mulVec_eq_bil, mulVec_eq_bil, bil_g, bil_g, real_edges, real_length]
  push_cast
  congr 1
  · rw [List.map_map, List.map_map]
    congr 1
    refine List.map_congr_left fun e _ => ?_
    simp only [Function.comp_apply, real_delta]
    push_cast
    ring
  · refine Finset.sum_congr rfl fun k _ => ?_
    rw [real_htc, real_delta]

theorem real_solves {net : Network ℚ} {refT : ℚ} {x : Nat → ℚ} (h : Solves net refT x) : Solves (real net) (refT : ℝ) fun k => (x k : ℝ) := by
  rw [solves_iff] at h ⊢
  intro i hi
  rw [real_length] at hi
  rw [real_mulVec net x hi, h i hi, real_hf, real_htc]
  push_cast
  ring

/-! ## the course of a layout -/

variable {S : Type}

/-- `x` are the temperatures of the cells of a layout over time, from the temperature of the surroundings: they follow the derivative the transient
solver integrates (src/solver/thermal/EThermalNetworkSolver.cpp:111, 121, 135-141), of the network built for the temperature of the surroundings;
`exc` is the excitation, the same for all cells, as none has a scenario. -/
def Course (dist : Int × Int → Int × Int → ℚ) (pi : ℚ) (part : Box → S → ℚ) (minR : ℚ) (ip : List (ℚ × ℚ) → ℚ → Res ℚ) (envT : ℚ) (exc : ℝ → ℝ)
    (a : In S) (x : ℝ → Nat → ℝ) : Prop :=
  ∃ m net, extract dist pi part a = .ok m ∧ m.build minR ip (List.replicate m.total envT) = .ok (some net) ∧
    Decay.Follows (real net) envT (fun t _ => exc t) x ∧ ∀ k < net.length, x 0 k = envT

/-- the heat capacity of a cell: its volume times the density of metal times the specific heats of metal and dielectric, by their shares -/
noncomputable def store (part : Box → S → ℚ) (a : In S) (user data : ℚ) (z i j : Nat) : ℚ :=
  match a.layers[z]? with
  | some l =>
    let f := metal part a.nets a.prims l.id (tile a.x a.y i j)
    ((a.x.stride : ℚ) * data) * ((a.y.stride : ℚ) * data) * (l.thick * user) * 8850 * (f * 380 + (1 - f) * 691)
  | none => 0

/-- the heat stored in a layout above the temperature of its surroundings -/
noncomputable def stored (part : Box → S → ℚ) (a : In S) (user data : ℚ) (envT : ℝ) (x : Nat → ℝ) : ℝ :=
  ∑ z ∈ range a.layers.length, ∑ i ∈ range a.x.grid, ∑ j ∈ range a.y.grid, (store part a user data z i j : ℝ) * (x (cell a z i j) - envT)

/-- the heat a layout gives off -/
noncomputable def gives (a : In S) (data : ℚ) (envT : ℝ) (x : Nat → ℝ) : ℝ :=
  ∑ z ∈ range a.layers.length, ∑ i ∈ range a.x.grid, ∑ j ∈ range a.y.grid, (cool a data ⟨i, j, z⟩ : ℝ) * (x (cell a z i j) - envT)

section
variable {dist : Int × Int → Int × Int → ℚ} {pi : ℚ} {part : Box → S → ℚ} {a b : In S} {user data : ℚ} {ip : List (ℚ × ℚ) → ℚ → Res ℚ} {minR : ℚ}

theorem net_c (h : Proper a user data) {net : Network ℚ} (hn : Net dist pi part minR ip a data net) {z i j : Nat} (hz : z < a.layers.length)
    (hi : i < a.x.grid) (hj : j < a.y.grid) : cOf net (cell a z i j) = store part a user data z i j ∧ 0 < cOf net (cell a z i j) := by
  obtain ⟨m, pm, lyr, T, h1, M, h2⟩ := hn.ex
  obtain ⟨g1, g2⟩ := layer_get h h1
  have hzm : z < m.layers.length := by rw [g1]; exact hz
  have hg : InGrid m.size3 ⟨i, j, z⟩ := by
    refine ⟨?_, ?_, hzm⟩
    · unfold GModel.size3; rw [M.size]; exact hi
    · unfold GModel.size3; rw [M.size]; exact hj
  have hc := build_capacity h2 hg
  have hfl : flatten m.size ⟨i, j, z⟩ = cell a z i j := by
    rw [M.size]
    rfl
  rw [hfl] at hc
  obtain ⟨l, q1, q2, q3⟩ := g2 z _ (List.getElem?_eq_getElem hzm)
  have hl : l ∈ a.layers := List.mem_of_getElem? q1
  have hf := M.physical.fraction _ (List.getElem_mem hzm) i j
  rw [q3] at hf
  have hlen : m.lenZ z = l.thick * user := by
    unfold GModel.lenZ
    rw [List.getElem?_eq_getElem hzm, Option.map_some, Option.getD_some, q2, h.units, thickness_make h.user.ne' h.data.ne']
  have hfr : m.fraction ⟨i, j, z⟩ = metal part a.nets a.prims l.id (tile a.x a.y i j) := by
    unfold GModel.fraction
    dsimp only
    rw [List.getElem?_eq_getElem hzm, Option.map_some, Option.getD_some, q3]
  have e : cOf net (cell a z i j) = store part a user data z i j := by
    rw [hc]
    unfold GModel.cellC store cap metalC metalRho dielC
    rw [q1, M.area, hfr]
    dsimp only
    rw [hlen]
    ring
  refine ⟨e, ?_⟩
  rw [e]
  unfold store
  rw [q1]
  dsimp only
  have h3 := h.strideX
  have h4 := h.strideY
  have h5 : (0 : ℚ) < a.x.stride := by exact_mod_cast h3
  have h6 : (0 : ℚ) < a.y.stride := by exact_mod_cast h4
  have h7 := h.data
  have h8 := h.user
  have h9 := h.thick l hl
  have h10 : 0 < metal part a.nets a.prims l.id (tile a.x a.y i j) * 380 + (1 - metal part a.nets a.prims l.id (tile a.x a.y i j)) * 691 := by
    linarith [hf.1, hf.2]
  positivity

theorem net_proper (h : Proper a user data) {net : Network ℚ} (hn : Net dist pi part minR ip a data net) : Decay.Proper (real net) := by
  refine ⟨real_grounded hn.ground, fun k hk => ?_⟩
  rw [real_length, hn.length] at hk
  obtain ⟨z, i, j, hz, hi, hj, rfl⟩ := cell_ex a hk
  rw [real_c]
  exact_mod_cast (net_c h hn hz hi hj).2

theorem net_exists (dist : Int × Int → Int × Int → ℚ) (pi : ℚ) (part : Box → S → ℚ) (h : Proper a user data) (hip : Pchip ip) (hmin : 0 < minR) (envT : ℚ) :
    ∃ m net, extract dist pi part a = .ok m ∧ m.build minR ip (List.replicate m.total envT) = .ok (some net) ∧ Net dist pi part minR ip a data net := by
  obtain ⟨m, pm, lyr, h1, M⟩ := made (dist := dist) (pi := pi) (part := part) h
  obtain ⟨lo, hi, hb, _⟩ := bounds a.comps
  obtain ⟨net, hbd, hg, x, hx, -⟩ := c62_solvable (sound h M hip hb) M.physical M.cooled hmin (List.length_replicate (n := m.total) (a := envT)) envT
  obtain ⟨b1, -⟩ := balance h M hip hb hbd hg hx
  exact ⟨m, net, h1, hbd, ⟨m, pm, lyr, _, h1, M, hbd⟩, hg, b1⟩

theorem open_course (h : Proper a user data) (hip : Pchip ip) (hmin : 0 < minR) {envT : ℚ} {exc : ℝ → ℝ} {x : ℝ → Nat → ℝ}
    (hx : Course dist pi part minR ip envT exc a x) : ∃ m net, extract dist pi part a = .ok m ∧
      m.build minR ip (List.replicate m.total envT) = .ok (some net) ∧ Net dist pi part minR ip a data net ∧ Decay.Proper (real net) ∧
      (real net).length = cellCount a ∧ Decay.Follows (real net) envT (fun t _ => exc t) x ∧ ∀ k < (real net).length, x 0 k = envT := by
  obtain ⟨m, net, h1, h2, h3, h4⟩ := hx
  obtain ⟨m', net', h1', h2', hn⟩ := net_exists dist pi part h hip hmin envT
  rw [h1, Res.ok.injEq] at h1'
  subst h1'
  rw [h2, Res.ok.injEq, Option.some.injEq] at h2'
  subst h2'
  exact ⟨m, net, h1, h2, hn, net_proper h hn, by rw [real_length, hn.length], h3, by rw [real_length]; exact h4⟩

theorem same_follows {net : Network ℝ} (h : Decay.Proper net) {refT : ℝ} {exc x y : ℝ → Nat → ℝ} (hx : Decay.Follows net refT exc x)
    (hy : Decay.Follows net refT exc y) (h0 : ∀ k < net.length, x 0 k = y 0 k) : ∀ t, 0 ≤ t → ∀ k < net.length, x t k = y t k := by
  intro t ht k hk
  exact le_antisymm (Decay.c127_comparison h hx hy (fun i hi => (h0 i hi).le) (fun _ _ _ _ => le_rfl) t ht k hk)
    (Decay.c127_comparison h hy hx (fun i hi => (h0 i hi).ge) (fun _ _ _ _ => le_rfl) t ht k hk)

theorem hf_nonneg (h : Proper a user data) (hip : Pchip ip) {net : Network ℚ} (hn : Net dist pi part minR ip a data net)
    (hpos : ∀ c ∈ a.comps, ∀ e ∈ c.loss, 0 ≤ e.2) : ∀ k, 0 ≤ hfOf net k := by
  intro k
  by_cases hk : k < cellCount a
  · obtain ⟨z, i, j, hz, hi, hj, rfl⟩ := cell_ex a hk
    obtain ⟨lo, hi1, hb, hb1⟩ := bounds a.comps
    refine le_trans ?_ (net_values h hip hn hb hz hi hj).2.1
    apply List.sum_nonneg
    intro v hv
    rw [List.mem_map] at hv
    obtain ⟨c, hc, rfl⟩ := hv
    unfold heat
    split_ifs with hh
    · obtain ⟨e, he, he'⟩ := (hb1 c hh.1.1).1
      rw [← he']
      exact div_nonneg (hpos c hc e he) (Nat.cast_nonneg _)
    · exact le_rfl
  · rw [(beyond net (by rw [hn.length]; omega)).2]

theorem sum_cells' (f : Nat → ℝ) (nx ny n : Nat) :
    ∑ k ∈ range (nx * ny * n), f k = ∑ z ∈ range n, ∑ i ∈ range nx, ∑ j ∈ range ny, f (nx * ny * z + ny * i + j) := by
  have hb : ∀ (f : Nat → ℝ) (b n : Nat), ∑ k ∈ range (b * n), f k = ∑ z ∈ range n, ∑ r ∈ range b, f (b * z + r) := by
    intro f b n
    induction n with
    | zero => simp
    | succ n ih => rw [Nat.mul_succ, Finset.sum_range_add f, ih, sum_range_succ]
  rw [hb]
  refine Finset.sum_congr rfl fun z _ => ?_
  rw [Nat.mul_comm nx ny, hb (fun r => f (ny * nx * z + r)) ny nx]
  refine Finset.sum_congr rfl fun i _ => Finset.sum_congr rfl fun j _ => ?_
  rw [Nat.add_assoc]

theorem heat_total (h : Proper a user data) (hip : Pchip ip) {net : Network ℚ} (hn : Net dist pi part minR ip a data net)
    {w : GridPower.Comp ℚ → ℚ} (hw : Constant a.comps w) : ∑ k ∈ range net.length, hfOf net k = power a w := by
  rw [hn.length, cellCount, sum_cells]
  obtain ⟨m, pm, lyr, T, h1, M, h2⟩ := hn.ex
  rw [← power_layers h M w]
  refine Finset.sum_congr rfl fun z hz => ?_
  rw [← flat_sum a.x a.y h.strideX h.strideY lyr a.comps h.comps w z]
  refine Finset.sum_congr rfl fun i hi => Finset.sum_congr rfl fun j hj => ?_
  rw [Finset.mem_range] at hz hi hj
  simp only [share_heat M]
  exact net_const h hip hn hw hz hi hj

/-! ## the claim -/

/-- C136: every proper layout has, under every continuous excitation, exactly one course of temperatures. -/
theorem c136_course (dist : Int × Int → Int × Int → ℚ) (pi : ℚ) (part : Box → S → ℚ) (h : Proper a user data) (hip : Pchip ip) (hmin : 0 < minR)
    (envT : ℚ) {exc : ℝ → ℝ} (he : Continuous exc) : ∃ x, Course dist pi part minR ip envT exc a x ∧
      ∀ y, Course dist pi part minR ip envT exc a y → ∀ t, 0 ≤ t → ∀ k < cellCount a, y t k = x t k := by
  obtain ⟨m, net, h1, h2, hn⟩ := net_exists dist pi part h hip hmin envT
  have hp := net_proper h hn
  obtain ⟨x, hx, x0⟩ := follows_exists hp (envT : ℝ) (fun t _ => exc t) (fun _ => he) fun _ => (envT : ℝ)
  refine ⟨x, ⟨m, net, h1, h2, hx, by rwa [real_length] at x0⟩, fun y hy t ht k hk => ?_⟩
  obtain ⟨m', net', h1', h2', hn', hp', l', hy', y0⟩ := open_course h hip hmin hy
  rw [h1, Res.ok.injEq] at h1'
  subst h1'
  rw [h2, Res.ok.injEq, Option.some.injEq] at h2'
  subst h2'
  exact same_follows hp hy' hx (fun i hi => by rw [x0 i hi, y0 i hi]) t ht k (l' ▸ hk)

/-- C136, steady state: powers that do not depend on the temperature: under full excitation the temperatures tend to the steady ones. -/
theorem c136_steady (h : Proper a user data) {w : GridPower.Comp ℚ → ℚ} (hw : Constant a.comps w) (hip : Pchip ip) (hmin : 0 < minR) {envT : ℚ}
    {x : ℝ → Nat → ℝ} (hx : Course dist pi part minR ip envT (fun _ => 1) a x) {s : Nat → ℚ} (hs : Steady dist pi part minR ip envT a s) :
    ∀ k < cellCount a, Filter.Tendsto (fun t => x t k) Filter.atTop (nhds (s k : ℝ)) := by
  obtain ⟨m, net, h1, h2, hn, hp, hl, hx', x0⟩ := open_course h hip hmin hx
  obtain ⟨v, hv⟩ := c30_exists hn.ground envT
  have := c134_unique h hw hip hmin hs (⟨m, _, net, h1, h2, hv⟩ : Steady dist pi part minR ip envT a v)
  intro k hk
  rw [this k hk]
  exact Decay.c127_steady hp (real_solves hv) hx' k (hl ▸ hk)

/-- C136, warming up: no component cools: at any excitation between none and full no cell is ever colder than the surroundings nor, for powers that do
not depend on the temperature, hotter than in the steady state; under full excitation no cell ever gets colder. -/
theorem c136_rise (h : Proper a user data) (hpos : ∀ c ∈ a.comps, ∀ e ∈ c.loss, 0 ≤ e.2) (hip : Pchip ip) (hmin : 0 < minR) {envT : ℚ} {exc : ℝ → ℝ}
    (he : ∀ t, 0 < t → 0 ≤ exc t ∧ exc t ≤ 1) {x : ℝ → Nat → ℝ} (hx : Course dist pi part minR ip envT exc a x) :
    (∀ t, 0 ≤ t → ∀ k < cellCount a, (envT : ℝ) ≤ x t k) ∧
    (∀ w s, Constant a.comps w → Steady dist pi part minR ip envT a s → ∀ t, 0 ≤ t → ∀ k < cellCount a, x t k ≤ s k) ∧
    ((∀ t, exc t = 1) → ∀ t t', 0 ≤ t → t ≤ t' → ∀ k < cellCount a, x t k ≤ x t' k) := by
  obtain ⟨m, net, h1, h2, hn, hp, hl, hx', x0⟩ := open_course h hip hmin hx
  obtain ⟨v, hv⟩ := c30_exists hn.ground envT
  have hf : ∀ n ∈ real net, 0 ≤ n.hf := by
    intro n hm
    obtain ⟨k, hk⟩ := List.getElem?_of_mem hm
    have e : hfOf (real net) k = n.hf := by unfold hfOf; rw [hk]
    rw [← e, real_hf]
    exact_mod_cast hf_nonneg h hip hn hpos k
  obtain ⟨q1, q2⟩ := Decay.c127_heating hp hf (real_solves hv) hx' x0 fun t ht _ => he t ht
  rw [hl] at q1 q2
  refine ⟨fun t ht k hk => (q1 t ht k hk).1, fun w s hw hs t ht k hk => ?_, fun h1 t t' ht htt k hk => q2 (fun t _ => h1 t) t t' ht htt k hk⟩
  rw [c134_unique h hw hip hmin hs (⟨m, _, net, h1, h2, hv⟩ : Steady dist pi part minR ip envT a v) k hk]
  exact (q1 t ht k hk).2

/-- C136, excitation: no component cools: with no less excitation no cell is ever colder. -/
theorem c136_excitation (h : Proper a user data) (hpos : ∀ c ∈ a.comps, ∀ e ∈ c.loss, 0 ≤ e.2) (hip : Pchip ip) (hmin : 0 < minR) {envT : ℚ}
    {exc exc' : ℝ → ℝ} (he : ∀ t, 0 < t → exc t ≤ exc' t) {x y : ℝ → Nat → ℝ} (hx : Course dist pi part minR ip envT exc a x)
    (hy : Course dist pi part minR ip envT exc' a y) : ∀ t, 0 ≤ t → ∀ k < cellCount a, x t k ≤ y t k := by
  obtain ⟨m, net, h1, h2, hn, hp, hl, hx', x0⟩ := open_course h hip hmin hx
  obtain ⟨m', net', h1', h2', hn', hp', l', hy', y0⟩ := open_course h hip hmin hy
  rw [h1, Res.ok.injEq] at h1'
  subst h1'
  rw [h2, Res.ok.injEq, Option.some.injEq] at h2'
  subst h2'
  rw [← hl]
  refine Decay.c127_comparison hp hx' hy' (fun i hi => by rw [x0 i hi, y0 i hi]) fun t ht i _ => ?_
  refine mul_le_mul_of_nonneg_left (he t ht) ?_
  rw [real_hf]
  exact_mod_cast hf_nonneg h hip hn hpos i

theorem store_frame (hf : Frame a b) (hnets : a.nets = b.nets) (hprims : a.prims = b.prims) (z i j : Nat) :
    store part a user data z i j = store part b user data z i j := by
  unfold store
  rw [hf.layers, hf.x, hf.y, hnets, hprims]

/-- C136, power: with stronger components no cell is ever colder. -/
theorem c136_power {cs cs' : List (GridPower.Comp ℚ)} (h : Proper { a with comps := cs } user data) (h' : Proper { a with comps := cs' } user data)
    (hst : List.Forall₂ Stronger cs cs') (hip : Pchip ip) (hmin : 0 < minR) {envT : ℚ} {exc : ℝ → ℝ} (he : ∀ t, 0 < t → 0 ≤ exc t) {x y : ℝ → Nat → ℝ}
    (hx : Course dist pi part minR ip envT exc { a with comps := cs } x) (hy : Course dist pi part minR ip envT exc { a with comps := cs' } y) :
    ∀ t, 0 ≤ t → ∀ k < cellCount a, x t k ≤ y t k := by
  obtain ⟨m, net, h1, h2, hn, hp, hl, hx', x0⟩ := open_course h hip hmin hx
  obtain ⟨m', net', h1', h2', hn', hp', hl', hy', y0⟩ := open_course h' hip hmin hy
  have hl : (real net).length = cellCount a := hl
  have hl' : (real net').length = cellCount a := hl'
  have hs := same_comps h h' hip hmin hn hn'
  rw [← hl]
  refine power_course hp hp' (hl.trans hl'.symm) (real_ns (ns_same h h' ⟨rfl, rfl, rfl, rfl⟩ rfl rfl rfl hmin hn hn')) (fun k => ?_) (fun k hk => ?_) hx' hy'
    (fun k hk => by rw [x0 k hk, y0 k (by rw [hl', ← hl]; exact hk)]) fun t ht k hk => ?_
  · rw [real_htc, real_htc, hs.htc]
  · rw [hl] at hk
    obtain ⟨z, i, j, hz, hi, hj, rfl⟩ := cell_ex a hk
    have e1 : cOf net (cell a z i j) = _ := (net_c h hn hz hi hj).1
    have e2 : cOf net' (cell a z i j) = _ := (net_c h' hn' hz hi hj).1
    rw [real_c, real_c, e1, e2]
    rfl
  · refine mul_le_mul_of_nonneg_right ?_ (he t ht)
    rw [real_hf, real_hf]
    exact_mod_cast stronger_hf h h' hst hip hn hn' (hl ▸ hk)

/-- C136, cooling: if every cell of a layout gives off no less per kelvin and no power is negative, no cell is ever warmer. -/
theorem c136_cooling (h : Proper a user data) (h' : Proper b user data) (hf : Frame a b) (hwires : a.wires = b.wires) (hnets : a.nets = b.nets)
    (hprims : a.prims = b.prims) (hcomps : a.comps = b.comps)
    (hcool : ∀ z < a.layers.length, ∀ i < a.x.grid, ∀ j < a.y.grid, cool a data ⟨i, j, z⟩ ≤ cool b data ⟨i, j, z⟩)
    {w : GridPower.Comp ℚ → ℚ} (hw : Constant a.comps w) (hpos : ∀ c ∈ a.comps, 0 ≤ w c) (hip : Pchip ip) (hmin : 0 < minR) {envT : ℚ} {exc : ℝ → ℝ}
    (he : ∀ t, 0 < t → 0 ≤ exc t) {x y : ℝ → Nat → ℝ} (hx : Course dist pi part minR ip envT exc a x)
    (hy : Course dist pi part minR ip envT exc b y) : ∀ t, 0 ≤ t → ∀ k < cellCount a, y t k ≤ x t k := by
  obtain ⟨m, na, h1, h2, hna, hp, hl, hx', x0⟩ := open_course h hip hmin hx
  obtain ⟨m', nb, h1', h2', hnb, hp', hl', hy', y0⟩ := open_course h' hip hmin hy
  have hcount : cellCount b = cellCount a := by unfold cellCount; rw [hf.x, hf.y, hf.layers]
  rw [hcount] at hl'
  have hcell : ∀ z i j, cell b z i j = cell a z i j := by intro z i j; unfold cell; rw [hf.x, hf.y]
  have hw' : Constant b.comps w := by rw [← hcomps]; exact hw
  have hheat : ∀ z i j c, heat b w z i j c = heat a w z i j c := by intro z i j c; unfold heat; rw [hf.x, hf.y, hf.layers]
  have hb : ∀ c ∈ a.comps, ∀ e ∈ c.loss, w c ≤ e.2 ∧ e.2 ≤ w c := fun c hc e he => ⟨(hw c hc e he).ge, (hw c hc e he).le⟩
  have hb' : ∀ c ∈ b.comps, ∀ e ∈ c.loss, w c ≤ e.2 ∧ e.2 ≤ w c := fun c hc e he => ⟨(hw' c hc e he).ge, (hw' c hc e he).le⟩
  have vals : ∀ z < a.layers.length, ∀ i < a.x.grid, ∀ j < a.y.grid, hfOf na (cell a z i j) = hfOf nb (cell a z i j) ∧
      htcOf na (cell a z i j) ≤ htcOf nb (cell a z i j) ∧ cOf na (cell a z i j) = cOf nb (cell a z i j) := by
    intro z hz i hi j hj
    have hz' : z < b.layers.length := by rw [← hf.layers]; exact hz
    have hi' : i < b.x.grid := by rw [← hf.x]; exact hi
    have hj' : j < b.y.grid := by rw [← hf.y]; exact hj
    have e1 := net_const h hip hna hw hz hi hj
    have e2 := net_const h' hip hnb hw' hz' hi' hj'
    have e3 := (net_values h hip hna hb hz hi hj).1
    have e4 := (net_values h' hip hnb hb' hz' hi' hj').1
    have e5 := (net_c h hna hz hi hj).1
    have e6 := (net_c h' hnb hz' hi' hj').1
    rw [hcell] at e2 e4 e6
    refine ⟨?_, ?_, ?_⟩
    · rw [e2, e1, ← hcomps]
      simp only [hheat]
    · rw [e3, e4]
      exact hcool z hz i hi j hj
    · rw [e5, e6, store_frame hf hnets hprims]
  have hlow : ∀ t, 0 ≤ t → ∀ k < (real na).length, (envT : ℝ) ≤ x t k := by
    refine above hp hx' (fun k hk => (x0 k hk).ge) fun t ht k hk => mul_nonneg ?_ (he t ht)
    rw [real_hf]
    exact_mod_cast hf_nonneg h hip hna (fun c hc e he => by rw [hw c hc e he]; exact hpos c hc) k
  rw [← hl]
  refine cooling_course hp hp' (hl.trans hl'.symm) (real_ns (ns_same h h' hf hwires hnets hprims hmin hna hnb)) (fun k => ?_) (fun k hk => ?_)
    (fun k hk => ?_) hx' hy' (fun k hk => by rw [x0 k hk, y0 k (by rw [hl', ← hl]; exact hk)]) hlow
  · rw [real_htc, real_htc]
    by_cases hk : k < cellCount a
    · obtain ⟨z, i, j, hz, hi, hj, rfl⟩ := cell_ex a hk
      exact_mod_cast (vals z hz i hi j hj).2.1
    · rw [real_length] at hl hl'
      rw [(beyond na (by omega)).1, (beyond nb (by omega)).1]
  · rw [hl] at hk
    obtain ⟨z, i, j, hz, hi, hj, rfl⟩ := cell_ex a hk
    rw [real_c, real_c, (vals z hz i hi j hj).2.2]
  · rw [hl] at hk
    obtain ⟨z, i, j, hz, hi, hj, rfl⟩ := cell_ex a hk
    rw [real_hf, real_hf, (vals z hz i hi j hj).1]

/-- C136, superposition: the rises of the temperatures with two sets of components add, at all times. -/
theorem c136_together {cs cs' : List (GridPower.Comp ℚ)} (h : Proper { a with comps := cs ++ cs' } user data) {w : GridPower.Comp ℚ → ℚ}
    (hw : Constant (cs ++ cs') w) (hip : Pchip ip) (hmin : 0 < minR) {envT : ℚ} {exc : ℝ → ℝ} {x y z : ℝ → Nat → ℝ}
    (hx : Course dist pi part minR ip envT exc { a with comps := cs } x) (hy : Course dist pi part minR ip envT exc { a with comps := cs' } y)
    (hz : Course dist pi part minR ip envT exc { a with comps := cs ++ cs' } z) :
    ∀ t, 0 ≤ t → ∀ k < cellCount a, z t k - envT = (x t k - envT) + (y t k - envT) := by
  have h1 : Proper { a with comps := cs } user data := proper_comps (a := { a with comps := cs ++ cs' }) h fun c hc => h.comps c (List.mem_append_left _ hc)
  have h2 : Proper { a with comps := cs' } user data := proper_comps (a := { a with comps := cs ++ cs' }) h fun c hc => h.comps c (List.mem_append_right _ hc)
  obtain ⟨_, na, -, -, hna, pa, la, hx', x0⟩ := open_course h1 hip hmin hx
  obtain ⟨_, nb, -, -, hnb, pb, lb, hy', y0⟩ := open_course h2 hip hmin hy
  obtain ⟨_, ns, -, -, hns, ps, ls, hz', z0⟩ := open_course h hip hmin hz
  have la : (real na).length = cellCount a := la
  have lb : (real nb).length = cellCount a := lb
  have ls : (real ns).length = cellCount a := ls
  have sa := same_comps h h1 hip hmin hns hna
  have sb := same_comps h h2 hip hmin hns hnb
  have ma := ns_same h h1 ⟨rfl, rfl, rfl, rfl⟩ rfl rfl rfl hmin hns hna
  have mb := ns_same h h2 ⟨rfl, rfl, rfl, rfl⟩ rfl rfl rfl hmin hns hnb
  have hfol : Decay.Follows (real ns) envT (fun t _ => exc t) fun t k => x t k + y t k - envT := by
    refine ⟨fun k hk => ?_, fun t ht k hk => ?_⟩
    · exact ((hx'.cont k (by omega)).add (hy'.cont k (by omega))).sub continuousOn_const
    · have hd := ((hx'.deriv t ht k (by omega)).add (hy'.deriv t ht k (by omega))).sub_const (envT : ℝ)
      refine hd.congr_deriv ?_
      have hc := ps.capacity k hk
      refine mul_left_cancel₀ hc.ne' ?_
      rw [Decay.rate ps _ _ _ hk, mul_add]
      have hk' : k < cellCount a := by omega
      obtain ⟨l, i, j, hl, hi, hj, rfl⟩ := cell_ex a hk'
      have c1 : cOf ns (cell a l i j) = _ := (net_c h hns hl hi hj).1
      have c2 : cOf na (cell a l i j) = _ := (net_c h1 hna hl hi hj).1
      have c3 : cOf nb (cell a l i j) = _ := (net_c h2 hnb hl hi hj).1
      have c4 : cOf (real ns) (cell a l i j) = cOf (real na) (cell a l i j) := by rw [real_c, real_c, c1, c2]; rfl
      have c5 : cOf (real ns) (cell a l i j) = cOf (real nb) (cell a l i j) := by rw [real_c, real_c, c1, c3]; rfl
      have r1 := Decay.rate pa (envT : ℝ) (fun _ => exc t) (x t) (i := cell a l i j) (by omega)
      have r2 := Decay.rate pb (envT : ℝ) (fun _ => exc t) (y t) (i := cell a l i j) (by omega)
      rw [← c4] at r1
      rw [← c5] at r2
      rw [r1, r2]
      have v1 := mulVec_htc (ls.trans la.symm) (real_ns ma) (x t) (i := cell a l i j) (by omega)
      have v2 := mulVec_htc (ls.trans lb.symm) (real_ns mb) (y t) (i := cell a l i j) (by omega)
      have t1 : htcOf (real na) (cell a l i j) = htcOf (real ns) (cell a l i j) := by rw [real_htc, real_htc, sa.htc]
      have t2 : htcOf (real nb) (cell a l i j) = htcOf (real ns) (cell a l i j) := by rw [real_htc, real_htc, sb.htc]
      rw [v1, v2, t1, t2]
      have e1 : hfOf ns (cell a l i j) = ((cs ++ cs').map fun c => heat a w l i j c).sum := net_const h hip hns hw hl hi hj
      have e2 : hfOf na (cell a l i j) = (cs.map fun c => heat a w l i j c).sum :=
        net_const h1 hip hna (fun c hc => hw c (List.mem_append_left _ hc)) hl hi hj
      have e3 : hfOf nb (cell a l i j) = (cs'.map fun c => heat a w l i j c).sum :=
        net_const h2 hip hnb (fun c hc => hw c (List.mem_append_right _ hc)) hl hi hj
      have e4 : hfOf (real ns) (cell a l i j) = hfOf (real na) (cell a l i j) + hfOf (real nb) (cell a l i j) := by
        rw [real_hf, real_hf, real_hf, e1, e2, e3, List.map_append, List.sum_append]
        push_cast
        ring
      have v3 : mulVec (gTriplets (real ns)) (fun k => x t k + y t k - envT) (cell a l i j) =
          mulVec (gTriplets (real ns)) (x t) (cell a l i j) + mulVec (gTriplets (real ns)) (y t) (cell a l i j) -
            htcOf (real ns) (cell a l i j) * envT := by
        rw [mulVec_sub (gTriplets (real ns)) (fun k => x t k + y t k) (fun _ => (envT : ℝ)), mulVec_add, const_mulVec _ _ _ hk]
      rw [e4, v3]
      ring
  intro t ht k hk
  have := same_follows ps hz' hfol (fun k hk => by rw [z0 k hk, x0 k (by omega), y0 k (by omega)]; ring) t ht k (by omega)
  rw [this]
  ring

/-- C136, energy: powers that do not depend on the temperature: the heat stored in a layout grows by the power of its components, times the
excitation, less what the layout gives off. -/
theorem c136_energy (h : Proper a user data) {w : GridPower.Comp ℚ → ℚ} (hw : Constant a.comps w) (hip : Pchip ip) (hmin : 0 < minR) {envT : ℚ}
    {exc : ℝ → ℝ} {x : ℝ → Nat → ℝ} (hx : Course dist pi part minR ip envT exc a x) {t : ℝ} (ht : 0 < t) :
    HasDerivAt (fun s => stored part a user data envT (x s)) (power a w * exc t - gives a data envT (x t)) t := by
  obtain ⟨m, net, h1, h2, hn, hp, hl, hx', x0⟩ := open_course h hip hmin hx
  have he := energy hp hx' ht
  have hb : ∀ c ∈ a.comps, ∀ e ∈ c.loss, w c ≤ e.2 ∧ e.2 ≤ w c := fun c hc e he => ⟨(hw c hc e he).ge, (hw c hc e he).le⟩
  have e1 : ∀ y : Nat → ℝ, ∑ i ∈ range (real net).length, cOf (real net) i * (y i - envT) = stored part a user data envT y := by
    intro y
    rw [hl, cellCount, sum_cells']
    unfold stored
    refine Finset.sum_congr rfl fun z hz => Finset.sum_congr rfl fun i hi => Finset.sum_congr rfl fun j hj => ?_
    rw [Finset.mem_range] at hz hi hj
    have := (net_c h hn hz hi hj).1
    rw [real_c]
    unfold cell at this ⊢
    rw [this]
  have e2 : ∑ i ∈ range (real net).length, htcOf (real net) i * (x t i - envT) = gives a data envT (x t) := by
    rw [hl, cellCount, sum_cells']
    unfold gives
    refine Finset.sum_congr rfl fun z hz => Finset.sum_congr rfl fun i hi => Finset.sum_congr rfl fun j hj => ?_
    rw [Finset.mem_range] at hz hi hj
    have := (net_values h hip hn hb hz hi hj).1
    rw [real_htc]
    unfold cell at this ⊢
    rw [this]
  have e3 : ∑ i ∈ range (real net).length, hfOf (real net) i * exc t = power a w * exc t := by
    rw [← Finset.sum_mul, real_length, ← heat_total h hip hn hw]
    push_cast
    congr 1
    exact Finset.sum_congr rfl fun i _ => real_hf net i
  simp only [e1] at he
  rw [e2, e3] at he
  exact he

end

/-! ## example -/

/-- hypotheses of the claims: the layouts of C134, with a switched excitation -/
example : (∀ p q, Proper { exL 5 with comps := [exC p, exD q] } (1 / 1000000) (1 / 1000000000) ∧ Constant [exC p, exD q] exW) ∧
    Continuous (fun t : ℝ => (1 + Real.cos t) / 2) ∧ (∀ t : ℝ, 0 ≤ (1 + Real.cos t) / 2 ∧ (1 + Real.cos t) / 2 ≤ 1) := by
  refine ⟨fun p q => ⟨exProper' 5 (by norm_num) p q, ?_⟩, ?_, fun t => ?_⟩
  · intro c hc e he
    simp only [List.mem_cons, List.not_mem_nil, or_false] at hc
    rcases hc with rfl | rfl
    · simp only [exC, List.mem_cons, List.not_mem_nil, or_false] at he
      subst he
      rfl
    · simp only [exD, List.mem_cons, List.not_mem_nil, or_false] at he
      rcases he with rfl | rfl <;> rfl
  · exact (continuous_const.add Real.continuous_cos).div_const 2
  · have h1 := Real.neg_one_le_cos t
    have h2 := Real.cos_le_one t
    constructor <;> linarith

/-- a course of the layout: it exists by `c136_course`, warms up and is that of the steady state in the end -/
example (ip : List (ℚ × ℚ) → ℚ → Res ℚ) (hip : Pchip ip) (dist : Int × Int → Int × Int → ℚ) (pi : ℚ) (part : Box → Box → ℚ) :
    ∃ x, Course dist pi part (1 / 1000) ip 300 (fun _ => 1) { exL 5 with comps := [exC 8, exD 1] } x ∧
      (∀ t, 0 ≤ t → ∀ k < cellCount (exL 5), (300 : ℝ) ≤ x t k) := by
  have h := exProper' 5 (by norm_num) 8 1
  obtain ⟨x, hx, -⟩ := c136_course dist pi part h hip (by norm_num : (0 : ℚ) < 1 / 1000) 300 (exc := fun _ => 1) continuous_const
  refine ⟨x, hx, fun t ht k hk => ?_⟩
  have := (c136_rise h ?_ hip (by norm_num) (fun _ _ => ⟨by norm_num, le_rfl⟩) hx).1 t ht k hk
  · exact_mod_cast this
  · intro c hc e he
    simp only [List.mem_cons, List.not_mem_nil, or_false] at hc
    rcases hc with rfl | rfl
    · simp only [exC, List.mem_cons, List.not_mem_nil, or_false] at he
      subst he
      norm_num
    · simp only [exD, List.mem_cons, List.not_mem_nil, or_false] at he
      rcases he with rfl | rfl <;> norm_num

end Ecad.Course
