import Verif.Thermal.GridBuildProps
import Verif.Thermal.SteadyProps
import Mathlib.Tactic.FieldSimp
import Mathlib.Tactic.Positivity
/-!
C61, C62: the network built from a grid model.
-/
namespace Ecad.GridT
open Ecad.Thermal

variable {K : Type} [Field K] [LinearOrder K]

/-! ### the build succeeds -/

/-- A model whose parts lie in its grid and whose tables can be queried. -/
structure GModel.Sound (ip : List (K × K) → K → Res K) (m : GModel K) : Prop where
  fits : Fits m.size3
  layers : 0 < m.layers.length
  blocks : m.BlocksIn
  jumps : ∀ j ∈ m.jumps, InGrid m.size3 j.1 ∧ InGrid m.size3 j.2.1
  powers : ∀ l ∈ m.layers, ∀ ll ur total, Power.block ll ur total ∈ l.powers →
    BlockIn m.size (ll, ur) ∧ ll.x ≤ ur.x ∧ ll.y ≤ ur.y
  tables : ∀ l ∈ m.layers, ∀ t, Power.grid t ∈ l.powers → ∀ key x y, ∃ o, query ip t key x y = .ok o

omit [LinearOrder K] in
theorem mem_powers {m : GModel K} {p : Nat × Power K} (hp : p ∈ m.powers) :
    p.1 < m.layers.length ∧ ∃ l ∈ m.layers, p.2 ∈ l.powers := by
  refine ⟨powers_layer m p hp, ?_⟩
  unfold GModel.powers at hp
  rw [List.mem_flatMap] at hp
  obtain ⟨⟨l, i⟩, hl, hp⟩ := hp
  rw [List.mem_map] at hp
  obtain ⟨q, hq, rfl⟩ := hp
  rw [List.mem_zipIdx_iff_getElem?] at hl
  exact ⟨l, List.mem_of_getElem? hl, hq⟩

omit [LinearOrder K] in
/-- the calls of the loop over the cells -/
theorem cellOps_cases (m : GModel K) (hm : Fits m.size3) {o : Res (Op K)}
    (ho : o ∈ (List.range m.total).flatMap m.cellOps) :
    ∃ g, InGrid m.size3 g ∧ ((o = .ok (.c (flatten m.size g) (m.cellC g (m.lenZ g.z) m.areaZ))) ∨
      ∃ h d, (d = .right ∨ d = .end_ ∨ d = .bot) ∧ InGrid m.size3 h ∧ StepsTo g h d ∧
        o = .ok (.r (flatten m.size g) (flatten m.size h) (m.resTo g h d))) := by
  rw [List.mem_flatMap] at ho
  obtain ⟨i, hi, ho⟩ := ho
  rw [List.mem_range] at hi
  obtain ⟨g, hg, e1, e2⟩ := (c33_numbering m.size3).2 i hi
  rw [size3_flat] at e1 e2
  refine ⟨g, hg, ?_⟩
  unfold GModel.cellOps at ho
  rw [e1] at ho
  have hl : ∀ d, o ∈ m.link i g d → ∃ h, InGrid m.size3 h ∧ StepsTo g h d ∧
      o = .ok (.r (flatten m.size g) (flatten m.size h) (m.resTo g h d)) := by
    intro d h
    unfold GModel.link at h
    simp only at h
    by_cases hv : valid (neighbor m.size3 g d) = true
    · rw [if_pos hv] at h
      simp at h
      have := (neighbor_iff hm hg d _).1 ⟨hv, rfl⟩
      exact ⟨_, this.1, this.2, by rw [e2]; exact h⟩
    · rw [if_neg hv] at h; simp at h
  simp only [List.mem_cons, List.mem_append] at ho
  rcases ho with rfl | (ho | ho) | ho
  · left; rw [e2]
  · obtain ⟨h, h1⟩ := hl _ ho; exact .inr ⟨h, .right, by tauto, h1⟩
  · obtain ⟨h, h1⟩ := hl _ ho; exact .inr ⟨h, .end_, by tauto, h1⟩
  · obtain ⟨h, h1⟩ := hl _ ho; exact .inr ⟨h, .bot, by tauto, h1⟩

omit [LinearOrder K] in
theorem jumpOps_cases {ip : List (K × K) → K → Res K} [LinearOrder K] {m : GModel K} (hs : m.Sound ip) {iniT : List K}
    (hl : iniT.length = m.total) {o : Res (Op K)} (ho : o ∈ m.jumps.flatMap (m.jumpOps iniT)) :
    ∃ j ∈ m.jumps, o = .ok (.r (flatten m.size j.1) (flatten m.size j.2.1) (metalK * j.2.2)) ∧
      flatten m.size j.1 < m.total ∧ flatten m.size j.2.1 < m.total ∧ flatten m.size j.1 ≠ flatten m.size j.2.1 := by
  rw [List.mem_flatMap] at ho
  obtain ⟨j, hj, ho⟩ := ho
  obtain ⟨h1, h2⟩ := hs.jumps j hj
  have l1 : flatten m.size j.1 < m.total := flatten_lt (m := m.size3) h1
  have l2 : flatten m.size j.2.1 < m.total := flatten_lt (m := m.size3) h2
  unfold GModel.jumpOps at ho
  simp only at ho
  split_ifs at ho with e1 e2
  · simp at ho
  · simp at ho; exact ⟨j, hj, ho, l1, l2, e1⟩
  · omega

theorem safe_powers {ip : List (K × K) → K → Res K} {m : GModel K} (hs : m.Sound ip) {iniT : List K}
    (hl : iniT.length = m.total) (ps : List (Nat × Power K)) (hps : ∀ p ∈ ps, p ∈ m.powers) : ∀ n, m.total ≤ n →
    Safe n (m.powersOps ip iniT n ps) := by
  induction ps with
  | nil => intro n _; trivial
  | cons p ps ih =>
    intro n hn
    have hp := hps p (by simp)
    have ih := ih fun q hq => hps q (by simp [hq])
    obtain ⟨z, p⟩ := p
    obtain ⟨hz, l, hlm, hpl⟩ := mem_powers hp
    simp only at hz hpl
    rw [GModel.powersOps, safe_append]
    cases p with
    | grid t =>
      have hfit : ∀ o ∈ (allCells m.size).flatMap (m.heatOps ip iniT t z), ∃ i v, i < m.total ∧ o = .ok (.hf i v) := by
        intro o ho
        rw [List.mem_flatMap] at ho
        obtain ⟨c, hc, ho⟩ := ho
        rw [mem_allCells] at hc
        have hlt : flatten m.size ⟨c.1, c.2, z⟩ < m.total := flatten_lt (m := m.size3) ⟨hc.1, hc.2, hz⟩
        unfold GModel.heatOps at ho
        simp only at ho
        rw [List.getElem?_eq_getElem (by omega)] at ho
        simp only at ho
        obtain ⟨q, hq⟩ := hs.tables l hlm t hpl (iniT[flatten m.size ⟨c.1, c.2, z⟩]'(by omega)) c.1 c.2
        rw [hq] at ho
        cases q with
        | none => simp at ho
        | some v => simp at ho; exact ⟨_, v, hlt, ho⟩
      have hno : nodesOf ((allCells m.size).flatMap (m.heatOps ip iniT t z)) = 0 := by
        unfold nodesOf
        rw [List.sum_eq_zero]
        intro k hk
        rw [List.mem_map] at hk
        obtain ⟨o, ho, rfl⟩ := hk
        obtain ⟨i, v, _, rfl⟩ := hfit o ho
        rfl
      simp only [GModel.powerOps, Power.appends, hno, Nat.add_zero]
      refine ⟨safe_of_fits fun o ho => ?_, ih n hn⟩
      obtain ⟨i, v, hi, rfl⟩ := hfit o ho
      simp only [Op.Fits]; omega
    | block ll ur total =>
      obtain ⟨hb, hx, hy⟩ := hs.powers l hlm ll ur total hpl
      have hno : nodesOf ((blockCells ll ur).map fun c => (.ok (.r (flatten m.size ⟨c.1, c.2, z⟩) n thermalRd) : Res (Op K))) = 0 := by
        unfold nodesOf
        rw [List.sum_eq_zero]
        intro k hk
        rw [List.mem_map] at hk
        obtain ⟨o, ho, rfl⟩ := hk
        rw [List.mem_map] at ho
        obtain ⟨c, _, rfl⟩ := ho
        rfl
      simp only [GModel.powerOps, Power.appends, nodesOf_cons, hno, Op.nodes, Nat.add_zero, Nat.zero_add]
      refine ⟨⟨trivial, ?_, safe_of_fits fun o ho => ?_⟩, ih (n + 1) (by omega)⟩
      · simp only [Op.Fits, Op.nodes]; omega
      · rw [List.mem_map] at ho
        obtain ⟨c, hc, rfl⟩ := ho
        rw [mem_blockCells] at hc
        have hlt : flatten m.size ⟨c.1, c.2, z⟩ < m.total :=
          flatten_lt (m := m.size3) ⟨lt_of_le_of_lt hc.1.2 hb.1, lt_of_le_of_lt hc.2.2 hb.2, hz⟩
        simp only [Op.Fits, Op.nodes]; omega

/-- A sound model can be built from every temperature vector of the right size. -/
theorem build_succeeds {ip : List (K × K) → K → Res K} {m : GModel K} (hs : m.Sound ip) (minR : K) {iniT : List K}
    (hl : iniT.length = m.total) : ∃ net, m.build minR ip iniT = .ok (some net) := by
  have : ∃ net, run minR (Network.new noScen m.total) (m.ops ip iniT) = .ok net := by
    rw [run_safe, length_new]
    unfold GModel.ops
    rw [safe_append, safe_append, safe_append]
    simp only [nodesOf_append, nodes_cells, nodes_jumps, Nat.add_zero]
    refine ⟨⟨⟨safe_of_fits fun o ho => ?_, safe_of_fits fun o ho => ?_⟩, ?_⟩, safe_of_fits fun o ho => ?_⟩
    · obtain ⟨g, hg, h⟩ := cellOps_cases m hs.fits ho
      have hlt : flatten m.size g < m.total := flatten_lt (m := m.size3) hg
      rcases h with rfl | ⟨h, d, _, _, _, rfl⟩
      · exact hlt
      · simp only [Op.Fits]; omega
    · obtain ⟨j, _, rfl, h1, h2, _⟩ := jumpOps_cases hs hl ho
      simp only [Op.Fits]; omega
    · exact safe_powers hs hl _ (fun p hp => hp) _ (le_refl _)
    · rw [List.mem_flatMap] at ho
      obtain ⟨b, hbm, ho⟩ := ho
      obtain ⟨c, hc, v, _, h⟩ := bcOps_cases m _ _ _ ho
      obtain ⟨h1, h2⟩ := bcs_inside m hs.blocks hs.layers hbm
      have : flatten m.size ⟨c.1, c.2, b.2.1⟩ < m.total := flatten_lt (m := m.size3) ⟨(h2 c hc).1, (h2 c hc).2, h1⟩
      rcases h with ⟨_, rfl⟩ | ⟨_, rfl⟩ <;> simp only [Op.Fits] <;> omega
  obtain ⟨net, h⟩ := this
  refine ⟨net, ?_⟩
  unfold GModel.build
  rw [if_neg (by simpa using hl), h]
  rfl

/-! ### conductances -/

/-- the resistance a call puts between two nodes -/
def wR (a b : Nat) : Res (Op K) → Option K
  | .ok (.r i j v) => if (i = a ∧ j = b) ∨ (i = b ∧ j = a) then some v else none
  | _ => none

theorem sum_gAt (minR : K) (a b : Nat) (l : List (Res (Op K))) :
    (l.map (Op.gAt minR a b)).sum = ((l.filterMap (wR a b)).map fun v => 1 / max v minR).sum := by
  induction l with
  | nil => rfl
  | cons o l ih =>
    rw [List.map_cons, List.sum_cons, ih, List.filterMap_cons]
    rcases o with op | _ | _
    · cases op
      case r i j v =>
        by_cases h : (i = a ∧ j = b) ∨ (i = b ∧ j = a)
        · simp only [Op.gAt, wR, if_pos h, List.map_cons, List.sum_cons]
        · simp only [Op.gAt, wR, if_neg h, zero_add]
      all_goals simp [Op.gAt, wR]
    · simp [Op.gAt, wR]
    · simp [Op.gAt, wR]

omit [LinearOrder K] in
theorem wR_link (m : GModel K) (hm : Fits m.size3) {g h : Size3} (hg : InGrid m.size3 g) (hh : InGrid m.size3 h)
    (d : Orient) (hd : d = .right ∨ d = .end_ ∨ d = .bot) {g' : Size3} (hg' : InGrid m.size3 g')
    (hnot : ∀ d, (d = .right ∨ d = .end_ ∨ d = .bot) → ¬ StepsTo h g d) :
    (m.link (flatten m.size g') g' d).filterMap (wR (flatten m.size g) (flatten m.size h)) =
      if g' = g ∧ neighbor m.size3 g d = h ∧ valid (neighbor m.size3 g d) then [m.resTo g h d] else [] := by
  unfold GModel.link
  simp only
  by_cases hv : valid (neighbor m.size3 g' d) = true
  · rw [if_pos hv]
    have hn := (neighbor_iff hm hg' d _).1 ⟨hv, rfl⟩
    simp only [List.filterMap_cons, List.filterMap_nil, wR]
    by_cases hgg : g' = g
    · subst hgg
      by_cases hnh : neighbor m.size3 g' d = h
      · have c1 : (flatten m.size g' = flatten m.size g' ∧ flatten m.size (neighbor m.size3 g' d) = flatten m.size h) ∨
            (flatten m.size g' = flatten m.size h ∧ flatten m.size (neighbor m.size3 g' d) = flatten m.size g') :=
          Or.inl ⟨rfl, by rw [hnh]⟩
        have c2 : g' = g' ∧ neighbor m.size3 g' d = h ∧ valid (neighbor m.size3 g' d) = true := ⟨rfl, hnh, hv⟩
        rw [if_pos c1, if_pos c2, hnh]
      · rw [if_neg (show ¬ (g' = g' ∧ neighbor m.size3 g' d = h ∧ valid (neighbor m.size3 g' d) = true) by tauto), if_neg]
        rintro (⟨_, h2⟩ | ⟨h1, h2⟩)
        · exact hnh (flatten_inj hn.1 hh h2)
        · have e1 : g' = h := flatten_inj hg hh h1
          have e2 : neighbor m.size3 g' d = g' := flatten_inj hn.1 hg h2
          exact hnh (e2.trans e1)
    · rw [if_neg (show ¬ (g' = g ∧ neighbor m.size3 g d = h ∧ valid (neighbor m.size3 g d) = true) by tauto), if_neg]
      rintro (⟨h1, _⟩ | ⟨h1, h2⟩)
      · exact hgg (flatten_inj hg' hg h1)
      · have e1 : g' = h := flatten_inj hg' hh h1
        have e2 : neighbor m.size3 g' d = g := flatten_inj hn.1 hg h2
        subst e1
        exact hnot d hd (e2 ▸ hn.2)
  · rw [if_neg hv]
    by_cases hgg : g' = g
    · subst hgg; simp [hv]
    · simp [hgg]

omit [LinearOrder K] in
theorem wR_cells (m : GModel K) (hm : Fits m.size3) {g h : Size3} (hg : InGrid m.size3 g) (hh : InGrid m.size3 h)
    (hnot : ∀ d, (d = .right ∨ d = .end_ ∨ d = .bot) → ¬ StepsTo h g d) :
    ((List.range m.total).flatMap m.cellOps).filterMap (wR (flatten m.size g) (flatten m.size h)) =
      [Orient.right, .end_, .bot].flatMap fun d =>
        if neighbor m.size3 g d = h ∧ valid (neighbor m.size3 g d) then [m.resTo g h d] else [] := by
  rw [List.filterMap_flatMap]
  have cell : ∀ g', InGrid m.size3 g' → (m.cellOps (flatten m.size g')).filterMap (wR (flatten m.size g) (flatten m.size h)) =
      [Orient.right, .end_, .bot].flatMap fun d =>
        if g' = g ∧ neighbor m.size3 g d = h ∧ valid (neighbor m.size3 g d) then [m.resTo g h d] else [] := by
    intro g' hg'
    unfold GModel.cellOps
    have e := gridIndex_flatten hg'
    rw [size3_flat] at e
    rw [e]
    simp only [List.filterMap_cons, List.filterMap_append, wR]
    rw [wR_link m hm hg hh .right (by tauto) hg' hnot, wR_link m hm hg hh .end_ (by tauto) hg' hnot,
      wR_link m hm hg hh .bot (by tauto) hg' hnot]
    simp
  rw [flatMap_single _ (flatten m.size g) _ List.nodup_range]
  · have hlt : flatten m.size g < m.total := flatten_lt (m := m.size3) hg
    rw [if_pos (List.mem_range.2 hlt), cell g hg]
    simp
  · intro i hi hne
    rw [List.mem_range] at hi
    obtain ⟨g', hg', _, e2⟩ := (c33_numbering m.size3).2 i hi
    rw [size3_flat] at e2
    subst e2
    rw [cell g' hg']
    have : g' ≠ g := fun h => hne (by rw [h])
    simp [this]

/-- the conductance the bond wires put between two nodes -/
def GModel.jumpG (minR : K) (m : GModel K) (a b : Nat) : K :=
  (m.jumps.map fun j =>
    if (flatten m.size j.1 = a ∧ flatten m.size j.2.1 = b) ∨ (flatten m.size j.1 = b ∧ flatten m.size j.2.1 = a)
    then 1 / max (metalK * j.2.2) minR else 0).sum

theorem jumps_sum (minR : K) (m : GModel K) (iniT : List K) (hl : iniT.length = m.total) {a b : Nat} (hne : a ≠ b)
    (ha : a < m.total) (hb : b < m.total) :
    ((m.jumps.flatMap (m.jumpOps iniT)).map (Op.gAt minR a b)).sum = m.jumpG minR a b := by
  unfold GModel.jumpG
  induction m.jumps with
  | nil => rfl
  | cons j js ih =>
    rw [List.flatMap_cons, List.map_append, List.sum_append, ih, List.map_cons, List.sum_cons]
    congr 1
    unfold GModel.jumpOps
    simp only
    by_cases h1 : flatten m.size j.1 = flatten m.size j.2.1
    · rw [if_pos h1, if_neg (by omega)]; rfl
    · rw [if_neg h1]
      by_cases h2 : flatten m.size j.1 < iniT.length
      · rw [if_pos h2]; simp [Op.gAt]
      · rw [if_neg h2, if_neg (by omega)]; simp [Op.gAt]

theorem powers_sum (minR : K) (ip : List (K × K) → K → Res K) (m : GModel K) (iniT : List K) {a b : Nat}
    (ha : a < m.total) (hb : b < m.total) (ps : List (Nat × Power K)) : ∀ n, m.total ≤ n →
    ((m.powersOps ip iniT n ps).map (Op.gAt minR a b)).sum = 0 := by
  induction ps with
  | nil => intro n _; rfl
  | cons p ps ih =>
    intro n hn
    obtain ⟨z, p⟩ := p
    rw [GModel.powersOps, List.map_append, List.sum_append, ih _ (by omega), add_zero, List.sum_eq_zero]
    intro k hk
    rw [List.mem_map] at hk
    obtain ⟨o, ho, rfl⟩ := hk
    cases p with
    | grid t =>
      rw [GModel.powerOps, List.mem_flatMap] at ho
      obtain ⟨c, _, ho⟩ := ho
      rcases heatOps_cases ip m iniT t z c ho with rfl | rfl | ⟨v, rfl⟩ <;> rfl
    | block ll ur total =>
      rw [GModel.powerOps] at ho
      simp only [List.mem_cons, List.mem_map] at ho
      rcases ho with rfl | rfl | ⟨c, _, rfl⟩
      · rfl
      · rfl
      · simp only [Op.gAt]; rw [if_neg (by omega)]

theorem bcs_sum (minR : K) (m : GModel K) (a b : Nat) :
    ((m.bcs.flatMap fun b => m.bcOps b.1 b.2.1 b.2.2).map (Op.gAt minR a b)).sum = 0 := by
  rw [List.sum_eq_zero]
  intro k hk
  rw [List.mem_map] at hk
  obtain ⟨o, ho, rfl⟩ := hk
  rw [List.mem_flatMap] at ho
  obtain ⟨b, _, ho⟩ := ho
  obtain ⟨c, _, v, _, h⟩ := bcOps_cases m _ _ _ ho
  rcases h with ⟨_, rfl⟩ | ⟨_, rfl⟩ <;> rfl

theorem conductance_comm (net : Network K) (a b : Nat) : conductance net a b = conductance net b a := by
  unfold conductance; rw [Nat.min_comm, Nat.max_comm]

/-- The conductance between two cells: that of the shared face in the direction from the lower to the upper
cell, plus that of the bond wires between them. -/
theorem build_conductance {minR : K} {ip : List (K × K) → K → Res K} {m : GModel K} {iniT : List K} {net : Network K}
    (h : m.build minR ip iniT = .ok (some net)) (hm : Fits m.size3) {g k : Size3} (hg : InGrid m.size3 g)
    (hk : InGrid m.size3 k) :
    (∀ d, (d = .right ∨ d = .end_ ∨ d = .bot) → StepsTo g k d →
      conductance net (flatten m.size g) (flatten m.size k) =
        1 / max (m.resTo g k d) minR + m.jumpG minR (flatten m.size g) (flatten m.size k)) ∧
    (g ≠ k → ¬ Adjacent g k →
      conductance net (flatten m.size g) (flatten m.size k) = m.jumpG minR (flatten m.size g) (flatten m.size k)) := by
  obtain ⟨hl, hr⟩ := build_run h
  obtain ⟨_, _, _, v4⟩ := run_values hr
  have la : flatten m.size g < m.total := flatten_lt (m := m.size3) hg
  have lb : flatten m.size k < m.total := flatten_lt (m := m.size3) hk
  have main : g ≠ k → (∀ d, (d = .right ∨ d = .end_ ∨ d = .bot) → ¬ StepsTo k g d) →
      conductance net (flatten m.size g) (flatten m.size k) =
      ((([Orient.right, .end_, .bot].flatMap fun d =>
        if neighbor m.size3 g d = k ∧ valid (neighbor m.size3 g d) then [m.resTo g k d] else []).map fun v => 1 / max v minR).sum)
      + m.jumpG minR (flatten m.size g) (flatten m.size k) := by
    intro hne hnot
    have hne' : flatten m.size g ≠ flatten m.size k := fun e => hne (flatten_inj hg hk e)
    rw [v4, conductance_new, zero_add]
    unfold GModel.ops
    simp only [List.map_append, List.sum_append]
    rw [bcs_sum, powers_sum minR ip m iniT la lb _ _ (le_refl _), jumps_sum minR m iniT hl hne' la lb, sum_gAt,
      wR_cells m hm hg hk hnot, add_zero, add_zero]
  have step : ∀ d, (neighbor m.size3 g d = k ∧ valid (neighbor m.size3 g d) = true) ↔ StepsTo g k d := by
    intro d
    rw [and_comm, neighbor_iff hm hg d k]
    tauto
  refine ⟨fun d hd hs => ?_, fun hne hna => ?_⟩
  · rw [main]
    · congr 1
      have other : ∀ d', (d' = .right ∨ d' = .end_ ∨ d' = .bot) → d' ≠ d →
          ¬ (neighbor m.size3 g d' = k ∧ valid (neighbor m.size3 g d') = true) := by
        intro d' hd' hne e
        have e := (step d').1 e
        rcases hd with rfl | rfl | rfl <;> rcases hd' with rfl | rfl | rfl <;> simp only [StepsTo] at hs e <;>
          first | omega | exact hne rfl
      have this1 := (step d).2 hs
      simp only [List.flatMap_cons, List.flatMap_nil]
      rcases hd with rfl | rfl | rfl
      · rw [if_pos this1, if_neg (other .end_ (by tauto) (by simp)), if_neg (other .bot (by tauto) (by simp))]; simp
      · rw [if_pos this1, if_neg (other .right (by tauto) (by simp)), if_neg (other .bot (by tauto) (by simp))]; simp
      · rw [if_pos this1, if_neg (other .end_ (by tauto) (by simp)), if_neg (other .right (by tauto) (by simp))]; simp
    · rintro rfl
      rcases hd with rfl | rfl | rfl <;> simp only [StepsTo] at hs <;> omega
    · intro d' hd' hs'
      rcases hd with rfl | rfl | rfl <;> rcases hd' with rfl | rfl | rfl <;> simp only [StepsTo] at hs hs' <;> omega
  · have hn : ∀ d, (d = .right ∨ d = .end_ ∨ d = .bot) → ¬ StepsTo g k d ∧ ¬ StepsTo k g d := by
      intro d hd
      obtain ⟨gx, gy, gz⟩ := g
      obtain ⟨kx, ky, kz⟩ := k
      simp only [Adjacent] at hna
      rcases hd with rfl | rfl | rfl <;> simp only [StepsTo] <;> constructor <;> omega
    rw [main hne fun d hd => (hn d hd).2]
    have other : ∀ d', (d' = .right ∨ d' = .end_ ∨ d' = .bot) →
        ¬ (neighbor m.size3 g d' = k ∧ valid (neighbor m.size3 g d') = true) :=
      fun d' hd' e => (hn d' hd').1 ((step d').1 e)
    simp only [List.flatMap_cons, List.flatMap_nil]
    rw [if_neg (other .right (by tauto)), if_neg (other .end_ (by tauto)), if_neg (other .bot (by tauto))]
    simp

/-! ### capacities -/

/-- the capacity a call stores in node `i` -/
def wC (i : Nat) : Res (Op K) → Option K
  | .ok (.c j v) => if j = i then some v else none
  | _ => none

theorem fold_c (i : Nat) (l : List (Res (Op K))) : ∀ h,
    l.foldl (fun b o => Op.cAt i o b) h = (l.filterMap (wC i)).getLastD h := by
  induction l with
  | nil => intro h; simp
  | cons o l ih =>
    intro h
    rw [List.foldl_cons, ih]
    rcases o with op | _ | _
    · cases op
      case c j v =>
        by_cases hj : j = i
        · simp only [Op.cAt, hj, wC, List.filterMap_cons, if_true]
          rw [getLastD_cons']
        · simp [Op.cAt, hj, wC, List.filterMap_cons]
      all_goals simp [Op.cAt, wC, List.filterMap_cons]
    · simp [Op.cAt, wC, List.filterMap_cons]
    · simp [Op.cAt, wC, List.filterMap_cons]

theorem build_capacity {minR : K} {ip : List (K × K) → K → Res K} {m : GModel K} {iniT : List K} {net : Network K}
    (h : m.build minR ip iniT = .ok (some net)) {g : Size3} (hg : InGrid m.size3 g) :
    cOf net (flatten m.size g) = m.cellC g (m.lenZ g.z) m.areaZ := by
  obtain ⟨hl, hr⟩ := build_run h
  obtain ⟨_, _, v3, _⟩ := run_values hr
  rw [v3, fold_c, cOf_new]
  unfold GModel.ops
  simp only [List.filterMap_append]
  have e2 : (m.jumps.flatMap (m.jumpOps iniT)).filterMap (wC (flatten m.size g)) = [] := by
    rw [List.filterMap_flatMap, List.flatMap_eq_nil_iff]
    intro i _
    exact w_jumpOps _ (fun _ _ _ => rfl) rfl m iniT i
  have e3 : ∀ (ps : List (Nat × Power K)) (n : Nat), (m.powersOps ip iniT n ps).filterMap (wC (flatten m.size g)) = [] := by
    intro ps
    induction ps with
    | nil => intro n; rfl
    | cons p ps ih =>
      intro n
      obtain ⟨z, p⟩ := p
      rw [GModel.powersOps, List.filterMap_append, ih, List.append_nil, List.filterMap_eq_nil_iff]
      intro o ho
      cases p with
      | grid t =>
        rw [GModel.powerOps, List.mem_flatMap] at ho
        obtain ⟨c, _, ho⟩ := ho
        rcases heatOps_cases ip m iniT t z c ho with rfl | rfl | ⟨v, rfl⟩ <;> rfl
      | block ll ur total =>
        rw [GModel.powerOps] at ho
        simp only [List.mem_cons, List.mem_map] at ho
        rcases ho with rfl | rfl | ⟨c, _, rfl⟩ <;> rfl
  have e4 : (m.bcs.flatMap fun b => m.bcOps b.1 b.2.1 b.2.2).filterMap (wC (flatten m.size g)) = [] := by
    rw [List.filterMap_eq_nil_iff]
    intro o ho
    rw [List.mem_flatMap] at ho
    obtain ⟨b, hbm, ho⟩ := ho
    obtain ⟨c, hc, v, _, h⟩ := bcOps_cases m _ _ _ ho
    rcases h with ⟨_, rfl⟩ | ⟨_, rfl⟩ <;> rfl
  have e1 : ((List.range m.total).flatMap m.cellOps).filterMap (wC (flatten m.size g)) = [m.cellC g (m.lenZ g.z) m.areaZ] := by
    rw [List.filterMap_flatMap]
    have cell : ∀ g', InGrid m.size3 g' → (m.cellOps (flatten m.size g')).filterMap (wC (flatten m.size g)) =
        if g' = g then [m.cellC g (m.lenZ g.z) m.areaZ] else [] := by
      intro g' hg'
      unfold GModel.cellOps
      have e := gridIndex_flatten hg'
      rw [size3_flat] at e
      rw [e]
      have hlink : ∀ d, (m.link (flatten m.size g') g' d).filterMap (wC (flatten m.size g)) = [] := by
        intro d
        unfold GModel.link
        by_cases hv : valid (neighbor m.size3 g' d) = true
        · simp only [hv, if_true]; simp [wC]
        · simp only [hv, if_false]; rfl
      simp only [List.filterMap_cons, List.filterMap_append, hlink, wC]
      by_cases hgg : g' = g
      · subst hgg; simp
      · have c1 : ¬ flatten m.size g' = flatten m.size g := fun e => hgg (flatten_inj (m := m.size3) hg' hg e)
        rw [if_neg c1, if_neg hgg]; rfl
    rw [flatMap_single _ (flatten m.size g) _ List.nodup_range]
    · have hlt : flatten m.size g < m.total := flatten_lt (m := m.size3) hg
      rw [if_pos (List.mem_range.2 hlt), cell g hg]
      simp
    · intro i hi hne
      rw [List.mem_range] at hi
      obtain ⟨g', hg', _, e2⟩ := (c33_numbering m.size3).2 i hi
      rw [size3_flat] at e2
      subst e2
      rw [cell g' hg', if_neg (fun h => hne (by rw [h]))]
  rw [e1, e2, e3, e4]; simp

end Ecad.GridT
