import Verif.Thermal.SimModel
import Verif.Thermal.QueryProps
import Verif.Thermal.StaticProps
import Verif.Design.ExtractProps
/-!
C100: a static simulation of a layout answers every monitor point with the temperature of the element nearest to
it, and returns the lowest and highest temperature.
-/
namespace Ecad.Sim
open Ecad.Thermal Ecad.Query

variable {K : Type} [Field K] [LinearOrder K] [IsStrictOrderedRing K]

/-! ### specification -/

/-- Layer `i` is the one to ask for the height `h`: it contains `h`, or `h` is above the stack and `i` is the top
layer, or below and `i` the bottom layer. -/
def LayerOf (layers : List (Lyr K)) (h : K) (i : Nat) : Prop :=
  (∃ l, layers[i]? = some l ∧ Inside h l) ∨
  (i = 0 ∧ ∃ a, layers.head? = some a ∧ a.elevation ≤ h) ∨
  (i = layers.length - 1 ∧ ∃ b, layers.getLast? = some b ∧ h < b.elevation - b.thickness)

/-- The temperatures are those of steady states: a sequence from the environment temperature on, each member the
solution of the network built for the one before, `x` being the last in the unit asked for. -/
def Steady (c : Content K) (L : Lib K) (s : Setup K) (x : List K) : Prop :=
  ∃ (T : Nat → List K) (n : Nat), T 0 = List.replicate c.total s.envT ∧ 1 ≤ n ∧ n ≤ s.iteration ∧
    (∀ k < n, Static.Round c.build L.solve (T k) (T (k + 1))) ∧
    (n < s.iteration → Static.change s.maximum (T n) (T (n - 1)) ≤ s.limit) ∧
    x = if s.celsius then (T n).map (· - 27315 / 100) else T n

/-- the answer for a monitor: the temperature of a prism of the right layer, none of which is nearer -/
def Answer (c : Content K) (x : List K) (m : Centre × K) (t : K) : Prop :=
  ∃ i g, LayerOf c.layers m.2 i ∧ Nearest c.centres i m.1 g ∧ x[g]? = some t

/-- lowest and highest value of a vector -/
def Range (x : List K) (e : K × K) : Prop :=
  e.1 ∈ x ∧ (∀ t ∈ x, e.1 ≤ t) ∧ e.2 ∈ x ∧ ∀ t ∈ x, t ≤ e.2

/-- A model in order: layers without gap, each with prisms, a network that has one node per element, and a solver
that gives one temperature per node. -/
structure Sound (L : Lib K) (c : Content K) : Prop where
  pick : Picks L.pick
  stack : Contiguous c.layers
  nonempty : c.layers ≠ []
  centres : c.centres.length = c.layers.length
  prisms : ∀ l ∈ c.centres, l ≠ []
  total : (c.centres.map List.length).sum ≤ c.total
  build : ∀ T : List K, T.length = c.total → ∃ net, c.build T = .ok (some net) ∧ net.length = c.total
  solve : ∀ net, (L.solve net).length = net.length

/-! ### proofs -/

omit [IsStrictOrderedRing K] in
theorem extremes_range (x : List K) (hx : x ≠ []) : ∃ e, extremes x = .ok e ∧ Range x e := by
  cases x with
  | nil => exact absurd rfl hx
  | cons a l =>
    refine ⟨_, rfl, ?_⟩
    have lo : ∀ (l : List K) (a : K), l.foldl min a ∈ a :: l ∧ ∀ t ∈ a :: l, l.foldl min a ≤ t := by
      intro l
      induction l with
      | nil => intro a; simp
      | cons b l ih =>
        intro a
        obtain ⟨h1, h2⟩ := ih (min a b)
        rw [List.foldl_cons]
        refine ⟨?_, ?_⟩
        · rcases List.mem_cons.1 h1 with h1 | h1
          · rw [h1]
            rcases min_choice a b with h | h <;> rw [h] <;> simp
          · exact List.mem_cons_of_mem _ (List.mem_cons_of_mem _ h1)
        · intro t ht
          have h3 := h2 _ (List.mem_cons_self ..)
          rcases List.mem_cons.1 ht with rfl | ht
          · exact le_trans h3 (min_le_left _ _)
          · rcases List.mem_cons.1 ht with rfl | ht
            · exact le_trans h3 (min_le_right _ _)
            · exact h2 t (List.mem_cons_of_mem _ ht)
    have hi : ∀ (l : List K) (a : K), l.foldl max a ∈ a :: l ∧ ∀ t ∈ a :: l, t ≤ l.foldl max a := by
      intro l
      induction l with
      | nil => intro a; simp
      | cons b l ih =>
        intro a
        obtain ⟨h1, h2⟩ := ih (max a b)
        rw [List.foldl_cons]
        refine ⟨?_, ?_⟩
        · rcases List.mem_cons.1 h1 with h1 | h1
          · rw [h1]
            rcases max_choice a b with h | h <;> rw [h] <;> simp
          · exact List.mem_cons_of_mem _ (List.mem_cons_of_mem _ h1)
        · intro t ht
          have h3 := h2 _ (List.mem_cons_self ..)
          rcases List.mem_cons.1 ht with rfl | ht
          · exact le_trans (le_max_left _ _) h3
          · rcases List.mem_cons.1 ht with rfl | ht
            · exact le_trans (le_max_right _ _) h3
            · exact h2 t (List.mem_cons_of_mem _ ht)
    exact ⟨(lo l a).1, (lo l a).2, (hi l a).1, (hi l a).2⟩

theorem near_layer {layers : List (Lyr K)} (hc : Contiguous layers) (hne : layers ≠ []) (h : K) :
    (∃ i, nearestLayerS layers h = .ok i ∧ i < layers.length ∧ LayerOf layers h i) ∧
    ((∀ a, layers.head? = some a → h ≠ a.elevation) →
      ∃ i, nearestLayer layers h = .ok i ∧ i < layers.length ∧ LayerOf layers h i) := by
  have hlen : 0 < layers.length := List.length_pos_iff.2 hne
  obtain ⟨a, ha⟩ : ∃ a, layers.head? = some a := by
    cases layers with
    | nil => exact absurd rfl hne
    | cons a l => exact ⟨a, rfl⟩
  obtain ⟨b, hb⟩ : ∃ b, layers.getLast? = some b := ⟨_, List.getLast?_eq_getLast_of_ne_nil hne⟩
  have idx : ∀ (j : Nat) (l : Lyr K), layers[j]? = some l → j < layers.length := by
    intro j l hj
    exact (List.getElem?_eq_some_iff.1 hj).1
  constructor
  · obtain ⟨h1, h2, h3, h4⟩ := c37_stackup layers hc h a b ha hb
    rcases h4 with h4 | h4 | ⟨j, l, hj, hi⟩
    · exact ⟨0, h1 h4, hlen, Or.inr (Or.inl ⟨rfl, a, ha, h4⟩)⟩
    · exact ⟨_, h2 h4, by omega, Or.inr (Or.inr ⟨rfl, b, hb, h4⟩)⟩
    · exact ⟨j, h3 j l hj hi, idx j l hj, Or.inl ⟨l, hj, hi⟩⟩
  · intro hna
    obtain ⟨h1, h2, h3, h4⟩ := c37_prism_partial layers hc h a b ha hb (hna a ha)
    rcases h4 with h4 | h4 | ⟨j, l, hj, hi⟩
    · exact ⟨0, h1 h4, hlen, Or.inr (Or.inl ⟨rfl, a, ha, le_of_lt h4⟩)⟩
    · exact ⟨_, h2 h4, by omega, Or.inr (Or.inr ⟨rfl, b, hb, h4⟩)⟩
    · exact ⟨j, h3 j l hj hi, idx j l hj, Or.inl ⟨l, hj, hi⟩⟩

theorem nearest_lt {cs : List (List Centre)} {i : Nat} {q : Centre} {g : Nat} (h : Nearest cs i q g) :
    g < (cs.map List.length).sum := by
  obtain ⟨l, j, c, h1, h2, rfl, -⟩ := h
  have hj := (List.getElem?_eq_some_iff.1 h2).1
  obtain ⟨hi, rfl⟩ := List.getElem?_eq_some_iff.1 h1
  have e : cs = cs.take i ++ cs[i] :: cs.drop (i + 1) := by simp
  have : (cs.map List.length).sum = ((cs.take i).map List.length).sum + (cs[i].length +
      ((cs.drop (i + 1)).map List.length).sum) := by
    conv_lhs => rw [e]
    simp only [List.map_append, List.map_cons, List.sum_append, List.sum_cons]
  omega

/-- The simulator is that of the class of the model: no case falls through. -/
theorem c100_simulator (c : Class) : simulator c = if c = .other then none else some c := by
  cases c <;> decide

/-- what the model finds for the monitors -/
theorem probes_ok {L : Lib K} {c : Content K} (S : Sound L c) (hk : c.cls = .prism ∨ c.cls = .stackup)
    (ms : List (Centre × K))
    (htop : c.cls = .prism → ∀ m ∈ ms, ∀ a, c.layers.head? = some a → m.2 ≠ a.elevation) :
    ∃ gs, probes L c ms = .ok gs ∧
      List.Forall₂ (fun (m : Centre × K) g => ∃ i, LayerOf c.layers m.2 i ∧ Nearest c.centres i m.1 g) ms gs := by
  have lay : ∀ i, i < c.layers.length → ∃ l, c.centres[i]? = some l ∧ l ≠ [] := by
    intro i hi
    have hi' : i < c.centres.length := by rw [S.centres]; exact hi
    exact ⟨c.centres[i], List.getElem?_eq_getElem hi', S.prisms _ (List.getElem_mem hi')⟩
  have go : ∀ (near : List (Lyr K) → K → Res Nat),
      (∀ m ∈ ms, ∃ i, near c.layers m.2 = .ok i ∧ i < c.layers.length ∧ LayerOf c.layers m.2 i) →
      ∃ gs, searchElements near L.pick c.layers c.centres ms = .ok gs ∧
        List.Forall₂ (fun (m : Centre × K) g => ∃ i, LayerOf c.layers m.2 i ∧ Nearest c.centres i m.1 g) ms gs := by
    intro near hn
    obtain ⟨gs, h1, h2⟩ := c66_monitors near L.pick S.pick c.layers c.centres ms (by
      intro m hm
      obtain ⟨i, h1, h2, -⟩ := hn m hm
      obtain ⟨l, h3, h4⟩ := lay i h2
      exact ⟨i, l, h1, h3, h4⟩)
    refine ⟨gs, h1, ?_⟩
    clear h1
    induction h2 with
    | nil => exact .nil
    | @cons m g ms gs hm _ ih =>
      refine .cons ?_ (ih (fun hk m hm => htop hk m (by simp [hm])) fun m hm => hn m (by simp [hm]))
      obtain ⟨i, h3, h4⟩ := hm
      obtain ⟨i', h5, -, h6⟩ := hn m (by simp)
      rw [h3] at h5
      cases h5
      exact ⟨i, h6, h4⟩
  rcases hk with hk | hk
  · simp only [probes, hk]
    exact go _ fun m hm => (near_layer S.stack S.nonempty m.2).2 (htop hk m hm)
  · simp only [probes, hk]
    exact go _ fun m _ => (near_layer S.stack S.nonempty m.2).1

/-- **C100**, what holds: the simulation of a prism or stackup prism model in order, with a working directory and at
least one round, returns one temperature per monitor, that of a nearest prism in the layer of the monitor, and the
range of all temperatures; the temperatures are the steady state as far as the iteration settings ask.

*Missing*: grid models (`c100_grid_refuted`), monitors of prism models exactly at the height of the top face
(C37), settings without rounds (C67), and that the model belongs to the layout (`c100_stale_refuted`, C16). -/
theorem c100_static_partial (L : Lib K) (c : Content K) (S : Sound L c) (s : Setup K)
    (hk : c.cls = .prism ∨ c.cls = .stackup) (hdir : s.dir = true) (hi : 1 ≤ s.iteration)
    (htop : c.cls = .prism → ∀ m ∈ s.monitors, ∀ a, c.layers.head? = some a → m.2 ≠ a.elevation)
    (fuel : Nat) (hf : s.iteration ≤ fuel) :
    ∃ (x : List K) (e : K × K) (temps : List K),
      runStatic L (some c) s fuel = some (.ok (some e, temps)) ∧ x.length = c.total ∧ Steady c L s x ∧
      Range x e ∧ List.Forall₂ (Answer c x) s.monitors temps := by
  obtain ⟨gs, hg, hgs⟩ := probes_ok S hk s.monitors htop
  obtain ⟨T, n, t1, t2, t3, t4, t5, t6, t7⟩ := Static.c67_static_partial c.build L.solve c.total s.envT s.limit
    s.maximum s.celsius s.iteration hi S.build S.solve fuel hf
  have hTlen : ∀ k ≤ n, (T k).length = c.total := by
    intro k hk
    induction k with
    | zero => rw [t1]; simp
    | succ k ih =>
      obtain ⟨net, h1, h2⟩ := t5 k (by omega)
      obtain ⟨net', h3, h4⟩ := S.build (T k) (ih (by omega))
      rw [h1] at h3; cases h3
      rw [h2, S.solve, h4]
  generalize hx : (if s.celsius then (T n).map (· - 27315 / 100) else T n) = x at t4
  have hxl : x.length = c.total := by
    rw [← hx]; split
    · simp [hTlen n le_rfl]
    · exact hTlen n le_rfl
  have hpos : 0 < c.total := by
    have h0 : 0 < c.centres.length := by rw [S.centres]; exact List.length_pos_iff.2 S.nonempty
    have h1 : c.centres[0].length ≤ (c.centres.map List.length).sum :=
      List.single_le_sum (by simp) _ (List.mem_map_of_mem (List.getElem_mem h0))
    have h2 : 0 < c.centres[0].length := List.length_pos_iff.2 (S.prisms _ (List.getElem_mem h0))
    have := S.total
    omega
  obtain ⟨e, he, hr⟩ := extremes_range x (by
    intro h
    rw [h] at hxl
    simp at hxl
    omega)
  have hlt : ∀ g ∈ gs, g < x.length := by
    intro g hgm
    obtain ⟨m, -, i, -, h⟩ : ∃ m ∈ s.monitors, ∃ i, LayerOf c.layers m.2 i ∧ Nearest c.centres i m.1 g := by
      clear hg
      generalize s.monitors = ms at hgs
      induction hgs with
      | nil => simp at hgm
      | @cons m g' ms gs h1 _ ih =>
        rcases List.mem_cons.1 hgm with rfl | h
        · exact ⟨m, by simp, h1⟩
        · obtain ⟨m', h2, h3⟩ := ih h
          exact ⟨m', by simp [h2], h3⟩
    have := nearest_lt h
    have := S.total
    omega
  have hrow := ((c38_values x gs (0 : K)).1 hlt).2
  refine ⟨x, e, gs.map fun p => x.getD p 0, ?_, hxl, ⟨T, n, t1, t2, t3, t5, t7, hx.symm⟩, hr, ?_⟩
  · have hsim : simulator c.cls = some c.cls := by
      rw [c100_simulator, if_neg]
      rcases hk with h | h <;> rw [h] <;> decide
    simp only [runStatic, hdir, Bool.not_true, Bool.false_eq_true, if_false, hsim, runWith, runSimulator, hg,
      solveProbes, t4, Option.map_some, Res.bind_ok, he, hrow]
  · clear hg hrow
    generalize s.monitors = ms at hgs
    induction hgs with
    | nil => exact .nil
    | @cons m g ms gs h1 _ ih =>
      refine .cons ?_ (ih fun g hg => hlt g (by simp [hg]))
      obtain ⟨i, h2, h3⟩ := h1
      refine ⟨i, g, h2, h3, ?_⟩
      have hg := hlt g (by simp)
      show x[g]? = some (x.getD g 0)
      rw [List.getD_eq_getElem?_getD, List.getElem?_eq_getElem hg, Option.getD_some]

omit [IsStrictOrderedRing K] in
/-- **C100 is false of the code for grid models**: monitors are ignored; whatever the simulation returns, there is no
temperature for them. -/
theorem c100_grid_refuted (L : Lib K) (c : Content K) (hk : c.cls = .grid) (s : Setup K) (fuel : Nat)
    (e : Option (K × K)) (temps : List K) (h : runStatic L (some c) s fuel = some (.ok (e, temps))) :
    temps = [] := by
  have hsim : simulator c.cls = some .grid := by rw [hk]; decide
  simp only [runStatic] at h
  split at h
  · simp at h
  · rw [hsim] at h
    simp only [runWith, runSimulator, probes, hk, solveProbes, Option.map_eq_some_iff] at h
    obtain ⟨r, h1, h2⟩ := h
    cases r with
    | ub => simp at h2
    | exn => simp at h2
    | ok o =>
      rw [Res.bind_ok] at h2
      cases o with
      | none => simp at h2; exact h2.2
      | some x =>
        simp only at h2
        cases he : extremes x with
        | ub => rw [he] at h2; simp at h2
        | exn => rw [he] at h2; simp at h2
        | ok e' =>
          rw [he] at h2
          simp only [Res.bind_ok, staticRow, readAll, Res.ok.injEq, Prod.mk.injEq] at h2
          exact h2.2.symm

omit [IsStrictOrderedRing K] in
/-- No model, or one of another class: no range and no temperatures.  A working directory that cannot be created is
an exception. -/
theorem c100_refused (L : Lib K) (s : Setup K) (fuel : Nat) :
    runStatic L none s fuel = some (.ok (none, [])) ∧
    (∀ c : Content K, s.dir = false → runStatic L (some c) s fuel = some .exn) ∧
    (∀ c : Content K, s.dir = true → c.cls = .other → runStatic L (some c) s fuel = some (.ok (none, []))) := by
  refine ⟨rfl, ?_, ?_⟩
  · intro c h; simp [runStatic, h]
  · intro c h hc
    have hsim : simulator c.cls = none := by rw [hc]; decide
    simp [runStatic, h, hsim, runWith]

omit [IsStrictOrderedRing K] in
/-- C100 fails for models without elements: if the solver gives an empty vector, finding the lowest temperature is undefined. -/
theorem c100_empty_refuted (L : Lib K) (c : Content K) (s : Setup K) (fuel : Nat) (ps : List Nat) (hk : c.cls ≠ .other) (hdir : s.dir = true)
    (hp : probes L c s.monitors = .ok ps)
    (hx : Static.solveStatic c.build L.solve c.total s.envT s.limit s.maximum s.iteration s.celsius fuel = some (.ok (some []))) :
    runStatic L (some c) s fuel = some .ub := by
  unfold runStatic
  simp only [hdir, Bool.not_true, Bool.false_eq_true, if_false]
  rw [c100_simulator, if_neg hk]
  unfold runWith runSimulator
  simp only [hp]
  unfold solveProbes
  rw [hx]
  rfl

/-- C100: a run without a solution leaves no temperatures. -/
theorem c100_unsolved (L : Lib K) (m : Option (Content K)) (s : Setup K) (fuel : Nat) (temps : List K)
    (h : runStatic L m s fuel = some (.ok (none, temps))) : temps = [] := by
  have solve : ∀ c ps, solveProbes L c s ps fuel = some (.ok (none, temps)) → temps = [] := by
    intro c ps h
    unfold solveProbes at h
    rw [Option.map_eq_some_iff] at h
    obtain ⟨r, _, h⟩ := h
    cases r with
    | ub => simp at h
    | exn => simp at h
    | ok o =>
      rw [Res.bind_ok] at h
      cases o with
      | none =>
        simp only [Res.ok.injEq, Prod.mk.injEq, true_and] at h
        exact h.symm
      | some x =>
        simp only at h
        cases he : extremes x with
        | ub => simp [he] at h
        | exn => simp [he] at h
        | ok e =>
          cases hr : staticRow x ps with
          | ub => simp [he, hr] at h
          | exn => simp [he, hr] at h
          | ok t => simp [he, hr] at h
  unfold runStatic at h
  cases m with
  | none =>
    simp only [Option.some.injEq, Res.ok.injEq, Prod.mk.injEq, true_and] at h
    exact h.symm
  | some c =>
    simp only at h
    split at h
    · simp at h
    · unfold runWith at h
      split at h
      · simp only [Option.some.injEq, Res.ok.injEq, Prod.mk.injEq, true_and] at h
        exact h.symm
      · unfold runSimulator at h
        split at h
        · simp at h
        · simp at h
        · exact solve _ _ h

/-- A transient simulation uses the same simulator and the same probes. -/
theorem c100_transient (L : Lib K) (solveT : Content K → List Nat → Res (Option (K × K))) (c : Content K)
    (monitors : List (Centre × K)) (hk : c.cls ≠ .other) :
    runTransient L solveT (some c) true monitors = (probes L c monitors).bind (solveT c) ∧
    runTransient L solveT (some c) false monitors = .exn ∧
    runTransient L solveT none true monitors = .ok none := by
  refine ⟨?_, by simp [runTransient], rfl⟩
  have hsim : simulator c.cls = some c.cls := by rw [c100_simulator, if_neg hk]
  simp [runTransient, hsim]

variable {F Lay : Type} [DecidableEq F]

omit [IsStrictOrderedRing K] in
/-- A layout is simulated with the model made in this call, if a rebuild is asked for and succeeds.  For prism models `Lay` is the layout with the
layer cut model it keeps, so the model need not describe the geometry as it is now (C148). -/
theorem c100_layout (L : Lib K) (gen : Lay → Extract.Settings F → Option (Content K)) (l : Lay)
    (h : List (Lay × Extract.Settings F)) (e : Extract.Settings F) (s : Setup K) (c : Content K)
    (hforce : e.base.forceRebuild = true) (hgen : gen l e = some c) (fuel : Nat) :
    runLayout L gen l (Extract.run gen [] h) (some e) s fuel = runStatic L (some c) s fuel := by
  obtain ⟨m, h1, -, h3, -⟩ := Extract.c16_extract_partial gen h l e c hgen
  rcases h3 with rfl | ⟨h3, -⟩
  · simp only [runLayout, h1]
  · rw [hforce] at h3; simp at h3

omit [IsStrictOrderedRing K] in
/-- **False of the code**: if the model cannot be made, the last model of the type is simulated instead, whatever its
layout and settings. -/
theorem c100_stale_refuted (L : Lib K) (gen : Lay → Extract.Settings F → Option (Content K)) (l : Lay)
    (h : List (Lay × Extract.Settings F)) (e : Extract.Settings F) (s : Setup K)
    (m : Extract.Model F (Content K)) (hgen : gen l e = none)
    (hm : UMap.find? (Extract.run gen [] h) e.modelType = some m) (fuel : Nat) :
    runLayout L gen l (Extract.run gen [] h) (some e) s fuel = runStatic L (some m.content) s fuel := by
  simp only [runLayout, Extract.c16_failed_generation_refuted gen h l e m hgen hm]

/-! ### example -/

/-- two layers of two prisms each, and a solver that knows the answer -/
def exContent (cls : Class) : Content ℚ :=
  ⟨cls, 4, fun T => if T.length = 4 then .ok (some (List.replicate 4 ⟨noScen, none, 0, 0, 0, []⟩)) else .ok none,
   [⟨10, 4⟩, ⟨6, 2⟩], [[⟨0, 0⟩, ⟨10, 0⟩], [⟨0, 0⟩, ⟨10, 0⟩]]⟩

/-- see `exContent` -/
def exLib : Lib ℚ := ⟨fun net => (List.range net.length).map fun i => (300 + i : ℚ), List.head?⟩

/-- see `exContent` -/
def exSetup : Setup ℚ := ⟨true, [(⟨7, 1⟩, 5), (⟨1, 0⟩, 8), (⟨2, 2⟩, 100)], 298, 1, true, 10, false⟩

theorem exSound (cls : Class) : Sound exLib (exContent cls) := by
  refine ⟨⟨?_, rfl⟩, ?_, ?_, rfl, ?_, ?_, ?_, ?_⟩
  · intro l hl
    cases l with
    | nil => exact absurd rfl hl
    | cons a l => exact ⟨a, by simp, rfl⟩
  · simp only [exContent, Contiguous]; norm_num
  · simp [exContent]
  · intro l hl
    simp only [exContent, List.mem_cons, List.not_mem_nil, or_false] at hl
    rcases hl with rfl | rfl <;> simp
  · simp [exContent]
  · intro T hT
    exact ⟨_, if_pos hT, by simp [exContent]⟩
  · intro net
    simp [exLib]

example : runStatic exLib (some (exContent .stackup)) exSetup 10 = some (.ok (some (300, 303), [303, 300, 300])) ∧
    runStatic exLib (some (exContent .grid)) exSetup 10 = some (.ok (some (300, 303), [])) := by
  decide +kernel

/-- a model without elements -/
example : runStatic ⟨fun _ => [], fun _ => none⟩ (some ⟨.grid, 0, fun _ => .ok (some []), [], []⟩) (⟨true, [], 300, 1, true, 2, false⟩ : Setup ℚ) 10 = some .ub := by
  decide +kernel

end Ecad.Sim
