import Verif.Thermal.ConvergeProps
import Verif.Thermal.GridSolveProps
/-!
C129 for grid models: the networks built for different temperatures differ only in the heat flows of the cells, so that the convergence of the iteration
is decided by how fast the power tables grow.
-/
namespace Ecad.Converge
open Ecad.Thermal Ecad.Response Ecad.Static Ecad.GridT

variable {K : Type} [Field K] [LinearOrder K]

/-! ## specification -/

/-- the cell of a number -/
def cellOf (s : Size2) (i : Nat) : Size3 := ⟨i % (s.x * s.y) / s.y, i % (s.x * s.y) % s.y, i / (s.x * s.y)⟩

/-- the heat flow into a cell at its temperature: that of its last source -/
def cellPower (ip : List (K × K) → K → Res K) (m : GModel K) (t : K) (i : Nat) : K := (m.sources ip t (cellOf m.size i)).getLastD 0

/-- the heat flow into a cell changes by at most `L` per degree -/
def CellSlopes (ip : List (K × K) → K → Res K) (m : GModel K) (L : Nat → K) : Prop :=
  ∀ i < m.total, 0 ≤ L i ∧ ∀ t t' : K, |cellPower ip m t i - cellPower ip m t' i| ≤ L i * |t - t'|

/-! ## calls that differ in heat flows -/

/-- the same call, or a heat flow of the same node -/
inductive Alike : Res (Op K) → Res (Op K) → Prop
  | same (o : Res (Op K)) : Alike o o
  | hf (i : Nat) (v w : K) : Alike (.ok (.hf i v)) (.ok (.hf i w))

/-- what matters of a node -/
def core (n : Node K) : List (Nat × K) × K := (n.ns, n.htc)

omit [Field K] [LinearOrder K] in
theorem map_modify_core (a : Network K) (i : Nat) (f : Node K → Node K) (g : List (Nat × K) × K → List (Nat × K) × K)
    (h : ∀ n, core (f n) = g (core n)) : (a.modify i f).map core = (a.map core).modify i g := by
  apply List.ext_getElem?
  intro k
  rw [List.getElem?_map, List.getElem?_modify, List.getElem?_modify, List.getElem?_map]
  cases a[k]? with
  | none => rfl
  | some n =>
    by_cases hk : i = k
    · simp [hk, h]
    · simp [hk]

omit [Field K] [LinearOrder K] in
theorem map_modify_id (a : Network K) (i : Nat) (f : Node K → Node K) (h : ∀ n, core (f n) = core n) : (a.modify i f).map core = a.map core := by
  rw [map_modify_core a i f id h]
  apply List.ext_getElem?
  intro k
  rw [List.getElem?_modify]
  cases (a.map core)[k]? with
  | none => rfl
  | some n => simp

theorem exec_core {minR : K} {op : Op K} {a b a' b' : Network K} (h : a.map core = b.map core) (ha : op.exec minR a = .ok a')
    (hb : op.exec minR b = .ok b') : a'.map core = b'.map core := by
  cases op <;> simp only [Op.exec, setC, setHF, addHF, setHTC, addHTC, setR_eq, upd_ok] at ha hb
  case append =>
    simp [appendNode] at ha hb
    subst ha; subst hb
    simp [h]
  case scen i s =>
    obtain ⟨_, rfl⟩ := ha; obtain ⟨_, rfl⟩ := hb
    rw [map_modify_id _ _ _ (by intro n; rfl), map_modify_id _ _ _ (by intro n; rfl), h]
  case c i s =>
    obtain ⟨_, rfl⟩ := ha; obtain ⟨_, rfl⟩ := hb
    rw [map_modify_id _ _ _ (by intro n; rfl), map_modify_id _ _ _ (by intro n; rfl), h]
  case hf i s =>
    obtain ⟨_, rfl⟩ := ha; obtain ⟨_, rfl⟩ := hb
    rw [map_modify_id _ _ _ (by intro n; rfl), map_modify_id _ _ _ (by intro n; rfl), h]
  case addHF i s =>
    obtain ⟨_, rfl⟩ := ha; obtain ⟨_, rfl⟩ := hb
    rw [map_modify_id _ _ _ (by intro n; rfl), map_modify_id _ _ _ (by intro n; rfl), h]
  case htc i s =>
    obtain ⟨_, rfl⟩ := ha; obtain ⟨_, rfl⟩ := hb
    rw [map_modify_core _ _ _ (fun p => (p.1, s)) (by intro n; rfl), map_modify_core _ _ _ (fun p => (p.1, s)) (by intro n; rfl), h]
  case addHTC i s =>
    obtain ⟨_, rfl⟩ := ha; obtain ⟨_, rfl⟩ := hb
    rw [map_modify_core _ _ _ (fun p => (p.1, p.2 + s)) (by intro n; rfl), map_modify_core _ _ _ (fun p => (p.1, p.2 + s)) (by intro n; rfl), h]
  case r i j s =>
    obtain ⟨_, rfl⟩ := ha; obtain ⟨_, rfl⟩ := hb
    rw [map_modify_core _ _ _ (fun p => (setNs p.1 (max i j) (max s minR), p.2)) (by intro n; rfl),
      map_modify_core _ _ _ (fun p => (setNs p.1 (max i j) (max s minR), p.2)) (by intro n; rfl), h]

theorem exec_hf_core {minR : K} {i : Nat} {v : K} {a a' : Network K} (ha : (Op.hf i v).exec minR a = .ok a') : a'.map core = a.map core := by
  simp only [Op.exec, setHF, upd_ok] at ha
  obtain ⟨_, rfl⟩ := ha
  exact map_modify_id _ _ _ fun n => rfl

/-- calls that differ only in heat flows make networks that differ only in heat flows (and capacities and scenarios, which are equal too) -/
theorem run_core {minR : K} {l l' : List (Res (Op K))} (hl : List.Forall₂ Alike l l') : ∀ {a b a' b' : Network K}, a.map core = b.map core →
    run minR a l = .ok a' → run minR b l' = .ok b' → a'.map core = b'.map core := by
  induction hl with
  | nil =>
    intro a b a' b' h ha hb
    simp [run] at ha hb
    subst ha; subst hb
    exact h
  | @cons o o' l1 l2 ho _ ih =>
    intro a b a' b' h ha hb
    cases ho with
    | same =>
      rcases o with op | _ | _
      · rw [run] at ha hb
        cases h1 : op.exec minR a with
        | ub => rw [h1] at ha; simp at ha
        | exn => rw [h1] at ha; simp at ha
        | ok n1 =>
          cases h2 : op.exec minR b with
          | ub => rw [h2] at hb; simp at hb
          | exn => rw [h2] at hb; simp at hb
          | ok n2 =>
            rw [h1, Res.bind_ok] at ha
            rw [h2, Res.bind_ok] at hb
            exact ih (exec_core h h1 h2) ha hb
      · simp [run] at ha
      · simp [run] at ha
    | hf i v w =>
      rw [run] at ha hb
      cases h1 : (Op.hf i v).exec minR a with
      | ub => rw [h1] at ha; simp at ha
      | exn => rw [h1] at ha; simp at ha
      | ok n1 =>
        cases h2 : (Op.hf i w).exec minR b with
        | ub => rw [h2] at hb; simp at hb
        | exn => rw [h2] at hb; simp at hb
        | ok n2 =>
          rw [h1, Res.bind_ok] at ha
          rw [h2, Res.bind_ok] at hb
          exact ih (by rw [exec_hf_core h1, exec_hf_core h2, h]) ha hb

omit [LinearOrder K] in
theorem same_of_core {a b : Network K} (h : a.map core = b.map core) : Same a b := by
  have hl : a.length = b.length := by
    have := congrArg List.length h
    simpa using this
  have hg : ∀ i : Nat, a[i]?.map core = b[i]?.map core := by
    intro i
    rw [← List.getElem?_map, ← List.getElem?_map, h]
  refine ⟨hl, ?_, ?_⟩
  · intro i n n' hn hn'
    have := hg i
    rw [hn, hn', Option.map_some, Option.map_some, Option.some.injEq] at this
    exact congrArg Prod.fst this
  · intro i
    have := hg i
    unfold htcOf
    cases ha : a[i]? with
    | none =>
      cases hb : b[i]? with
      | none => rfl
      | some n' => rw [ha, hb] at this; simp at this
    | some n =>
      cases hb : b[i]? with
      | none => rw [ha, hb] at this; simp at this
      | some n' =>
        rw [ha, hb, Option.map_some, Option.map_some, Option.some.injEq] at this
        exact congrArg Prod.snd this

/-! ## the calls of the grid builder -/

theorem forall₂_refl {α : Type} {R : α → α → Prop} (h : ∀ a, R a a) : ∀ l : List α, List.Forall₂ R l l
  | [] => .nil
  | a :: l => .cons (h a) (forall₂_refl h l)

theorem forall₂_append {α : Type} {R : α → α → Prop} {a b c d : List α} (h : List.Forall₂ R a b) (h' : List.Forall₂ R c d) :
    List.Forall₂ R (a ++ c) (b ++ d) := by
  induction h with
  | nil => exact h'
  | cons h1 _ ih => exact .cons h1 ih

theorem forall₂_flatMap {α β : Type} {R : β → β → Prop} {f g : α → List β} (l : List α) (h : ∀ a ∈ l, List.Forall₂ R (f a) (g a)) :
    List.Forall₂ R (l.flatMap f) (l.flatMap g) := by
  induction l with
  | nil => exact .nil
  | cons a l ih =>
    rw [List.flatMap_cons, List.flatMap_cons]
    exact forall₂_append (h a List.mem_cons_self) (ih fun b hb => h b (List.mem_cons_of_mem _ hb))

/-- whether a table gives a value depends on the place only -/
theorem query_some {ip : List (K × K) → K → Res K} {t : Table K} {x y : Nat} {k k' : K} {o o' : Option K} (h : query ip t k x y = .ok o)
    (h' : query ip t k' x y = .ok o') : o.isSome = o'.isSome := by
  unfold query at h h'
  by_cases hx : t.size.x ≤ x ∨ t.size.y ≤ y
  · rw [if_pos hx] at h h'
    injection h with h; injection h' with h'
    subst h; subst h'; rfl
  · rw [if_neg hx] at h h'
    have some : ∀ (key : K) (r : Option K), (match t.samples with
        | [] => (.ok none : Res (Option K))
        | [s] => .ok (some (s.2.val x y))
        | s :: s' :: rest =>
          let l := (s' :: rest).getLast (by simp)
          if key ≤ s.1 then .ok (some (s.2.val x y))
          else if l.1 ≤ key then .ok (some (l.2.val x y))
          else (ip (t.samples.map fun p : K × GridData K => (p.1, p.2.val x y)) key).bind fun v => .ok (some v)) = .ok r → r.isSome = !t.samples.isEmpty := by
      intro key r hr
      cases hs : t.samples with
      | nil =>
        simp only [hs] at hr
        injection hr with hr; subst hr; rfl
      | cons s l =>
        cases l with
        | nil =>
          simp only [hs] at hr
          injection hr with hr; subst hr; rfl
        | cons s' rest =>
          simp only [hs] at hr
          split_ifs at hr
          · injection hr with hr; subst hr; rfl
          · injection hr with hr; subst hr; rfl
          · cases hi : ip ((s :: s' :: rest : List (K × GridData K)).map fun p : K × GridData K => (p.1, p.2.val x y)) key with
            | ok v => rw [hi, Res.bind_ok] at hr; injection hr with hr; subst hr; rfl
            | ub => rw [hi] at hr; simp at hr
            | exn => rw [hi] at hr; simp at hr
    rw [some _ _ h, some _ _ h']

theorem alike_powers {ip : List (K × K) → K → Res K} {m : GModel K} (hs : m.Sound ip) {T T' : List K} (hl : T.length = T'.length) :
    ∀ (ps : List (Nat × Power K)) (_ : ∀ p ∈ ps, p ∈ m.powers) (n : Nat), List.Forall₂ Alike (m.powersOps ip T n ps) (m.powersOps ip T' n ps) := by
  intro ps
  induction ps with
  | nil => intro _ n; exact .nil
  | cons p ps ih =>
    intro hps n
    obtain ⟨z, p⟩ := p
    rw [GModel.powersOps, GModel.powersOps]
    refine forall₂_append ?_ (ih (fun q hq => hps q (List.mem_cons_of_mem _ hq)) _)
    cases p with
    | block ll ur total => exact forall₂_refl Alike.same _
    | grid t =>
      obtain ⟨_, l, hlm, hpl⟩ := mem_powers (hps _ List.mem_cons_self)
      rw [GModel.powerOps, GModel.powerOps]
      refine forall₂_flatMap _ fun c _ => ?_
      unfold GModel.heatOps
      dsimp only
      by_cases hi : flatten m.size ⟨c.1, c.2, z⟩ < T.length
      · rw [List.getElem?_eq_getElem hi, List.getElem?_eq_getElem (by omega : _ < T'.length)]
        simp only
        obtain ⟨o, ho⟩ := hs.tables l hlm t hpl (T[flatten m.size ⟨c.1, c.2, z⟩]'hi) c.1 c.2
        obtain ⟨o', ho'⟩ := hs.tables l hlm t hpl (T'[flatten m.size ⟨c.1, c.2, z⟩]'(by omega)) c.1 c.2
        have he := query_some ho ho'
        rw [ho, ho']
        cases o with
        | none =>
          cases o' with
          | none => exact .nil
          | some v => simp at he
        | some v =>
          cases o' with
          | none => simp at he
          | some w => exact .cons (.hf _ _ _) .nil
      · rw [List.getElem?_eq_none (by omega), List.getElem?_eq_none (by omega)]
        exact forall₂_refl Alike.same _

theorem alike_ops {ip : List (K × K) → K → Res K} {m : GModel K} (hs : m.Sound ip) {T T' : List K} (hl : T.length = T'.length) :
    List.Forall₂ Alike (m.ops ip T) (m.ops ip T') := by
  unfold GModel.ops
  refine forall₂_append (forall₂_append (forall₂_append (forall₂_refl Alike.same _) (forall₂_flatMap _ fun j _ => ?_)) (alike_powers hs hl _ (fun p hp => hp) _))
    (forall₂_refl Alike.same _)
  unfold GModel.jumpOps
  dsimp only
  rw [hl]
  exact forall₂_refl Alike.same _

/-- the networks built for two vectors of temperatures -/
theorem build_same {minR : K} {ip : List (K × K) → K → Res K} {m : GModel K} (hs : m.Sound ip) {T T' : List K} {a b : Network K}
    (ha : m.build minR ip T = .ok (some a)) (hb : m.build minR ip T' = .ok (some b)) : Same a b := by
  obtain ⟨l1, r1⟩ := build_run ha
  obtain ⟨l2, r2⟩ := build_run hb
  exact same_of_core (run_core (alike_ops hs (by rw [l1, l2])) rfl r1 r2)

theorem cellOf_spec (m : GModel K) {i : Nat} (hi : i < m.total) : InGrid m.size3 (cellOf m.size i) ∧ flatten m.size (cellOf m.size i) = i := by
  obtain ⟨g, h1, h2, h3⟩ := (c33_numbering m.size3).2 i hi
  have h4 : gridIndex m.size i = .ok g := h2
  unfold gridIndex at h4
  split at h4
  · simp at h4
  · injection h4 with h4
    have : cellOf m.size i = g := h4
    rw [this]
    exact ⟨h1, h3⟩

variable [IsStrictOrderedRing K]

/-- the network of a sound, cooled grid model, and the heat flows of the networks built for other temperatures -/
theorem grid_fed {ip : List (K × K) → K → Res K} {m : GModel K} (hs : m.Sound ip) (hp : m.Physical) (hc : m.Cooled) (hno : m.blockTotals = [])
    {minR : K} (hm : 0 < minR) (T0 : List K)
    (h0 : T0.length = m.total) :
    ∃ net, m.build minR ip T0 = .ok (some net) ∧ net.length = m.total ∧ Grounded net ∧
      ∀ T : List K, T.length = net.length → ∃ net', m.build minR ip T = .ok (some net') ∧ Same net net' ∧ ∀ i < net.length, hfOf net' i = cellPower ip m (T.getD i 0) i := by
  obtain ⟨net, hb, hg, _⟩ := c62_solvable hs hp hc hm h0 0
  have hlen : net.length = m.total := by
    have := (build_blocks hb hs.blocks hs.layers).1
    rw [hno] at this
    simpa using this
  refine ⟨net, hb, hlen, hg, ?_⟩
  · intro T hT
    rw [hlen] at hT
    obtain ⟨net', hb'⟩ := build_succeeds hs minR hT
    refine ⟨net', hb', build_same hs hb hb', fun i hi => ?_⟩
    rw [hlen] at hi
    obtain ⟨c1, c2⟩ := cellOf_spec m hi
    have hg' : T[flatten m.size (cellOf m.size i)]? = some (T.getD i 0) := by
      rw [c2, List.getD_eq_getElem?_getD, List.getElem?_eq_getElem (by rw [hT]; exact hi)]
      rfl
    have := (build_last hb' hs.fits hs.blocks c1 hg').1
    rw [c2] at this
    exact this

/-- C129, grid models: a sound, cooled grid model without block powers is, for every linear solver that solves, a model of fixed resistances and transfer
coefficients whose heat flows depend on the temperatures, with the slopes of its cells. -/
theorem c129_grid {ip : List (K × K) → K → Res K} {m : GModel K} (hs : m.Sound ip) (hp : m.Physical) (hc : m.Cooled) (hno : m.blockTotals = [])
    {minR : K} (hm : 0 < minR) {refT : K} {solve : Network K → List K} (hsize : ∀ net, (solve net).length = net.length)
    (hsolve : ∀ net, Grounded net → Solves net refT fun i => (solve net).getD i 0) {L : Nat → K} (hL : CellSlopes ip m L) (T0 : List K)
    (h0 : T0.length = m.total) :
    ∃ net, m.build minR ip T0 = .ok (some net) ∧ net.length = m.total ∧
      Fed (m.build minR ip) solve net refT (fun T i => cellPower ip m (T.getD i 0) i) ∧
      Slopes net.length (fun T i => cellPower ip m (T.getD i 0) i) L := by
  obtain ⟨net, hb, hlen, hg, hall⟩ := grid_fed hs hp hc hno hm T0 h0
  refine ⟨net, hb, hlen, ⟨hg, hall, hsize, ?_⟩, ?_⟩
  · intro net' hsame
    exact hsolve net' (grounded_same hsame hg)
  · intro T T' hT hT' d hd i hi
    obtain ⟨l0, l1⟩ := hL i (by rw [← hlen]; exact hi)
    exact (l1 _ _).trans (mul_le_mul_of_nonneg_left (hd i hi) l0)

/-- C129, grid models, static solver: if the slopes of the cells, taken as heat flows, would heat no cell by more than `q < 1` degrees, the static solver
of a grid model returns temperatures no farther than `q ^ n` times the distance at the start from those that solve their own network. -/
theorem c129_grid_static {ip : List (K × K) → K → Res K} {m : GModel K} (hs : m.Sound ip) (hp : m.Physical) (hc : m.Cooled)
    (hno : m.blockTotals = []) {minR : K} (hm : 0 < minR) {envT : K} {solve : Network K → List K} (hsize : ∀ net, (solve net).length = net.length)
    (hsolve : ∀ net, Grounded net → Solves net envT fun i => (solve net).getD i 0) {L : Nat → K} (hL : CellSlopes ip m L) {net : Network K}
    (hnet : m.build minR ip (List.replicate m.total envT) = .ok (some net)) {y : Nat → K} (hy : Solves (withHF net L) 0 y) {q : K} (hq0 : 0 ≤ q)
    (hq : ∀ i < m.total, y i ≤ q) (h1 : q < 1) {S : List K} (hS : Consistent (m.build minR ip) solve m.total S) (limit : K) (maximum : Bool)
    (iteration fuel : Nat) (hi : 1 ≤ iteration) (hf : iteration ≤ fuel) :
    ∃ (n : Nat) (R : List K), 1 ≤ n ∧ n ≤ iteration ∧
      solveStatic (m.build minR ip) solve m.total envT limit maximum iteration false fuel = some (.ok (some R)) ∧
      (∀ d, Near m.total d (List.replicate m.total envT) S → Near m.total (q ^ n * d) R S) ∧
      (n < iteration → Near m.total (q / (1 - q) * (slack maximum m.total * limit)) R S) := by
  obtain ⟨net', b1, b2, b3, b4⟩ := c129_grid hs hp hc hno hm hsize hsolve hL (List.replicate m.total envT) (by simp)
  rw [hnet] at b1
  injection b1 with b1
  injection b1 with b1
  subst b1
  have := c129_converges b3 b4 hy hq0 (by rw [b2]; exact hq) h1 (by rw [b2]; exact hS) envT limit maximum iteration fuel hi hf
  rw [b2] at this
  obtain ⟨n, R, a1, a2, a3, a4, a5, _⟩ := this
  exact ⟨n, R, a1, a2, a3, a4, a5⟩

/-! ## example -/

/-- one cell of 1 m cooled on top with 2 W/K, heated with 3 W at 300 K and 4 W at 302 K -/
def exGrid : GModel ℚ :=
  { size := ⟨1, 1⟩, resX := 1, resY := 1, scaleH := 1,
    layers := [⟨1, fun _ _ => 1, [.grid ⟨⟨1, 1⟩, [(300, ⟨1, 1, fun _ _ => 3⟩), (302, ⟨1, 1, fun _ _ => 4⟩)]⟩]⟩],
    jumps := [], topBC := some ⟨.htc, some 2⟩, botBC := none, topBlocks := [], botBlocks := [] }

/-- the line through these two points -/
def exLine : List (ℚ × ℚ) → ℚ → Res ℚ := fun _ t => .ok (3 + (t - 300) / 2)

theorem exPow (t : ℚ) : cellPower exLine exGrid t 0 = if t ≤ 300 then 3 else if 302 ≤ t then 4 else 3 + (t - 300) / 2 := by
  have e : cellOf exGrid.size 0 = ⟨0, 0, 0⟩ := by decide
  have q : query exLine ⟨⟨1, 1⟩, [(300, ⟨1, 1, fun _ _ => 3⟩), (302, ⟨1, 1, fun _ _ => 4⟩)]⟩ t 0 0 =
      .ok (some (if t ≤ 300 then 3 else if 302 ≤ t then 4 else 3 + (t - 300) / 2)) := by
    unfold query
    rw [if_neg (by decide)]
    simp only [List.getLast_singleton]
    by_cases h1 : t ≤ 300
    · rw [if_pos h1, if_pos h1]
    · rw [if_neg h1, if_neg h1]
      by_cases h2 : 302 ≤ t
      · rw [if_pos h2]
        exact if_pos h2
      · rw [if_neg h2]
        exact if_neg h2
  unfold cellPower
  rw [e]
  have s : exGrid.sources exLine t ⟨0, 0, 0⟩ = Power.inCell exLine t ⟨0, 0, 0⟩ (.grid ⟨⟨1, 1⟩, [(300, ⟨1, 1, fun _ _ => 3⟩), (302, ⟨1, 1, fun _ _ => 4⟩)]⟩) := by
    simp [GModel.sources, exGrid, GModel.bcsAt, BC.flux]
  rw [s, Power.inCell]
  simp only [q]
  rfl

/-- the hypotheses, with the slope of half a watt per degree: as a heat flow it heats the cell by a quarter of a degree -/
example : exGrid.Sound exLine ∧ exGrid.Physical ∧ exGrid.Cooled ∧ exGrid.blockTotals = [] ∧ CellSlopes exLine exGrid fun _ => 1 / 2 := by
  refine ⟨⟨by unfold Fits; decide, by decide, ?_, by simp [exGrid], ?_, ?_⟩, ⟨by norm_num [exGrid], by norm_num [exGrid], by norm_num [exGrid], ?_, ?_⟩,
    ⟨?_, .inl ⟨_, rfl, rfl, by simp⟩⟩, rfl, ?_⟩
  · constructor <;> intro b hb <;> simp [exGrid] at hb
  · intro l hl ll ur total h
    simp only [exGrid, List.mem_singleton] at hl
    subst hl
    simp at h
  · intro l hl t h key x y
    simp only [exGrid, List.mem_singleton] at hl
    subst hl
    simp at h
    subst h
    unfold query
    split_ifs
    · exact ⟨_, rfl⟩
    · simp only
      split_ifs
      · exact ⟨_, rfl⟩
      · exact ⟨_, rfl⟩
      · exact ⟨_, rfl⟩
  · intro l hl
    simp only [exGrid, List.mem_singleton] at hl
    subst hl
    norm_num
  · intro l hl x y
    simp only [exGrid, List.mem_singleton] at hl
    subst hl
    norm_num
  · intro b hb _ v hv
    simp [GModel.allBCs, exGrid] at hb
    subst hb
    simp at hv
    subst hv
    norm_num
  · intro i hi
    obtain rfl : i = 0 := by simpa [GModel.total, exGrid] using hi
    refine ⟨by norm_num, fun t t' => ?_⟩
    rw [exPow, exPow]
    have key : ∀ a b : ℚ, a ≤ b → |(if a ≤ 300 then (3 : ℚ) else if 302 ≤ a then 4 else 3 + (a - 300) / 2) -
        (if b ≤ 300 then 3 else if 302 ≤ b then 4 else 3 + (b - 300) / 2)| ≤ 1 / 2 * |a - b| := by
      intro a b hab
      rw [abs_of_nonpos (sub_nonpos.2 hab), abs_le]
      split_ifs <;> constructor <;> linarith
    rcases le_total t t' with h | h
    · exact key t t' h
    · rw [abs_sub_comm, abs_sub_comm t]
      exact key t' t h

end Ecad.Converge
