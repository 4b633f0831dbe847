import Verif.Thermal.ConvergePrismProps
import Verif.Thermal.StackPrismNetProps
/-!
C129 for stackup prism models: with conductivities that do not depend on the temperature the networks built for different temperatures differ only in
heat flows and capacities.
-/
namespace Ecad.Converge
open Ecad.Thermal Ecad.Response Ecad.Static Ecad.GridT Ecad.PrismT

variable {K : Type} [Field K] [LinearOrder K]

/-! ## specification -/

/-- the conductivities do not depend on the temperature -/
def FixedKS (m : SModel K) : Prop := ∀ mat t t', m.k mat t = m.k mat t'

/-- the heat flow into an element at its temperature: what the last of power, top and bottom asks for in a prism, or the joule heat of a segment of a
bond wire -/
def stackPower (m : SModel K) (t : K) (i : Nat) : K :=
  match m.prisms[i]? with
  | some p => ((p.base.elem.cell.power.toList.map fun w => w.2.2 t * w.1) ++ m.topAsked .heatFlux i p ++ m.botAsked .heatFlux i p).getLastD 0
  | none =>
    match m.lines[i - m.prisms.length]? with
    | some l => max 0 (l.current ^ 2 * (m.resist l.mat t * l.length / l.area))
    | none => 0

/-- the heat flow into an element changes by at most `L` per degree -/
def StackSlopes (m : SModel K) (L : Nat → K) : Prop :=
  ∀ i < m.total, 0 ≤ L i ∧ ∀ t t' : K, |stackPower m t i - stackPower m t' i| ≤ L i * |t - t'|

/-! ## the heat flow of a segment -/

theorem stack_line_made {minR : K} {m : SModel K} {g : Tris K} {meshes : List Mesh} {info : Nat → Nat → Option (Cell K)} {wires : List (PrismT.Wire K)}
    (hx : FromMeshes m g meshes info wires) {iniT : List K} {net : Network K} (hb : m.build minR iniT = .ok (some net))
    {n : Nat} {l : Line K} {t : K} (hl : m.lines[n]? = some l) (ht : iniT[l.id]? = some t) :
    hfOf net l.id = max 0 (l.current ^ 2 * (m.resist l.mat t * l.length / l.area)) := by
  have hjoule : max 0 (m.wires.joule l t) = max 0 (l.current ^ 2 * (m.resist l.mat t * l.length / l.area)) := by
    unfold PModel.joule
    split
    · rename_i h0
      rw [h0]
      simp
    · simp only [SModel.wires]
      congr 1
      try ring
  rw [← hjoule]
  obtain ⟨hlen, hst, hlines⟩ := fromMeshes_facts hx
  have hid := hlines.id n l hl
  have hv := run_values (stack_run hb).2
  rw [hv.1 l.id, hfOf_new, SModel.ops, stacked_blocks hst, List.append_nil, List.foldl_append, foldl_id _ (m.rangeOps _ _)]
  swap
  · intro o ho b
    unfold SModel.rangeOps at ho
    rw [List.mem_flatMap] at ho
    obtain ⟨j, hj, ho⟩ := ho
    rw [List.mem_range'_1] at hj
    apply hfAt_writes
    rcases (stack_writes ho).2 with rfl | hw
    · simp [Op.writes]
    · rw [hw]
      intro he
      simp only [Option.some.injEq] at he
      omega
  have hsplit : m.lines = m.lines.take n ++ l :: m.lines.drop (n + 1) := by
    have hlt := (List.getElem?_eq_some_iff.1 hl).1
    have hge := (List.getElem?_eq_some_iff.1 hl).2
    rw [← hge, List.getElem_cons_drop, List.take_append_drop]
  have hother : ∀ ls : List (Line K), (∀ l' ∈ ls, l'.id ≠ l.id) → ∀ b,
      (ls.flatMap (m.wires.lineOps iniT)).foldl (fun b o => Op.hfAt l.id o b) b = b := by
    intro ls hls b
    apply foldl_id
    intro o ho b
    rw [List.mem_flatMap] at ho
    obtain ⟨l', hl', ho⟩ := ho
    exact (lines_quiet ho l.id b).1 (hls l' hl')
  rw [hsplit, List.flatMap_append, List.flatMap_cons, List.foldl_append, List.foldl_append, hother, hother]
  · unfold PModel.lineOps
    rw [ht]
    simp only [List.foldl_append]
    have hq : ∀ ns : List Nat, ∀ b, (ns.flatMap (m.wires.lineR l t)).foldl (fun b o => Op.hfAt l.id o b) b = b := by
      intro ns b
      apply foldl_id
      intro o ho b
      rw [List.mem_flatMap] at ho
      obtain ⟨nb, _, ho⟩ := ho
      rcases mem_lineR ho with rfl | ⟨_, v, rfl⟩ | ⟨_, _, v, rfl⟩ <;> rfl
    rw [hq, hq]
    split_ifs with hj
    · simp [Op.hfAt, max_eq_right hj.le]
    · simp only [List.foldl_cons, List.foldl_nil, Op.hfAt]
      rw [max_eq_left (not_lt.1 hj)]
  · intro l' hl' he
    obtain ⟨k, hk⟩ := List.mem_iff_getElem?.1 hl'
    have hkn : k < n := by
      have := (List.getElem?_eq_some_iff.1 hk).1
      simp at this; omega
    rw [List.getElem?_take_of_lt hkn] at hk
    have := hlines.id _ l' hk
    omega
  · intro l' hl' he
    obtain ⟨k, hk⟩ := List.mem_iff_getElem?.1 hl'
    rw [List.getElem?_drop] at hk
    have := hlines.id _ l' hk
    omega

/-! ## the calls of the builder -/

omit [LinearOrder K] in
theorem slink_fixed {m : SModel K} {T T' : List K} (hl : T.length = T'.length) (i : Nat) (n : Option Nat) {r r' : SPrism K → K → K}
    (h : ∀ q u u', r q u = r' q u') : m.link T i n r = m.link T' i n r' := by
  unfold SModel.link
  cases n with
  | none => rfl
  | some n =>
    dsimp only
    split
    · cases hp : m.prisms[n]? with
      | none => rfl
      | some q =>
        by_cases hn : n < T.length
        · rw [List.getElem?_eq_getElem hn, List.getElem?_eq_getElem (by omega : n < T'.length)]
          simp only
          rw [h q _ _]
        · rw [List.getElem?_eq_none (by omega : T.length ≤ n), List.getElem?_eq_none (by omega : T'.length ≤ n)]
    · rfl

omit [LinearOrder K] in
theorem ssideR_fixed {m : SModel K} (hk : FixedKS m) (p q : SPrism K) (e : Fin 3) (t t' u u' : K) : m.sideR p q e t u = m.sideR p q e t' u' := by
  unfold SModel.sideR
  rw [hk p.base.elem.cell.mat t t', hk q.base.elem.cell.mat u u']

omit [LinearOrder K] in
theorem contact_fixed {m : SModel K} (hk : FixedKS m) {T T' : List K} (hl : T.length = T'.length) (i : Nat) (p : SPrism K) (t t' : K) :
    m.contactOp T i p t = m.contactOp T' i p t' := by
  funext c
  unfold SModel.contactOp
  split
  · rfl
  · cases hp : m.prisms[c.1]? with
    | none => rfl
    | some q =>
      by_cases hn : c.1 < T.length
      · rw [List.getElem?_eq_getElem hn, List.getElem?_eq_getElem (by omega : c.1 < T'.length)]
        simp only [SModel.contactR]
        rw [hk p.base.elem.cell.mat t t', hk q.base.elem.cell.mat _ T'[c.1]]
      · rw [List.getElem?_eq_none (by omega : T.length ≤ c.1), List.getElem?_eq_none (by omega : T'.length ≤ c.1)]

theorem contacts_fixed {m : SModel K} (hk : FixedKS m) {T T' : List K} (hl : T.length = T'.length) (i : Nat) (p : SPrism K) (t t' : K)
    (bc : Option (BC K)) (cs : List (Nat × K)) : m.contactsOps T i p t bc cs = m.contactsOps T' i p t' bc cs := by
  unfold SModel.contactsOps
  rw [contact_fixed hk hl i p t t']

theorem selem_loud {m : SModel K} (hk : FixedKS m) {T T' : List K} (hl : T.length = T'.length) (i : Nat) :
    (m.elemOps T i).filter loud = (m.elemOps T' i).filter loud := by
  unfold SModel.elemOps
  cases hp : m.prisms[i]? with
  | none => rfl
  | some p =>
    by_cases hi : i < T.length
    · rw [List.getElem?_eq_getElem hi, List.getElem?_eq_getElem (by omega : i < T'.length)]
      simp only [List.filter_append, SModel.restOps]
      have hpow : ∀ t, (powerOps i p.base t).filter loud = [] := by
        intro t
        unfold powerOps
        cases p.base.elem.cell.power with
        | none => rfl
        | some w => rfl
      have htop : m.topOps T i p T[i] = m.topOps T' i p T'[i] := by
        unfold SModel.topOps
        rw [contacts_fixed hk hl i p T[i] T'[i]]
      have hbot : m.botOps T i p T[i] = m.botOps T' i p T'[i] := by
        unfold SModel.botOps
        rw [contacts_fixed hk hl i p T[i] T'[i]]
      rw [hpow, hpow, htop, hbot]
      rw [slink_fixed hl i (p.base.edge 0) (r' := fun q tq => m.sideR p q 0 T'[i] tq) fun q u u' => ssideR_fixed hk _ _ _ _ _ _ _,
        slink_fixed hl i (p.base.edge 1) (r' := fun q tq => m.sideR p q 1 T'[i] tq) fun q u u' => ssideR_fixed hk _ _ _ _ _ _ _,
        slink_fixed hl i (p.base.edge 2) (r' := fun q tq => m.sideR p q 2 T'[i] tq) fun q u u' => ssideR_fixed hk _ _ _ _ _ _ _]
      rfl
    · rw [List.getElem?_eq_none (by omega : T.length ≤ i), List.getElem?_eq_none (by omega : T'.length ≤ i)]

theorem sops_loud {m : SModel K} (hk : FixedKS m) {T T' : List K} (hl : T.length = T'.length) : (m.ops T).filter loud = (m.ops T').filter loud := by
  unfold SModel.ops SModel.rangeOps
  have hk' : FixedK m.wires := hk
  rw [List.filter_append, List.filter_append, List.filter_append, List.filter_append, filter_flatMap fun i _ => selem_loud hk hl i,
    filter_flatMap fun l _ => line_loud hk' hl l]

/-- the networks built for two vectors of temperatures -/
theorem stack_same {minR : K} {m : SModel K} (hk : FixedKS m) {T T' : List K} {a b : Network K} (ha : m.build minR T = .ok (some a))
    (hb : m.build minR T' = .ok (some b)) : Same a b := by
  obtain ⟨l1, r1⟩ := stack_run ha
  obtain ⟨l2, r2⟩ := stack_run hb
  exact run_loud (sops_loud hk (by rw [l1, l2])) rfl r1 r2

variable [IsStrictOrderedRing K]

/-- the network of a cooled stackup prism model with fixed conductivities, and the heat flows of the networks built for other temperatures -/
theorem stack_fed {m : SModel K} {g : Tris K} {s : K} {meshes : List Mesh} {info : Nat → Nat → Option (Cell K)} {wires : List (PrismT.Wire K)}
    (hx : FromMeshes m g meshes info wires) (hg : g.Geometry m s) (hmut : ∀ mesh ∈ meshes, Mutual mesh) (hc : m.Cooled) (hk : FixedKS m) {minR : K}
    (hm : 0 < minR) (T0 : List K)
    (h0 : T0.length = m.total) :
    ∃ net, m.build minR T0 = .ok (some net) ∧ net.length = m.total ∧ Grounded net ∧
      ∀ T : List K, T.length = net.length → ∃ net', m.build minR T = .ok (some net') ∧ Same net net' ∧ ∀ i < net.length, hfOf net' i = stackPower m (T.getD i 0) i := by
  obtain ⟨net, hb, hgr, _⟩ := c78_solvable hx hg hmut hc hm h0 0
  obtain ⟨hlen', _, hlines⟩ := fromMeshes_facts hx
  have hlen : net.length = m.total := by
    obtain ⟨net', b1, b2⟩ := c78_builds hx minR h0
    rw [hb] at b1
    injection b1 with b1
    injection b1 with b1
    rw [b1]
    exact b2
  refine ⟨net, hb, hlen, hgr, ?_⟩
  · intro T hT
    rw [hlen] at hT
    obtain ⟨net', hb', _⟩ := c78_builds hx minR hT
    refine ⟨net', hb', stack_same hk hb hb', fun i hi => ?_⟩
    rw [hlen] at hi
    have ht : T[i]? = some (T.getD i 0) := by
      rw [List.getD_eq_getElem?_getD, List.getElem?_eq_getElem (by rw [hT]; exact hi)]
      rfl
    unfold stackPower
    cases hp : m.prisms[i]? with
    | some p => exact (stack_last hx hb' hp ht).1
    | none =>
      have hge : m.prisms.length ≤ i := by
        by_contra hcon
        rw [List.getElem?_eq_getElem (by omega)] at hp
        simp at hp
      have hlt : i - m.prisms.length < m.lines.length := by
        unfold SModel.total at hi
        omega
      have hline := List.getElem?_eq_getElem hlt
      rw [hline]
      simp only
      have hid := hlines.id _ _ hline
      have he : (m.lines[i - m.prisms.length]'hlt).id = i := by omega
      have := stack_line_made hx hb' (t := T.getD i 0) hline (by rw [he]; exact ht)
      rw [he] at this
      exact this

/-- C129, stackup prism models: a cooled stackup prism model made from meshes whose conductivities do not depend on the temperature is, for every linear
solver that solves, a model of fixed resistances and transfer coefficients whose heat flows depend on the temperatures, with the slopes of its elements. -/
theorem c129_stack {m : SModel K} {g : Tris K} {s : K} {meshes : List Mesh} {info : Nat → Nat → Option (Cell K)} {wires : List (PrismT.Wire K)}
    (hx : FromMeshes m g meshes info wires) (hg : g.Geometry m s) (hmut : ∀ mesh ∈ meshes, Mutual mesh) (hc : m.Cooled) (hk : FixedKS m) {minR : K}
    (hm : 0 < minR) {refT : K} {solve : Network K → List K} (hsize : ∀ net, (solve net).length = net.length)
    (hsolve : ∀ net, Grounded net → Solves net refT fun i => (solve net).getD i 0) {L : Nat → K} (hL : StackSlopes m L) (T0 : List K)
    (h0 : T0.length = m.total) :
    ∃ net, m.build minR T0 = .ok (some net) ∧ net.length = m.total ∧
      Fed (m.build minR) solve net refT (fun T i => stackPower m (T.getD i 0) i) ∧
      Slopes net.length (fun T i => stackPower m (T.getD i 0) i) L := by
  obtain ⟨net, hb, hlen, hgr, hall⟩ := stack_fed hx hg hmut hc hk hm T0 h0
  refine ⟨net, hb, hlen, ⟨hgr, hall, hsize, ?_⟩, ?_⟩
  · intro net' hsame
    exact hsolve net' (grounded_same hsame hgr)
  · intro T T' hT hT' d hd i hi
    obtain ⟨l0, l1⟩ := hL i (by rw [← hlen]; exact hi)
    exact (l1 _ _).trans (mul_le_mul_of_nonneg_left (hd i hi) l0)

/-- C129, stackup prism models, static solver: if the slopes of the elements, taken as heat flows, would heat no element by more than `q < 1` degrees,
the static solver returns temperatures no farther than `q ^ n` times the distance at the start from those that solve their own network. -/
theorem c129_stack_static {m : SModel K} {g : Tris K} {s : K} {meshes : List Mesh} {info : Nat → Nat → Option (Cell K)} {wires : List (PrismT.Wire K)}
    (hx : FromMeshes m g meshes info wires) (hg : g.Geometry m s) (hmut : ∀ mesh ∈ meshes, Mutual mesh) (hc : m.Cooled) (hk : FixedKS m) {minR : K}
    (hm : 0 < minR) {envT : K} {solve : Network K → List K} (hsize : ∀ net, (solve net).length = net.length)
    (hsolve : ∀ net, Grounded net → Solves net envT fun i => (solve net).getD i 0) {L : Nat → K} (hL : StackSlopes m L) {net : Network K}
    (hnet : m.build minR (List.replicate m.total envT) = .ok (some net)) {y : Nat → K} (hy : Solves (withHF net L) 0 y) {q : K} (hq0 : 0 ≤ q)
    (hq : ∀ i < m.total, y i ≤ q) (h1 : q < 1) {S : List K} (hS : Consistent (m.build minR) solve m.total S) (limit : K) (maximum : Bool)
    (iteration fuel : Nat) (hi : 1 ≤ iteration) (hf : iteration ≤ fuel) :
    ∃ (n : Nat) (R : List K), 1 ≤ n ∧ n ≤ iteration ∧
      solveStatic (m.build minR) solve m.total envT limit maximum iteration false fuel = some (.ok (some R)) ∧
      (∀ d, Near m.total d (List.replicate m.total envT) S → Near m.total (q ^ n * d) R S) ∧
      (n < iteration → Near m.total (q / (1 - q) * (slack maximum m.total * limit)) R S) := by
  obtain ⟨net', b1, b2, b3, b4⟩ := c129_stack hx hg hmut hc hk hm hsize hsolve hL (List.replicate m.total envT) (by simp)
  rw [hnet] at b1
  injection b1 with b1
  injection b1 with b1
  subst b1
  have := c129_converges b3 b4 hy hq0 (by rw [b2]; exact hq) h1 (by rw [b2]; exact hS) envT limit maximum iteration fuel hi hf
  rw [b2] at this
  obtain ⟨n, R, a1, a2, a3, a4, a5, _⟩ := this
  exact ⟨n, R, a1, a2, a3, a4, a5⟩

/-- the hypotheses: two layers with meshes of their own and a bond wire (`exStack`) -/
example : FromMeshes exStack exTris [exMesh, exMesh] exInfoS [exWire] ∧ exTris.Geometry exStack (1 / 2) ∧ (∀ mesh ∈ [exMesh, exMesh], Mutual mesh) ∧
    exStack.Cooled ∧ FixedKS exStack ∧ StackSlopes exStack fun _ => 0 := by
  refine ⟨exStack_from, exStack_geometry, ?_, exStack_cooled, fun mat t t' => rfl, fun i hi => ⟨le_refl _, fun t t' => ?_⟩⟩
  · intro mesh h
    simp at h
    subst h
    exact exMesh_mutual
  · have : stackPower exStack t i = stackPower exStack t' i := by
      have hi' : i < 5 := by
        have : exStack.total = 5 := by decide +kernel
        omega
      match i, hi' with
      | 0, _ => rfl
      | 1, _ => rfl
      | 2, _ => rfl
      | 3, _ => rfl
      | 4, _ => rfl
    rw [this]
    simp

end Ecad.Converge
